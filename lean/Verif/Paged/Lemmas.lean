import Verif.Paged.Spec
set_option linter.unusedSimpArgs false
set_option linter.unusedVariables false
namespace CUtil.Paged
open CUtil Spec

/-! ### The bitmap -/

/-- Bit `j` of a bitmap. -/
def bit (bm : List Nat) (j : Nat) : Bool := (bm[j / 8]?.getD 0).testBit (j % 8)

theorem and_bit (b m : Nat) : (b &&& (1 <<< m) != 0) = b.testBit m := by
  rw [Nat.one_shiftLeft]
  cases h : b.testBit m with
  | true =>
    rw [bne_iff_ne]
    intro h0
    have := Nat.testBit_and b (2 ^ m) m
    rw [h0, h, Nat.testBit_two_pow_self] at this
    simp at this
  | false =>
    rw [bne_eq_false_iff_eq]
    apply Nat.eq_of_testBit_eq
    intro i
    rw [Nat.testBit_and, Nat.zero_testBit, Nat.testBit_two_pow]
    by_cases hi : m = i
    · subst hi; rw [h]; rfl
    · simp [hi]

theorem isAllocated_eq {bm : List Nat} {j : Nat} (h : j / 8 < bm.length) : isAllocated bm j = C.ok (bit bm j) := by
  unfold isAllocated bit
  rw [rd_lt bm _ h, C.ok_bind, and_bit, List.getElem?_eq_getElem h]; rfl

theorem eq_of_div_mod {j k : Nat} (h1 : j / 8 = k / 8) (h2 : j % 8 = k % 8) : j = k := by omega

theorem setAllocated_eq {bm : List Nat} {j : Nat} (h : j / 8 < bm.length) :
    ∃ bm', setAllocated bm j = C.ok bm' ∧ bm'.length = bm.length ∧ ∀ k, bit bm' k = (k == j || bit bm k) := by
  unfold setAllocated
  rw [rd_lt bm _ h, C.ok_bind]
  refine ⟨_, rfl, by simp, ?_⟩
  intro k
  unfold bit
  by_cases hk : k / 8 = j / 8
  · rw [hk, List.getElem?_set_self h, List.getElem?_eq_getElem h]
    simp only [Option.getD_some]
    rw [Nat.testBit_or, Nat.one_shiftLeft, Nat.testBit_two_pow]
    by_cases hk' : k % 8 = j % 8
    · have := eq_of_div_mod hk hk'
      subst this; simp
    · have : k ≠ j := by rintro rfl; exact hk' rfl
      rw [beq_eq_false_iff_ne.2 this, decide_eq_false (Ne.symm hk')]; simp
  · rw [List.getElem?_set_ne (Ne.symm hk)]
    have : k ≠ j := by rintro rfl; exact hk rfl
    rw [beq_eq_false_iff_ne.2 this]; simp

theorem testBit_255 {m k : Nat} (hm : m < 8) (hk : k < 8) : (255 ^^^ 1 <<< m).testBit k = (k != m) := by
  have : ∀ m, m < 8 → ∀ k, k < 8 → (255 ^^^ 1 <<< m).testBit k = (k != m) := by decide +kernel
  exact this m hm k hk

theorem clearAllocated_eq {bm : List Nat} {j : Nat} (h : j / 8 < bm.length) :
    ∃ bm', clearAllocated bm j = C.ok bm' ∧ bm'.length = bm.length ∧ ∀ k, bit bm' k = (k != j && bit bm k) := by
  unfold clearAllocated
  rw [rd_lt bm _ h, C.ok_bind]
  refine ⟨_, rfl, by simp, ?_⟩
  intro k
  unfold bit
  by_cases hk : k / 8 = j / 8
  · rw [hk, List.getElem?_set_self h, List.getElem?_eq_getElem h]
    simp only [Option.getD_some]
    rw [Nat.testBit_and, testBit_255 (Nat.mod_lt _ (by omega)) (Nat.mod_lt _ (by omega))]
    by_cases hk' : k % 8 = j % 8
    · have := eq_of_div_mod hk hk'
      subst this; simp
    · have : k ≠ j := by rintro rfl; exact hk' rfl
      rw [bne_iff_ne.2 this, bne_iff_ne.2 hk']; simp
  · rw [List.getElem?_set_ne (Ne.symm hk)]
    have : k ≠ j := by rintro rfl; exact hk rfl
    rw [bne_iff_ne.2 this]; simp

theorem bit_zeros (n j : Nat) : bit (List.replicate n 0) j = false := by
  unfold bit
  rw [List.getElem?_replicate]
  split <;> simp

/-! ### Counting -/

/-- How many of the first `n` numbers satisfy `p`. -/
def cnt (n : Nat) (p : Nat → Bool) : Nat := (List.range n).countP p

theorem cnt_succ (n : Nat) (p : Nat → Bool) : cnt (n + 1) p = cnt n p + (if p n then 1 else 0) := by
  unfold cnt
  rw [List.range_succ, List.countP_append, List.countP_singleton]

theorem cnt_congr {n : Nat} {p q : Nat → Bool} (h : ∀ k, k < n → p k = q k) : cnt n p = cnt n q := by
  induction n with
  | zero => rfl
  | succ n ih => rw [cnt_succ, cnt_succ, ih (fun k hk => h k (by omega)), h n (by omega)]

theorem cnt_set {n j : Nat} {p q : Nat → Bool} (hj : j < n) (hp : p j = false) (hq : q j = true) (h : ∀ k, k ≠ j → q k = p k) :
    cnt n q = cnt n p + 1 := by
  induction n with
  | zero => omega
  | succ n ih =>
    rw [cnt_succ, cnt_succ]
    by_cases hjn : j = n
    · subst hjn
      rw [hp, hq, cnt_congr (fun k hk => h k (by omega))]; simp
    · rw [ih (by omega), h n (by omega)]; omega

theorem cnt_pos {n : Nat} {p : Nat → Bool} : 0 < cnt n p ↔ ∃ k, k < n ∧ p k = true := by
  unfold cnt
  rw [List.countP_pos_iff]
  simp

theorem cnt_le (n : Nat) (p : Nat → Bool) : cnt n p ≤ n := by
  have := List.countP_le_length (p := p) (l := List.range n)
  rw [List.length_range] at this
  exact this

/-! ### Pages -/

/-- The page `pg` of `psz` items holds `g`. -/
structure PageOk {α : Type} (psz : Nat) (pg : Page α) (g : Nat → Option (Option α)) : Prop where
  items : pg.items.length = psz
  bitmap : pg.bitmap.length = (psz + 7) / 8
  count : pg.count = cnt psz (bit pg.bitmap)
  slot : ∀ j, j < psz → (bit pg.bitmap j = true ∧ ∃ c, pg.items[j]? = some c ∧ g j = some c) ∨ (bit pg.bitmap j = false ∧ g j = none)

theorem PageOk.congr {α : Type} {psz : Nat} {pg : Page α} {g g' : Nat → Option (Option α)} (h : PageOk psz pg g)
    (hg : ∀ j, j < psz → g' j = g j) : PageOk psz pg g' := by
  refine ⟨h.items, h.bitmap, h.count, ?_⟩
  intro j hj
  rw [hg j hj]
  exact h.slot j hj

theorem pageOk_new {α : Type} (psz : Nat) : PageOk (α := α) psz ⟨0, uninit psz, List.replicate ((psz + 7) / 8) 0⟩ (fun _ => none) := by
  refine ⟨by simp, by simp, ?_, fun j _ => Or.inr ⟨bit_zeros _ _, rfl⟩⟩
  dsimp only
  have : ¬ 0 < cnt psz (bit (List.replicate ((psz + 7) / 8) 0)) := by
    rw [cnt_pos]
    rintro ⟨k, _, h⟩
    rw [bit_zeros] at h; cases h
  omega

theorem PageOk.inBitmap {α : Type} {psz : Nat} {pg : Page α} {g : Nat → Option (Option α)} (h : PageOk psz pg g) {j : Nat} (hj : j < psz) :
    j / 8 < pg.bitmap.length := by
  rw [h.bitmap]; omega

theorem PageOk.nonempty {α : Type} {psz : Nat} {pg : Page α} {g : Nat → Option (Option α)} (h : PageOk psz pg g) :
    0 < pg.count ↔ ∃ j, j < psz ∧ g j ≠ none := by
  rw [h.count, cnt_pos]
  constructor
  · rintro ⟨k, hk, hb⟩
    rcases h.slot k hk with ⟨_, c, _, e⟩ | ⟨e, _⟩
    · exact ⟨k, hk, by rw [e]; simp⟩
    · rw [hb] at e; cases e
  · rintro ⟨k, hk, hb⟩
    rcases h.slot k hk with ⟨e, _⟩ | ⟨_, e⟩
    · exact ⟨k, hk, e⟩
    · exact absurd e hb

theorem PageOk.set {α : Type} {psz : Nat} {pg : Page α} {g : Nat → Option (Option α)} (h : PageOk psz pg g) (hpsz : psz < w64) {j : Nat}
    (hj : j < psz) (hg : g j = none) {bm : List Nat} (hl : bm.length = pg.bitmap.length) (hb : ∀ k, bit bm k = (k == j || bit pg.bitmap k)) :
    ∃ c, PageOk psz { pg with bitmap := bm, count := (pg.count + 1) % w64 } (fun k => if k = j then some c else g k) ∧
      0 < (pg.count + 1) % w64 := by
  have hbj : bit pg.bitmap j = false := by
    rcases h.slot j hj with ⟨_, c, _, e⟩ | ⟨e, _⟩
    · rw [hg] at e; cases e
    · exact e
  have hcnt : cnt psz (bit bm) = cnt psz (bit pg.bitmap) + 1 := by
    apply cnt_set hj hbj
    · rw [hb]; simp
    · intro k hk; rw [hb, beq_eq_false_iff_ne.2 hk]; simp
  have hle := cnt_le psz (bit bm)
  have hmod : (pg.count + 1) % w64 = pg.count + 1 := Nat.mod_eq_of_lt (by rw [h.count]; omega)
  have hji : j < pg.items.length := by rw [h.items]; exact hj
  refine ⟨pg.items[j], ⟨h.items, by dsimp only; rw [hl, h.bitmap], ?_, ?_⟩, by rw [hmod]; omega⟩
  · dsimp only; rw [hmod, hcnt, h.count]
  · intro k hk
    dsimp only
    by_cases hkj : k = j
    · subst hkj
      refine Or.inl ⟨by rw [hb]; simp, pg.items[k], List.getElem?_eq_getElem hji, by rw [if_pos rfl]⟩
    · rw [hb, beq_eq_false_iff_ne.2 hkj, if_neg hkj, Bool.false_or]
      exact h.slot k hk

theorem PageOk.clear {α : Type} {psz : Nat} {pg : Page α} {g : Nat → Option (Option α)} (h : PageOk psz pg g) (hpsz : psz < w64) {j : Nat}
    (hj : j < psz) (hg : g j ≠ none) {bm : List Nat} (hl : bm.length = pg.bitmap.length) (hb : ∀ k, bit bm k = (k != j && bit pg.bitmap k)) :
    PageOk psz { pg with bitmap := bm, count := (pg.count + w64 - 1) % w64 } (fun k => if k = j then none else g k) := by
  have hbj : bit pg.bitmap j = true := by
    rcases h.slot j hj with ⟨e, _⟩ | ⟨_, e⟩
    · exact e
    · exact absurd e hg
  have hcnt : cnt psz (bit pg.bitmap) = cnt psz (bit bm) + 1 := by
    apply cnt_set hj _ hbj
    · intro k hk; rw [hb, bne_iff_ne.2 hk]; simp
    · rw [hb]; simp
  have hle := cnt_le psz (bit pg.bitmap)
  have hmod : (pg.count + w64 - 1) % w64 = pg.count - 1 := by
    have h1 : pg.count + w64 - 1 = (pg.count - 1) + w64 := by rw [h.count]; omega
    rw [h1, Nat.add_mod_right, Nat.mod_eq_of_lt (by rw [h.count]; omega)]
  refine ⟨h.items, by dsimp only; rw [hl, h.bitmap], ?_, ?_⟩
  · dsimp only; rw [hmod, h.count]; omega
  · intro k hk
    dsimp only
    by_cases hkj : k = j
    · subst hkj
      exact Or.inr ⟨by rw [hb]; simp, by rw [if_pos rfl]⟩
    · rw [hb, bne_iff_ne.2 hkj, if_neg hkj, Bool.true_and]
      exact h.slot k hk

/-! ### Representation -/

/-- The array `t` on heap `h` holds `f`; `others` are the pages that are not the array's. -/
structure Rep {α : Type} (h : Heap α) (t : Arr) (f : Slots α) (others : Nat → Option (Page α)) : Prop where
  psz : 0 < t.pageSize
  psz64 : t.pageSize < w64
  pages : t.pages.length = t.pageCount
  enough : t.maxSize ≤ t.pageCount * t.pageSize
  out : ∀ k, t.maxSize ≤ k → f k = none
  fresh : ∀ q, h.next ≤ q → h.page q = none
  old : ∀ q, h.next ≤ q → others q = none
  page : ∀ (i p : Nat), t.pages[i]? = some (some p) → others p = none ∧ ∃ pg, h.page p = some pg ∧ 0 < pg.count ∧
    PageOk t.pageSize pg (fun j => f (i * t.pageSize + j))
  noPage : ∀ (i : Nat), t.pages[i]? = some none → ∀ j, j < t.pageSize → f (i * t.pageSize + j) = none
  apart : ∀ (i j p : Nat), t.pages[i]? = some (some p) → t.pages[j]? = some (some p) → i = j
  rest : ∀ q, (∀ i : Nat, t.pages[i]? ≠ some (some q)) → h.page q = others q

theorem idx (k psz : Nat) : k / psz * psz + k % psz = k := by
  rw [Nat.mul_comm]; exact Nat.div_add_mod k psz

theorem idx_ne {k psz i j : Nat} (hj : j < psz) (hk : 0 < psz) (h : i ≠ k / psz ∨ j ≠ k % psz) : i * psz + j ≠ k := by
  intro he
  have h1 : k / psz = i := by
    rw [← he, Nat.mul_comm, Nat.mul_add_div hk, Nat.div_eq_of_lt hj, Nat.add_zero]
  have h2 : k % psz = j := by
    rw [← he, Nat.mul_comm, Nat.mul_add_mod, Nat.mod_eq_of_lt hj]
  rcases h with h | h
  · exact h h1.symm
  · exact h h2.symm

theorem Rep.inPages {α : Type} {h : Heap α} {t : Arr} {f : Slots α} {others : Nat → Option (Page α)} (hr : Rep h t f others) {k : Nat}
    (hk : k < t.maxSize) : k / t.pageSize < t.pages.length := by
  rw [hr.pages]
  rw [Nat.div_lt_iff_lt_mul hr.psz]
  exact Nat.lt_of_lt_of_le hk hr.enough

theorem getPage_eq {α : Type} {h : Heap α} {p : Nat} {pg : Page α} (e : h.page p = some pg) : getPage h p = C.ok pg := by
  unfold getPage; rw [e]

/-- Replacing the page at `p` (or dropping it) by one that holds `f'`. -/
theorem Rep.replace {α : Type} {h : Heap α} {t : Arr} {f f' : Slots α} {others : Nat → Option (Page α)} (hr : Rep h t f others) {k p : Nat}
    (hk : k < t.maxSize) {pg' : Page α} (hp : t.pages[k / t.pageSize]? = some (some p))
    (hf : ∀ i, i ≠ k → f' i = f i) (hpg : PageOk t.pageSize pg' (fun j => f' (k / t.pageSize * t.pageSize + j))) (hc : 0 < pg'.count) :
    Rep ⟨h.next, setPage h.page p (some pg')⟩ t f' others := by
  have hpn : p < h.next := by
    obtain ⟨_, pg, e, _⟩ := hr.page _ _ hp
    rcases Nat.lt_or_ge p h.next with h1 | h1
    · exact h1
    · rw [hr.fresh p h1] at e; cases e
  refine ⟨hr.psz, hr.psz64, hr.pages, hr.enough, ?_, ?_, hr.old, ?_, ?_, hr.apart, ?_⟩
  · intro i hi; rw [hf i (by omega)]; exact hr.out i hi
  · intro q hq
    dsimp only [setPage] at hq ⊢
    rw [if_neg (by omega)]; exact hr.fresh q hq
  · intro i q hq
    refine ⟨(hr.page i q hq).1, ?_⟩
    dsimp only [setPage]
    by_cases hi : i = k / t.pageSize
    · subst hi
      rw [hp] at hq; cases hq
      exact ⟨pg', by rw [if_pos rfl], hc, hpg⟩
    · obtain ⟨_, pg, e1, e2, e3⟩ := hr.page i q hq
      refine ⟨pg, ?_, e2, ?_⟩
      · rw [if_neg]
        · exact e1
        · rintro rfl; exact hi (hr.apart _ _ _ hq hp)
      · exact e3.congr (fun j hj => hf _ (idx_ne hj hr.psz (Or.inl hi)))
  · intro i hi j hj
    have : i ≠ k / t.pageSize := by rintro rfl; rw [hp] at hi; cases hi
    rw [hf _ (idx_ne hj hr.psz (Or.inl this))]
    exact hr.noPage i hi j hj
  · intro q hq
    dsimp only [setPage]
    rw [if_neg (by rintro rfl; exact hq _ hp)]
    exact hr.rest q hq

theorem Rep.drop {α : Type} {h : Heap α} {t : Arr} {f f' : Slots α} {others : Nat → Option (Page α)} (hr : Rep h t f others) {k p : Nat}
    (hk : k < t.maxSize) (hp : t.pages[k / t.pageSize]? = some (some p))
    (hf : ∀ i, i ≠ k → f' i = f i) (hpg : ∀ j, j < t.pageSize → f' (k / t.pageSize * t.pageSize + j) = none) :
    Rep ⟨h.next, setPage h.page p none⟩ { t with pages := t.pages.set (k / t.pageSize) none } f' others := by
  have hlt := hr.inPages hk
  have hset : ∀ {i : Nat} {x : Option Nat}, (t.pages.set (k / t.pageSize) none)[i]? = some x →
      (i = k / t.pageSize ∧ x = none) ∨ (i ≠ k / t.pageSize ∧ t.pages[i]? = some x) := by
    intro i x hx
    by_cases hi : i = k / t.pageSize
    · subst hi
      rw [List.getElem?_set_self hlt] at hx; cases hx
      exact Or.inl ⟨rfl, rfl⟩
    · rw [List.getElem?_set_ne (Ne.symm hi)] at hx
      exact Or.inr ⟨hi, hx⟩
  refine ⟨hr.psz, hr.psz64, by simp [hr.pages], hr.enough, ?_, ?_, hr.old, ?_, ?_, ?_, ?_⟩
  · intro i hi
    dsimp only at hi
    rw [hf i (by omega)]; exact hr.out i hi
  · intro q hq
    dsimp only [setPage] at hq ⊢
    split
    · rfl
    · exact hr.fresh q hq
  · intro i q hq
    dsimp only at hq ⊢
    rcases hset hq with ⟨_, h1⟩ | ⟨h1, h2⟩
    · cases h1
    · refine ⟨(hr.page i q h2).1, ?_⟩
      obtain ⟨_, pg, e1, e2, e3⟩ := hr.page i q h2
      refine ⟨pg, ?_, e2, ?_⟩
      · dsimp only [setPage]
        rw [if_neg]
        · exact e1
        · rintro rfl; exact h1 (hr.apart _ _ _ h2 hp)
      · exact e3.congr (fun j hj => hf _ (idx_ne hj hr.psz (Or.inl h1)))
  · intro i hi j hj
    dsimp only at hi hj ⊢
    rcases hset hi with ⟨h1, _⟩ | ⟨h1, h2⟩
    · subst h1; exact hpg j hj
    · rw [hf _ (idx_ne hj hr.psz (Or.inl h1))]
      exact hr.noPage i h2 j hj
  · intro i j q h1 h2
    dsimp only at h1 h2
    rcases hset h1 with ⟨_, h3⟩ | ⟨_, h3⟩
    · cases h3
    rcases hset h2 with ⟨_, h4⟩ | ⟨_, h4⟩
    · cases h4
    exact hr.apart i j q h3 h4
  · intro q hq
    dsimp only [setPage] at hq ⊢
    by_cases hqp : q = p
    · rw [if_pos hqp, hqp, (hr.page _ _ hp).1]
    · rw [if_neg hqp]
      apply hr.rest q
      intro i hi
      by_cases hik : i = k / t.pageSize
      · subst hik; rw [hp] at hi; cases hi; exact hqp rfl
      · apply hq i
        rw [List.getElem?_set_ne (Ne.symm hik)]; exact hi

/-- A new page. -/
theorem Rep.add {α : Type} {h : Heap α} {t : Arr} {f f' : Slots α} {others : Nat → Option (Page α)} (hr : Rep h t f others) {k : Nat}
    (hk : k < t.maxSize) {pg' : Page α} (hp : t.pages[k / t.pageSize]? = some none)
    (hf : ∀ i, i ≠ k → f' i = f i) (hpg : PageOk t.pageSize pg' (fun j => f' (k / t.pageSize * t.pageSize + j))) (hc : 0 < pg'.count)
    {pm : Nat → Option (Page α)} (hpm : ∀ q, q ≠ h.next → pm q = h.page q) (hpm' : pm h.next = some pg') :
    Rep ⟨h.next + 1, pm⟩ { t with pages := t.pages.set (k / t.pageSize) (some h.next) } f' others := by
  have hlt := hr.inPages hk
  have hset : ∀ {i : Nat} {x : Option Nat}, (t.pages.set (k / t.pageSize) (some h.next))[i]? = some x →
      (i = k / t.pageSize ∧ x = some h.next) ∨ (i ≠ k / t.pageSize ∧ t.pages[i]? = some x) := by
    intro i x hx
    by_cases hi : i = k / t.pageSize
    · subst hi
      rw [List.getElem?_set_self hlt] at hx; cases hx
      exact Or.inl ⟨rfl, rfl⟩
    · rw [List.getElem?_set_ne (Ne.symm hi)] at hx
      exact Or.inr ⟨hi, hx⟩
  have hnew : ∀ (i q : Nat), t.pages[i]? = some (some q) → q ≠ h.next := by
    intro i q hq
    obtain ⟨_, pg, e, _⟩ := hr.page i q hq
    rintro rfl
    rw [hr.fresh _ (Nat.le_refl _)] at e; cases e
  refine ⟨hr.psz, hr.psz64, by simp [hr.pages], hr.enough, ?_, ?_, ?_, ?_, ?_, ?_, ?_⟩
  · intro i hi
    dsimp only at hi
    rw [hf i (by omega)]; exact hr.out i hi
  · intro q hq
    dsimp only at hq ⊢
    rw [hpm q (by omega)]; exact hr.fresh q (by omega)
  · intro q hq
    dsimp only at hq
    exact hr.old q (by omega)
  · intro i q hq
    dsimp only at hq ⊢
    rcases hset hq with ⟨h1, h2⟩ | ⟨h1, h2⟩
    · cases h2; subst h1
      exact ⟨hr.old _ (Nat.le_refl _), pg', hpm', hc, hpg⟩
    · obtain ⟨e0, pg, e1, e2, e3⟩ := hr.page i q h2
      exact ⟨e0, pg, by rw [hpm q (hnew i q h2)]; exact e1, e2, e3.congr (fun j hj => hf _ (idx_ne hj hr.psz (Or.inl h1)))⟩
  · intro i hi j hj
    dsimp only at hi hj ⊢
    rcases hset hi with ⟨_, h1⟩ | ⟨h1, h2⟩
    · cases h1
    · rw [hf _ (idx_ne hj hr.psz (Or.inl h1))]
      exact hr.noPage i h2 j hj
  · intro i j q h1 h2
    dsimp only at h1 h2
    rcases hset h1 with ⟨e1, e2⟩ | ⟨e1, e2⟩
    · rcases hset h2 with ⟨g1, g2⟩ | ⟨g1, g2⟩
      · rw [e1, g1]
      · cases e2; exact absurd rfl (hnew j _ g2)
    · rcases hset h2 with ⟨g1, g2⟩ | ⟨g1, g2⟩
      · cases g2; exact absurd rfl (hnew i _ e2)
      · exact hr.apart i j q e2 g2
  · intro q hq
    dsimp only at hq ⊢
    have hqn : q ≠ h.next := by
      rintro rfl
      exact hq _ (List.getElem?_set_self hlt)
    rw [hpm q hqn]
    apply hr.rest q
    intro i hi
    by_cases hik : i = k / t.pageSize
    · subst hik; rw [hp] at hi; cases hi
    · apply hq i
      rw [List.getElem?_set_ne (Ne.symm hik)]; exact hi

/-! ### The operations -/

theorem Rep.slot {α : Type} {h : Heap α} {t : Arr} {f : Slots α} {others : Nat → Option (Page α)} (hr : Rep h t f others) {k p : Nat}
    (hp : t.pages[k / t.pageSize]? = some (some p)) :
    ∃ pg, h.page p = some pg ∧ 0 < pg.count ∧ PageOk t.pageSize pg (fun j => f (k / t.pageSize * t.pageSize + j)) ∧
      ((bit pg.bitmap (k % t.pageSize) = true ∧ ∃ c, pg.items[k % t.pageSize]? = some c ∧ f k = some c) ∨
        (bit pg.bitmap (k % t.pageSize) = false ∧ f k = none)) := by
  obtain ⟨_, pg, e1, e2, e3⟩ := hr.page _ _ hp
  refine ⟨pg, e1, e2, e3, ?_⟩
  have := e3.slot (k % t.pageSize) (Nat.mod_lt _ hr.psz)
  simp only [idx] at this
  exact this

theorem requested_eq {σ psz : Nat} (h : needed σ psz < w64) (hσ : 0 < σ) : requested σ psz = needed σ psz ∧ bitmapSize psz = (psz + 7) / 8 := by
  unfold requested bitmapSize needed at *
  have h1 : psz ≤ psz * σ := Nat.le_mul_of_pos_right _ hσ
  have h7 : psz + 7 < w64 := by simp only [w64] at *; omega
  rw [Nat.mod_eq_of_lt h7, Nat.mod_eq_of_lt (a := psz * σ) (by omega), Nat.mod_eq_of_lt h]
  exact ⟨rfl, rfl⟩

theorem allocateIn_new {α : Type} {h : Heap α} {t : Arr} {p j psz : Nat} {pg : Page α} {g : Nat → Option (Option α)}
    (hp : h.page p = some pg) (hpg : PageOk psz pg g) (h64 : psz < w64) (hj : j < psz) (hg : g j = none) :
    ∃ c pg', allocateIn h t p j = C.ok (.ok, some (p, j), t, ⟨h.next, setPage h.page p (some pg')⟩) ∧ 0 < pg'.count ∧
      PageOk psz pg' (fun k => if k = j then some c else g k) := by
  have hb : bit pg.bitmap j = false := by
    rcases hpg.slot j hj with ⟨_, c, _, e⟩ | ⟨e, _⟩
    · rw [hg] at e; cases e
    · exact e
  obtain ⟨bm, e1, e2, e3⟩ := setAllocated_eq (hpg.inBitmap hj)
  obtain ⟨c, e4, e5⟩ := hpg.set h64 hj hg e2 e3
  refine ⟨c, _, ?_, e5, e4⟩
  unfold allocateIn
  rw [getPage_eq hp, C.ok_bind, isAllocated_eq (hpg.inBitmap hj), hb, C.ok_bind, e1]
  rfl

end CUtil.Paged
