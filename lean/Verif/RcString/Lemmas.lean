import Verif.RcString.Spec
set_option linter.unusedSimpArgs false
set_option linter.unusedVariables false
namespace CUtil.RcString
open CUtil Spec

def zt (t : List UInt8) : Mem := (t ++ [0]).map some

theorem zt_eq (t : List UInt8) : zt t = t.map some ++ [some 0] := by simp [zt]

theorem cstr_zt {t : List UInt8} (h : 0 ∉ t) : cstr (zt t) = C.ok t := by
  rw [zt_eq]; exact cstr_zstr t [] h

theorem memcpy_zt (t : List UInt8) : memcpy (uninit (t.length + 1)) 0 (zt t) 0 (t.length + 1) = C.ok (zt t) := by
  unfold memcpy
  have hl : (zt t).length = t.length + 1 := by simp [zt]
  rw [if_pos ⟨by rw [hl]; omega, by simp⟩]
  congr 1
  rw [List.take_zero, List.drop_zero, List.nil_append, Nat.zero_add, List.take_of_length_le (by rw [hl]; omega),
    List.drop_eq_nil_of_le (by simp), List.append_nil]

theorem snprintf_zt (t : List UInt8) : snprintfInto (t.length + 1) t = C.ok (zt t) := by
  unfold snprintfInto
  rw [if_neg (by omega), Nat.add_sub_cancel, List.take_of_length_le (Nat.le_refl _)]
  simp [zt, uninit]

@[simp] theorem setCell_self (f : Nat → Option Cell) (p : Nat) (c : Option Cell) : setCell f p c p = c := by
  simp [setCell]
theorem setCell_ne {f : Nat → Option Cell} {p q : Nat} (c : Option Cell) (h : q ≠ p) : setCell f p c q = f q := by
  simp [setCell, h]
@[simp] theorem upd_self {α : Type} (f : Nat → α) (h : Nat) (v : α) : upd f h v h = v := by simp [upd]
theorem upd_ne {α : Type} (f : Nat → α) {h x : Nat} (v : α) (e : x ≠ h) : upd f h v x = f x := by simp [upd, e]

/-- The memory an object of kind `k` needs for the text `v`. -/
def Text (cell : Nat → Option Cell) (v : List UInt8) : Kind → Prop
  | .copied m => m = zt v ∧ 0 ∉ v
  | .moved b => cell b = some (.raw (zt v)) ∧ 0 ∉ v
  | .custom t _ _ => t = v ∧ 0 ∉ v
  | .ptr .. => True

def isZero (n : Nat) : Bool := decide (n = 0)

/-- The address an event is about. -/
def addr : Event → Nat
  | .free p => p
  | .strFree h _ _ => h
  | .ptrFree h _ _ _ => h

structure Inv (s : Sys) : Prop where
  fresh : ∀ p, s.heap.next ≤ p → s.heap.cell p = none ∧ s.held p = 0 ∧ s.made p = none ∧ s.mine p = none
  flog : ∀ e ∈ s.heap.log, addr e < s.heap.next
  mine : ∀ b t, s.mine b = some t → s.heap.cell b = some (.raw (zt t)) ∧ 0 ∉ t ∧ s.made b = none ∧
    (∀ q, s.made q ≠ some (.moved b)) ∧ .free b ∉ s.heap.log
  live : ∀ p k, s.made p = some k → s.heap.cell p ≠ none →
    s.heap.cell p = some (.obj ⟨k, s.held p, isZero (s.held p)⟩) ∧ (∀ e ∈ duties p k, e ∉ s.heap.log) ∧
    Text s.heap.cell (s.view p) k
  dead : ∀ p k, s.made p = some k → s.heap.cell p = none →
    s.held p = 0 ∧ (∀ e ∈ duties p k, s.heap.log.count e = 1) ∧ ∀ b, k = .moved b → s.heap.cell b = none
  moved : ∀ p b, s.made p = some (.moved b) → s.made b = none ∧ b < s.heap.next ∧
    ∀ q, s.made q = some (.moved b) → q = p
  unmade : ∀ p, s.made p = none → s.held p = 0 ∧ (s.heap.cell p ≠ none → s.mine p ≠ none ∨
    ∃ q, s.made q = some (.moved p) ∧ s.heap.cell q ≠ none)

theorem Inv.lt {s : Sys} (h : Inv s) {p : Nat} (hc : s.heap.cell p ≠ none ∨ s.held p ≠ 0 ∨ s.made p ≠ none ∨ s.mine p ≠ none) :
    p < s.heap.next := by
  rcases Nat.lt_or_ge p s.heap.next with h1 | h1
  · exact h1
  · obtain ⟨a, b, c, d⟩ := h.fresh p h1
    rcases hc with h | h | h | h
    · exact absurd a h
    · exact absurd b h
    · exact absurd c h
    · exact absurd d h

theorem inv_init : Inv Sys.init := by
  constructor
  · intro p _; exact ⟨rfl, rfl, rfl, rfl⟩
  · intro e he; cases he
  · intro b t h; cases h
  · intro p k h; cases h
  · intro p k h; cases h
  · intro p b h; cases h
  · intro p _; exact ⟨rfl, fun h => absurd rfl h⟩

/-- An owned handle is alive. -/
theorem Inv.held {s : Sys} (h : Inv s) {p : Nat} (hp : 0 < s.held p) :
    ∃ k, s.made p = some k ∧ s.heap.cell p = some (.obj ⟨k, s.held p, false⟩) ∧ Text s.heap.cell (s.view p) k ∧
      ∀ e ∈ duties p k, e ∉ s.heap.log := by
  cases hm : s.made p with
  | none => have := (h.unmade p hm).1; omega
  | some k =>
    by_cases hc : s.heap.cell p = none
    · have := (h.dead p k hm hc).1; omega
    · obtain ⟨h1, h2, h3⟩ := h.live p k hm hc
      refine ⟨k, rfl, ?_, h3, h2⟩
      rw [h1]; simp [isZero]; omega

theorem duties_addr {p : Nat} {k : Kind} {e : Event} (he : e ∈ duties p k) : addr e = p ∨ ∃ b, k = .moved b ∧ e = .free b := by
  cases k with
  | copied m => simp [duties] at he; subst he; exact Or.inl rfl
  | moved b =>
    simp [duties] at he
    rcases he with rfl | rfl
    · exact Or.inl rfl
    · exact Or.inr ⟨b, rfl, rfl⟩
  | custom t f c => simp [duties] at he; rcases he with rfl | rfl <;> exact Or.inl rfl
  | ptr x f c =>
    cases f with
    | none => simp [duties] at he; subst he; exact Or.inl rfl
    | some f => simp [duties] at he; rcases he with rfl | rfl <;> exact Or.inl rfl

/-- A new object. -/
theorem inv_new {s : Sys} (h : Inv s) (k : Kind) (v : List UInt8) (mine' : Nat → Option (List UInt8))
    (hm1 : ∀ b t, mine' b = some t → s.mine b = some t ∧ k ≠ .moved b)
    (hm2 : ∀ b, s.mine b ≠ none → mine' b ≠ none ∨ k = .moved b)
    (hk : ∀ b, k = .moved b → s.mine b ≠ none)
    (ht : Text s.heap.cell v k) :
    Inv { gain s (newObj s.heap k) v with mine := mine' } := by
  have hne : ∀ p, p < s.heap.next → p ≠ s.heap.next := fun p hp => Nat.ne_of_lt hp
  have hkat : kindAt (malloc s.heap (.obj ⟨k, 1, false⟩)).2 s.heap.next = some k := by simp [kindAt, malloc]
  have hfr := h.fresh s.heap.next (Nat.le_refl _)
  have hkb : ∀ b, k = .moved b → b < s.heap.next := fun b hb => h.lt (Or.inr (Or.inr (Or.inr (hk b hb))))
  simp only [gain, newObj, malloc] at hkat ⊢
  rw [hkat]
  constructor
  · intro p hp
    dsimp only at hp ⊢
    rw [setCell_ne _ (by omega), upd_ne _ _ (by omega), upd_ne _ _ (by omega)]
    obtain ⟨a, b, c, d⟩ := h.fresh p (by omega)
    refine ⟨a, b, c, ?_⟩
    cases hx : mine' p with
    | none => rfl
    | some t => rw [(hm1 p t hx).1] at d; cases d
  · intro e he; have := h.flog e he; dsimp only at this ⊢; omega
  · intro b t hb
    dsimp only at hb ⊢
    obtain ⟨hb1, hb2⟩ := hm1 b t hb
    obtain ⟨h1, h2, h3, h4, h5⟩ := h.mine b t hb1
    have hlt : b < s.heap.next := h.lt (Or.inl (by rw [h1]; simp))
    rw [setCell_ne _ (hne b hlt), upd_ne _ _ (hne b hlt)]
    refine ⟨h1, h2, h3, ?_, h5⟩
    intro q
    by_cases hq : q = s.heap.next
    · subst hq; rw [upd_self]; intro hc; exact hb2 (Option.some.inj hc)
    · rw [upd_ne _ _ hq]; exact h4 q
  · intro p k' hp hc
    dsimp only at hp hc ⊢
    by_cases hq : p = s.heap.next
    · subst hq
      rw [upd_self] at hp; cases hp
      rw [setCell_self, upd_self, upd_self, hfr.2.1]
      refine ⟨rfl, ?_, ?_⟩
      · intro e he hl
        rcases duties_addr he with h1 | ⟨b, h1, h2⟩
        · have := h.flog e hl; omega
        · subst h2
          have := hk b h1
          cases hmb : s.mine b with
          | none => exact this hmb
          | some t => exact (h.mine b t hmb).2.2.2.2 hl
      · cases k with
        | copied m => exact ht
        | moved b => exact ⟨by rw [setCell_ne _ (hne b (hkb b rfl))]; exact ht.1, ht.2⟩
        | custom t f c => exact ht
        | ptr x f c => exact ht
    · rw [upd_ne _ _ hq] at hp
      rw [setCell_ne _ hq] at hc ⊢
      rw [upd_ne _ _ hq, upd_ne _ _ hq]
      obtain ⟨h1, h2, h3⟩ := h.live p k' hp hc
      refine ⟨h1, h2, ?_⟩
      cases k' with
      | copied m => exact h3
      | moved b => exact ⟨by rw [setCell_ne _ (hne b (h.moved p b hp).2.1)]; exact h3.1, h3.2⟩
      | custom t f c => exact h3
      | ptr x f c => exact h3
  · intro p k' hp hc
    dsimp only at hp hc ⊢
    by_cases hq : p = s.heap.next
    · subst hq; rw [setCell_self] at hc; cases hc
    · rw [upd_ne _ _ hq] at hp
      rw [setCell_ne _ hq] at hc
      rw [upd_ne _ _ hq]
      obtain ⟨h1, h2, h3⟩ := h.dead p k' hp hc
      refine ⟨h1, h2, ?_⟩
      intro b hb
      subst hb
      rw [setCell_ne _ (hne b (h.moved p b hp).2.1)]; exact h3 b rfl
  · intro p b hp
    dsimp only at hp ⊢
    by_cases hq : p = s.heap.next
    · subst hq
      rw [upd_self] at hp; cases hp
      have hb := hk b rfl
      have hlt := hkb b rfl
      cases hmb : s.mine b with
      | none => exact absurd hmb hb
      | some t =>
        obtain ⟨h1, h2, h3, h4, h5⟩ := h.mine b t hmb
        rw [upd_ne _ _ (hne b hlt)]
        refine ⟨h3, by omega, ?_⟩
        intro q hq'
        by_cases hq : q = s.heap.next
        · exact hq
        · rw [upd_ne _ _ hq] at hq'; exact absurd hq' (h4 q)
    · rw [upd_ne _ _ hq] at hp
      obtain ⟨h1, h2, h3⟩ := h.moved p b hp
      rw [upd_ne _ _ (hne b h2)]
      refine ⟨h1, by omega, ?_⟩
      intro q hq'
      by_cases hqn : q = s.heap.next
      · subst hqn
        rw [upd_self] at hq'; cases hq'
        cases hmb : s.mine b with
        | none => exact absurd hmb (hk b rfl)
        | some t => exact absurd hp ((h.mine b t hmb).2.2.2.1 p)
      · rw [upd_ne _ _ hqn] at hq'; exact h3 q hq'
  · intro p hp
    dsimp only at hp ⊢
    by_cases hq : p = s.heap.next
    · subst hq; rw [upd_self] at hp; cases hp
    · rw [upd_ne _ _ hq] at hp ⊢
      rw [setCell_ne _ hq]
      obtain ⟨h1, h2⟩ := h.unmade p hp
      refine ⟨h1, fun hc => ?_⟩
      rcases h2 hc with h3 | ⟨q, h3, h4⟩
      · rcases hm2 p h3 with h5 | h5
        · exact Or.inl h5
        · right
          exact ⟨s.heap.next, by rw [upd_self, h5], by rw [setCell_self]; simp⟩
      · right
        have : q < s.heap.next := h.lt (Or.inl h4)
        exact ⟨q, by rw [upd_ne _ _ (hne q this)]; exact h3, by rw [setCell_ne _ (hne q this)]; exact h4⟩

theorem inv_gain {s : Sys} (h : Inv s) (k : Kind) (v : List UInt8) (hk : ∀ b, k ≠ .moved b)
    (ht : Text s.heap.cell v k) : Inv (gain s (newObj s.heap k) v) := by
  have := inv_new h k v s.mine (fun b t hb => ⟨hb, hk b⟩) (fun b hb => Or.inl hb) (fun b hb => absurd hb (hk b)) ht
  exact this

theorem inv_none {s : Sys} (h : Inv s) (v : List UInt8) : Inv (gain s (none, s.heap) v) := h

theorem inv_createMove {s : Sys} (h : Inv s) {b : Nat} (hb : s.mine b ≠ none) (alloc : Bool) :
    ∃ s', exec s (.createMove b alloc) = C.ok s' ∧ Inv s' := by
  cases alloc with
  | false => exact ⟨_, rfl, h⟩
  | true =>
    refine ⟨_, rfl, ?_⟩
    cases hm : s.mine b with
    | none => exact absurd hm hb
    | some t =>
      obtain ⟨h1, h2, h3, h4, h5⟩ := h.mine b t hm
      exact inv_new h (.moved b) t (upd s.mine b none)
        (by
          intro b' t' hb'
          by_cases he : b' = b
          · subst he; rw [upd_self] at hb'; cases hb'
          · rw [upd_ne _ _ he] at hb'; exact ⟨hb', by intro hc; cases hc; exact he rfl⟩)
        (by
          intro b' hb'
          by_cases he : b' = b
          · exact Or.inr (by rw [he])
          · rw [upd_ne _ _ he]; exact Or.inl hb')
        (by intro b' hb'; cases hb'; exact hb)
        ⟨h1, h2⟩

theorem inv_newText {s : Sys} (h : Inv s) {t : List UInt8} (ht : 0 ∉ t) :
    ∃ s', exec s (.newText t) = C.ok s' ∧ Inv s' := by
  refine ⟨_, rfl, ?_⟩
  have hne : ∀ p, p < s.heap.next → p ≠ s.heap.next := fun p hp => Nat.ne_of_lt hp
  have hfr := h.fresh s.heap.next (Nat.le_refl _)
  constructor
  · intro p hp
    dsimp only at hp ⊢
    rw [setCell_ne _ (by omega), upd_ne _ _ (by omega)]
    exact h.fresh p (by omega)
  · intro e he; have := h.flog e he; dsimp only at this ⊢; omega
  · intro b t' hb
    dsimp only at hb ⊢
    by_cases hq : b = s.heap.next
    · subst hq
      rw [upd_self] at hb; cases hb
      rw [setCell_self]
      refine ⟨rfl, ht, hfr.2.2.1, ?_, ?_⟩
      · intro q hq; have := (h.moved q _ hq).2.1; omega
      · intro hl; have := h.flog _ hl; simp only [addr] at this; omega
    · rw [upd_ne _ _ hq] at hb; rw [setCell_ne _ hq]; exact h.mine b t' hb
  · intro p k hp hc
    dsimp only at hp hc ⊢
    have hlt : p < s.heap.next := h.lt (Or.inr (Or.inr (Or.inl (by rw [hp]; simp))))
    rw [setCell_ne _ (hne p hlt)] at hc ⊢
    obtain ⟨h1, h2, h3⟩ := h.live p k hp hc
    refine ⟨h1, h2, ?_⟩
    cases k with
    | copied m => exact h3
    | moved b => exact ⟨by rw [setCell_ne _ (hne b (h.moved p b hp).2.1)]; exact h3.1, h3.2⟩
    | custom t f c => exact h3
    | ptr x f c => exact h3
  · intro p k hp hc
    dsimp only at hp hc ⊢
    have hlt : p < s.heap.next := h.lt (Or.inr (Or.inr (Or.inl (by rw [hp]; simp))))
    rw [setCell_ne _ (hne p hlt)] at hc
    obtain ⟨h1, h2, h3⟩ := h.dead p k hp hc
    refine ⟨h1, h2, ?_⟩
    intro b hb
    subst hb
    rw [setCell_ne _ (hne b (h.moved p b hp).2.1)]; exact h3 b rfl
  · intro p b hp
    obtain ⟨h1, h2, h3⟩ := h.moved p b hp
    exact ⟨h1, Nat.lt_succ_of_lt h2, h3⟩
  · intro p hp
    dsimp only at hp ⊢
    obtain ⟨h1, h2⟩ := h.unmade p hp
    refine ⟨h1, fun hc => ?_⟩
    by_cases hq : p = s.heap.next
    · subst hq; left; rw [upd_self]; simp
    · rw [setCell_ne _ hq] at hc
      rw [upd_ne _ _ hq]
      rcases h2 hc with h3 | ⟨q, h3, h4⟩
      · exact Or.inl h3
      · right
        have : q < s.heap.next := h.lt (Or.inl h4)
        exact ⟨q, h3, by rw [setCell_ne _ (hne q this)]; exact h4⟩

theorem inv_freeText {s : Sys} (h : Inv s) {b : Nat} (hb : s.mine b ≠ none) :
    ∃ s', exec s (.freeText b) = C.ok s' ∧ Inv s' := by
  cases hm : s.mine b with
  | none => exact absurd hm hb
  | some t =>
  obtain ⟨h1, h2, h3, h4, h5⟩ := h.mine b t hm
  have hfree : free s.heap b = C.ok { s.heap with cell := setCell s.heap.cell b none, log := .free b :: s.heap.log } := by
    unfold free; rw [h1]
  refine ⟨_, by simp only [exec]; rw [hfree]; rfl, ?_⟩
  have hlt : b < s.heap.next := h.lt (Or.inl (by rw [h1]; simp))
  have hnb : ∀ p k, s.made p = some k → p ≠ b := by
    intro p k hp he; subst he; rw [h3] at hp; cases hp
  have hdut : ∀ p k, s.made p = some k → .free b ∉ duties p k := by
    intro p k hp he
    rcases duties_addr he with h6 | ⟨b', h6, h7⟩
    · simp only [addr] at h6; exact hnb p k hp h6.symm
    · cases h7; subst h6; exact h4 p hp
  constructor
  · intro p hp
    dsimp only at hp ⊢
    rw [setCell_ne _ (by omega), upd_ne _ _ (by omega)]
    exact h.fresh p hp
  · intro e he
    dsimp only at he ⊢
    rw [List.mem_cons] at he
    rcases he with rfl | he
    · exact hlt
    · exact h.flog e he
  · intro b' t' hb'
    dsimp only at hb' ⊢
    by_cases hq : b' = b
    · subst hq; rw [upd_self] at hb'; cases hb'
    · rw [upd_ne _ _ hq] at hb'; rw [setCell_ne _ hq]
      obtain ⟨a1, a2, a3, a4, a5⟩ := h.mine b' t' hb'
      refine ⟨a1, a2, a3, a4, ?_⟩
      rw [List.mem_cons]; rintro (hc | hc)
      · cases hc; exact hq rfl
      · exact a5 hc
  · intro p k hp hc
    dsimp only at hp hc ⊢
    rw [setCell_ne _ (hnb p k hp)] at hc ⊢
    obtain ⟨a1, a2, a3⟩ := h.live p k hp hc
    refine ⟨a1, ?_, ?_⟩
    · intro e he; rw [List.mem_cons]; rintro (hc | hc)
      · subst hc; exact hdut p k hp he
      · exact a2 e he hc
    · cases k with
      | copied m => exact a3
      | moved b' => exact ⟨by rw [setCell_ne _ (by rintro rfl; exact h4 p hp)]; exact a3.1, a3.2⟩
      | custom t f c => exact a3
      | ptr x f c => exact a3
  · intro p k hp hc
    dsimp only at hp hc ⊢
    rw [setCell_ne _ (hnb p k hp)] at hc
    obtain ⟨a1, a2, a3⟩ := h.dead p k hp hc
    refine ⟨a1, ?_, ?_⟩
    · intro e he
      rw [List.count_cons_of_ne (by intro hc; rw [← hc] at he; exact hdut p k hp he)]
      exact a2 e he
    · intro b' hb'
      subst hb'
      rw [setCell_ne _ (by rintro rfl; exact h4 p hp)]; exact a3 b' rfl
  · exact h.moved
  · intro p hp
    dsimp only at hp ⊢
    obtain ⟨a1, a2⟩ := h.unmade p hp
    refine ⟨a1, fun hc => ?_⟩
    by_cases hq : p = b
    · subst hq; rw [setCell_self] at hc; exact absurd rfl hc
    · rw [setCell_ne _ hq] at hc
      rw [upd_ne _ _ hq]
      rcases a2 hc with a3 | ⟨q, a3, a4⟩
      · exact Or.inl a3
      · right; exact ⟨q, a3, by rw [setCell_ne _ (hnb q _ a3)]; exact a4⟩

/-- Changing the number of references of an owned handle. -/
theorem inv_count {s : Sys} (h : Inv s) {p : Nat} {k : Kind} (hp : 0 < s.held p) (hm : s.made p = some k) (n : Nat) :
    Inv { s with heap := { s.heap with cell := setCell s.heap.cell p (some (.obj ⟨k, n, isZero n⟩)) },
                 held := upd s.held p n } := by
  obtain ⟨k', hm', hc', ht', hd'⟩ := h.held hp
  rw [hm] at hm'; cases hm'
  have hlt : p < s.heap.next := h.lt (Or.inr (Or.inl (by omega)))
  have hraw : ∀ b m, s.heap.cell b = some (.raw m) → b ≠ p := by
    intro b m hb he; subst he; rw [hc'] at hb; cases hb
  constructor
  · intro q hq
    dsimp only at hq ⊢
    rw [setCell_ne _ (by omega), upd_ne _ _ (by omega)]
    exact h.fresh q hq
  · exact h.flog
  · intro b t hb
    obtain ⟨a1, a2, a3, a4, a5⟩ := h.mine b t hb
    refine ⟨?_, a2, a3, a4, a5⟩
    dsimp only
    rw [setCell_ne _ (hraw b _ a1)]; exact a1
  · intro q k' hq hc
    dsimp only at hq hc ⊢
    have htx : Text s.heap.cell (s.view q) k' → Text (setCell s.heap.cell p (some (.obj ⟨k, n, isZero n⟩))) (s.view q) k' := by
      intro ht
      cases k' with
      | copied m => exact ht
      | moved b' => exact ⟨by rw [setCell_ne _ (hraw b' _ ht.1)]; exact ht.1, ht.2⟩
      | custom t f c => exact ht
      | ptr x f c => exact ht
    by_cases he : q = p
    · subst he
      rw [hm] at hq; cases hq
      rw [setCell_self, upd_self]
      exact ⟨rfl, hd', htx ht'⟩
    · rw [setCell_ne _ he] at hc ⊢
      rw [upd_ne _ _ he]
      obtain ⟨a1, a2, a3⟩ := h.live q k' hq hc
      exact ⟨a1, a2, htx a3⟩
  · intro q k' hq hc
    dsimp only at hq hc ⊢
    by_cases he : q = p
    · subst he; rw [setCell_self] at hc; cases hc
    · rw [setCell_ne _ he] at hc
      rw [upd_ne _ _ he]
      obtain ⟨a1, a2, a3⟩ := h.dead q k' hq hc
      refine ⟨a1, a2, ?_⟩
      intro b hb
      subst hb
      rw [setCell_ne _ (by rintro rfl; have := (h.moved q b hq).1; rw [hm] at this; cases this)]; exact a3 b rfl
  · exact h.moved
  · intro q hq
    dsimp only at hq ⊢
    have hqp : q ≠ p := by rintro rfl; rw [hm] at hq; cases hq
    rw [setCell_ne _ hqp, upd_ne _ _ hqp]
    obtain ⟨a1, a2⟩ := h.unmade q hq
    refine ⟨a1, fun hc => ?_⟩
    rcases a2 hc with a3 | ⟨r, a3, a4⟩
    · exact Or.inl a3
    · right
      refine ⟨r, a3, ?_⟩
      by_cases hr : r = p
      · subst hr; rw [setCell_self]; simp
      · rw [setCell_ne _ hr]; exact a4

theorem inv_incRef {s : Sys} (h : Inv s) {p : Nat} (hp : 0 < s.held p) : ∃ s', exec s (.incRef p) = C.ok s' ∧ Inv s' := by
  obtain ⟨k, hm, hc, _⟩ := h.held hp
  have e : incRef s.heap p = C.ok { s.heap with cell := setCell s.heap.cell p (some (.obj ⟨k, s.held p + 1, isZero (s.held p + 1)⟩)) } := by
    unfold incRef getObj; rw [hc]; simp [isZero]
  refine ⟨_, by simp only [exec]; rw [e, C.ok_bind], inv_count h hp hm _⟩

theorem inv_decRef {s : Sys} (h : Inv s) {p : Nat} (hp : 0 < s.held p) : ∃ s', exec s (.decRef p) = C.ok s' ∧ Inv s' := by
  obtain ⟨k, hm, hc, _⟩ := h.held hp
  have e : decRef s.heap p = C.ok { s.heap with cell := setCell s.heap.cell p (some (.obj ⟨k, s.held p - 1, isZero (s.held p - 1)⟩)) } := by
    unfold decRef getObj; rw [hc]; simp only [Bool.false_eq_true, if_false, C.ok_bind]
    rw [if_neg (by omega)]
    have : decide (s.held p = 1) = isZero (s.held p - 1) := decide_eq_decide.2 (by omega)
    rw [this]
  refine ⟨_, by simp only [exec]; rw [e, C.ok_bind], inv_count h hp hm _⟩

/-- What `finish` does to the heap of an object with resources `k`. -/
def finished (h : Heap) (p : Nat) (k : Kind) : Heap :=
  { h with
    cell := fun q => if q = p then none else if k = .moved q then none else h.cell q
    log := duties p k ++ h.log }

theorem finish_eq {h : Heap} {p : Nat} {k : Kind} {n : Nat} (hc : h.cell p = some (.obj ⟨k, n, true⟩))
    (hb : ∀ b, k = .moved b → ∃ m, h.cell b = some (.raw m)) : finish h p = C.ok (finished h p k) := by
  unfold finish
  rw [hc]; simp only [if_true]
  have fin : ∀ (l : List Event), free { h with log := l } p = C.ok { h with cell := setCell h.cell p none, log := .free p :: l } := by
    intro l; unfold free; rw [hc]
  have feq : (∀ b, k ≠ .moved b) → setCell h.cell p none = (finished h p k).cell := by
    intro hk; funext q; simp [setCell, finished, hk q]
  cases k with
  | copied m =>
    show free h p = _
    have := fin h.log
    rw [this, feq (by simp)]; rfl
  | custom t f c =>
    show free { h with log := .strFree p f c :: h.log } p = _
    rw [fin, feq (by simp)]; rfl
  | ptr x f c =>
    cases f with
    | none =>
      show free h p = _
      have := fin h.log
      rw [this, feq (by simp)]; rfl
    | some f =>
      show free { h with log := .ptrFree p f c x :: h.log } p = _
      rw [fin, feq (by simp)]; rfl
  | moved b =>
    obtain ⟨m, hm⟩ := hb b rfl
    have hne : p ≠ b := by rintro rfl; rw [hc] at hm; cases hm
    have e1 : free h b = C.ok { h with cell := setCell h.cell b none, log := .free b :: h.log } := by
      unfold free; rw [hm]
    show (free h b >>= fun h => free h p) = _
    rw [e1, C.ok_bind]
    unfold free
    dsimp only
    rw [setCell_ne _ hne, hc]
    dsimp only
    unfold finished
    congr 2
    funext q
    by_cases h1 : q = p
    · simp [setCell, h1]
    · by_cases h2 : q = b
      · simp [setCell, h2]
      · simp [setCell, h1, h2, Ne.symm h2]

theorem duties_nodup (p : Nat) (k : Kind) (h : ∀ b, k = .moved b → b ≠ p) : ∀ e ∈ duties p k, (duties p k).count e = 1 := by
  intro e he
  cases k with
  | copied m => simp [duties] at he ⊢; subst he; simp
  | moved b =>
    have := h b rfl
    simp [duties] at he ⊢
    rcases he with rfl | rfl
    · simp [List.count_cons, this]
    · simp [List.count_cons, Ne.symm this]
  | custom t f c => simp [duties] at he ⊢; rcases he with rfl | rfl <;> simp [List.count_cons]
  | ptr x f c =>
    cases f with
    | none => simp [duties] at he ⊢; subst he; simp
    | some f => simp [duties] at he ⊢; rcases he with rfl | rfl <;> simp [List.count_cons]

/-- The duties of different handles are different. -/
theorem duties_disjoint {s : Sys} (h : Inv s) {p q : Nat} {k k' : Kind} (hp : s.made p = some k) (hq : s.made q = some k')
    (hne : p ≠ q) {e : Event} (he : e ∈ duties p k) : e ∉ duties q k' := by
  intro he'
  have key : ∀ p q k k' b, s.made p = some k → s.made q = some k' → p ≠ q → k = .moved b → e = .free b → e ∈ duties q k' → False := by
    intro p q k k' b hp hq hne hk hb he'
    subst hk; subst hb
    obtain ⟨a1, a2, a3⟩ := h.moved p b hp
    rcases duties_addr he' with h1 | ⟨b', h1, h2⟩
    · simp only [addr] at h1; subst h1; rw [a1] at hq; cases hq
    · cases h2; subst h1; exact hne (a3 q hq).symm
  rcases duties_addr he with h1 | ⟨b, h1, h2⟩
  · rcases duties_addr he' with h3 | ⟨b, h3, h4⟩
    · omega
    · exact key q p k' k b hq hp (Ne.symm hne) h3 h4 he
  · exact key p q k k' b hp hq hne h1 h2 he'

theorem inv_finish {s : Sys} (h : Inv s) {p : Nat} {o : Obj} (hc : s.heap.cell p = some (.obj o)) (hd : o.dying = true) :
    ∃ k, s.made p = some k ∧ s.held p = 0 ∧ finish s.heap p = C.ok (finished s.heap p k) ∧
      Inv { s with heap := finished s.heap p k } := by
  cases hm : s.made p with
  | none =>
    exfalso
    rcases (h.unmade p hm).2 (by rw [hc]; simp) with h1 | ⟨q, h1, h2⟩
    · cases ht : s.mine p with
      | none => exact h1 ht
      | some t => have := (h.mine p t ht).1; rw [hc] at this; cases this
    · have := (h.live q _ h1 h2).2.2.1; rw [hc] at this; cases this
  | some k =>
    obtain ⟨a1, a2, a3⟩ := h.live p k hm (by rw [hc]; simp)
    rw [hc] at a1
    have ho : o = ⟨k, s.held p, isZero (s.held p)⟩ := by simpa using a1
    have hz : s.held p = 0 := by rw [ho] at hd; simpa [isZero] using hd
    have hc' : s.heap.cell p = some (.obj ⟨k, 0, true⟩) := by rw [hc, ho, hz]; rfl
    have hbr : ∀ b, k = .moved b → ∃ m, s.heap.cell b = some (.raw m) := by
      intro b hb; subst hb; exact ⟨_, a3.1⟩
    have hbp : ∀ b, k = .moved b → b ≠ p := by
      intro b hb he; subst he; obtain ⟨m, hx⟩ := hbr b hb; rw [hc] at hx; cases hx
    refine ⟨k, rfl, hz, finish_eq hc' hbr, ?_⟩
    have hcell : ∀ q, q ≠ p → (∀ b, k = .moved b → q ≠ b) → (finished s.heap p k).cell q = s.heap.cell q := by
      intro q h1 h2
      simp only [finished, if_neg h1]
      rw [if_neg (fun hk => h2 q hk rfl)]
    have hcelln : ∀ q, s.heap.cell q = none → (finished s.heap p k).cell q = none := by
      intro q hq
      simp only [finished]
      split
      · rfl
      · split
        · rfl
        · exact hq
    have hmb : ∀ b q k', k = .moved b → s.made q = some k' → q ≠ b := by
      intro b q k' hk hq he; subst he; subst hk; have := (h.moved p q hm).1; rw [hq] at this; cases this
    have hlog : (finished s.heap p k).log = duties p k ++ s.heap.log := rfl
    constructor
    · intro q hq
      obtain ⟨b1, b2⟩ := h.fresh q hq
      exact ⟨hcelln q b1, b2⟩
    · intro e he
      rw [hlog, List.mem_append] at he
      rcases he with he | he
      · rcases duties_addr he with h1 | ⟨b, h1, h2⟩
        · rw [h1]; exact h.lt (Or.inl (by rw [hc]; simp))
        · subst h2; subst h1; exact (h.moved p b hm).2.1
      · exact h.flog e he
    · intro b t hb
      obtain ⟨b1, b2, b3, b4, b5⟩ := h.mine b t hb
      have hbne : b ≠ p := by rintro rfl; rw [hm] at b3; cases b3
      refine ⟨?_, b2, b3, b4, ?_⟩
      · rw [hcell b hbne (by rintro b' hk rfl; subst hk; exact b4 p hm)]; exact b1
      · rw [hlog, List.mem_append]; rintro (he | he)
        · rcases duties_addr he with h1 | ⟨b', h1, h2⟩
          · exact hbne h1
          · cases h2; subst h1; exact b4 p hm
        · exact b5 he
    · intro q k' hq hcq
      have hqp : q ≠ p := by rintro rfl; exact hcq (by simp [finished])
      have hcq' : s.heap.cell q ≠ none := fun h1 => hcq (hcelln q h1)
      obtain ⟨b1, b2, b3⟩ := h.live q k' hq hcq'
      refine ⟨?_, ?_, ?_⟩
      · rw [hcell q hqp (fun b hb => hmb b q k' hb hq)]; exact b1
      · intro e he; rw [hlog, List.mem_append]; rintro (he' | he')
        · exact duties_disjoint h hq hm hqp he he'
        · exact b2 e he he'
      · cases k' with
        | copied m => exact b3
        | moved b' =>
          refine ⟨?_, b3.2⟩
          rw [hcell b' ?_ ?_]
          · exact b3.1
          · rintro rfl; have := (h.moved q _ hq).1; rw [hm] at this; cases this
          · rintro b hk rfl; subst hk; exact hqp ((h.moved p _ hm).2.2 q hq)
        | custom t f c => exact b3
        | ptr x f c => exact b3
    · intro q k' hq hcq
      by_cases hqp : q = p
      · subst hqp
        rw [hm] at hq; cases hq
        refine ⟨hz, ?_, ?_⟩
        · intro e he
          rw [hlog, List.count_append, duties_nodup _ _ hbp e he, List.count_eq_zero_of_not_mem (a2 e he)]
        · intro b hb; subst hb; simp [finished]
      · rw [hcell q hqp (fun b hb => hmb b q k' hb hq)] at hcq
        obtain ⟨b1, b2, b3⟩ := h.dead q k' hq hcq
        refine ⟨b1, ?_, ?_⟩
        · intro e he
          rw [hlog, List.count_append, List.count_eq_zero_of_not_mem (duties_disjoint h hq hm hqp he), b2 e he]
        · intro b hb; exact hcelln b (b3 b hb)
    · exact h.moved
    · intro q hq
      have hqp : q ≠ p := by rintro rfl; rw [hm] at hq; cases hq
      obtain ⟨b1, b2⟩ := h.unmade q hq
      refine ⟨b1, fun hcq => ?_⟩
      have hcq' : s.heap.cell q ≠ none := fun h1 => hcq (hcelln q h1)
      rcases b2 hcq' with b3 | ⟨r, b3, b4⟩
      · exact Or.inl b3
      · right
        refine ⟨r, b3, ?_⟩
        have hrp : r ≠ p := by
          rintro rfl
          rw [hm] at b3; cases b3
          exact hcq (by simp [finished, hqp])
        rw [hcell r hrp (fun b hb => hmb b r _ hb b3)]; exact b4

/-- What a holder reads. -/
theorem Inv.content {s : Sys} (h : Inv s) {p : Nat} (hp : 0 < s.held p) (hs : IsString s p) :
    ∃ o, getObj s.heap p = C.ok o ∧ textMem s.heap o = C.ok (zt (s.view p)) ∧ 0 ∉ s.view p := by
  obtain ⟨k, hm, hc, ht, _⟩ := h.held hp
  obtain ⟨k', hm', hk⟩ := hs
  rw [hm] at hm'; cases hm'
  refine ⟨_, by unfold getObj; rw [hc]; rfl, ?_⟩
  cases k with
  | copied m => exact ⟨by rw [← ht.1]; rfl, ht.2⟩
  | moved b => exact ⟨by unfold textMem; dsimp only; rw [ht.1], ht.2⟩
  | custom t f c => exact ⟨by rw [← ht.1]; rfl, ht.2⟩
  | ptr x f c => exact absurd rfl (hk x f c)

theorem createImpl_zt (hp : Heap) {t : List UInt8} (h0 : 0 ∉ t) (hl : t.length + 1 ≤ sizeMax - extraSize) (alloc : Bool) :
    createImpl hp (zt t) alloc = C.ok (if alloc then newObj hp (.copied (zt t)) else (none, hp)) := by
  unfold createImpl
  rw [cstr_zt h0, C.ok_bind]
  dsimp only
  rw [if_neg (Nat.not_lt.2 hl)]
  cases alloc with
  | false => rfl
  | true => rw [if_neg (by simp), memcpy_zt]; rfl

theorem inv_step {s : Sys} (h : Inv s) (op : Op) (ha : Allowed s op) : ∃ s', exec s op = C.ok s' ∧ Inv s' := by
  cases op with
  | newText t => exact inv_newText h ha
  | freeText b => exact inv_freeText h ha
  | create t alloc =>
    simp only [exec, create]
    have := createImpl_zt s.heap ha.1 ha.2 alloc
    unfold zt at this
    rw [this, C.ok_bind]
    refine ⟨_, rfl, ?_⟩
    cases alloc with
    | false => exact h
    | true => exact inv_gain h _ t (by simp) ⟨rfl, ha.1⟩
  | createVformat t ok1 ok2 alloc =>
    simp only [exec]
    cases ok1 with
    | false => exact ⟨_, rfl, h⟩
    | true =>
      have hn : ¬ t.length ≥ intMax := by have := ha.2; omega
      cases alloc with
      | false =>
        refine ⟨s, ?_, h⟩
        unfold createVformat
        rw [if_neg (by simp)]; dsimp only [if_true]
        simp only [if_true]
        rw [if_neg hn]; rfl
      | true =>
        cases ok2 with
        | true =>
          have e : createVformat s.heap false (if true = true then some t.length else none) (if true = true then some t else none) true =
              C.ok (newObj s.heap (.copied (zt t))) := by
            unfold createVformat
            rw [if_neg (by simp)]; simp only [if_true]
            rw [if_neg hn, if_neg (by simp)]
            simp only [malloc]
            rw [snprintf_zt, C.ok_bind]
            simp only [newObj, malloc]
            congr 3
            funext q
            by_cases hq : q = s.heap.next <;> simp [setCell, hq]
          rw [e, C.ok_bind]
          exact ⟨_, rfl, inv_gain h _ t (by simp) ⟨rfl, ha.1⟩⟩
        | false =>
          -- the object is freed again: only the address is used up
          have e : createVformat s.heap false (if true = true then some t.length else none) (if false = true then some t else none) true =
              C.ok (none, { next := s.heap.next + 1, cell := s.heap.cell, log := .free s.heap.next :: s.heap.log }) := by
            unfold createVformat
            rw [if_neg (by simp)]; simp only [if_true]
            rw [if_neg hn, if_neg (by simp)]
            simp only [malloc]
            unfold free
            simp only [setCell_self, Bool.false_eq_true, if_false, C.ok_bind]
            congr 3
            funext q
            by_cases hq : q = s.heap.next
            · subst hq; simp [setCell, (h.fresh s.heap.next (Nat.le_refl _)).1]
            · simp [setCell, hq]
          rw [e, C.ok_bind]
          refine ⟨_, rfl, ?_⟩
          simp only [gain]
          have hfresh : ∀ p k, s.made p = some k → .free s.heap.next ∉ duties p k := by
            intro p k hp he
            rcases duties_addr he with h1 | ⟨b, h1, h2⟩
            · have := h.lt (p := p) (Or.inr (Or.inr (Or.inl (by rw [hp]; simp))))
              simp only [addr] at h1; omega
            · cases h2; subst h1; have := (h.moved p _ hp).2.1; omega
          constructor
          · intro p hp; exact h.fresh p (by dsimp only at hp; omega)
          · intro e he
            rw [List.mem_cons] at he
            rcases he with rfl | he
            · exact Nat.lt_succ_self _
            · exact Nat.lt_succ_of_lt (h.flog e he)
          · intro b t' hb
            obtain ⟨a1, a2, a3, a4, a5⟩ := h.mine b t' hb
            refine ⟨a1, a2, a3, a4, ?_⟩
            rw [List.mem_cons]; rintro (hc | hc)
            · have := h.lt (p := b) (Or.inl (by rw [a1]; simp))
              cases hc; omega
            · exact a5 hc
          · intro p k hp hc
            obtain ⟨a1, a2, a3⟩ := h.live p k hp hc
            refine ⟨a1, ?_, a3⟩
            intro e he; rw [List.mem_cons]; rintro (hc | hc)
            · subst hc; exact hfresh p k hp he
            · exact a2 e he hc
          · intro p k hp hc
            obtain ⟨a1, a2, a3⟩ := h.dead p k hp hc
            refine ⟨a1, ?_, a3⟩
            intro e he
            dsimp only
            rw [List.count_cons_of_ne (by intro hc; rw [← hc] at he; exact hfresh p k hp he)]
            exact a2 e he
          · intro p b hp
            obtain ⟨a1, a2, a3⟩ := h.moved p b hp
            exact ⟨a1, Nat.lt_succ_of_lt a2, a3⟩
          · exact h.unmade
  | createMove b alloc => exact inv_createMove h ha alloc
  | createCustom t f ctx alloc =>
    cases alloc with
    | false => exact ⟨_, rfl, h⟩
    | true => exact ⟨_, rfl, inv_gain h (.custom t f ctx) t (by simp) ⟨rfl, ha⟩⟩
  | recreate p alloc =>
    obtain ⟨h1, h2, h3⟩ := ha
    obtain ⟨o, e1, e2, e3⟩ := h.content h1 h2
    simp only [exec, recreate]
    rw [e1, C.ok_bind, e2, C.ok_bind, createImpl_zt s.heap e3 h3 alloc, C.ok_bind]
    refine ⟨_, rfl, ?_⟩
    cases alloc with
    | false => exact h
    | true => exact inv_gain h _ _ (by simp) ⟨rfl, e3⟩
  | ptrCreate x f ctx alloc =>
    cases alloc with
    | false => exact ⟨_, rfl, h⟩
    | true => exact ⟨_, rfl, inv_gain h (.ptr x f ctx) [] (by simp) trivial⟩
  | incRef p => exact inv_incRef h ha
  | decRef p => exact inv_decRef h ha
  | finish p =>
    obtain ⟨o, h1, h2⟩ := ha
    obtain ⟨k, _, _, e, hi⟩ := inv_finish h h1 h2
    exact ⟨_, by simp only [exec]; rw [e, C.ok_bind], hi⟩

theorem Inv.reachable {s : Sys} (h : Reachable s) : Inv s := by
  induction h with
  | init => exact inv_init
  | step op _ ha he ih =>
    obtain ⟨s', h1, h2⟩ := inv_step ih op ha
    rw [he] at h1; cases h1; exact h2

end CUtil.RcString
