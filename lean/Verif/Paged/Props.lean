import Verif.Paged.Lemmas
set_option linter.unusedSimpArgs false
set_option linter.unusedVariables false
/-
C49: a PAGED_SPARSE_ARRAY is a sparse set of slots.  C50: the size of a page.
-/
namespace CUtil.Paged
open CUtil Spec

/-- Running a call of the specification on the model. -/
def exec {α : Type} (σ β : Nat) (h : Heap α) (t : Arr) : Op α → C (Res α × Arr × Heap α)
  | .allocate i a => do
    let (r, _, t', h') ← allocate σ β h (some t) i true a
    match t' with
    | some t' => C.ok (.alloc r, t', h')
    | none => C.ub
  | .release i => do
    let (calls, t', h') ← release h (some t) i
    let disposed ← calls.mapM (fun a => do
      let pg ← getPage h a.1
      rd pg.items a.2)
    match t' with
    | some t' => C.ok (.released disposed, t', h')
    | none => C.ub
  | .get i => do
    let (g, p) ← get h (some t) i true
    match p with
    | none => C.ok (.got g none, t, h)
    | some a => do
      let pg ← getPage h a.1
      let c ← rd pg.items a.2
      C.ok (.got g (some c), t, h)
  | .write i v => do
    let (_, p) ← get h (some t) i true
    match p with
    | none => C.ok (.wrote false, t, h)
    | some a => do
      let h' ← store h a v
      C.ok (.wrote true, t, h')

/-- Creation: every accepted size gives an empty array; it is refused for zero sizes, for sizes whose sum passes
2^64, and for want of memory, only. -/
theorem create_spec {α : Type} {h : Heap α} (hf : ∀ q, h.next ≤ q → h.page q = none) {max psz : Nat} (hm : max < w64) (hp : psz < w64)
    (d a : Bool) :
    (create max psz d a = none ↔ max = 0 ∨ psz = 0 ∨ w64 ≤ max + psz - 1 ∨ a = false) ∧
    (∀ t, create max psz d a = some t → Rep h t (fun _ => none) h.page ∧ t.maxSize = max ∧ t.pageSize = psz ∧ t.dispose = d) := by
  unfold create
  by_cases h0 : max = 0 ∨ psz = 0 ∨ max > w64 - 1 - (psz - 1)
  · rw [if_pos h0]
    refine ⟨⟨fun _ => ?_, fun _ => rfl⟩, by simp⟩
    omega
  rw [if_neg h0]
  dsimp only
  cases a with
  | false => simp
  | true =>
    rw [if_neg (by simp)]
    refine ⟨?_, ?_⟩
    · simp only [reduceCtorEq, false_iff, not_or]
      refine ⟨by omega, by omega, by omega, by simp⟩
    · intro t ht
      cases ht
      have hpz : 0 < psz := by omega
      refine ⟨⟨hpz, hp, by simp, ?_, fun _ _ => rfl, hf, hf, ?_, fun _ _ _ _ => rfl, ?_, fun _ _ => rfl⟩, rfl, rfl, rfl⟩
      · dsimp only
        have := Nat.lt_div_mul_add (a := max + psz - 1) hpz
        omega
      · intro i p hp
        rw [List.getElem?_replicate] at hp
        split at hp <;> cases hp
      · intro i j p hp
        rw [List.getElem?_replicate] at hp
        split at hp <;> cases hp

/-- C49: every call has its documented result and effect, for every array whose page size is one that fits (C50),
and leaves the pages of everybody else alone. -/
theorem call_outcome {α : Type} {σ β : Nat} {h : Heap α} {t : Arr} {f : Slots α} {others : Nat → Option (Page α)} (hr : Rep h t f others)
    (hσ : 0 < σ) (hfit : needed σ t.pageSize < w64) (op : Op α) :
    ∃ r t' h' f', exec σ β h t op = C.ok (r, t', h') ∧ Rep h' t' f' others ∧ Means t.maxSize t.dispose f op f' r ∧
      t'.maxSize = t.maxSize ∧ t'.pageSize = t.pageSize ∧ t'.dispose = t.dispose := by
  cases op with
  | allocate k a =>
    simp only [exec, allocate]
    rw [if_neg (by simp)]
    by_cases hk : t.maxSize ≤ k
    · rw [if_pos hk]
      exact ⟨_, _, _, f, rfl, hr, .allocateOut hk, rfl, rfl, rfl⟩
    rw [if_neg hk]
    have hk : k < t.maxSize := by omega
    have hlt := hr.inPages hk
    have hmod : k % t.pageSize < t.pageSize := Nat.mod_lt _ hr.psz
    cases hp : t.pages[k / t.pageSize]? with
    | none => rw [List.getElem?_eq_none_iff] at hp; omega
    | some x =>
      rw [rd_eq_ok.2 hp, C.ok_bind]
      cases x with
      | some p =>
        obtain ⟨pg, e1, e2, e3, e4⟩ := hr.slot hp
        dsimp only
        rcases e4 with ⟨b1, c, b2, b3⟩ | ⟨b1, b2⟩
        · have : allocateIn h t p (k % t.pageSize) = C.ok (.alreadyAllocated, none, t, h) := by
            unfold allocateIn
            rw [getPage_eq e1, C.ok_bind, isAllocated_eq (e3.inBitmap hmod), b1, C.ok_bind]; rfl
          rw [this]
          exact ⟨_, _, _, f, rfl, hr, .allocateTwice hk (by rw [b3]; simp), rfl, rfl, rfl⟩
        · obtain ⟨c, pg', g1, g2, g3⟩ := allocateIn_new (t := t) e1 e3 hr.psz64 hmod (by simpa only [idx] using b2)
          rw [g1]
          refine ⟨_, _, _, f.upd k (some c), rfl, ?_, .allocated hk b2, rfl, rfl, rfl⟩
          refine hr.replace hk hp (fun i hi => by unfold Slots.upd; rw [if_neg hi]) (g3.congr ?_) g2
          intro j hj
          unfold Slots.upd
          by_cases hjk : j = k % t.pageSize
          · subst hjk; rw [if_pos (idx _ _), if_pos rfl]
          · rw [if_neg (idx_ne hj hr.psz (Or.inr hjk)), if_neg hjk]
      | none =>
        have hnone : f k = none := by
          have := hr.noPage _ hp (k % t.pageSize) hmod
          rw [idx] at this; exact this
        dsimp only [allocatePage]
        obtain ⟨q1, q2⟩ := requested_eq hfit hσ
        by_cases ha : w64 ≤ β + requested σ t.pageSize ∨ a = false
        · rw [if_pos ha, C.ok_bind]
          have hset : t.pages.set (k / t.pageSize) none = t.pages := by
            apply List.ext_getElem?
            intro i
            by_cases hi : k / t.pageSize = i
            · subst hi; rw [List.getElem?_set_self hlt, hp]
            · rw [List.getElem?_set_ne hi]
          simp only [C.ok_bind, hset]
          exact ⟨_, _, _, f, rfl, hr, .allocateFails hk hnone, rfl, rfl, rfl⟩
        · rw [if_neg ha, if_pos (by rw [q1]; exact Nat.le_refl _), C.ok_bind, q2]
          dsimp only
          obtain ⟨c, pg', g1, g2, g3⟩ := allocateIn_new (h := ⟨h.next + 1, setPage h.page h.next (some ⟨0, uninit t.pageSize, List.replicate ((t.pageSize + 7) / 8) 0⟩)⟩)
            (p := h.next) (t := { t with pages := t.pages.set (k / t.pageSize) (some h.next) }) (by simp [setPage]) (pageOk_new t.pageSize) hr.psz64 hmod rfl
          rw [g1]
          refine ⟨_, _, _, f.upd k (some c), rfl, ?_, .allocated hk hnone, rfl, rfl, rfl⟩
          refine hr.add (pg' := pg') hk hp (fun i hi => by unfold Slots.upd; rw [if_neg hi]) (g3.congr ?_) g2 ?_ ?_
          · intro j hj
            unfold Slots.upd
            by_cases hjk : j = k % t.pageSize
            · subst hjk; rw [if_pos (idx _ _), if_pos rfl]
            · rw [if_neg (idx_ne hj hr.psz (Or.inr hjk)), if_neg hjk]
              exact hr.noPage _ hp j hj
          · intro q hq
            simp only [setPage]
            rw [if_neg hq, if_neg hq]
          · simp [setPage]
  | release k =>
    simp only [exec, release]
    by_cases hk : t.maxSize ≤ k
    · rw [if_pos hk]
      exact ⟨_, _, _, f, rfl, hr, .releaseNone (hr.out k hk), rfl, rfl, rfl⟩
    rw [if_neg hk]
    have hk : k < t.maxSize := by omega
    have hlt := hr.inPages hk
    have hmod : k % t.pageSize < t.pageSize := Nat.mod_lt _ hr.psz
    cases hp : t.pages[k / t.pageSize]? with
    | none => rw [List.getElem?_eq_none_iff] at hp; omega
    | some x =>
      rw [rd_eq_ok.2 hp, C.ok_bind]
      cases x with
      | none =>
        have hnone : f k = none := by
          have := hr.noPage _ hp (k % t.pageSize) hmod
          rw [idx] at this; exact this
        exact ⟨_, _, _, f, rfl, hr, .releaseNone hnone, rfl, rfl, rfl⟩
      | some p =>
        obtain ⟨pg, e1, e2, e3, e4⟩ := hr.slot hp
        dsimp only
        rw [getPage_eq e1, C.ok_bind, isAllocated_eq (e3.inBitmap hmod), C.ok_bind]
        rcases e4 with ⟨b1, c, b2, b3⟩ | ⟨b1, b2⟩
        · rw [b1, if_neg (by simp)]
          obtain ⟨bm, c1, c2, c3⟩ := clearAllocated_eq (e3.inBitmap hmod)
          rw [c1, C.ok_bind]
          have hclear := e3.clear hr.psz64 hmod (by simp only [idx]; rw [b3]; simp) c2 c3
          have hg : ∀ j, j < t.pageSize → (f.upd k none) (k / t.pageSize * t.pageSize + j) =
              if j = k % t.pageSize then none else f (k / t.pageSize * t.pageSize + j) := by
            intro j hj
            unfold Slots.upd
            by_cases hjk : j = k % t.pageSize
            · subst hjk; rw [if_pos (idx _ _), if_pos rfl]
            · rw [if_neg (idx_ne hj hr.psz (Or.inr hjk)), if_neg hjk]
          have hdisp : (if t.dispose then [(p, k % t.pageSize)] else []).mapM (fun a => getPage h a.1 >>= fun pg => rd pg.items a.2) =
              C.ok (if t.dispose then [c] else []) := by
            cases t.dispose with
            | false => rfl
            | true =>
              rw [if_pos rfl, if_pos rfl, List.mapM_cons, getPage_eq e1, C.ok_bind, rd_eq_ok.2 b2, C.ok_bind]; rfl
          by_cases hz : (pg.count + w64 - 1) % w64 = 0
          · rw [if_pos hz, C.ok_bind]
            dsimp only
            rw [hdisp, C.ok_bind]
            refine ⟨_, _, _, f.upd k none, rfl, ?_, .released b3, rfl, rfl, rfl⟩
            refine hr.drop hk hp (fun i hi => by unfold Slots.upd; rw [if_neg hi]) ?_
            intro j hj
            rw [hg j hj]
            have hne := hclear.nonempty
            dsimp only at hne
            rw [hz] at hne
            apply Classical.byContradiction
            intro h1
            have := hne.2 ⟨j, hj, h1⟩
            omega
          · rw [if_neg hz, C.ok_bind]
            dsimp only
            rw [hdisp, C.ok_bind]
            refine ⟨_, _, _, f.upd k none, rfl, ?_, .released b3, rfl, rfl, rfl⟩
            refine hr.replace hk hp (fun i hi => by unfold Slots.upd; rw [if_neg hi]) (hclear.congr ?_) (by dsimp only; omega)
            intro j hj
            exact hg j hj
        · rw [b1, if_pos rfl]
          exact ⟨_, _, _, f, rfl, hr, .releaseNone b2, rfl, rfl, rfl⟩
  | get k =>
    simp only [exec, get]
    by_cases hk : t.maxSize ≤ k
    · rw [if_pos (Or.inr hk)]
      exact ⟨_, _, _, f, rfl, hr, .getOut hk, rfl, rfl, rfl⟩
    rw [if_neg (by simp; omega)]
    have hk : k < t.maxSize := by omega
    have hlt := hr.inPages hk
    have hmod : k % t.pageSize < t.pageSize := Nat.mod_lt _ hr.psz
    cases hp : t.pages[k / t.pageSize]? with
    | none => rw [List.getElem?_eq_none_iff] at hp; omega
    | some x =>
      rw [rd_eq_ok.2 hp, C.ok_bind]
      cases x with
      | none =>
        have hnone : f k = none := by
          have := hr.noPage _ hp (k % t.pageSize) hmod
          rw [idx] at this; exact this
        exact ⟨_, _, _, f, rfl, hr, .getNone hk hnone, rfl, rfl, rfl⟩
      | some p =>
        obtain ⟨pg, e1, e2, e3, e4⟩ := hr.slot hp
        dsimp only
        rw [getPage_eq e1, C.ok_bind, isAllocated_eq (e3.inBitmap hmod), C.ok_bind]
        rcases e4 with ⟨b1, c, b2, b3⟩ | ⟨b1, b2⟩
        · rw [b1, if_neg (by simp), C.ok_bind]
          dsimp only
          rw [getPage_eq e1, C.ok_bind, rd_eq_ok.2 b2, C.ok_bind]
          exact ⟨_, _, _, f, rfl, hr, .got b3, rfl, rfl, rfl⟩
        · rw [b1, if_pos rfl]
          exact ⟨_, _, _, f, rfl, hr, .getNone hk b2, rfl, rfl, rfl⟩
  | write k v =>
    simp only [exec, get]
    by_cases hk : t.maxSize ≤ k
    · rw [if_pos (Or.inr hk)]
      exact ⟨_, _, _, f, rfl, hr, .writeNone (hr.out k hk), rfl, rfl, rfl⟩
    rw [if_neg (by simp; omega)]
    have hk : k < t.maxSize := by omega
    have hlt := hr.inPages hk
    have hmod : k % t.pageSize < t.pageSize := Nat.mod_lt _ hr.psz
    cases hp : t.pages[k / t.pageSize]? with
    | none => rw [List.getElem?_eq_none_iff] at hp; omega
    | some x =>
      rw [rd_eq_ok.2 hp, C.ok_bind]
      cases x with
      | none =>
        have hnone : f k = none := by
          have := hr.noPage _ hp (k % t.pageSize) hmod
          rw [idx] at this; exact this
        exact ⟨_, _, _, f, rfl, hr, .writeNone hnone, rfl, rfl, rfl⟩
      | some p =>
        obtain ⟨pg, e1, e2, e3, e4⟩ := hr.slot hp
        dsimp only
        rw [getPage_eq e1, C.ok_bind, isAllocated_eq (e3.inBitmap hmod), C.ok_bind]
        rcases e4 with ⟨b1, c, b2, b3⟩ | ⟨b1, b2⟩
        · rw [b1, if_neg (by simp), C.ok_bind]
          dsimp only [store, wr]
          rw [getPage_eq e1, C.ok_bind, if_pos (by rw [e3.items]; exact hmod), C.ok_bind, C.ok_bind]
          refine ⟨_, _, _, f.upd k (some (some v)), rfl, ?_, .wrote (by rw [b3]; simp), rfl, rfl, rfl⟩
          refine hr.replace hk hp (fun i hi => by unfold Slots.upd; rw [if_neg hi]) ?_ e2
          refine ⟨by simp [e3.items], e3.bitmap, e3.count, ?_⟩
          intro j hj
          dsimp only
          unfold Slots.upd
          by_cases hjk : j = k % t.pageSize
          · subst hjk
            rw [if_pos (idx _ _)]
            exact Or.inl ⟨b1, some v, List.getElem?_set_self (by rw [e3.items]; exact hmod), rfl⟩
          · rw [if_neg (idx_ne hj hr.psz (Or.inr hjk)), List.getElem?_set_ne (Ne.symm hjk)]
            exact e3.slot j hj
        · rw [b1, if_pos rfl]
          exact ⟨_, _, _, f, rfl, hr, .writeNone b2, rfl, rfl, rfl⟩

/-- A sequence of calls. -/
def run {α : Type} (σ β : Nat) (h : Heap α) (t : Arr) : List (Op α) → C (List (Res α) × Arr × Heap α)
  | [] => C.ok ([], t, h)
  | op :: ops => do
    let (r, t1, h1) ← exec σ β h t op
    let (rs, t2, h2) ← run σ β h1 t1 ops
    C.ok (r :: rs, t2, h2)

/-- C49 for histories. -/
theorem history_outcome {α : Type} {σ β : Nat} {others : Nat → Option (Page α)} (hσ : 0 < σ) (ops : List (Op α)) :
    ∀ {h : Heap α} {t : Arr} {f : Slots α}, Rep h t f others → needed σ t.pageSize < w64 →
    ∃ rs t' h' f', run σ β h t ops = C.ok (rs, t', h') ∧ Rep h' t' f' others ∧ Run t.maxSize t.dispose f ops f' rs := by
  induction ops with
  | nil => intro h t f hr _; exact ⟨_, _, _, f, rfl, hr, .nil⟩
  | cons op ops ih =>
    intro h t f hr hfit
    obtain ⟨r, t1, h1, f1, e1, e2, e3, e4, e5, e6⟩ := call_outcome (β := β) hr hσ hfit op
    obtain ⟨rs, t2, h2, f2, g1, g2, g3⟩ := ih e2 (by rw [e5]; exact hfit)
    refine ⟨r :: rs, t2, h2, f2, ?_, g2, .cons e3 (by rw [e4, e6] at g3; exact g3)⟩
    simp only [run, e1, C.ok_bind, g1]

/-- With memory, allocation never answers `error`. -/
theorem allocate_ok {α : Type} {σ β : Nat} {h : Heap α} {t : Arr} {f : Slots α} {others : Nat → Option (Page α)} (hr : Rep h t f others)
    (hσ : 0 < σ) (hfit : β + needed σ t.pageSize < w64) {k : Nat} (hk : k < t.maxSize) (hn : f k = none) :
    ∃ o t' h', allocate σ β h (some t) k true true = C.ok (.ok, some o, some t', h') ∧ get h' (some t') k true = C.ok (.ok, some o) := by
  have hfit' : needed σ t.pageSize < w64 := by omega
  have hlt := hr.inPages hk
  have hmod : k % t.pageSize < t.pageSize := Nat.mod_lt _ hr.psz
  have fin : ∀ (h1 : Heap α) (t1 : Arr) (p : Nat) (pg : Page α) (g : Nat → Option (Option α)), t1.maxSize = t.maxSize → t1.pageSize = t.pageSize →
      t1.pages[k / t.pageSize]? = some (some p) → h1.page p = some pg → PageOk t.pageSize pg g → g (k % t.pageSize) = none →
      ∃ h', allocateIn h1 t1 p (k % t.pageSize) = C.ok (.ok, some (p, k % t.pageSize), t1, h') ∧
        get h' (some t1) k true = C.ok (.ok, some (p, k % t.pageSize)) := by
    intro h1 t1 p pg g m1 m2 m3 m4 m5 m6
    obtain ⟨c, pg', g1, g2, g3⟩ := allocateIn_new (t := t1) m4 m5 hr.psz64 hmod m6
    refine ⟨_, g1, ?_⟩
    unfold get
    dsimp only
    rw [m1, m2, if_neg (by simp; omega), rd_eq_ok.2 m3, C.ok_bind]
    dsimp only
    rw [getPage_eq (pg := pg') (by simp [setPage]), C.ok_bind, isAllocated_eq (g3.inBitmap hmod), C.ok_bind]
    rcases g3.slot _ hmod with ⟨x1, _⟩ | ⟨_, x2⟩
    · rw [x1, if_neg (by simp)]
    · rw [if_pos rfl] at x2; cases x2
  unfold allocate
  dsimp only
  rw [if_neg (by simp), if_neg (by omega)]
  cases hp : t.pages[k / t.pageSize]? with
  | none => rw [List.getElem?_eq_none_iff] at hp; omega
  | some x =>
    rw [rd_eq_ok.2 hp, C.ok_bind]
    cases x with
    | some p =>
      obtain ⟨pg, e1, e2, e3, e4⟩ := hr.slot hp
      obtain ⟨h', f1, f2⟩ := fin h t p pg _ rfl rfl hp e1 e3 (by simpa only [idx] using hn)
      dsimp only
      rw [f1, C.ok_bind]
      exact ⟨_, _, _, rfl, f2⟩
    | none =>
      obtain ⟨q1, q2⟩ := requested_eq hfit' hσ
      dsimp only [allocatePage]
      rw [q1, if_neg (by simp; omega), if_pos (Nat.le_refl _), C.ok_bind, q2]
      obtain ⟨h', f1, f2⟩ := fin ⟨h.next + 1, setPage h.page h.next (some ⟨0, uninit t.pageSize, List.replicate ((t.pageSize + 7) / 8) 0⟩)⟩
        { t with pages := t.pages.set (k / t.pageSize) (some h.next) } h.next _ (fun _ => none) rfl rfl (List.getElem?_set_self hlt) (by simp [setPage])
        (pageOk_new t.pageSize) rfl
      dsimp only
      rw [f1, C.ok_bind]
      exact ⟨_, _, _, rfl, f2⟩

/-- What `get` answers in terms of the slots, and where the element is. -/
theorem get_iff {α : Type} {h : Heap α} {t : Arr} {f : Slots α} {others : Nat → Option (Page α)} (hr : Rep h t f others) (k : Nat) (a : Nat × Nat) :
    get h (some t) k true = C.ok (.ok, some a) ↔
      f k ≠ none ∧ t.pages[k / t.pageSize]? = some (some a.1) ∧ a.2 = k % t.pageSize := by
  have hmod : k % t.pageSize < t.pageSize := Nat.mod_lt _ hr.psz
  unfold get
  dsimp only
  by_cases hk : t.maxSize ≤ k
  · rw [if_pos (Or.inr hk)]
    constructor
    · intro h; cases h
    · rintro ⟨h1, _⟩; exact absurd (hr.out k hk) h1
  rw [if_neg (by simp; omega)]
  have hlt := hr.inPages (k := k) (by omega)
  cases hp : t.pages[k / t.pageSize]? with
  | none => rw [List.getElem?_eq_none_iff] at hp; omega
  | some x =>
    rw [rd_eq_ok.2 hp, C.ok_bind]
    cases x with
    | none =>
      constructor
      · intro h; cases h
      · rintro ⟨_, h1, _⟩; cases h1
    | some p =>
      obtain ⟨pg, e1, e2, e3, e4⟩ := hr.slot hp
      dsimp only
      rw [getPage_eq e1, C.ok_bind, isAllocated_eq (e3.inBitmap hmod), C.ok_bind]
      rcases e4 with ⟨b1, c, b2, b3⟩ | ⟨b1, b2⟩
      · rw [b1, if_neg (by simp)]
        constructor
        · intro h; cases h
          exact ⟨by rw [b3]; simp, rfl, rfl⟩
        · rintro ⟨_, h1, h2⟩
          obtain ⟨x, y⟩ := a
          cases h1; cases h2; rfl
      · rw [b1, if_pos rfl]
        constructor
        · intro h; cases h
        · rintro ⟨h1, _⟩; exact absurd b2 h1

/-- Distinct indices never share storage. -/
theorem storage_distinct {α : Type} {h : Heap α} {t : Arr} {f : Slots α} {others : Nat → Option (Page α)} (hr : Rep h t f others) {i j : Nat}
    {a : Nat × Nat} (hi : get h (some t) i true = C.ok (.ok, some a)) (hj : get h (some t) j true = C.ok (.ok, some a)) : i = j := by
  obtain ⟨_, h1, h2⟩ := (get_iff hr i a).1 hi
  obtain ⟨_, h3, h4⟩ := (get_iff hr j a).1 hj
  have h5 := hr.apart _ _ _ h1 h3
  rw [← idx i t.pageSize, ← idx j t.pageSize, h5, ← h2, ← h4]

/-- A page exists exactly when it holds an allocated element. -/
theorem page_iff {α : Type} {h : Heap α} {t : Arr} {f : Slots α} {others : Nat → Option (Page α)} (hr : Rep h t f others) {i : Nat}
    (hi : i < t.pages.length) : (∃ p, t.pages[i]? = some (some p)) ↔ ∃ k, k / t.pageSize = i ∧ f k ≠ none := by
  constructor
  · rintro ⟨p, hp⟩
    obtain ⟨_, pg, e1, e2, e3⟩ := hr.page i p hp
    obtain ⟨j, hj, hf⟩ := e3.nonempty.1 e2
    refine ⟨i * t.pageSize + j, ?_, hf⟩
    rw [Nat.mul_comm, Nat.mul_add_div hr.psz, Nat.div_eq_of_lt hj, Nat.add_zero]
  · rintro ⟨k, hk, hf⟩
    cases hx : t.pages[i]? with
    | none => rw [List.getElem?_eq_none_iff] at hx; omega
    | some x =>
      cases x with
      | some p => exact ⟨p, rfl⟩
      | none =>
        have := hr.noPage i hx (k % t.pageSize) (Nat.mod_lt _ hr.psz)
        rw [← hk, idx] at this
        exact absurd this hf

/-! ### Dispose -/

theorem disposeItems_spec {bm : List Nat} {p : Nat} : ∀ (n j : Nat), (j + n + 7) / 8 ≤ bm.length →
    ∃ calls, disposeItems bm p n j = C.ok calls ∧ calls.Nodup ∧ ∀ a, a ∈ calls ↔ a.1 = p ∧ j ≤ a.2 ∧ a.2 < j + n ∧ bit bm a.2 = true := by
  intro n
  induction n with
  | zero => intro j _; exact ⟨[], rfl, by simp, by intro a; simp; omega⟩
  | succ n ih =>
    intro j hj
    obtain ⟨calls, e1, e2, e3⟩ := ih (j + 1) (by omega)
    unfold disposeItems
    rw [isAllocated_eq (by omega), C.ok_bind, e1, C.ok_bind]
    cases hb : bit bm j with
    | true =>
      rw [if_pos rfl]
      refine ⟨_, rfl, ?_, ?_⟩
      · rw [List.nodup_cons]
        refine ⟨?_, e2⟩
        rw [e3]
        rintro ⟨_, h, _⟩
        dsimp only at h
        omega
      · intro a
        rw [List.mem_cons, e3]
        constructor
        · rintro (rfl | ⟨h1, h2, h3, h4⟩)
          · exact ⟨rfl, Nat.le_refl _, by dsimp only; omega, hb⟩
          · exact ⟨h1, by omega, by omega, h4⟩
        · rintro ⟨h1, h2, h3, h4⟩
          by_cases h5 : a.2 = j
          · left
            obtain ⟨x, y⟩ := a
            dsimp only at h1 h5
            rw [h1, h5]
          · exact Or.inr ⟨h1, by omega, by omega, h4⟩
    | false =>
      rw [if_neg (by simp)]
      refine ⟨_, rfl, e2, ?_⟩
      intro a
      rw [e3]
      constructor
      · rintro ⟨h1, h2, h3, h4⟩; exact ⟨h1, by omega, by omega, h4⟩
      · rintro ⟨h1, h2, h3, h4⟩
        refine ⟨h1, ?_, by omega, h4⟩
        rcases Nat.lt_or_ge j a.2 with h5 | h5
        · omega
        · have : a.2 = j := by omega
          rw [this, hb] at h4; cases h4

theorem disposePages_spec {α : Type} {t : Arr} {pm : Nat → Option (Page α)}
    (hok : ∀ (i p : Nat), t.pages[i]? = some (some p) → ∃ pg, pm p = some pg ∧ pg.bitmap.length = (t.pageSize + 7) / 8)
    (hap : ∀ (i j p : Nat), t.pages[i]? = some (some p) → t.pages[j]? = some (some p) → i = j) :
    ∀ (n i : Nat) (h : Heap α), i + n = t.pages.length →
    (∀ (j p : Nat), i ≤ j → t.pages[j]? = some (some p) → h.page p = pm p) →
    ∃ calls h', disposePages t n i h = C.ok (calls, h') ∧ calls.Nodup ∧
      (∀ a, a ∈ calls ↔ t.dispose = true ∧ ∃ (j : Nat) (pg : Page α), i ≤ j ∧ t.pages[j]? = some (some a.1) ∧ pm a.1 = some pg ∧ a.2 < t.pageSize ∧ bit pg.bitmap a.2 = true) ∧
      (∀ (j p : Nat), i ≤ j → t.pages[j]? = some (some p) → h'.page p = none) ∧
      (∀ q, (∀ j : Nat, i ≤ j → t.pages[j]? ≠ some (some q)) → h'.page q = h.page q) := by
  intro n
  induction n with
  | zero =>
    intro i h hi _
    refine ⟨[], h, rfl, by simp, ?_, ?_, fun _ _ => rfl⟩
    · intro a
      simp only [List.not_mem_nil, false_iff]
      rintro ⟨_, j, pg, hj, hj', _⟩
      rw [List.getElem?_eq_none (by omega)] at hj'; cases hj'
    · intro j p hj hj'
      rw [List.getElem?_eq_none (by omega)] at hj'; cases hj'
  | succ n ih =>
    intro i h hi hsame
    unfold disposePages
    cases hx : t.pages[i]? with
    | none => rw [List.getElem?_eq_none_iff] at hx; omega
    | some x =>
      rw [rd_eq_ok.2 hx, C.ok_bind]
      cases x with
      | none =>
        obtain ⟨calls, h', e1, e2, e3, e4, e5⟩ := ih (i + 1) h (by omega) (fun j p hj hp => hsame j p (by omega) hp)
        have hne : ∀ (j p : Nat), i ≤ j → t.pages[j]? = some (some p) → i + 1 ≤ j := by
          intro j p hj hp
          by_cases hji : j = i
          · subst hji; rw [hx] at hp; cases hp
          · omega
        refine ⟨calls, h', e1, e2, ?_, ?_, ?_⟩
        · intro a
          rw [e3]
          constructor
          · rintro ⟨hd, j, pg, h1, h2, h3⟩; exact ⟨hd, j, pg, by omega, h2, h3⟩
          · rintro ⟨hd, j, pg, h1, h2, h3⟩; exact ⟨hd, j, pg, hne j _ h1 h2, h2, h3⟩
        · intro j p hj hp
          exact e4 j p (hne j p hj hp) hp
        · intro q hq
          exact e5 q (fun j hj => hq j (by omega))
      | some p =>
        obtain ⟨pg, p1, p2⟩ := hok i p hx
        dsimp only
        rw [getPage_eq (pg := pg) (by rw [hsame i p (Nat.le_refl _) hx, p1]), C.ok_bind]
        obtain ⟨cs, c1, c2, c3⟩ := disposeItems_spec (bm := pg.bitmap) (p := p) t.pageSize 0 (by rw [p2]; omega)
        obtain ⟨calls, h', e1, e2, e3, e4, e5⟩ := ih (i + 1) ⟨h.next, setPage h.page p none⟩ (by omega) (by
          intro j q hj hq
          dsimp only [setPage]
          rw [if_neg]
          · exact hsame j q (by omega) hq
          · rintro rfl
            have := hap _ _ _ hq hx; omega)
        have hdisj : ∀ a, a ∈ calls → a.1 ≠ p := by
          intro a ha
          rw [e3] at ha
          obtain ⟨_, j, _, h1, h2, _⟩ := ha
          rintro rfl
          have := hap _ _ _ h2 hx; omega
        have heap : (∀ (j q : Nat), i ≤ j → t.pages[j]? = some (some q) → h'.page q = none) ∧
            (∀ q, (∀ j : Nat, i ≤ j → t.pages[j]? ≠ some (some q)) → h'.page q = h.page q) := by
          refine ⟨?_, ?_⟩
          · intro j q hj hq
            by_cases hji : j = i
            · subst hji
              rw [hx] at hq; cases hq
              rw [e5 p]
              · simp [setPage]
              · intro k hk hk'
                have := hap _ _ _ hk' hx; omega
            · exact e4 j q (by omega) hq
          · intro q hq
            rw [e5 q (fun j hj => hq j (by omega))]
            dsimp only [setPage]
            rw [if_neg]
            rintro rfl
            exact hq i (Nat.le_refl _) hx
        cases hd : t.dispose with
        | true =>
          rw [if_pos rfl, c1, C.ok_bind, e1, C.ok_bind]
          refine ⟨cs ++ calls, h', rfl, ?_, ?_, heap.1, heap.2⟩
          · rw [List.nodup_append]
            refine ⟨c2, e2, ?_⟩
            intro a ha b hb hab
            subst hab
            exact hdisj a hb ((c3 a).1 ha).1
          · intro a
            rw [List.mem_append, c3, e3, hd]
            constructor
            · rintro (⟨h1, h2, h3, h4⟩ | ⟨_, j, pg', h1, h2, h3⟩)
              · exact ⟨rfl, i, pg, Nat.le_refl _, by rw [h1]; exact hx, by rw [h1]; exact p1, by omega, h4⟩
              · exact ⟨rfl, j, pg', by omega, h2, h3⟩
            · rintro ⟨_, j, pg', h1, h2, h3, h4, h5⟩
              by_cases hji : j = i
              · subst hji
                rw [hx] at h2; cases h2
                rw [p1] at h3; cases h3
                exact Or.inl ⟨rfl, by omega, by omega, h5⟩
              · exact Or.inr ⟨rfl, j, pg', by omega, h2, h3, h4, h5⟩
        | false =>
          rw [if_neg (by simp), C.ok_bind, e1, C.ok_bind]
          refine ⟨[] ++ calls, h', rfl, e2, ?_, heap.1, heap.2⟩
          intro a
          rw [List.nil_append, e3, hd]
          simp

/-- Disposing calls the dispose function, if there is one, exactly once for each element still allocated, on the
memory `get` gives for it, frees every page (once: twice would be undefined) and touches nothing else. -/
theorem dispose_spec {α : Type} {h : Heap α} {t : Arr} {f : Slots α} {others : Nat → Option (Page α)} (hr : Rep h t f others) :
    ∃ calls h', dispose h t = C.ok (calls, h') ∧ calls.Nodup ∧ (t.dispose = false → calls = []) ∧
      (t.dispose = true → ∀ a, a ∈ calls ↔ ∃ k, get h (some t) k true = C.ok (.ok, some a)) ∧ ∀ q, h'.page q = others q := by
  obtain ⟨calls, h', e1, e2, e3, e4, e5⟩ := disposePages_spec (t := t) (pm := h.page) (by
    intro i p hp
    obtain ⟨_, pg, g1, _, g3⟩ := hr.page i p hp
    exact ⟨pg, g1, g3.bitmap⟩) hr.apart t.pageCount 0 h (by rw [hr.pages]; omega) (fun _ _ _ _ => rfl)
  refine ⟨calls, h', e1, e2, ?_, ?_, ?_⟩
  · intro hd
    rw [List.eq_nil_iff_forall_not_mem]
    intro a
    rw [e3, hd]
    simp
  · intro hd a
    rw [e3, hd]
    constructor
    · rintro ⟨_, j, pg, h1, h2, h3, h4, h5⟩
      refine ⟨j * t.pageSize + a.2, ?_⟩
      rw [get_iff hr]
      have hdiv : (j * t.pageSize + a.2) / t.pageSize = j := by
        rw [Nat.mul_comm, Nat.mul_add_div hr.psz, Nat.div_eq_of_lt h4, Nat.add_zero]
      have hmod : (j * t.pageSize + a.2) % t.pageSize = a.2 := by
        rw [Nat.mul_comm, Nat.mul_add_mod, Nat.mod_eq_of_lt h4]
      rw [hdiv, hmod]
      refine ⟨?_, h2, rfl⟩
      obtain ⟨_, pg', g1, _, g3⟩ := hr.page j a.1 h2
      rw [h3] at g1; cases g1
      rcases g3.slot a.2 h4 with ⟨_, c, _, g4⟩ | ⟨g4, _⟩
      · rw [g4]; simp
      · rw [h5] at g4; cases g4
    · rintro ⟨k, hk⟩
      obtain ⟨h1, h2, h3⟩ := (get_iff hr k a).1 hk
      obtain ⟨pg, g1, g2, g3, g4⟩ := hr.slot h2
      refine ⟨rfl, k / t.pageSize, pg, Nat.zero_le _, h2, g1, by rw [h3]; exact Nat.mod_lt _ hr.psz, ?_⟩
      rcases g4 with ⟨b1, _⟩ | ⟨_, b2⟩
      · rw [h3]; exact b1
      · exact absurd b2 h1
  · intro q
    by_cases hq : ∃ j : Nat, t.pages[j]? = some (some q)
    · obtain ⟨j, hj⟩ := hq
      rw [e4 j q (by omega) hj, (hr.page j q hj).1]
    · have hq' : ∀ j : Nat, t.pages[j]? ≠ some (some q) := fun j hj => hq ⟨j, hj⟩
      rw [e5 q (fun j _ => hq' j)]
      exact hr.rest q hq'

/-- The dispose call of a release is on the memory `get` gives for the element. -/
theorem release_call {α : Type} {h : Heap α} {t : Arr} {f : Slots α} {others : Nat → Option (Page α)} (hr : Rep h t f others) {k : Nat} {a : Nat × Nat}
    (hg : get h (some t) k true = C.ok (.ok, some a)) (hd : t.dispose = true) :
    ∃ t' h', release h (some t) k = C.ok ([a], t', h') := by
  obtain ⟨h1, h2, h3⟩ := (get_iff hr k a).1 hg
  have hmod : k % t.pageSize < t.pageSize := Nat.mod_lt _ hr.psz
  have hk : ¬ t.maxSize ≤ k := fun h => h1 (hr.out k h)
  obtain ⟨pg, e1, e2, e3, e4⟩ := hr.slot h2
  rcases e4 with ⟨b1, c, b2, b3⟩ | ⟨_, b2⟩
  · obtain ⟨bm, c1, c2, c3⟩ := clearAllocated_eq (e3.inBitmap hmod)
    unfold release
    dsimp only
    rw [if_neg hk, rd_eq_ok.2 h2, C.ok_bind]
    dsimp only
    rw [getPage_eq e1, C.ok_bind, isAllocated_eq (e3.inBitmap hmod), b1, C.ok_bind, if_neg (by simp), c1, C.ok_bind, hd, if_pos rfl]
    have : (a.1, k % t.pageSize) = a := by rw [← h3]
    rw [this]
    split
    · exact ⟨_, _, rfl⟩
    · exact ⟨_, _, rfl⟩
  · exact absurd b2 h1

/-- Refusals. -/
theorem refusals {α : Type} (σ β k : Nat) (h : Heap α) (a o : Bool) (t : Arr) :
    allocate σ β h none k o a = C.ok (.invalidArgs, none, none, h) ∧ allocate σ β h (some t) k false a = C.ok (.invalidArgs, none, some t, h) ∧
    release h none k = C.ok ([], none, h) ∧ get h none k o = C.ok (.invalidArgs, none) ∧ get h (some t) k false = C.ok (.invalidArgs, none) :=
  ⟨rfl, rfl, rfl, rfl, by simp [get]⟩

/-! ### C50 -/

/-- Page sizes that fit: the memory asked for is exactly what is needed. -/
theorem page_size_partial {σ psz : Nat} (h : needed σ psz < w64) (hσ : 0 < σ) : requested σ psz = needed σ psz :=
  (requested_eq h hσ).1

/-- Exactly those fit: the sum always wraps otherwise. -/
theorem page_size_iff {σ psz : Nat} (hσ : 0 < σ) : needed σ psz ≤ requested σ psz ↔ needed σ psz < w64 := by
  constructor
  · intro h
    refine Nat.lt_of_le_of_lt h ?_
    exact Nat.mod_lt _ (by simp only [w64]; omega)
  · intro h
    rw [(requested_eq h hσ).1]
    exact Nat.le_refl _

/-- C50 is false of the code: an array of 8 byte items with a page size that CREATE accepts, for which ALLOCATE asks for
80 bytes or less, gets them, and then clears a bitmap 2^60 bytes away. -/
theorem page_size_overflow {α : Type} :
    ∃ psz t, create psz psz false true = some t ∧ t.pageSize = psz ∧ requested 8 psz < 65 ∧ needed 8 psz > w64 ∧
      allocate (α := α) 8 8 ⟨0, fun _ => none⟩ (some t) 0 true true = C.ub := by
  refine ⟨8 * 283796062672454641, ⟨8 * 283796062672454641, 8 * 283796062672454641, 1, false, [none]⟩, ?_, rfl, by decide +kernel, by decide +kernel, ?_⟩
  · unfold create
    rw [if_neg (by decide +kernel)]
    have : (8 * 283796062672454641 + 8 * 283796062672454641 - 1) / (8 * 283796062672454641) = 1 := by decide +kernel
    simp only [this]
    rfl
  · unfold allocate
    dsimp only
    rw [if_neg (by simp), if_neg (by decide +kernel)]
    have hd : 0 / (8 * 283796062672454641) = 0 := Nat.zero_div _
    rw [hd]
    show (rd [none] 0 >>= _) = C.ub
    have : rd [(none : Option Nat)] 0 = C.ok none := rfl
    rw [this, C.ok_bind]
    dsimp only [allocatePage]
    rw [if_neg (by decide +kernel), if_neg (by decide +kernel)]
    rfl

/-- In general: whenever the sum wraps and the (too small) block is granted, the first allocation is undefined. -/
theorem allocate_wraps_ub {α : Type} {σ β : Nat} {h : Heap α} {t : Arr} {f : Slots α} {others : Nat → Option (Page α)} (hr : Rep h t f others)
    (hσ : 0 < σ) {k : Nat} (hk : k < t.maxSize) (hp : t.pages[k / t.pageSize]? = some none) (hwrap : w64 ≤ needed σ t.pageSize)
    (hgrant : β + requested σ t.pageSize < w64) : allocate σ β h (some t) k true true = C.ub := by
  unfold allocate
  dsimp only
  rw [if_neg (by simp), if_neg (by omega), rd_eq_ok.2 hp, C.ok_bind]
  dsimp only [allocatePage]
  rw [if_neg (by simp; omega), if_neg]
  · rfl
  · rw [page_size_iff hσ]; omega

/-! ### Witness -/

def emptyHeap : Heap Nat := ⟨0, fun _ => none⟩

example : (match create 25 10 true true with
    | some t => (match run 8 8 emptyHeap t [.allocate 13 true, .write 13 7, .allocate 19 true, .release 13] with
      | C.ok (rs, t', h') => (rs.getLast?.map (fun r => match r with | .released l => l | _ => []), t'.pages, get h' (some t') 19 true)
      | C.ub => (none, [], C.ub))
    | _ => (none, [], C.ub)) = (some [some 7], [none, some 0, none], C.ok (.ok, some (0, 9))) := by decide +kernel

example : ∃ t, Rep emptyHeap t (fun _ => none) (fun _ => none) ∧ needed 8 t.pageSize < w64 :=
  ⟨_, ((create_spec (h := emptyHeap) (fun _ _ => rfl) (max := 25) (psz := 10) (by decide) (by decide) true true).2 _ rfl).1, by decide⟩

end CUtil.Paged
