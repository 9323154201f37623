import Verif.TwoD.Model
set_option linter.unusedSimpArgs false
set_option linter.unusedVariables false
/-
C48: rows of a TWO_D_ARRAY.
-/
namespace CUtil.TwoD
open CUtil

/-! ### Specification: a partial function from row numbers to rows -/

/-- What the user sees: which rows exist, and what they hold. -/
abbrev Rows (α : Type) := Nat → Option (List (Option α))

def Rows.upd {α : Type} (f : Rows α) (i : Nat) (r : Option (List (Option α))) : Rows α := fun j => if j = i then r else f j

/-- Calls; `write i j v` asks for row `i` and, if there is one, writes to its column `j`. -/
inductive Op (α : Type) where
  | allocate (i : Nat) (a : Bool)
  | free (i : Nat)
  | get (i : Nat)
  | write (i j : Nat) (v : α)

/-- Results: success, or not; or, for `get`, the row. -/
inductive Res (α : Type) where
  | int (n : Nat)
  | got (g : GetResult) (row : Option (List (Option α)))

/-- The documented effect of a call on an array of `rows` by `cols`. -/
inductive Means {α : Type} (σ rows cols : Nat) : Rows α → Op α → Rows α → Res α → Prop where
  | allocated {f i} : i < rows → f i = none → Means σ rows cols f (.allocate i true) (f.upd i (some (uninit cols))) (.int 0)
  | allocateOut {f i a} : rows ≤ i → Means σ rows cols f (.allocate i a) f (.int 1)
  | allocateTwice {f i a} : f i ≠ none → Means σ rows cols f (.allocate i a) f (.int 1)
  | allocateFails {f i a} : a = false ∨ 18446744073709551616 ≤ cols * σ → Means σ rows cols f (.allocate i a) f (.int 1)
  | freed {f i} : i < rows → f i ≠ none → Means σ rows cols f (.free i) (f.upd i none) (.int 0)
  | freeOut {f i} : rows ≤ i → Means σ rows cols f (.free i) f (.int 1)
  | freeNone {f i} : f i = none → Means σ rows cols f (.free i) f (.int 1)
  | got {f i r} : i < rows → f i = some r → Means σ rows cols f (.get i) f (.got .ok (some r))
  | getNone {f i} : i < rows → f i = none → Means σ rows cols f (.get i) f (.got .notAllocated none)
  | getOut {f i} : rows ≤ i → Means σ rows cols f (.get i) f (.got .invalidArgs none)
  | wrote {f i j v r} : i < rows → f i = some r → j < cols → Means σ rows cols f (.write i j v) (f.upd i (some (r.set j (some v)))) (.int 0)
  | writeNone {f i j v} : rows ≤ i ∨ f i = none → Means σ rows cols f (.write i j v) f (.int 1)

/-- Calls a user may make: everything, but writes only into columns in range. -/
def Legal {α : Type} (cols : Nat) : Op α → Prop
  | .write _ j _ => j < cols
  | _ => True

/-! ### Running the model -/

def exec {α : Type} (σ : Nat) (h : Heap α) (t : Arr) : Op α → C (Res α × Arr × Heap α)
  | .allocate i a => do
    let (r, t', h') ← allocateNewRow σ h (some t) i a
    match t' with
    | some t' => C.ok (.int r, t', h')
    | none => C.ub
  | .free i => do
    let (r, t', h') ← freeRow h (some t) i
    match t' with
    | some t' => C.ok (.int r, t', h')
    | none => C.ub
  | .get i => do
    let (g, p) ← getRow (some t) i true
    match p with
    | none => C.ok (.got g none, t, h)
    | some p => match h.blk p with
      | some m => C.ok (.got g (some m), t, h)
      | none => C.ub
  | .write i j v => do
    let (_, p) ← getRow (some t) i true
    match p with
    | none => C.ok (.int 1, t, h)
    | some p => do
      let h' ← write h p j v
      C.ok (.int 0, t, h')

/-- The array `t` on heap `h` is an array of `rows` by `cols` whose rows are `f`; `others` are the blocks
that are not the array's. -/
structure Rep {α : Type} (h : Heap α) (t : Arr) (rows cols : Nat) (f : Rows α) (others : Nat → Option (List (Option α))) : Prop where
  rows_eq : t.rows = rows
  cols_eq : t.cols = cols
  len : t.rowArrays.length = rows
  fresh : ∀ q, h.next ≤ q → h.blk q = none
  old : ∀ q, h.next ≤ q → others q = none
  hdr : h.blk t.hdr ≠ none
  out : ∀ i, rows ≤ i → f i = none
  /-- the row pointers are the blocks of the rows -/
  row : ∀ i, i < rows → (∃ p r, t.rowArrays[i]? = some (some p) ∧ h.blk p = some r ∧ f i = some r ∧ r.length = cols ∧ p ≠ t.hdr ∧ others p = none) ∨
    (t.rowArrays[i]? = some none ∧ f i = none)
  /-- no two rows share a block -/
  apart : ∀ (i j p : Nat), t.rowArrays[i]? = some (some p) → t.rowArrays[j]? = some (some p) → i = j
  hdrOwn : others t.hdr = none
  /-- there is nothing else -/
  rest : ∀ q, q ≠ t.hdr → (∀ i : Nat, t.rowArrays[i]? ≠ some (some q)) → h.blk q = others q

theorem rd_get {α : Type} {l : List α} {i : Nat} {a : α} (h : l[i]? = some a) : rd l i = C.ok a := rd_eq_ok.2 h

/-! ### Properties -/

/-- Creation. -/
theorem create_spec {α : Type} {h : Heap α} (hf : ∀ q, h.next ≤ q → h.blk q = none) (rows cols : Nat) (a : Bool) :
    ((create h rows cols a).1 = none ↔ rows = 0 ∨ cols = 0 ∨ a = false) ∧
    ((create h rows cols a).1 = none → (create h rows cols a).2 = h) ∧
    (∀ t, (create h rows cols a).1 = some t → Rep (create h rows cols a).2 t rows cols (fun _ => none) h.blk) := by
  unfold create
  by_cases h0 : rows = 0 ∨ cols = 0
  · rw [if_pos h0]
    refine ⟨⟨fun _ => ?_, fun _ => rfl⟩, fun _ => rfl, by simp⟩
    rcases h0 with h0 | h0 <;> simp [h0]
  rw [if_neg h0]
  rw [not_or] at h0
  cases a with
  | false => simp
  | true =>
    rw [if_neg (by simp)]
    dsimp only [malloc]
    refine ⟨by simp [h0.1, h0.2], by simp, ?_⟩
    intro t ht
    cases ht
    refine ⟨rfl, rfl, by simp, ?_, ?_, ?_, fun _ _ => rfl, ?_, ?_, hf _ (Nat.le_refl _), ?_⟩
    · intro q hq
      dsimp only [setBlk] at hq ⊢
      rw [if_neg (by omega)]; exact hf q (by omega)
    · intro q hq
      dsimp only at hq
      exact hf q (by omega)
    · dsimp only [setBlk]; rw [if_pos rfl]; simp
    · intro i hi
      exact Or.inr ⟨by simp [hi], rfl⟩
    · intro i j p h1 _
      dsimp only at h1
      rw [List.getElem?_replicate] at h1
      split at h1 <;> cases h1
    · intro q hq _
      dsimp only [setBlk] at hq ⊢
      rw [if_neg hq]

/-- C48: every legal call on a represented array has the documented result and effect, and leaves the blocks of
everybody else alone. -/
theorem call_outcome {α : Type} {σ : Nat} {h : Heap α} {t : Arr} {rows cols : Nat} {f : Rows α} {others : Nat → Option (List (Option α))}
    (hr : Rep h t rows cols f others) (op : Op α) (hl : Legal cols op) :
    ∃ r t' h' f', exec σ h t op = C.ok (r, t', h') ∧ Rep h' t' rows cols f' others ∧ Means σ rows cols f op f' r := by
  have hlt : ∀ p, h.blk p ≠ none → p < h.next := by
    intro p hp
    rcases Nat.lt_or_ge p h.next with h1 | h1
    · exact h1
    · exact absurd (hr.fresh p h1) hp
  have hidx : ∀ {i : Nat} {x : Option Nat}, t.rowArrays[i]? = some x → i < rows := by
    intro i x hx
    rcases Nat.lt_or_ge i rows with h1 | h1
    · exact h1
    · rw [List.getElem?_eq_none (by rw [hr.len]; exact h1)] at hx; cases hx
  cases op with
  | allocate i a =>
    simp only [exec, allocateNewRow, hr.rows_eq, hr.cols_eq]
    by_cases hi : rows ≤ i
    · rw [if_pos hi]
      exact ⟨_, _, _, f, rfl, hr, .allocateOut hi⟩
    rw [if_neg hi]
    rcases hr.row i (by omega) with ⟨p, r, e1, e2, e3, e4, e5, e6⟩ | ⟨e1, e2⟩
    · rw [rd_get e1, C.ok_bind]
      exact ⟨_, _, _, f, rfl, hr, .allocateTwice (by rw [e3]; simp)⟩
    · rw [rd_get e1, C.ok_bind]
      dsimp only
      by_cases hm : sizeMax ≤ cols * σ ∨ a = false
      · rw [if_pos hm]
        exact ⟨_, _, _, f, rfl, hr, .allocateFails hm.symm⟩
      rw [if_neg hm]
      rw [not_or] at hm
      have ha : a = true := by cases a with
        | true => rfl
        | false => exact absurd rfl hm.2
      subst ha
      dsimp only [malloc]
      have hil : i < t.rowArrays.length := by rw [hr.len]; omega
      have hhdr := hlt _ hr.hdr
      refine ⟨_, _, _, f.upd i (some (uninit cols)), rfl, ?_, .allocated (by omega) e2⟩
      refine ⟨rfl, rfl, by simp [hr.len], ?_, ?_, ?_, ?_, ?_, ?_, hr.hdrOwn, ?_⟩
      · intro q hq
        dsimp only [setBlk] at hq ⊢
        rw [if_neg (by omega)]; exact hr.fresh q (by omega)
      · intro q hq
        dsimp only at hq
        exact hr.old q (by omega)
      · dsimp only [setBlk]; rw [if_neg (by omega)]; exact hr.hdr
      · intro j hj
        unfold Rows.upd
        rw [if_neg (by omega)]; exact hr.out j hj
      · intro j hj
        dsimp only [setBlk]
        by_cases hji : j = i
        · subst hji
          refine Or.inl ⟨h.next, uninit cols, List.getElem?_set_self hil, by rw [if_pos rfl], by unfold Rows.upd; rw [if_pos rfl], by simp, by omega, hr.old _ (Nat.le_refl _)⟩
        · rw [List.getElem?_set_ne (Ne.symm hji)]
          unfold Rows.upd
          rw [if_neg hji]
          rcases hr.row j hj with ⟨p, r, g1, g2, g3, g4, g5, g6⟩ | ⟨g1, g2⟩
          · have := hlt p (by rw [g2]; simp)
            exact Or.inl ⟨p, r, g1, by rw [if_neg (by omega)]; exact g2, g3, g4, g5, g6⟩
          · exact Or.inr ⟨g1, g2⟩
      · intro j k p h1 h2
        dsimp only at h1 h2
        have hnew : ∀ l, l ≠ i → t.rowArrays[l]? ≠ some (some h.next) := by
          intro l hl h3
          rcases hr.row l (hidx h3) with ⟨p, r, g1, g2, _⟩ | ⟨g1, _⟩
          · rw [h3] at g1; cases g1
            have := hlt h.next (by rw [g2]; simp); omega
          · rw [h3] at g1; cases g1
        by_cases hji : j = i
        · by_cases hki : k = i
          · rw [hji, hki]
          · subst hji
            rw [List.getElem?_set_self hil] at h1; cases h1
            rw [List.getElem?_set_ne (Ne.symm hki)] at h2
            exact absurd h2 (hnew k hki)
        · by_cases hki : k = i
          · subst hki
            rw [List.getElem?_set_self hil] at h2; cases h2
            rw [List.getElem?_set_ne (Ne.symm hji)] at h1
            exact absurd h1 (hnew j hji)
          · rw [List.getElem?_set_ne (Ne.symm hji)] at h1
            rw [List.getElem?_set_ne (Ne.symm hki)] at h2
            exact hr.apart j k p h1 h2
      · intro q hq hq'
        dsimp only [setBlk] at hq hq' ⊢
        have h1 : q ≠ h.next := by
          intro h1
          have := hq' i
          rw [List.getElem?_set_self hil, h1] at this
          exact this rfl
        rw [if_neg h1]
        apply hr.rest q hq
        intro j hj
        by_cases hji : j = i
        · subst hji; rw [e1] at hj; cases hj
        · have := hq' j
          rw [List.getElem?_set_ne (Ne.symm hji)] at this
          exact this hj
  | free i =>
    simp only [exec, freeRow, hr.rows_eq]
    by_cases hi : rows ≤ i
    · rw [if_pos hi]
      exact ⟨_, _, _, f, rfl, hr, .freeOut hi⟩
    rw [if_neg hi]
    rcases hr.row i (by omega) with ⟨p, r, e1, e2, e3, e4, e5, e6⟩ | ⟨e1, e2⟩
    · rw [rd_get e1, C.ok_bind]
      simp only [freeBlock, e2, C.ok_bind]
      have hil : i < t.rowArrays.length := by rw [hr.len]; omega
      refine ⟨_, _, _, f.upd i none, rfl, ?_, .freed (by omega) (by rw [e3]; simp)⟩
      refine ⟨rfl, hr.cols_eq, by simp [hr.len], ?_, hr.old, ?_, ?_, ?_, ?_, hr.hdrOwn, ?_⟩
      · intro q hq
        dsimp only [setBlk] at hq ⊢
        split
        · rfl
        · exact hr.fresh q hq
      · dsimp only [setBlk]; rw [if_neg (Ne.symm e5)]; exact hr.hdr
      · intro j hj
        unfold Rows.upd
        rw [if_neg (by omega)]; exact hr.out j hj
      · intro j hj
        dsimp only [setBlk]
        by_cases hji : j = i
        · subst hji
          exact Or.inr ⟨List.getElem?_set_self hil, by unfold Rows.upd; rw [if_pos rfl]⟩
        · rw [List.getElem?_set_ne (Ne.symm hji)]
          unfold Rows.upd
          rw [if_neg hji]
          rcases hr.row j hj with ⟨p', r', g1, g2, g3, g4, g5, g6⟩ | ⟨g1, g2⟩
          · refine Or.inl ⟨p', r', g1, ?_, g3, g4, g5, g6⟩
            rw [if_neg]
            · exact g2
            · rintro rfl
              exact hji (hr.apart j i _ g1 e1)
          · exact Or.inr ⟨g1, g2⟩
      · intro j k p' h1 h2
        dsimp only at h1 h2
        by_cases hji : j = i
        · subst hji
          rw [List.getElem?_set_self hil] at h1; cases h1
        · by_cases hki : k = i
          · subst hki
            rw [List.getElem?_set_self hil] at h2; cases h2
          · rw [List.getElem?_set_ne (Ne.symm hji)] at h1
            rw [List.getElem?_set_ne (Ne.symm hki)] at h2
            exact hr.apart j k p' h1 h2
      · intro q hq hq'
        dsimp only [setBlk] at hq hq' ⊢
        by_cases hqp : q = p
        · rw [if_pos hqp, hqp, e6]
        · rw [if_neg hqp]
          apply hr.rest q hq
          intro j hj
          by_cases hji : j = i
          · subst hji; rw [e1] at hj; cases hj; exact hqp rfl
          · have := hq' j
            rw [List.getElem?_set_ne (Ne.symm hji)] at this
            exact this hj
    · rw [rd_get e1, C.ok_bind]
      exact ⟨_, _, _, f, rfl, hr, .freeNone e2⟩
  | get i =>
    simp only [exec, getRow, hr.rows_eq]
    by_cases hi : rows ≤ i
    · rw [if_pos (Or.inr hi)]
      exact ⟨_, _, _, f, rfl, hr, .getOut hi⟩
    rw [if_neg (by simp; omega)]
    rcases hr.row i (by omega) with ⟨p, r, e1, e2, e3, e4, e5, e6⟩ | ⟨e1, e2⟩
    · rw [rd_get e1]
      simp only [C.ok_bind, e2]
      exact ⟨_, _, _, f, rfl, hr, .got (by omega) e3⟩
    · rw [rd_get e1]
      exact ⟨_, _, _, f, rfl, hr, .getNone (by omega) e2⟩
  | write i j v =>
    have hj : j < cols := hl
    simp only [exec, getRow, hr.rows_eq]
    by_cases hi' : rows ≤ i
    · rw [if_pos (Or.inr hi')]
      exact ⟨_, _, _, f, rfl, hr, .writeNone (Or.inl hi')⟩
    have hi : i < rows := by omega
    rw [if_neg (by simp; omega)]
    rcases hr.row i hi with ⟨p, r, e1, e2, e3, e4, e5, e6⟩ | ⟨e1, e2⟩
    · rw [rd_get e1]
      simp only [C.ok_bind, write, e2, wr]
      rw [if_pos (by omega)]
      simp only [C.ok_bind]
      refine ⟨_, _, _, f.upd i (some (r.set j (some v))), rfl, ?_, .wrote hi e3 hj⟩
      refine ⟨hr.rows_eq, hr.cols_eq, hr.len, ?_, hr.old, ?_, ?_, ?_, hr.apart, hr.hdrOwn, ?_⟩
      · intro q hq
        dsimp only [setBlk] at hq ⊢
        have := hlt p (by rw [e2]; simp)
        rw [if_neg (by omega)]; exact hr.fresh q hq
      · dsimp only [setBlk]; rw [if_neg (Ne.symm e5)]; exact hr.hdr
      · intro k hk
        unfold Rows.upd
        rw [if_neg (by omega)]; exact hr.out k hk
      · intro k hk
        dsimp only [setBlk]
        unfold Rows.upd
        by_cases hki : k = i
        · subst hki
          exact Or.inl ⟨p, _, e1, by rw [if_pos rfl], by rw [if_pos rfl], by simp [e4], e5, e6⟩
        · rw [if_neg hki]
          rcases hr.row k hk with ⟨p', r', g1, g2, g3, g4, g5, g6⟩ | ⟨g1, g2⟩
          · refine Or.inl ⟨p', r', g1, ?_, g3, g4, g5, g6⟩
            rw [if_neg]
            · exact g2
            · rintro rfl
              exact hki (hr.apart k i _ g1 e1)
          · exact Or.inr ⟨g1, g2⟩
      · intro q hq hq'
        dsimp only [setBlk]
        rw [if_neg]
        · exact hr.rest q hq hq'
        · rintro rfl
          exact hq' i e1
    · rw [rd_get e1]
      exact ⟨_, _, _, f, rfl, hr, .writeNone (Or.inr e2)⟩

/-- Documented histories. -/
inductive Means.Run {α : Type} (σ rows cols : Nat) : Rows α → List (Op α) → Rows α → List (Res α) → Prop where
  | nil {f} : Run σ rows cols f [] f []
  | cons {f op f1 r ops f2 rs} : Means σ rows cols f op f1 r → Run σ rows cols f1 ops f2 rs → Run σ rows cols f (op :: ops) f2 (r :: rs)

/-- A sequence of calls. -/
def run {α : Type} (σ : Nat) (h : Heap α) (t : Arr) : List (Op α) → C (List (Res α) × Arr × Heap α)
  | [] => C.ok ([], t, h)
  | op :: ops => do
    let (r, t1, h1) ← exec σ h t op
    let (rs, t2, h2) ← run σ h1 t1 ops
    C.ok (r :: rs, t2, h2)

/-- C48 for histories. -/
theorem history_outcome {α : Type} {σ rows cols : Nat} {others : Nat → Option (List (Option α))} (ops : List (Op α))
    (hl : ∀ op ∈ ops, Legal cols op) : ∀ {h : Heap α} {t : Arr} {f : Rows α}, Rep h t rows cols f others →
    ∃ rs t' h' f', run σ h t ops = C.ok (rs, t', h') ∧ Rep h' t' rows cols f' others ∧ Means.Run σ rows cols f ops f' rs := by
  induction ops with
  | nil => intro h t f hr; exact ⟨_, _, _, f, rfl, hr, .nil⟩
  | cons op ops ih =>
    intro h t f hr
    obtain ⟨r, t1, h1, f1, e1, e2, e3⟩ := call_outcome (σ := σ) hr op (hl op (by simp))
    obtain ⟨rs, t2, h2, f2, g1, g2, g3⟩ := ih (fun o ho => hl o (by simp [ho])) e2
    refine ⟨r :: rs, t2, h2, f2, ?_, g2, .cons e3 g3⟩
    simp only [run, e1, C.ok_bind, g1]

/-- The dispose loop frees every row left. -/
theorem freeLoop_spec {α : Type} {t : Arr} : ∀ (n i : Nat) (h : Heap α), i + n = t.rowArrays.length →
    (∀ (j p : Nat), i ≤ j → t.rowArrays[j]? = some (some p) → h.blk p ≠ none) →
    (∀ (j k p : Nat), t.rowArrays[j]? = some (some p) → t.rowArrays[k]? = some (some p) → j = k) →
    ∃ h', freeLoop t n i h = C.ok h' ∧
      (∀ (j p : Nat), i ≤ j → t.rowArrays[j]? = some (some p) → h'.blk p = none) ∧
      (∀ q, (∀ j : Nat, i ≤ j → t.rowArrays[j]? ≠ some (some q)) → h'.blk q = h.blk q) := by
  intro n
  induction n with
  | zero =>
    intro i h hi h1 h2
    refine ⟨h, rfl, ?_, fun _ _ => rfl⟩
    intro j p hj hp
    rw [List.getElem?_eq_none (by omega)] at hp; cases hp
  | succ n ih =>
    intro i h hi h1 h2
    unfold freeLoop
    have hlt : i < t.rowArrays.length := by omega
    cases hx : t.rowArrays[i]? with
    | none => rw [List.getElem?_eq_none_iff] at hx; omega
    | some x =>
      rw [rd_get hx, C.ok_bind]
      cases x with
      | none =>
        obtain ⟨h', e1, e2, e3⟩ := ih (i + 1) h (by omega) (fun j p hj hp => h1 j p (by omega) hp) h2
        refine ⟨h', e1, ?_, ?_⟩
        · intro j p hj hp
          by_cases hji : j = i
          · subst hji; rw [hx] at hp; cases hp
          · exact e2 j p (by omega) hp
        · intro q hq
          exact e3 q (fun j hj => hq j (by omega))
      | some p =>
        dsimp only
        have hp := h1 i p (Nat.le_refl _) hx
        cases hb : h.blk p with
        | none => exact absurd hb hp
        | some m =>
          simp only [freeBlock, hb, C.ok_bind]
          obtain ⟨h', e1, e2, e3⟩ := ih (i + 1) ⟨h.next, setBlk h.blk p none⟩ (by omega) (by
            intro j p' hj hp'
            dsimp only [setBlk]
            rw [if_neg]
            · exact h1 j p' (by omega) hp'
            · rintro rfl
              have := h2 j i _ hp' hx; omega) h2
          refine ⟨h', e1, ?_, ?_⟩
          · intro j p' hj hp'
            by_cases hji : j = i
            · subst hji
              rw [hx] at hp'; cases hp'
              rw [e3 p]
              · dsimp only [setBlk]; rw [if_pos rfl]
              · intro k hk hk'
                have := h2 j k p hx hk'; omega
            · exact e2 j p' (by omega) hp'
          · intro q hq
            rw [e3 q (fun j hj => hq j (by omega))]
            dsimp only [setBlk]
            rw [if_neg]
            rintro rfl
            exact hq i (Nat.le_refl _) hx

/-- Disposing frees each allocated row once (freeing twice would be undefined), and the structure, and nothing else. -/
theorem dispose_spec {α : Type} {h : Heap α} {t : Arr} {rows cols : Nat} {f : Rows α} {others : Nat → Option (List (Option α))}
    (hr : Rep h t rows cols f others) : ∃ h', dispose h t = C.ok h' ∧ ∀ q, h'.blk q = others q := by
  obtain ⟨h', e1, e2, e3⟩ := freeLoop_spec (t := t) t.rows 0 h (by rw [hr.len, hr.rows_eq]; omega) (by
    intro j p _ hp
    have hj : j < rows := by
      rcases Nat.lt_or_ge j rows with h1 | h1
      · exact h1
      · rw [List.getElem?_eq_none (by rw [hr.len]; exact h1)] at hp; cases hp
    rcases hr.row j hj with ⟨p', r, g1, g2, _⟩ | ⟨g1, _⟩
    · rw [hp] at g1; cases g1; rw [g2]; simp
    · rw [hp] at g1; cases g1) hr.apart
  have hrow : ∀ (j p : Nat), t.rowArrays[j]? = some (some p) → p ≠ t.hdr ∧ others p = none := by
    intro j p hp
    have hj : j < rows := by
      rcases Nat.lt_or_ge j rows with h1 | h1
      · exact h1
      · rw [List.getElem?_eq_none (by rw [hr.len]; exact h1)] at hp; cases hp
    rcases hr.row j hj with ⟨p', r, g1, g2, g3, g4, g5, g6⟩ | ⟨g1, _⟩
    · rw [hp] at g1; cases g1; exact ⟨g5, g6⟩
    · rw [hp] at g1; cases g1
  have hh : h'.blk t.hdr = h.blk t.hdr := e3 _ (fun j _ hj => (hrow j _ hj).1 rfl)
  unfold dispose
  rw [e1, C.ok_bind]
  unfold freeBlock
  rw [hh]
  cases hb : h.blk t.hdr with
  | none => exact absurd hb hr.hdr
  | some m =>
    refine ⟨_, rfl, ?_⟩
    intro q
    dsimp only [setBlk]
    by_cases hq : q = t.hdr
    · rw [if_pos hq, hq, hr.hdrOwn]
    · rw [if_neg hq]
      by_cases hx : ∃ j : Nat, t.rowArrays[j]? = some (some q)
      · obtain ⟨j, hj⟩ := hx
        rw [e2 j q (by omega) hj, (hrow j q hj).2]
      · have hx' : ∀ j : Nat, t.rowArrays[j]? ≠ some (some q) := fun j hj => hx ⟨j, hj⟩
        rw [e3 q (fun j _ => hx' j)]
        exact hr.rest q hq hx'

/-- NULL arrays and NULL out arguments are refused. -/
theorem refusals {α : Type} (σ i : Nat) (h : Heap α) (a o : Bool) (t : Arr) :
    allocateNewRow σ h none i a = C.ok (1, none, h) ∧ freeRow h none i = C.ok (1, none, h) ∧
    getRow none i o = C.ok (.invalidArgs, none) ∧ getRow (some t) i false = C.ok (.invalidArgs, none) :=
  ⟨rfl, rfl, rfl, by simp [getRow]⟩

/-! ### Witness -/

def emptyHeap : Heap Nat := ⟨0, fun _ => none⟩

example : (match create emptyHeap 3 2 true with
    | (some t, h) => (match run 8 h t [.allocate 1 true, .write 1 0 7, .get 1, .get 0, .allocate 1 true, .allocate 2 false, .free 1, .get 1, .free 1, .get 3] with
      | C.ok (rs, _, _) => rs.map (fun r => match r with | .int n => (n, none) | .got _ r => (9, r))
      | C.ub => [])
    | _ => []) = [(0, none), (0, none), (9, some [some 7, none]), (9, none), (1, none), (1, none), (0, none), (9, none), (1, none), (9, none)] := by
  decide +kernel

example : ∃ h t, Rep (α := Nat) h t 3 2 (fun _ => none) (fun _ => none) :=
  ⟨_, _, (create_spec (h := emptyHeap) (fun _ _ => rfl) 3 2 true).2.2 _ rfl⟩

end CUtil.TwoD
