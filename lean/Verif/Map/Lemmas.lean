import Verif.Map.Spec
set_option linter.unusedSimpArgs false
set_option linter.unusedVariables false
/-
Helper lemmas for C23 to C25.
-/
namespace CUtil.Map

/-- A pointer cell. -/
abbrev pc (p : Nat) : Option (Option Nat) := some (some p)

theorem wr_end {α : Type u} (p : List (Option α)) (x : Option α) (q : List (Option α)) (v : α) (i : Nat) (hi : i = p.length) :
    wr (p ++ x :: q) i v = C.ok (p ++ some v :: q) := by
  subst hi
  unfold wr
  rw [if_pos (by simp), List.set_append_right _ _ (by simp)]
  simp

theorem setPtr_end (p : Cells) (x : Option (Option Nat)) (q : Cells) (v : Option Nat) (i : Nat) (hi : i = p.length) :
    setPtr (some (p ++ x :: q)) i v = C.ok (some (p ++ some v :: q)) := by
  simp only [setPtr]
  rw [wr_end _ _ _ _ _ hi, C.ok_bind]
  rfl

theorem ptr_at (p : Cells) (x : Nat) (q : Cells) (i : Nat) (hi : i = p.length) :
    ptr (some (p ++ pc x :: q)) i = C.ok x := by
  subst hi
  simp only [ptr]
  rw [rd_append_at, C.ok_bind]

theorem hget_of {h : Heap} {p : Nat} {s : Str} (e : h[p]? = some (some s)) : hget h p = C.ok s := by
  unfold hget; rw [e]

theorem hget_iff {h : Heap} {p : Nat} {s : Str} : hget h p = C.ok s ↔ h[p]? = some (some s) := by
  refine ⟨?_, hget_of⟩
  intro e
  unfold hget at e
  split at e
  · rename_i t ht; cases e; exact ht
  · cases e

theorem hfree_of {h : Heap} {p : Nat} {s : Str} (e : h[p]? = some (some s)) : hfree h p = C.ok (h.set p none) := by
  unfold hfree; rw [e]

theorem lt_of_some {h : Heap} {p : Nat} {x : Option Str} (e : h[p]? = some x) : p < h.length := by
  by_cases hp : p < h.length
  · exact hp
  · rw [List.getElem?_eq_none (by omega)] at e; cases e

theorem arr_some {a : Option Cells} {ids : List Nat} (h : Arr a ids) (h0 : ids ≠ []) :
    ∃ stale, a = some (ids.map pc ++ stale) := by
  cases a with
  | none => exact absurd h h0
  | some l => obtain ⟨_, stale, rfl⟩ := h; exact ⟨stale, rfl⟩

theorem arr_nil {a : Option Cells} (h : Arr a []) : a = none := by
  cases a with
  | none => rfl
  | some l => exact absurd rfl h.1

theorem arr_mk (ids : List Nat) (stale : Cells) (h0 : ids ≠ []) : Arr (some (ids.map pc ++ stale)) ids := ⟨h0, stale, rfl⟩

theorem realloc_arr {a : Option Cells} {ids : List Nat} (h : Arr a ids) :
    ∃ x, reallocMem (a.getD []) (ids.length + 1) = ids.map pc ++ [x] := by
  cases a with
  | none =>
    have : ids = [] := h
    subst this
    exact ⟨none, rfl⟩
  | some l =>
    obtain ⟨_, stale, rfl⟩ := h
    unfold reallocMem
    rw [Option.getD_some]
    cases stale with
    | nil =>
      refine ⟨none, ?_⟩
      rw [List.take_of_length_le (by simp)]
      simp [uninit]
    | cons x st =>
      refine ⟨x, ?_⟩
      have : ids.map pc ++ x :: st = (ids.map pc ++ [x]) ++ st := by simp
      rw [this, List.take_left' (by simp)]
      simp [uninit]

/-! ### Finding -/

theorem findLoop_eq (h : Heap) (key : Str) (strs : List Str) : ∀ (p : Cells) (ids : List Nat) (q : Cells) (i : Nat), i = p.length →
    ids.map (h[·]?) = strs.map (fun s => some (some s)) →
    findLoop h (some (p ++ (ids.map pc ++ q))) key i strs.length = C.ok ((strs.findIdx? (· == key)).map (· + i)) := by
  induction strs with
  | nil => intro p ids q i _ _; rfl
  | cons s strs ih =>
    intro p ids q i hi hm
    cases ids with
    | nil => simp at hm
    | cons x ids =>
      simp only [List.map_cons, List.cons.injEq] at hm
      simp only [List.length_cons, findLoop, List.map_cons, List.cons_append]
      rw [ptr_at _ _ _ _ hi, C.ok_bind, hget_of hm.1, C.ok_bind]
      rw [List.findIdx?_cons]
      by_cases e : s = key
      · rw [if_pos e]; simp [e]
      · rw [if_neg e]
        have := ih (p ++ [pc x]) ids q (i + 1) (by simp [hi]) hm.2
        simp only [List.append_assoc, List.singleton_append] at this
        rw [this]
        have he : (s == key) = false := by simpa using e
        rw [he]
        simp only [Bool.false_eq_true, if_false, Option.map_map]
        congr 2
        funext k
        show k + (i + 1) = (k + 1) + i
        omega

theorem find_eq (h : Heap) (key : Str) (strs : List Str) (a : Option Cells) (ids : List Nat) (ha : Arr a ids)
    (hm : ids.map (h[·]?) = strs.map (fun s => some (some s))) (n : Nat) (hn : n = strs.length) :
    find h a key n = C.ok (strs.findIdx? (· == key)) := by
  have hl : ids.length = strs.length := by simpa using congrArg List.length hm
  unfold find
  cases a with
  | none =>
    rw [if_pos rfl]
    have : ids = [] := ha
    subst this
    have : strs = [] := List.eq_nil_of_length_eq_zero (by simpa using hl.symm)
    subst this; rfl
  | some l =>
    obtain ⟨_, stale, rfl⟩ := ha
    rw [if_neg (by simp), hn]
    have := findLoop_eq h key strs [] ids stale 0 rfl hm
    simp only [List.nil_append] at this
    rw [this]
    simp

theorem findIdx_none {strs : List Str} {key : Str} : strs.findIdx? (· == key) = none ↔ key ∉ strs := by
  rw [List.findIdx?_eq_none_iff]
  constructor
  · intro h hm; simpa using h key hm
  · intro h x hx
    have : x ≠ key := fun e => h (e ▸ hx)
    simpa using this

theorem findIdx_some {strs : List Str} {key : Str} {i : Nat} (h : strs.findIdx? (· == key) = some i) :
    ∃ s1 s2, strs = s1 ++ key :: s2 ∧ s1.length = i := by
  rw [List.findIdx?_eq_some_iff_getElem] at h
  obtain ⟨hi, h1, -⟩ := h
  refine ⟨strs.take i, strs.drop (i + 1), ?_, by simp; omega⟩
  have : strs[i] = key := by simpa using h1
  rw [← this]
  simp

/-! ### Heap -/

theorem map_set_frame (h : Heap) (ids : List Nat) (p : Nat) (v : Option Str) (hp : p ∉ ids) :
    ids.map ((h.set p v)[·]?) = ids.map (h[·]?) := by
  apply List.map_congr_left
  intro x hx
  rw [List.getElem?_set_ne (by intro e; subst e; exact hp hx)]

theorem map_append_frame {h : Heap} {ids : List Nat} {strs : List Str} (t : Heap)
    (hm : ids.map (h[·]?) = strs.map (fun s => some (some s))) : ids.map ((h ++ t)[·]?) = ids.map (h[·]?) := by
  apply List.map_congr_left
  intro x hx
  have : h[x]? ∈ ids.map (h[·]?) := List.mem_map_of_mem (f := fun p => h[p]?) hx
  rw [hm] at this
  obtain ⟨s, _, e⟩ := List.mem_map.mp this
  rw [List.getElem?_append_left (lt_of_some e.symm)]

theorem live_of_map {h : Heap} {ids : List Nat} {strs : List Str} (hm : ids.map (h[·]?) = strs.map (fun s => some (some s)))
    {p : Nat} (hp : p ∈ ids) : ∃ s, h[p]? = some (some s) := by
  have : h[p]? ∈ ids.map (h[·]?) := List.mem_map_of_mem (f := fun p => h[p]?) hp
  rw [hm] at this
  obtain ⟨s, _, e⟩ := List.mem_map.mp this
  exact ⟨s, e.symm⟩

theorem Step.refl (h : Heap) (own : List Nat) : Step h own h own where
  frame := fun _ _ _ => rfl
  noleak := by
    intro p s e
    by_cases hp : p ∈ own
    · exact Or.inl hp
    · exact Or.inr ⟨lt_of_some e, hp⟩
  fresh := fun p hp => Or.inl hp
  grows := Nat.le_refl _

theorem Step.trans {h own h1 own1 h2 own2} (s1 : Step h own h1 own1) (s2 : Step h1 own1 h2 own2) : Step h own h2 own2 where
  frame := by
    intro p hp hn
    have h1' : p ∉ own1 := by
      intro hm
      rcases s1.fresh p hm with h | h
      · exact hn h
      · omega
    rw [s2.frame p (Nat.lt_of_lt_of_le hp s1.grows) h1', s1.frame p hp hn]
  noleak := by
    intro p s e
    rcases s2.noleak p s e with h | ⟨h, h'⟩
    · exact Or.inl h
    · have : h1[p]? = some (some s) := by rw [← s2.frame p h h']; exact e
      rcases s1.noleak p s this with g | g
      · exact absurd g h'
      · exact Or.inr g
  fresh := by
    intro p hp
    rcases s2.fresh p hp with h | h
    · exact s1.fresh p h
    · exact Or.inr (Nat.le_trans s1.grows h)
  grows := Nat.le_trans s1.grows s2.grows

/-- Allocating a block and owning it. -/
theorem Step.alloc (h : Heap) (own : List Nat) (s : Str) (own' : List Nat) (ho : ∀ p, p ∈ own' ↔ p ∈ own ∨ p = h.length) :
    Step h own (h ++ [some s]) own' where
  frame := by intro p hp _; rw [List.getElem?_append_left hp]
  noleak := by
    intro p t e
    have hlt := lt_of_some e
    simp only [List.length_append, List.length_singleton] at hlt
    by_cases hp : p = h.length
    · exact Or.inl ((ho p).mpr (Or.inr hp))
    · by_cases hp' : p ∈ own
      · exact Or.inl ((ho p).mpr (Or.inl hp'))
      · exact Or.inr ⟨by omega, hp'⟩
  fresh := by
    intro p hp
    rcases (ho p).mp hp with h | h
    · exact Or.inl h
    · exact Or.inr (by omega)
  grows := by simp

/-- Freeing a block that was owned. -/
theorem Step.free (h : Heap) (own : List Nat) (q : Nat) (own' : List Nat) (hq : q ∈ own) (ho : ∀ p, p ∈ own' ↔ p ∈ own ∧ p ≠ q) :
    Step h own (h.set q none) own' where
  frame := by
    intro p hp hn
    rw [List.getElem?_set_ne (by intro e; subst e; exact hn hq)]
  noleak := by
    intro p t e
    have hlt := lt_of_some e
    simp only [List.length_set] at hlt
    by_cases hp : p = q
    · subst hp
      rw [List.getElem?_set_self hlt] at e
      cases e
    · by_cases hp' : p ∈ own
      · exact Or.inl ((ho p).mpr ⟨hp', hp⟩)
      · exact Or.inr ⟨hlt, hp'⟩
  fresh := fun p hp => Or.inl ((ho p).mp hp).1
  grows := by simp

/-! ### Growing and shrinking the arrays -/

theorem increase_spec (m : MAP) (al : Nat → Bool) (kids vids : List Nat) (hk : Arr m.keys kids) (hv : Arr m.values vids)
    (hkl : kids.length = m.count) (hvl : vids.length = m.count) :
    (∃ m', increaseStorage m al = C.ok (m', false) ∧ (al 0 = false ∨ al 1 = false) ∧ Arr m'.keys kids ∧ Arr m'.values vids ∧
      m'.count = m.count ∧ m'.filter = m.filter) ∨
    (increaseStorage m al =
      C.ok (⟨some (kids.map pc ++ [some none]), some (vids.map pc ++ [some none]), m.count + 1, m.filter⟩, true) ∧
      al 0 = true ∧ al 1 = true) := by
  obtain ⟨keys, values, count, filter⟩ := m
  simp only at *
  unfold increaseStorage
  simp only
  by_cases h0 : al 0 = false
  · left
    rw [if_pos h0]
    exact ⟨_, rfl, Or.inl h0, hk, hv, rfl, rfl⟩
  · rw [if_neg h0]
    obtain ⟨x, hx⟩ := realloc_arr hk
    obtain ⟨y, hy⟩ := realloc_arr hv
    rw [hkl] at hx
    rw [hvl] at hy
    rw [hx, hy, setPtr_end _ _ _ _ _ (by simp [hkl]), C.ok_bind, setPtr_end _ _ _ _ _ (by simp [hvl])]
    by_cases h1 : al 1 = false
    · left
      rw [if_pos h1]
      by_cases hc : count = 0
      · rw [if_pos hc]
        have : kids = [] := List.eq_nil_of_length_eq_zero (by omega)
        subst this
        exact ⟨_, rfl, Or.inr h1, rfl, hv, rfl, rfl⟩
      · rw [if_neg hc]
        have hne : kids ≠ [] := by intro e; subst e; simp at hkl; omega
        by_cases h2 : al 2 = false
        · rw [if_pos h2]
          exact ⟨_, rfl, Or.inr h1, arr_mk _ _ hne, hv, rfl, rfl⟩
        · rw [if_neg h2]
          refine ⟨_, rfl, Or.inr h1, ?_, hv, rfl, rfl⟩
          have : reallocMem (kids.map pc ++ [some none]) count = kids.map pc ++ [] := by
            unfold reallocMem
            rw [List.take_left' (by simp [hkl])]
            simp [uninit, hkl]
          rw [Option.getD_some, this]
          exact arr_mk _ _ hne
    · right
      rw [if_neg h1, C.ok_bind]
      exact ⟨rfl, by simpa using h0, by simpa using h1⟩

theorem shrink_arr (ids : List Nat) (x : Option (Option Nat)) (st : Cells) (b : Bool) (h0 : ids ≠ []) :
    Arr (if b then some (reallocMem ((some (ids.map pc ++ x :: st)).getD []) ids.length) else some (ids.map pc ++ x :: st)) ids := by
  cases b with
  | false => exact arr_mk _ _ h0
  | true =>
    have : reallocMem (ids.map pc ++ x :: st) ids.length = ids.map pc ++ [] := by
      unfold reallocMem
      rw [List.take_left' (by simp)]
      have : ids.length - (ids.map pc ++ x :: st).length = 0 := by simp
      rw [this]; simp [uninit]
    rw [if_pos rfl, Option.getD_some, this]
    exact arr_mk _ _ h0

theorem decrease_spec (kids vids : List Nat) (x y : Option (Option Nat)) (st st' : Cells) (n : Nat) (f) (al : Nat → Bool)
    (hk : kids.length = n) (hv : vids.length = n) :
    ∃ m', decreaseStorage ⟨some (kids.map pc ++ x :: st), some (vids.map pc ++ y :: st'), n + 1, f⟩ al = m' ∧
      Arr m'.keys kids ∧ Arr m'.values vids ∧ m'.count = n ∧ m'.filter = if n = 0 then none else f := by
  refine ⟨_, rfl, ?_⟩
  unfold decreaseStorage
  simp only
  by_cases h0 : n = 0
  · subst h0
    rw [if_pos rfl, if_pos rfl]
    have e1 : kids = [] := List.eq_nil_of_length_eq_zero hk
    have e2 : vids = [] := List.eq_nil_of_length_eq_zero hv
    subst e1 e2
    exact ⟨rfl, rfl, rfl, rfl⟩
  · rw [if_neg (by omega), if_neg h0]
    have hk0 : kids ≠ [] := by intro e; subst e; simp at hk; omega
    have hv0 : vids ≠ [] := by intro e; subst e; simp at hv; omega
    refine ⟨?_, ?_, by simp, rfl⟩
    · have := shrink_arr kids x st (al 5) hk0
      rw [hk] at this; exact this
    · have := shrink_arr vids y st' (al 6) hv0
      rw [hv] at this; exact this

end CUtil.Map
