import Verif.AsyncType.Model
set_option linter.unusedSimpArgs false
set_option linter.unusedVariables false
/-
C57: copy and free handlers, THANDLE_TUPLE_ARRAY.
-/
namespace CUtil.AsyncType
open CUtil

/-! ### References -/

/-- All handles are NULL or of objects with at least as many references as they occur: what a legal caller holds. -/
def Holds (h : Heap) (l : List (Option Nat)) : Prop := ∀ x, some x ∈ l → l.count (some x) ≤ h.refs x

/-- All handles are NULL or of objects that are alive. -/
def Alive (h : Heap) (l : List (Option Nat)) : Prop := ∀ x, some x ∈ l → 0 < h.refs x

theorem copyLoop_spec (src : List (Option Nat)) : ∀ (n i : Nat) (h : Heap) (done : List (Option Nat)),
    i + n ≤ src.length → done.length = i → (∀ x, some x ∈ (src.drop i).take n → 0 < h.refs x) →
    copyLoop src n i h (done.map some ++ uninit n) =
      C.ok ({ h with refs := fun x => h.refs x + ((src.drop i).take n).count (some x) }, (done ++ (src.drop i).take n).map some) := by
  intro n
  induction n with
  | zero => intro i h done _ _ _; simp [copyLoop, uninit]
  | succ n ih =>
    intro i h done hl hd ha
    have hi : i < src.length := by omega
    have hcons : (src.drop i).take (n + 1) = src[i] :: (src.drop (i + 1)).take n := by
      conv => lhs; rw [List.drop_eq_getElem_cons hi, List.take_succ_cons]
    unfold copyLoop
    rw [rd_lt _ _ hi, C.ok_bind]
    have hinc : inc h src[i] = C.ok { h with refs := fun y => h.refs y + [src[i]].count (some y) } := by
      cases hx : src[i] with
      | none => simp [inc]
      | some x =>
        have := ha x (by rw [hcons, hx]; simp)
        unfold inc
        dsimp only
        rw [if_neg (by omega)]
        congr 1
        have : (fun y => if y = x then h.refs y + 1 else h.refs y) = (fun y => h.refs y + [some x].count (some y)) := by
          funext y
          by_cases e : y = x
          · simp [e]
          · rw [if_neg e, List.count_eq_zero_of_not_mem (by simp [e])]; rfl
        rw [this]
    rw [hinc, C.ok_bind]
    subst hd
    rw [wr_next, C.ok_bind, ih (done.length + 1) _ (done ++ [src[done.length]]) (by omega) (by simp)]
    · rw [hcons]
      congr 1
      congr 1
      · congr 1
        funext x
        dsimp only
        rw [List.count_cons (l := List.take n _), List.count_cons, List.count_nil]
        omega
      · simp
    · intro x hx
      have := ha x (by rw [hcons]; simp [hx])
      dsimp only
      omega

theorem freeLoop_spec (value : List (Option Nat)) : ∀ (n i : Nat) (h : Heap), i + n ≤ value.length → Holds h ((value.drop i).take n) →
    freeLoop (value.map some) n i h = C.ok { h with refs := fun x => h.refs x - ((value.drop i).take n).count (some x) } := by
  intro n
  induction n with
  | zero => intro i h _ _; simp [freeLoop]
  | succ n ih =>
    intro i h hl hh
    have hi : i < value.length := by omega
    have hcons : (value.drop i).take (n + 1) = value[i] :: (value.drop (i + 1)).take n := by
      conv => lhs; rw [List.drop_eq_getElem_cons hi, List.take_succ_cons]
    unfold freeLoop
    rw [rd_lt _ _ (by simpa using hi), C.ok_bind, List.getElem_map]
    dsimp only
    rw [hcons] at hh ⊢
    have hdec : dec h value[i] = C.ok { h with refs := fun y => h.refs y - [value[i]].count (some y) } := by
      cases hx : value[i] with
      | none => simp [dec]
      | some x =>
        have := hh x (by rw [hx]; simp)
        rw [hx, List.count_cons_self] at this
        unfold dec
        dsimp only
        rw [if_neg (by omega)]
        congr 1
        have : (fun y => if y = x then h.refs y - 1 else h.refs y) = (fun y => h.refs y - [some x].count (some y)) := by
          funext y
          by_cases e : y = x
          · simp [e]
          · rw [if_neg e, List.count_eq_zero_of_not_mem (by simp [e])]; rfl
        rw [this]
    rw [hdec, C.ok_bind, ih (i + 1) _ (by omega)]
    · congr 1
      congr 1
      funext x
      dsimp only
      rw [List.count_cons (l := List.take n _), List.count_cons, List.count_nil]
      omega
    · intro x hx
      have := hh x (by simp [hx])
      rw [List.count_cons] at this
      dsimp only
      rw [List.count_cons, List.count_nil]
      omega

/-! ### Array of handles -/

/-- C57 (1): a copy takes exactly one reference per element and the array copied holds the same handles. -/
theorem array_copy_spec {h : Heap} {src : List (Option Nat)} {n p : Nat} (hn : n ≠ 0) (hl : n ≤ src.length) (ha : Alive h (src.take n)) :
    ∃ h', arrayPtrCopy h false (some src) n (some p) = C.ok ⟨0, some (some p), h'⟩ ∧
      h'.mem p = some (.handles ((src.take n).map some)) ∧ (∀ q, q ≠ p → h'.mem q = h.mem q) ∧
      ∀ x, h'.refs x = h.refs x + (src.take n).count (some x) := by
  have := copyLoop_spec src n 0 h [] (by omega) rfl (fun x hx => ha x (by simpa using hx))
  simp only [List.map_nil, List.nil_append, List.drop_zero] at this
  unfold arrayPtrCopy
  dsimp only
  rw [if_neg (by simp [hn]), this, C.ok_bind]
  refine ⟨_, rfl, ?_, ?_, ?_⟩
  · simp [Heap.put]
  · intro q hq; simp [Heap.put, hq]
  · intro x; rfl

/-- C57 (2): the matching free releases exactly what the copy took: the references and the array. -/
theorem array_free_spec {h : Heap} {l : List (Option Nat)} {p : Nat} (hn : l ≠ []) (hm : h.mem p = some (.handles (l.map some))) (hh : Holds h l) :
    ∃ h', arrayPtrFree h (some p) l.length = C.ok h' ∧ (∀ x, h'.refs x = h.refs x - l.count (some x)) ∧
      h'.mem p = none ∧ ∀ q, q ≠ p → h'.mem q = h.mem q := by
  have := freeLoop_spec l l.length 0 h (by omega) (by simpa using hh)
  simp only [List.drop_zero, List.take_length] at this
  unfold arrayPtrFree
  dsimp only
  rw [if_neg (by simp [hn]), hm]
  dsimp only
  rw [this, C.ok_bind]
  unfold free
  dsimp only
  rw [hm]
  exact ⟨_, rfl, fun x => rfl, by simp, fun q hq => by simp [hq]⟩

/-- C57 (3): copy then free leaves the heap as it was. -/
theorem array_copy_free {h : Heap} {src : List (Option Nat)} {n p : Nat} (hn : n ≠ 0) (hl : n ≤ src.length) (ha : Alive h (src.take n))
    (hp : h.mem p = none) :
    ∃ h' h'', arrayPtrCopy h false (some src) n (some p) = C.ok ⟨0, some (some p), h'⟩ ∧ arrayPtrFree h' (some p) n = C.ok h'' ∧
      h''.refs = h.refs ∧ h''.mem = h.mem := by
  obtain ⟨h', e1, e2, e3, e4⟩ := array_copy_spec (p := p) hn hl ha
  have hlen : (src.take n).length = n := by rw [List.length_take]; omega
  obtain ⟨h'', f1, f2, f3, f4⟩ := array_free_spec (h := h') (l := src.take n) (p := p) (by intro e; rw [e] at hlen; simp at hlen; omega) e2
    (by intro x _; rw [e4]; omega)
  rw [hlen] at f1
  refine ⟨h', h'', e1, f1, ?_, ?_⟩
  · funext x; rw [f2, e4]; omega
  · funext q
    by_cases hq : q = p
    · rw [hq, f3, hp]
    · rw [f4 q hq, e3 q hq]

/-- C57 (4): a copy that fails takes nothing; so does the copy of NULL, which is NULL. -/
theorem array_copy_fail (h : Heap) (src : Option (List (Option Nat))) (n : Nat) (alloc : Option Nat) :
    (∃ r, r ≠ 0 ∧ arrayPtrCopy h true src n alloc = C.ok ⟨r, none, h⟩) ∧ (∃ r, r ≠ 0 ∧ ∀ d, arrayPtrCopy h d src 0 alloc = C.ok ⟨r, none, h⟩) ∧
    (n ≠ 0 → arrayPtrCopy h false none n alloc = C.ok ⟨0, some none, h⟩) ∧
    (n ≠ 0 → src ≠ none → ∃ r, r ≠ 0 ∧ arrayPtrCopy h false src n none = C.ok ⟨r, some none, h⟩) := by
  refine ⟨⟨1, by decide, by simp [arrayPtrCopy]⟩, ⟨1, by decide, by simp [arrayPtrCopy]⟩, ?_, ?_⟩
  · intro hn; simp [arrayPtrCopy, hn]
  · intro hn hs
    cases src with
    | none => exact absurd rfl hs
    | some s => exact ⟨1, by decide, by simp [arrayPtrCopy, hn]⟩

theorem array_free_null (h : Heap) (v : Option Nat) (n : Nat) : arrayPtrFree h none n = C.ok h ∧ arrayPtrFree h v 0 = C.ok h := by
  refine ⟨rfl, ?_⟩
  unfold arrayPtrFree
  cases v <;> simp

/-! ### Strings -/

theorem strcpy_spec (s t : List UInt8) (hz : (0 : UInt8) ∉ s) : ∀ (n i : Nat) (m : List UInt8), i + n = s.length → m = s.take i →
    strcpy (s ++ 0 :: t) (n + 1) i (m.map some ++ uninit (n + 1)) = C.ok ((zstr s).map some) := by
  intro n
  induction n with
  | zero =>
    intro i m hi hm
    simp only [Nat.add_zero] at hi
    subst hi
    have hm' : m = s := by rw [hm]; simp
    subst hm'
    unfold strcpy
    rw [rd_append_at, C.ok_bind, wr_next, C.ok_bind, if_pos rfl]
    simp [uninit, zstr]
  | succ n ih =>
    intro i m hi hm
    have hlt : i < s.length := by omega
    have hml : m.length = i := by rw [hm, List.length_take]; omega
    unfold strcpy
    rw [rd_append_left _ hlt, rd_lt _ _ hlt, C.ok_bind]
    have hw := wr_next m (n + 1) s[i]
    rw [hml] at hw
    have hne : s[i] ≠ 0 := fun e => hz (e ▸ List.getElem_mem hlt)
    rw [hw, C.ok_bind, if_neg hne, ih (i + 1) (m ++ [s[i]]) (by omega)]
    rw [hm, List.take_succ_eq_append_getElem hlt]

/-- C57 (5): the copy of a string is a fresh string with the same contents; nothing else changes; on failure nothing does. -/
theorem charptr_copy_spec (h : Heap) (s t : List UInt8) (hz : (0 : UInt8) ∉ s) (p : Nat) :
    charptrCopy h false (some (s ++ 0 :: t)) (some p) = C.ok ⟨0, some (some p), h.put p (.str ((zstr s).map some))⟩ ∧
    (∃ r, r ≠ 0 ∧ charptrCopy h false (some (s ++ 0 :: t)) none = C.ok ⟨r, some none, h⟩) ∧
    (∀ a, charptrCopy h false none a = C.ok ⟨0, some none, h⟩) ∧ (∀ src a, ∃ r, r ≠ 0 ∧ charptrCopy h true src a = C.ok ⟨r, none, h⟩) := by
  have h1 := strcpy_spec s t hz s.length 0 [] (by omega) (by simp)
  refine ⟨?_, ⟨1, by decide, ?_⟩, fun a => by simp [charptrCopy], fun src a => ⟨1, by decide, by simp [charptrCopy]⟩⟩
  · unfold charptrCopy
    dsimp only
    simp only [List.map_nil, List.nil_append] at h1
    rw [if_neg (by simp), strlen_zstr s t hz, C.ok_bind, h1, C.ok_bind]
  · unfold charptrCopy
    dsimp only
    rw [if_neg (by simp), strlen_zstr s t hz, C.ok_bind]

/-- C57 (6): freeing the copy leaves the heap as it was. -/
theorem charptr_copy_free (h : Heap) (b : Block) {p : Nat} (hp : h.mem p = none) :
    ∃ h', charptrFree (h.put p b) (some p) = C.ok h' ∧ h'.refs = h.refs ∧ h'.mem = h.mem := by
  refine ⟨{ h with mem := fun q => if q = p then none else (h.put p b).mem q }, by simp [charptrFree, free, Heap.put], rfl, ?_⟩
  funext q
  by_cases hq : q = p
  · simp [hq, hp]
  · simp [hq, Heap.put]

/-! ### Single handles -/

/-- C57 (7): the copy of a handle takes one reference, none for NULL; the free releases it; together nothing changes. -/
theorem ref_copy_spec {h : Heap} {src : Option Nat} (ha : Alive h [src]) :
    (∃ h', refCopy h false src = C.ok ⟨0, some src, h'⟩ ∧ h'.mem = h.mem ∧ (∀ x, h'.refs x = h.refs x + [src].count (some x)) ∧
      ∃ h'', refFree h' src = C.ok h'' ∧ h''.mem = h.mem ∧ h''.refs = h.refs) ∧
    ∃ r, r ≠ 0 ∧ refCopy h true src = C.ok ⟨r, none, h⟩ := by
  refine ⟨?_, ⟨1, by decide, by simp [refCopy]⟩⟩
  cases src with
  | none =>
    refine ⟨h, by simp [refCopy, inc], rfl, by simp, h, by simp [refFree, dec], rfl, rfl⟩
  | some x =>
    have hx := ha x (by simp)
    refine ⟨{ h with refs := fun y => if y = x then h.refs y + 1 else h.refs y }, ?_, rfl, ?_, { h with refs := h.refs }, ?_, rfl, rfl⟩
    · simp only [refCopy, inc, Bool.false_eq_true, if_false]
      rw [if_neg (by omega)]
      rfl
    · intro y
      by_cases e : y = x
      · simp [e]
      · dsimp only; rw [if_neg e, List.count_eq_zero_of_not_mem (by simp [e])]; rfl
    · simp only [refFree, dec, if_true]
      rw [if_neg (by omega)]
      congr 1
      congr 1
      funext y
      by_cases e : y = x
      · simp [e]
      · simp [e]

/-- C57 (7): the copy of a value is the value; nothing is written when there is nowhere to. -/
theorem value_copy_spec {α : Type} (src : α) : valueCopy false src = (0, some src) ∧ ∃ r, r ≠ 0 ∧ valueCopy true src = (r, none) :=
  ⟨rfl, 1, by decide, rfl⟩

/-! ### THANDLE_TUPLE_ARRAY -/

theorem freeMembers_spec : ∀ (l : List (Option Nat)) (h : Heap), Holds h l →
    freeMembers l h = C.ok { h with refs := fun x => h.refs x - l.count (some x) } := by
  intro l
  induction l with
  | nil => intro h _; simp [freeMembers]
  | cons x l ih =>
    intro h hh
    unfold freeMembers
    cases x with
    | none =>
      dsimp only
      rw [C.ok_bind, ih h (by intro x hx; have := hh x (by simp [hx]); rwa [List.count_cons_of_ne (by simp)] at this)]
      congr 2
    | some x =>
      have h1 := hh x (by simp)
      rw [List.count_cons_self] at h1
      dsimp only
      unfold dec
      dsimp only
      rw [if_neg (by omega), C.ok_bind, ih]
      · congr 1
        congr 1
        funext y
        dsimp only
        by_cases e : y = x
        · subst e; rw [if_pos rfl, List.count_cons_self]; omega
        · rw [if_neg e, List.count_cons_of_ne (by simp [Ne.symm e])]
      · intro y hy
        have := hh y (by simp [hy])
        dsimp only
        by_cases e : y = x
        · subst e; rw [if_pos rfl]; rw [List.count_cons_self] at this; omega
        · rw [if_neg e]; rw [List.count_cons_of_ne (by simp [Ne.symm e])] at this; exact this

theorem freeTuples_spec : ∀ (ts : List (List (Option Nat))) (h : Heap), Holds h ts.flatten →
    freeTuples ts h = C.ok { h with refs := fun x => h.refs x - ts.flatten.count (some x) } := by
  intro ts
  induction ts with
  | nil => intro h _; simp [freeTuples]
  | cons t ts ih =>
    intro h hh
    unfold freeTuples
    rw [freeMembers_spec t h, C.ok_bind, ih]
    · congr 1
      congr 1
      funext x
      rw [List.flatten_cons, List.count_append]
      dsimp only
      omega
    · intro x hx
      have := hh x (by simp [hx])
      rw [List.flatten_cons, List.count_append] at this
      dsimp only
      omega
    · intro x hx
      have := hh x (by simp [hx])
      rw [List.flatten_cons, List.count_append] at this
      omega

/-- C57 (8): a new array has `count` tuples of NULL handles, and no reference is taken; NULL when there is no memory. -/
theorem tuple_create_spec (h : Heap) (members count p : Nat) :
    tupleCreate h members count (some p) = (some p, h.put p (.tuples (List.replicate count (List.replicate members none)))) ∧
    tupleCreate h members count none = (none, h) := ⟨rfl, rfl⟩

/-- C57 (9): destroying an array releases every non-NULL handle in it exactly once, and the array; nothing else. -/
theorem tuple_destroy_spec {h : Heap} {ts : List (List (Option Nat))} {p : Nat} (hm : h.mem p = some (.tuples ts)) (hh : Holds h ts.flatten) :
    ∃ h', tupleDestroy h (some p) = C.ok h' ∧ (∀ x, h'.refs x = h.refs x - ts.flatten.count (some x)) ∧
      h'.mem p = none ∧ ∀ q, q ≠ p → h'.mem q = h.mem q := by
  unfold tupleDestroy
  dsimp only
  rw [hm]
  dsimp only
  rw [freeTuples_spec ts h hh, C.ok_bind]
  unfold free
  dsimp only
  rw [hm]
  exact ⟨_, rfl, fun x => rfl, by simp, fun q hq => by simp [hq]⟩

theorem tuple_destroy_null (h : Heap) : tupleDestroy h none = C.ok h := rfl

/-! ### Witness: two objects, the array [7, NULL, 7, 9] -/

def demo : Heap := ⟨fun x => if x = 7 then 1 else if x = 9 then 2 else 0, fun _ => none⟩

theorem demo_alive : Alive demo ([some 7, none, some 7, some 9].take 4) := by
  intro x hx
  simp only [List.take_succ_cons, List.take_zero, List.mem_cons, Option.some.injEq, reduceCtorEq, false_or, List.not_mem_nil, or_false] at hx
  rcases hx with rfl | rfl | rfl <;> decide

example : ∃ h', arrayPtrCopy demo false (some [some 7, none, some 7, some 9]) 4 (some 100) = C.ok ⟨0, some (some 100), h'⟩ ∧ h'.refs 7 = 3 ∧ h'.refs 9 = 3 := by
  obtain ⟨h', e1, _, _, e4⟩ := array_copy_spec (h := demo) (src := [some 7, none, some 7, some 9]) (n := 4) (p := 100) (by decide) (by decide) demo_alive
  exact ⟨h', e1, by rw [e4]; decide, by rw [e4]; decide⟩

example : Holds ⟨fun x => if x = 7 then 2 else if x = 9 then 1 else 0, fun q => if q = 5 then some (.tuples [[some 7, none], [some 9, some 7]]) else none⟩
    [[some 7, none], [some 9, some 7]].flatten := by
  intro x hx
  simp only [List.flatten_cons, List.flatten_nil, List.cons_append, List.nil_append, List.append_nil, List.mem_cons, Option.some.injEq, reduceCtorEq, false_or, List.not_mem_nil, or_false] at hx
  rcases hx with rfl | rfl | rfl <;> decide

end CUtil.AsyncType
