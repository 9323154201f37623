import Verif.ConstBufferArray.Lemmas
set_option linter.unusedSimpArgs false
set_option linter.unusedVariables false
/-
Properties C15, C16, C17 of constbuffer_array.c.  Input arrays are never modified: the model's functions
take them as values, and the code only reads `buffers`/`nBuffers` of its inputs.
-/
namespace CUtil.ConstBufferArray

/-! ### C15: list operations -/

/-- `constbuffer_array_create`: the first `n` of the given handles, one reference taken on each; or NULL. -/
theorem create_list (bs : List Buf) (n : Nat) (h : n ≤ bs.length) :
    Yields (create (some bs) n true) (bs.take n) ∧ FailsClean (create (some bs) n false) ∧
    FailsClean (create none (n + 1) true) ∧ Yields (create none 0 true) [] := by
  refine ⟨⟨_, ?_, takes_map_inc _⟩, ⟨_, by simp [create], takes_nil⟩, ⟨_, by simp [create], takes_nil⟩,
    ⟨_, by simp [create, copyRefs, uninit], takes_nil⟩⟩
  simp [create, copyRefs_take bs n h]

example : Yields (create (some [⟨1, [7]⟩, ⟨2, []⟩, ⟨1, [7]⟩]) 3 true) [⟨1, [7]⟩, ⟨2, []⟩, ⟨1, [7]⟩] :=
  (create_list _ 3 (by simp)).1

/-- `constbuffer_array_create_empty`. -/
theorem create_empty_list : Yields (C.ok (create_empty true)) [] ∧ FailsClean (C.ok (create_empty false)) :=
  ⟨⟨_, rfl, takes_nil⟩, ⟨_, rfl, takes_nil⟩⟩

/-- `constbuffer_array_create_with_move_buffers`: exactly the first `n` of the given handles, no reference taken (the
caller's references now belong to the array), and nothing taken when it fails. -/
theorem create_with_move_list (bs : List Buf) (n : Nat) (hn : n ≤ bs.length) :
    create_with_move_buffers (some bs) n true = C.ok (.fresh ((bs.take n).map some), []) ∧
    create_with_move_buffers (some bs) n false = C.ok (.null, []) ∧
    ∀ n alloc, create_with_move_buffers none n alloc = C.ok (.null, []) := by
  refine ⟨by simp [create_with_move_buffers, hn], by simp [create_with_move_buffers], fun n alloc => rfl⟩

example : create_with_move_buffers (some [⟨1, [7]⟩, ⟨2, []⟩]) 2 true = C.ok (.fresh [some ⟨1, [7]⟩, some ⟨2, []⟩], []) :=
  (create_with_move_list [⟨1, [7]⟩, ⟨2, []⟩] 2 (by decide)).1

/-- `constbuffer_array_create_from_buffer_index_and_count`: for every start and count, NULL when the range does not
fit in the array, and else the elements of that range.  No reference is taken on buffers (the new array keeps the
original alive instead). -/
theorem from_index_and_count_list (o : List Buf) (s n : Nat) :
    (s + n ≤ o.length → create_from_buffer_index_and_count (some o) s n true = C.ok (.fresh (((o.drop s).take n).map some), [])) ∧
    (¬ s + n ≤ o.length → ∀ alloc, create_from_buffer_index_and_count (some o) s n alloc = C.ok (.null, [])) ∧
    create_from_buffer_index_and_count (some o) s n false = C.ok (.null, []) ∧
    ∀ alloc, create_from_buffer_index_and_count none s n alloc = C.ok (.null, []) := by
  refine ⟨fun h => ?_, fun h alloc => ?_, ?_, fun alloc => rfl⟩
  · simp only [create_from_buffer_index_and_count]
    rw [if_neg (show ¬ (s > o.length ∨ n > o.length - s) by omega), if_neg (by simp)]
  · simp only [create_from_buffer_index_and_count]
    rw [if_pos (show (s > o.length ∨ n > o.length - s) by omega)]
  · simp [create_from_buffer_index_and_count]

example : create_from_buffer_index_and_count (some [⟨1, [7]⟩, ⟨2, []⟩, ⟨3, [8]⟩]) 1 2 true =
    C.ok (.fresh [some ⟨2, []⟩, some ⟨3, [8]⟩], []) :=
  (from_index_and_count_list _ 1 2).1 (by simp)

/-- `constbuffer_array_create_from_array_array`: the concatenation, when the total number of buffers fits 32 bits; NULL
otherwise, when an array is NULL, and when memory runs out. -/
theorem from_array_array_list (as : List (List Buf)) (h32 : ∀ a ∈ as, a.length < 2 ^ 32) :
    (as.flatten.length < 2 ^ 32 → Yields (create_from_array_array (some (as.map some)) as.length true) as.flatten) ∧
    (2 ^ 32 ≤ as.flatten.length → ∀ alloc, FailsClean (create_from_array_array (some (as.map some)) as.length alloc)) ∧
    FailsClean (create_from_array_array (some (as.map some)) as.length false) := by
  have key : as ≠ [] → totalCount (as.map some) 0 = if as.flatten.length < 2 ^ 32 then some as.flatten.length else none := by
    intro _
    have := totalCount_eq as 0 (by omega) h32
    simpa using this
  refine ⟨fun h => ?_, fun h alloc => ?_, ?_⟩
  · by_cases he : as = []
    · subst he; exact ⟨_, by simp [create_from_array_array, create_empty], takes_nil⟩
    · refine ⟨_, ?_, takes_map_inc _⟩
      simp only [create_from_array_array]
      rw [if_neg (by simpa using he), if_neg (by simp), List.take_of_length_le (by simp), key he, if_pos h]
      have := copyArrays_eq as [] (uninit as.flatten.length) 0 rfl (by simp)
      simp only [List.nil_append] at this
      dsimp only
      rw [if_neg (by simp), this]
      rfl
  · have he : as ≠ [] := by intro e; subst e; simp at h
    refine ⟨_, ?_, takes_nil⟩
    simp only [create_from_array_array]
    rw [if_neg (by simpa using he), if_neg (by simp), List.take_of_length_le (by simp), key he,
      if_neg (by simp only [Nat.reducePow] at *; omega)]
  · by_cases he : as = []
    · subst he; exact ⟨_, by simp [create_from_array_array, create_empty], takes_nil⟩
    · refine ⟨[], ?_, takes_nil⟩
      simp only [create_from_array_array]
      rw [if_neg (by simpa using he), if_neg (by simp)]
      split <;> simp

example : Yields (create_from_array_array (some [some [⟨1, [7]⟩], some [], some [⟨2, [8]⟩, ⟨3, []⟩]]) 3 true)
    [⟨1, [7]⟩, ⟨2, [8]⟩, ⟨3, []⟩] :=
  (from_array_array_list [[⟨1, [7]⟩], [], [⟨2, [8]⟩, ⟨3, []⟩]] (by simp)).1 (by simp)

/-- `constbuffer_array_create_from_array_array` with a NULL element, a NULL list, or an empty list. -/
theorem from_array_array_null (as : List (Option (List Buf))) (h : none ∈ as) (alloc : Bool) (n : Nat) :
    FailsClean (create_from_array_array (some as) as.length alloc) ∧
    FailsClean (create_from_array_array none (n + 1) alloc) ∧ Yields (create_from_array_array none 0 true) [] := by
  have he : as ≠ [] := by intro e; subst e; cases h
  refine ⟨⟨_, ?_, takes_nil⟩, ⟨_, by simp [create_from_array_array], takes_nil⟩,
    ⟨_, by simp [create_from_array_array, create_empty], takes_nil⟩⟩
  simp only [create_from_array_array]
  rw [if_neg (by simpa using he), if_neg (by simp), List.take_of_length_le (by simp), totalCount_null _ _ h]

example : FailsClean (create_from_array_array (some [some [⟨1, [7]⟩], none]) 2 true) :=
  (from_array_array_null [some [⟨1, [7]⟩], none] (by simp) true 0).1

/-- `constbuffer_array_add_front` is cons, `constbuffer_array_add_back` appends; both fail without effect on a full
array, without memory or on NULL arguments. -/
theorem add_list (a : List Buf) (h : Buf) :
    (a.length < 2 ^ 32 - 1 → Yields (add_front (some a) (some h) true) (h :: a) ∧
      Yields (add_back (some a) (some h) true) (a ++ [h])) ∧
    (a.length = 2 ^ 32 - 1 → ∀ alloc, FailsClean (add_front (some a) (some h) alloc) ∧
      FailsClean (add_back (some a) (some h) alloc)) ∧
    FailsClean (add_front (some a) (some h) false) ∧ FailsClean (add_back (some a) (some h) false) ∧
    ∀ x y alloc, x = none ∨ y = none → FailsClean (add_front x y alloc) ∧ FailsClean (add_back x y alloc) := by
  refine ⟨fun hl => ?_, fun hl alloc => ?_, ?_, ?_, fun x y alloc hx => ?_⟩
  · simp only [Nat.reducePow, Nat.reduceSub] at hl
    constructor
    · refine ⟨_, ?_, takes_map_inc _⟩
      simp only [add_front]
      rw [if_neg (by unfold U32MAX; omega), if_neg (by simp)]
      have hu : (uninit (a.length + 1) : Cells) = [] ++ none :: uninit a.length := by simp [uninit, List.replicate_succ]
      rw [hu, wr_at _ _ _ _ _ (by rfl)]
      have := copyRefs_eq a [] [] [some h] (uninit a.length) [] (by simp) 0 1 a.length rfl rfl rfl
      simp only [List.nil_append, List.append_nil, List.singleton_append] at this
      simp only [C.ok_bind, List.nil_append, this]
      rfl
    · refine ⟨_, ?_, takes_append (takes_map_inc a) (takes_map_inc [h])⟩
      simp only [add_back]
      rw [if_neg (by unfold U32MAX; omega), if_neg (by simp)]
      have := copyRefs_eq a [] [] [] (uninit a.length) [none] (by simp) 0 0 a.length rfl rfl rfl
      have hu : (uninit (a.length + 1) : Cells) = uninit a.length ++ [none] := by
        simp [uninit, List.replicate_succ']
      rw [hu]
      simp only [List.nil_append, List.append_nil] at this
      rw [this]
      simp only [C.ok_bind]
      rw [wr_at _ _ _ _ _ (by simp)]
      simp
  · simp only [Nat.reducePow, Nat.reduceSub] at hl
    constructor <;> refine ⟨[], ?_, takes_nil⟩ <;> simp [add_front, add_back, hl]
  · refine ⟨[], ?_, takes_nil⟩
    simp [add_front]
  · refine ⟨[], ?_, takes_nil⟩
    simp [add_back]
  · constructor <;> refine ⟨[], ?_, takes_nil⟩ <;> rcases hx with hx | hx <;> subst hx <;>
      (first | rfl | (cases x <;> rfl))

example : Yields (add_front (some [⟨1, [7]⟩]) (some ⟨2, [8]⟩) true) [⟨2, [8]⟩, ⟨1, [7]⟩] :=
  ((add_list [⟨1, [7]⟩] ⟨2, [8]⟩).1 (by simp)).1

/-- `constbuffer_array_remove_front` returns the tail and hands out the head; a reference is taken for the caller on
the removed buffer besides those of the new array. -/
theorem remove_front_list (b : Buf) (a : List Buf) :
    (∃ evs, remove_front (some (b :: a)) true true = C.ok (.fresh (a.map some), some b, evs) ∧ Takes evs (b :: a)) ∧
    ∀ x outp alloc, x = none ∨ x = some [] ∨ outp = false ∨ alloc = false →
      remove_front x outp alloc = C.ok (.null, none, []) := by
  constructor
  · refine ⟨_, ?_, takes_map_inc _⟩
    simp only [remove_front, List.length_cons]
    rw [if_neg (by simp), if_neg (by simp), if_neg (by simp), rd_zero]
    have := copyRefs_eq a [b] [] [] (uninit a.length) [] (by simp) 1 0 a.length rfl rfl rfl
    simp only [List.nil_append, List.append_nil, List.singleton_append] at this
    simp [this]
  · intro x outp alloc h
    cases x with
    | none => rfl
    | some x =>
      simp only [remove_front]
      rcases h with h | h | h | h
      · cases h
      · cases h; cases outp <;> simp
      · simp [h]
      · simp [h]

example : ∃ evs, remove_front (some [⟨1, [7]⟩, ⟨2, [8]⟩]) true true = C.ok (.fresh [some ⟨2, [8]⟩], some ⟨1, [7]⟩, evs) ∧
    Takes evs [⟨1, [7]⟩, ⟨2, [8]⟩] := (remove_front_list ⟨1, [7]⟩ [⟨2, [8]⟩]).1

/-- `constbuffer_array_remove_back` returns all but the last element and hands out the last. -/
theorem remove_back_list (b : Buf) (a : List Buf) :
    (∃ evs, remove_back (some (a ++ [b])) true true = C.ok (.fresh (a.map some), some b, evs) ∧ Takes evs (a ++ [b])) ∧
    ∀ x outp alloc, x = none ∨ x = some [] ∨ outp = false ∨ alloc = false →
      remove_back x outp alloc = C.ok (.null, none, []) := by
  constructor
  · refine ⟨_, ?_, takes_perm (takes_map_inc (b :: a)) (List.perm_append_singleton b a).symm⟩
    simp only [remove_back, List.length_append, List.length_singleton]
    rw [if_neg (by simp), if_neg (by simp), if_neg (by simp), Nat.add_sub_cancel, rd_append_at]
    have := copyRefs_eq a [] [b] [] (uninit a.length) [] (by simp) 0 0 a.length rfl rfl rfl
    simp only [List.nil_append, List.append_nil] at this
    simp [this]
  · intro x outp alloc h
    cases x with
    | none => rfl
    | some x =>
      simp only [remove_back]
      rcases h with h | h | h | h
      · cases h
      · cases h; cases outp <;> simp
      · simp [h]
      · simp [h]

example : ∃ evs, remove_back (some [⟨1, [7]⟩, ⟨2, [8]⟩]) true true = C.ok (.fresh [some ⟨1, [7]⟩], some ⟨2, [8]⟩, evs) ∧
    Takes evs [⟨1, [7]⟩, ⟨2, [8]⟩] := (remove_back_list ⟨2, [8]⟩ [⟨1, [7]⟩]).1

/-- The getters: the count, the element at an index (with a reference for the caller) and its bytes; every index past
the end and a NULL array are refused. -/
theorem getters_list (a : List Buf) (i : Nat) :
    get_buffer_count (some a) true = some a.length ∧
    (∀ h : i < a.length, get_buffer (some a) i = C.ok (some a[i], [.inc a[i]]) ∧
      get_buffer_content (some a) i = C.ok (some a[i].bytes)) ∧
    (a.length ≤ i → get_buffer (some a) i = C.ok (none, []) ∧ get_buffer_content (some a) i = C.ok none) ∧
    get_buffer none i = C.ok (none, []) ∧ get_buffer_content none i = C.ok none ∧
    get_buffer_count none true = none ∧ get_buffer_count (some a) false = none := by
  refine ⟨rfl, fun h => ?_, fun h => ?_, rfl, rfl, rfl, rfl⟩
  · simp [get_buffer, get_buffer_content, rd_lt _ _ h, Nat.not_le.mpr h]
  · simp [get_buffer, get_buffer_content, h]

example : get_buffer (some [⟨1, [7]⟩, ⟨2, [8]⟩]) 1 = C.ok (some ⟨2, [8]⟩, [.inc ⟨2, [8]⟩]) :=
  ((getters_list [⟨1, [7]⟩, ⟨2, [8]⟩] 1).2.1 (by simp)).1

/-- `constbuffer_array_remove_empty_buffers` keeps exactly the non-empty buffers in order: either in a new array, or by
returning the same array when nothing is to be removed. -/
theorem remove_empty_list (a : List Buf) :
    ((∀ b ∈ a, b.bytes ≠ []) → ∀ alloc, remove_empty_buffers (some a) alloc = C.ok (.same, [])) ∧
    ((∃ b ∈ a, b.bytes = []) → Yields (remove_empty_buffers (some a) true) (a.filter (fun b => decide (b.bytes ≠ []))) ∧
      FailsClean (remove_empty_buffers (some a) false)) ∧
    ∀ alloc, FailsClean (remove_empty_buffers none alloc) := by
  have hn : countNonEmpty a 0 = (a.filter (fun b => decide (b.bytes ≠ []))).length := by
    rw [countNonEmpty_eq]; omega
  refine ⟨fun h alloc => ?_, fun h => ?_, fun alloc => ⟨_, rfl, takes_nil⟩⟩
  · simp only [remove_empty_buffers, hn]
    rw [if_pos]
    rw [List.filter_eq_self.mpr (by simpa using h)]
  · have hlt : (a.filter (fun b => decide (b.bytes ≠ []))).length ≠ a.length := by
      intro e
      have := List.length_filter_eq_length_iff.mp e
      obtain ⟨b, hb, hb'⟩ := h
      have := this b hb
      simp [hb'] at this
    constructor
    · refine ⟨_, ?_, takes_map_inc _⟩
      simp only [remove_empty_buffers, hn]
      rw [if_neg hlt]
      by_cases h0 : (a.filter (fun b => decide (b.bytes ≠ []))).length = 0
      · rw [if_pos h0]
        rw [List.eq_nil_of_length_eq_zero h0]; rfl
      · rw [if_neg h0, if_neg (by simp)]
        have := copyNonEmpty_eq a [] (uninit (a.filter (fun b => decide (b.bytes ≠ []))).length) 0 rfl (by simp)
        simp only [List.nil_append] at this
        simp only [this, C.ok_bind, C.pure_eq]
    · refine ⟨[], ?_, takes_nil⟩
      simp only [remove_empty_buffers, hn]
      rw [if_neg hlt]
      split <;> simp [create_empty]

example : Yields (remove_empty_buffers (some [⟨1, [7]⟩, ⟨2, []⟩, ⟨3, [9]⟩]) true) [⟨1, [7]⟩, ⟨3, [9]⟩] :=
  ((remove_empty_list [⟨1, [7]⟩, ⟨2, []⟩, ⟨3, [9]⟩]).2.1 ⟨⟨2, []⟩, by simp⟩).1

/-- Destroying an array gives back exactly the references its creation took: after any successful creation followed by
the last `constbuffer_array_dec_ref` the net effect on every buffer is zero. -/
theorem create_destroy_balanced (evs : List Ev) (bs : List Buf) (h : Takes evs bs) :
    ∃ evs', destroyRefs bs 0 bs.length = C.ok evs' ∧ Takes (evs ++ evs') [] := by
  refine ⟨_, ?_, takes_destroy h⟩
  have := destroyRefs_eq bs [] 0 rfl
  simpa using this

example : ∃ evs', destroyRefs [⟨1, [7]⟩, ⟨1, [7]⟩] 0 2 = C.ok evs' ∧ Takes ([.inc ⟨1, [7]⟩, .inc ⟨1, [7]⟩] ++ evs') [] :=
  create_destroy_balanced _ [⟨1, [7]⟩, ⟨1, [7]⟩] (takes_map_inc [⟨1, [7]⟩, ⟨1, [7]⟩])

/-! ### C16: sub range by offset and count -/

/-- For a range of at least one buffer inside the array: whatever the offsets and the allocator do, the call is defined and
has one of three outcomes: the same array (only when the requested range is everything), a new array whose buffers show exactly the
requested bytes (the inner ones being the original handles) and which owns one reference on each of them, or NULL with no reference kept.
Missing for the full property: ranges of zero buffers, see `from_offset_and_count_empty_array` and
`from_offset_and_count_zero`. -/
theorem from_offset_and_count_partial (o : List Buf) (s n off e : Nat) (al a1 a2 : Bool) (f1 f2 : Nat)
    (h32 : o.length < 2 ^ 32) (hsz : ∀ b ∈ o, b.size < 2 ^ 32) (hoff : off < 2 ^ 32)
    (hn : 1 ≤ n) (hr : s + n ≤ o.length) :
    (create_from_buffer_offset_and_count (some o) s n off e al a1 a2 f1 f2 = C.ok (.same, []) ∧
      cut (contents ((o.drop s).take n)) off e = contents o) ∨
    (∃ bs, Yields (create_from_buffer_offset_and_count (some o) s n off e al a1 a2 f1 f2) bs ∧
      contents bs = cut (contents ((o.drop s).take n)) off e ∧
      bs.tail.dropLast = ((o.drop s).take n).tail.dropLast) ∨
    FailsClean (create_from_buffer_offset_and_count (some o) s n off e al a1 a2 f1 f2) := by
  obtain ⟨p, sub, q, rfl, rfl, rfl⟩ := split_range o s n hr
  rw [List.drop_left, List.take_left]
  exact offset_cases p sub q off e al a1 a2 f1 f2 h32 hsz hoff hn

example : ∃ bs, Yields (create_from_buffer_offset_and_count (some [⟨1, [1, 2]⟩, ⟨2, [3]⟩, ⟨3, [4, 5]⟩]) 0 3 1 1 true true true 8 9) bs ∧
    contents bs = [[2], [3], [4]] :=
  ⟨[⟨8, [2]⟩, ⟨2, [3]⟩, ⟨9, [4]⟩], ⟨_, rfl, by
    intro b
    simp only [balance, List.append_eq]
    exact takes_perm (takes_append (takes_append (takes_mk _) (takes_mk _)) (takes_map_inc [_])) (by decide) b⟩, rfl⟩

/-- ... and with memory available it succeeds exactly when the offsets lie inside the buffers they cut. -/
theorem from_offset_and_count_success_partial (o : List Buf) (s n off e : Nat) (f1 f2 : Nat)
    (h32 : o.length < 2 ^ 32) (hsz : ∀ b ∈ o, b.size < 2 ^ 32) (hoff : off < 2 ^ 32)
    (hn : 1 ≤ n) (hr : s + n ≤ o.length) :
    (∃ evs, create_from_buffer_offset_and_count (some o) s n off e true true true f1 f2 = C.ok (.null, evs)) ↔
      ¬ fits ((o.drop s).take n) off e := by
  obtain ⟨p, sub, q, rfl, rfl, rfl⟩ := split_range o s n hr
  rw [List.drop_left, List.take_left]
  exact offset_null_iff p sub q off e f1 f2 h32 hsz hoff hn

example : fits [⟨1, [1, 2]⟩, ⟨2, [3]⟩, ⟨3, [4, 5]⟩] 1 1 ∧ ¬ fits [⟨1, [1, 2]⟩, ⟨3, [4, 5]⟩] 1 3 := by
  simp [fits, Buf.size]

/-- A range that does not lie in the array is refused, and so is a NULL array. -/
theorem from_offset_and_count_refuses (o : List Buf) (s n off e : Nat) (al a1 a2 : Bool) (f1 f2 : Nat)
    (hr : ¬ s + n ≤ o.length) :
    create_from_buffer_offset_and_count (some o) s n off e al a1 a2 f1 f2 = C.ok (.null, []) ∧
    create_from_buffer_offset_and_count none s n off e al a1 a2 f1 f2 = C.ok (.null, []) := by
  refine ⟨?_, rfl⟩
  simp only [create_from_buffer_offset_and_count]
  rw [if_pos (show s > o.length ∨ n > o.length - s by omega)]

example : create_from_buffer_offset_and_count (some [⟨1, [1, 2]⟩]) 1 1 0 0 true true true 8 9 = C.ok (.null, []) :=
  (from_offset_and_count_refuses [⟨1, [1, 2]⟩] 1 1 0 0 true true true 8 9 (by simp)).1

/-- False of the code: on an empty array the call reads `buffers[UINT32_MAX]`. -/
theorem from_offset_and_count_empty_array (off e : Nat) (al a1 a2 : Bool) (f1 f2 : Nat) :
    create_from_buffer_offset_and_count (some []) 0 0 off e al a1 a2 f1 f2 = C.ub := by
  simp [create_from_buffer_offset_and_count, rd]

/-- False of the code: a range of zero buffers at the start of a non-empty array reads `buffers[UINT32_MAX]`, at its end
`buffers[nBuffers]`, and in the middle it returns an empty array but keeps two references that nobody will ever give back. -/
theorem from_offset_and_count_zero :
    create_from_buffer_offset_and_count (some [⟨1, [1]⟩, ⟨2, [2]⟩]) 0 0 0 1 true true true 8 9 = C.ub ∧
    create_from_buffer_offset_and_count (some [⟨1, [1]⟩, ⟨2, [2]⟩]) 2 0 0 1 true true true 8 9 = C.ub ∧
    create_from_buffer_offset_and_count (some [⟨1, [1]⟩, ⟨2, [2]⟩]) 1 0 0 1 true true true 8 9 =
      C.ok (.fresh [], [.inc ⟨2, [2]⟩, .inc ⟨1, [1]⟩]) := by
  refine ⟨?_, ?_, ?_⟩ <;> decide

/-! ### C17: size and equality -/

/-- `constbuffer_array_get_all_buffers_size` is the exact total when it fits 32 bits and fails otherwise. -/
theorem all_buffers_size_exact (a : List Buf) (h : ∀ b ∈ a, b.size < 2 ^ 32) :
    (totalSize a < 2 ^ 32 → get_all_buffers_size (some a) true = some (totalSize a)) ∧
    (2 ^ 32 ≤ totalSize a → get_all_buffers_size (some a) true = none) ∧
    get_all_buffers_size none true = none ∧ get_all_buffers_size (some a) false = none := by
  have := sumSizes_eq a 0 (by omega) h
  simp only [Nat.zero_add] at this
  refine ⟨fun hl => ?_, fun hl => ?_, rfl, rfl⟩
  · simp only [get_all_buffers_size, this, if_pos hl, if_true]
  · simp only [get_all_buffers_size, this, if_true]
    rw [if_neg (by simp only [Nat.reducePow] at *; omega)]

example : get_all_buffers_size (some [⟨1, [7, 8]⟩, ⟨2, []⟩, ⟨3, [9]⟩]) true = some 3 :=
  (all_buffers_size_exact [⟨1, [7, 8]⟩, ⟨2, []⟩, ⟨3, [9]⟩] (by simp [Buf.size])).1 (by simp [totalSize, Buf.size])

/-- The comparison functions are defined on all arguments and decide equality of the bytes shown (handles) and of the
lists of byte strings (arrays), NULL being equal to NULL only. -/
theorem contain_same_decides (x y : Option Buf) (l r : Option (List Buf)) :
    (∃ b, handle_contain_same x y = C.ok b ∧ (b = true ↔ x.map Buf.bytes = y.map Buf.bytes)) ∧
    (∃ b, array_contain_same l r = C.ok b ∧ (b = true ↔ l.map contents = r.map contents)) := by
  constructor
  · cases x <;> cases y
    · exact ⟨true, rfl, by simp⟩
    · exact ⟨false, rfl, by simp⟩
    · exact ⟨false, rfl, by simp⟩
    · exact ⟨_, handle_same_eq _ _, by simp⟩
  · cases l <;> cases r
    · exact ⟨true, rfl, by simp⟩
    · exact ⟨false, rfl, by simp⟩
    · exact ⟨false, rfl, by simp⟩
    · rename_i l r
      simp only [array_contain_same]
      by_cases h : l.length = r.length
      · rw [if_neg (by simp [h])]
        have := sameLoop_eq l r l.length [] [] 0 rfl rfl rfl h.symm
        simp only [List.nil_append] at this
        exact ⟨_, this, by simp⟩
      · rw [if_pos h]
        refine ⟨false, rfl, by simp; intro e; exact h (by simpa [contents] using congrArg List.length e)⟩

example : array_contain_same (some [⟨1, [7]⟩]) (some [⟨2, [7]⟩]) = C.ok true := by decide
example : array_contain_same (some [⟨1, [7]⟩]) (some [⟨1, [8]⟩]) = C.ok false := by decide

/-- Both comparisons are equivalence relations. -/
theorem contain_same_equivalence :
    Equivalence (fun x y => handle_contain_same x y = C.ok true) ∧
    Equivalence (fun l r => array_contain_same l r = C.ok true) := by
  have h1 : ∀ x y, handle_contain_same x y = C.ok true ↔ x.map Buf.bytes = y.map Buf.bytes := by
    intro x y
    obtain ⟨b, hb, hi⟩ := (contain_same_decides x y none none).1
    rw [hb, ← hi]; simp
  have h2 : ∀ x y, array_contain_same x y = C.ok true ↔ x.map contents = y.map contents := by
    intro x y
    obtain ⟨b, hb, hi⟩ := (contain_same_decides none none x y).2
    rw [hb, ← hi]; simp
  exact ⟨⟨fun x => (h1 _ _).mpr rfl, fun h => (h1 _ _).mpr ((h1 _ _).mp h).symm,
      fun a b => (h1 _ _).mpr (((h1 _ _).mp a).trans ((h1 _ _).mp b))⟩,
    ⟨fun x => (h2 _ _).mpr rfl, fun h => (h2 _ _).mpr ((h2 _ _).mp h).symm,
      fun a b => (h2 _ _).mpr (((h2 _ _).mp a).trans ((h2 _ _).mp b))⟩⟩

end CUtil.ConstBufferArray
