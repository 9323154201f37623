import Verif.ConstBufferArray.Spec
set_option linter.unusedSimpArgs false
set_option linter.unusedVariables false
namespace CUtil.ConstBufferArray

theorem takes_nil : Takes [] [] := by intro b; simp [balance]

theorem takes_map_inc (bs : List Buf) : Takes (bs.map Ev.inc) bs := by
  intro b
  unfold balance
  induction bs with
  | nil => simp
  | cons a t ih =>
    simp only [List.map_cons, List.count_cons]
    by_cases h : a = b
    · subst h; simp at ih ⊢; omega
    · simp [h] at ih ⊢; omega

theorem takes_append {e1 e2 : List Ev} {b1 b2 : List Buf} (h1 : Takes e1 b1) (h2 : Takes e2 b2) :
    Takes (e1 ++ e2) (b1 ++ b2) := by
  intro b
  have a1 := h1 b
  have a2 := h2 b
  simp only [balance, List.count_append] at *
  omega

theorem takes_cons_inc {e : List Ev} {bs : List Buf} (h : Takes e bs) (x : Buf) : Takes (.inc x :: e) (x :: bs) :=
  takes_append (takes_map_inc [x]) h

theorem takes_mk (x : Buf) : Takes [.mk x] [x] := by
  intro b
  simp only [balance, List.count_cons, List.count_nil]
  by_cases h : x = b
  · subst h; simp
  · simp [h]

theorem takes_dec {e : List Ev} {x : Buf} (h : Takes e [x]) : Takes (e ++ [.dec x]) [] := by
  intro b
  have := h b
  simp only [balance, List.count_append, List.count_cons, List.count_nil] at *
  by_cases hx : x = b
  · subst hx; simp at *; omega
  · simp [hx] at *; omega

theorem takes_perm {e : List Ev} {b1 b2 : List Buf} (h : Takes e b1) (p : b1.Perm b2) : Takes e b2 := by
  intro b; rw [h b, p.count_eq]

theorem wr_at {α : Type} (a : List (Option α)) (x : Option α) (t : List (Option α)) (v : α) (i : Nat) (h : i = a.length) :
    wr (a ++ x :: t) i v = C.ok (a ++ some v :: t) := by
  subst h
  unfold wr
  rw [if_pos (by simp)]
  rw [List.set_append_right _ _ (by simp)]
  simp

theorem copyRefs_eq (xs p q : List Buf) (a u c : Cells) (h : u.length = xs.length) (s d n : Nat)
    (hs : s = p.length) (hd : d = a.length) (hn : n = xs.length) :
    copyRefs (p ++ (xs ++ q)) s (a ++ (u ++ c)) d n =
      C.ok (a ++ (xs.map some ++ c), xs.map Ev.inc) := by
  subst hs hd hn
  induction xs generalizing p a u with
  | nil =>
    have : u = [] := by simpa using h
    subst this; simp [copyRefs]
  | cons x xs ih =>
    cases u with
    | nil => simp at h
    | cons y u =>
      simp only [List.length_cons, copyRefs]
      simp only [List.cons_append]
      rw [rd_append_at]
      simp only [C.ok_bind]
      rw [wr_at _ _ _ _ _ rfl]
      simp only [C.ok_bind]
      have := ih (p ++ [x]) (a ++ [some x]) u (by simpa using h)
      simp only [List.append_assoc, List.singleton_append, List.length_append, List.length_singleton] at this
      rw [this]
      simp

theorem copyRefs_all (xs : List Buf) : copyRefs xs 0 (uninit xs.length) 0 xs.length = C.ok (xs.map some, xs.map Ev.inc) := by
  have := copyRefs_eq xs [] [] [] (uninit xs.length) [] (by simp) 0 0 xs.length rfl rfl rfl
  simpa using this

theorem copyRefs_take (xs : List Buf) (n : Nat) (h : n ≤ xs.length) :
    copyRefs xs 0 (uninit n) 0 n = C.ok ((xs.take n).map some, (xs.take n).map Ev.inc) := by
  have hl : (xs.take n).length = n := by simp; omega
  have := copyRefs_eq (xs.take n) [] (xs.drop n) [] (uninit n) [] (by simp [hl]) 0 0 n rfl rfl hl.symm
  simpa using this

theorem createWin_ok (b : Buf) (off size f : Nat) (h : off + size ≤ b.size) (hb : b.size ≤ U32MAX) :
    ∃ w evs, createFromOffsetAndSize b off size true f = (some w, evs) ∧ Takes evs [w] ∧
      w.bytes = (b.bytes.drop off).take size := by
  unfold createFromOffsetAndSize
  rw [if_neg (show ¬ (off > b.size ∨ off > U32MAX - size ∨ off + size > b.size) by omega)]
  split
  · rename_i hh
    refine ⟨b, _, rfl, takes_map_inc [b], ?_⟩
    rw [hh.1, hh.2]; simp [Buf.size]
  · rw [if_neg (by simp)]
    exact ⟨_, _, rfl, takes_mk _, rfl⟩

theorem createWin_bad (b : Buf) (off size f : Nat) (al : Bool) (h : ¬ off + size ≤ b.size) :
    createFromOffsetAndSize b off size al f = (none, []) := by
  unfold createFromOffsetAndSize
  rw [if_pos (by omega)]

theorem createWin_cases (b : Buf) (off size f : Nat) (al : Bool) :
    createFromOffsetAndSize b off size al f = (none, []) ∨
    ∃ w evs, createFromOffsetAndSize b off size al f = (some w, evs) ∧ Takes evs [w] ∧ off + size ≤ b.size ∧
      w.bytes = (b.bytes.drop off).take size := by
  unfold createFromOffsetAndSize
  split
  · exact Or.inl rfl
  · rename_i hc
    split
    · rename_i hh
      refine Or.inr ⟨b, _, rfl, takes_map_inc [b], by omega, ?_⟩
      rw [hh.1, hh.2]; simp [Buf.size]
    · split
      · exact Or.inl rfl
      · exact Or.inr ⟨_, _, rfl, takes_mk _, by omega, rfl⟩

/-- The loop once past index 0. -/
theorem offsetLoop_tail (o : List Buf) (start count : Nat) (sb eb : Buf) (k : Nat) :
    ∀ (a u : Cells) (i : Nat), i = a.length → 1 ≤ i → u.length = k + 1 → i + (k + 1) = count →
      start + count ≤ o.length →
      offsetLoop o start count sb eb (a ++ u) i (k + 1) =
        C.ok (a ++ (((o.drop (start + i)).take k).map some ++ [some eb]), ((o.drop (start + i)).take k).map Ev.inc) := by
  induction k with
  | zero =>
    intro a u i hi h1 hu hc ho
    match u, hu with
    | [x], _ =>
      simp only [offsetLoop]
      rw [if_neg (by omega), if_pos (by omega), wr_at _ _ _ _ _ hi]
      simp
  | succ k ih =>
    intro a u i hi h1 hu hc ho
    match u, hu with
    | x :: u, hu =>
      rw [offsetLoop]
      rw [if_neg (by omega), if_neg (by omega)]
      rw [rd_lt _ _ (by omega)]
      simp only [C.ok_bind]
      rw [wr_at _ _ _ _ _ hi]
      simp only [C.ok_bind]
      have hlt : start + i < o.length := by omega
      have := ih (a ++ [some o[start + i]]) u (i + 1) (by simp [hi]) (by omega) (by simpa using hu) (by omega) ho
      simp only [List.append_assoc, List.singleton_append] at this
      rw [this]
      simp only [C.ok_bind, C.pure_eq]
      rw [List.drop_eq_getElem_cons hlt]
      simp [Nat.add_assoc]

theorem offsetLoop_eq (o : List Buf) (start k : Nat) (sb eb : Buf) (ho : start + (k + 2) ≤ o.length) :
    offsetLoop o start (k + 2) sb eb (uninit (k + 2)) 0 (k + 2) =
      C.ok ((sb :: ((o.drop (start + 1)).take k ++ [eb])).map some, ((o.drop (start + 1)).take k).map Ev.inc) := by
  rw [offsetLoop, if_pos rfl]
  have hu : (uninit (k + 2) : Cells) = [] ++ none :: uninit (k + 1) := by simp [uninit, List.replicate_succ]
  rw [hu, wr_at _ _ _ _ _ (by rfl)]
  simp only [C.ok_bind, List.nil_append]
  have := offsetLoop_tail o start (k + 2) sb eb k [some sb] (uninit (k + 1)) 1 rfl (by omega) (by simp) (by omega) ho
  simp only [List.singleton_append] at this
  rw [this]
  simp

theorem totalCount_eq (as : List (List Buf)) (t : Nat) (ht : t < 2 ^ 32) (ha : ∀ a ∈ as, a.length < 2 ^ 32) :
    totalCount (as.map some) t = if t + as.flatten.length < 2 ^ 32 then some (t + as.flatten.length) else none := by
  simp only [Nat.reducePow] at *
  induction as generalizing t with
  | nil => simp [totalCount, ht]
  | cons a as ih =>
    have h1 := ha a (by simp)
    simp only [List.map_cons, totalCount, List.flatten_cons, List.length_append, Nat.reducePow]
    by_cases h : t + a.length < 4294967296
    · rw [Nat.mod_eq_of_lt h, if_neg (by omega), ih _ h (fun x hx => ha x (by simp [hx]))]
      simp only [Nat.add_assoc]
    · rw [if_pos (by omega), if_neg (by omega)]

theorem totalCount_null (as : List (Option (List Buf))) (t : Nat) (h : none ∈ as) : totalCount as t = none := by
  induction as generalizing t with
  | nil => cases h
  | cons a as ih =>
    cases a with
    | none => rfl
    | some a =>
      simp only [totalCount]
      split
      · rfl
      · exact ih _ (by simpa using h)

theorem copyArrays_eq (as : List (List Buf)) (a u : Cells) (d : Nat) (hd : d = a.length) (hu : u.length = as.flatten.length) :
    copyArrays (as.map some) (a ++ u) d = C.ok (a ++ as.flatten.map some, as.flatten.map Ev.inc) := by
  induction as generalizing a u d with
  | nil =>
    have : u = [] := by simpa using hu
    subst this; simp [copyArrays]
  | cons x as ih =>
    simp only [List.map_cons, copyArrays]
    have hsplit : u = u.take x.length ++ u.drop x.length := (List.take_append_drop _ _).symm
    have hul : (u.take x.length).length = x.length := by
      simp only [List.flatten_cons, List.length_append] at hu
      simp; omega
    have := copyRefs_eq x [] [] a (u.take x.length) (u.drop x.length) hul 0 d x.length rfl hd rfl
    simp only [List.nil_append, List.append_nil] at this
    rw [← hsplit] at this
    rw [this]
    simp only [C.ok_bind]
    have := ih (a ++ x.map some) (u.drop x.length) (d + x.length) (by simp [hd]) (by
      simp only [List.flatten_cons, List.length_append] at hu
      simp only [List.length_drop]; omega)
    simp only [List.append_assoc] at this
    rw [this]
    simp

theorem sumSizes_eq (bs : List Buf) (t : Nat) (ht : t < 2 ^ 32) (hb : ∀ b ∈ bs, b.size < 2 ^ 32) :
    sumSizes bs t = if t + totalSize bs < 2 ^ 32 then some (t + totalSize bs) else none := by
  simp only [Nat.reducePow] at *
  induction bs generalizing t with
  | nil => simp [sumSizes, totalSize, ht]
  | cons b bs ih =>
    have h1 := hb b (by simp)
    have e : totalSize (b :: bs) = b.size + totalSize bs := by simp [totalSize]
    simp only [sumSizes, e, Nat.reducePow]
    by_cases h : t + b.size < 4294967296
    · rw [Nat.mod_eq_of_lt h, if_neg (by omega), ih _ h (fun x hx => hb x (by simp [hx]))]
      simp only [Nat.add_assoc]
    · rw [if_pos (by omega), if_neg (by omega)]

theorem countNonEmpty_eq (bs : List Buf) (n : Nat) :
    countNonEmpty bs n = n + (bs.filter (fun b => decide (b.bytes ≠ []))).length := by
  induction bs generalizing n with
  | nil => simp [countNonEmpty]
  | cons b bs ih =>
    rw [countNonEmpty, ih]
    by_cases h : b.bytes = []
    · simp [Buf.size, h]
    · have : 0 < b.bytes.length := List.length_pos_iff.mpr h
      simp [Buf.size, h, this]; omega

theorem copyNonEmpty_eq (bs : List Buf) (a u : Cells) (d : Nat) (hd : d = a.length)
    (hu : u.length = (bs.filter (fun b => decide (b.bytes ≠ []))).length) :
    copyNonEmpty bs (a ++ u) d = C.ok (a ++ (bs.filter (fun b => decide (b.bytes ≠ []))).map some,
      (bs.filter (fun b => decide (b.bytes ≠ []))).map Ev.inc) := by
  induction bs generalizing a u d with
  | nil =>
    have : u = [] := by simpa using hu
    subst this; simp [copyNonEmpty]
  | cons b bs ih =>
    rw [copyNonEmpty]
    by_cases h : b.bytes = []
    · rw [if_neg (by simp [Buf.size, h])]
      rw [List.filter_cons_of_neg (by simp [h])] at hu ⊢
      exact ih a u d hd hu
    · rw [if_pos (show b.size > 0 from List.length_pos_iff.mpr h)]
      rw [List.filter_cons_of_pos (by simp [h])] at hu ⊢
      cases u with
      | nil => simp at hu
      | cons y u =>
        rw [wr_at _ _ _ _ _ hd]
        simp only [C.ok_bind]
        have := ih (a ++ [some b]) u (d + 1) (by simp [hd]) (by simpa using hu)
        simp only [List.append_assoc, List.singleton_append] at this
        rw [this]
        simp

theorem memEq_eq (l r : List UInt8) (n : Nat) : ∀ (pl pr : List UInt8) (i : Nat), pl.length = i → pr.length = i →
    l.length = n → r.length = n → memEq (pl ++ l) (pr ++ r) i n = C.ok (decide (l = r)) := by
  induction n generalizing l r with
  | zero =>
    intro pl pr i h1 h2 h3 h4
    have : l = [] := by simpa using h3
    have : r = [] := by simpa using h4
    subst_vars; simp [memEq]
  | succ n ih =>
    intro pl pr i h1 h2 h3 h4
    match l, r, h3, h4 with
    | x :: l, y :: r, h3, h4 =>
      rw [memEq]
      have e1 := rd_append_at pl x l
      have e2 := rd_append_at pr y r
      rw [h1] at e1; rw [h2] at e2
      rw [e1, e2]
      simp only [C.ok_bind]
      by_cases hxy : x = y
      · subst hxy
        rw [if_pos rfl]
        have := ih l r (pl ++ [x]) (pr ++ [x]) (i + 1) (by simp [h1]) (by simp [h2]) (by simpa using h3) (by simpa using h4)
        simp only [List.append_assoc, List.singleton_append] at this
        rw [this]; simp
      · rw [if_neg hxy]; simp [hxy]

theorem handle_same_eq (a b : Buf) : handle_contain_same (some a) (some b) = C.ok (decide (a.bytes = b.bytes)) := by
  simp only [handle_contain_same]
  by_cases h : a.size = b.size
  · rw [if_neg (by simp [h])]
    have := memEq_eq a.bytes b.bytes a.size [] [] 0 rfl rfl rfl h.symm
    simpa using this
  · rw [if_pos h]
    have : a.bytes ≠ b.bytes := fun e => h (by simp [Buf.size, e])
    simp [this]

theorem sameLoop_eq (l r : List Buf) (n : Nat) : ∀ (pl pr : List Buf) (i : Nat), pl.length = i → pr.length = i →
    l.length = n → r.length = n → sameLoop (pl ++ l) (pr ++ r) i n = C.ok (decide (contents l = contents r)) := by
  induction n generalizing l r with
  | zero =>
    intro pl pr i h1 h2 h3 h4
    have : l = [] := by simpa using h3
    have : r = [] := by simpa using h4
    subst_vars; simp [sameLoop]
  | succ n ih =>
    intro pl pr i h1 h2 h3 h4
    match l, r, h3, h4 with
    | x :: l, y :: r, h3, h4 =>
      rw [sameLoop]
      have e1 := rd_append_at pl x l
      have e2 := rd_append_at pr y r
      rw [h1] at e1; rw [h2] at e2
      rw [e1, e2]
      simp only [C.ok_bind, handle_same_eq]
      by_cases hxy : x.bytes = y.bytes
      · have := ih l r (pl ++ [x]) (pr ++ [y]) (i + 1) (by simp [h1]) (by simp [h2]) (by simpa using h3) (by simpa using h4)
        simp only [List.append_assoc, List.singleton_append] at this
        rw [decide_eq_true hxy, if_neg (by simp), this]
        exact congrArg C.ok (decide_eq_decide.mpr (by simp [contents, hxy]))
      · simp [hxy, contents]

theorem destroyRefs_eq (xs : List Buf) : ∀ (p : List Buf) (i : Nat), i = p.length →
    destroyRefs (p ++ xs) i xs.length = C.ok (xs.map Ev.dec) := by
  induction xs with
  | nil => intros; simp [destroyRefs]
  | cons x xs ih =>
    intro p i hi
    simp only [List.length_cons, destroyRefs]
    subst hi
    rw [rd_append_at]
    have := ih (p ++ [x]) (p.length + 1) (by simp)
    simp only [List.append_assoc, List.singleton_append] at this
    simp [this]

theorem takes_destroy {e : List Ev} {bs : List Buf} (h : Takes e bs) : Takes (e ++ bs.map Ev.dec) [] := by
  intro b
  have := h b
  have hd : balance (bs.map Ev.dec) b = - (bs.count b : Nat) := by
    clear this h
    unfold balance
    induction bs with
    | nil => simp
    | cons a t ih =>
      simp only [List.map_cons, List.count_cons]
      by_cases h : a = b
      · subst h; simp at ih ⊢; omega
      · simp [h] at ih ⊢; omega
  simp only [balance, List.count_append] at *
  simp; omega

theorem split_range (o : List Buf) (s n : Nat) (h : s + n ≤ o.length) :
    ∃ p sub q, o = p ++ (sub ++ q) ∧ s = p.length ∧ n = sub.length := by
  refine ⟨o.take s, (o.drop s).take n, (o.drop s).drop n, ?_, ?_, ?_⟩
  · rw [List.take_append_drop, List.take_append_drop]
  · simp; omega
  · simp; omega

theorem cutLast_snoc (x : List UInt8) (m : List (List UInt8)) (l : List UInt8) (n : Nat) :
    cutLast (x :: (m ++ [l])) n = x :: (m ++ [l.take n]) := by
  induction m generalizing x with
  | nil => rfl
  | cons a m ih =>
    have := ih a
    simp only [List.cons_append] at *
    rw [cutLast.eq_def]
    simp only []
    rw [this]

theorem rd_last (o : List Buf) (h : 0 < o.length) (h32 : o.length < 2 ^ 32) :
    rd o ((o.length + 2 ^ 32 - 1) % 2 ^ 32) = C.ok (o.getLast (by intro e; subst e; simp at h)) := by
  have : (o.length + 2 ^ 32 - 1) % 2 ^ 32 = o.length - 1 := by simp only [Nat.reducePow] at *; omega
  rw [this, rd_lt _ _ (by omega), List.getLast_eq_getElem]

/-- The outcome for a range of one buffer. -/
theorem offset_one (p q : List Buf) (b : Buf) (off e : Nat) (al a1 a2 : Bool) (f1 f2 : Nat)
    (h32 : (p ++ ([b] ++ q)).length < 2 ^ 32) :
    create_from_buffer_offset_and_count (some (p ++ ([b] ++ q))) p.length 1 off e al a1 a2 f1 f2 =
      if p = [] ∧ q = [] ∧ off = 0 ∧ e = b.size then C.ok (.same, [])
      else if al = false then C.ok (.null, [])
      else match createFromOffsetAndSize b off e a1 f1 with
        | (none, evs) => C.ok (.null, evs)
        | (some w, evs) => C.ok (.fresh [some w], evs) := by
  simp only [create_from_buffer_offset_and_count]
  rw [if_neg (by simp), rd_last _ (by simp; omega) h32]
  simp only [C.ok_bind]
  by_cases hs : p = [] ∧ q = [] ∧ off = 0 ∧ e = b.size
  · obtain ⟨rfl, rfl, rfl, rfl⟩ := hs
    simp
  · rw [if_neg hs, if_neg]
    · by_cases ha : al = false
      · simp [ha]
      · rw [if_neg ha, if_neg ha]
        have := rd_append_at p b q
        simp only [List.singleton_append] at *
        rw [this]
        simp only [C.ok_bind, if_true]
        rcases createFromOffsetAndSize b off e a1 f1 with ⟨w, evs⟩
        cases w with
        | none => rfl
        | some w => rfl
    · rintro ⟨h1, h2, h3⟩
      simp at h1
      have hp : p = [] := List.eq_nil_of_length_eq_zero (by omega)
      have hq : q = [] := List.eq_nil_of_length_eq_zero (by omega)
      subst hp hq
      exact hs ⟨rfl, rfl, h2, by simpa using h3⟩

/-- The outcome for a range of two buffers or more. -/
theorem offset_many (p q mid : List Buf) (b l : Buf) (off e : Nat) (al a1 a2 : Bool) (f1 f2 : Nat)
    (h32 : (p ++ ((b :: (mid ++ [l])) ++ q)).length < 2 ^ 32) :
    create_from_buffer_offset_and_count (some (p ++ ((b :: (mid ++ [l])) ++ q))) p.length (mid.length + 2) off e al a1 a2 f1 f2 =
      if p = [] ∧ q = [] ∧ off = 0 ∧ e = l.size then C.ok (.same, [])
      else if al = false then C.ok (.null, [])
      else match createFromOffsetAndSize b off ((b.size + 2 ^ 32 - off) % 2 ^ 32) a1 f1 with
        | (none, evs) => C.ok (.null, evs)
        | (some w, evs) => match createFromOffsetAndSize l 0 e a2 f2 with
          | (none, evs2) => C.ok (.null, evs ++ evs2 ++ [.dec w])
          | (some z, evs2) => C.ok (.fresh ((w :: (mid ++ [z])).map some), evs ++ evs2 ++ mid.map Ev.inc) := by
  simp only [create_from_buffer_offset_and_count]
  rw [if_neg (by simp), rd_last _ (by simp; omega) h32]
  simp only [C.ok_bind]
  by_cases hs : p = [] ∧ q = [] ∧ off = 0 ∧ e = l.size
  · obtain ⟨rfl, rfl, rfl, rfl⟩ := hs
    rw [if_pos ?_, if_pos (by simp)]
    · rfl
    · refine ⟨by simp, rfl, ?_⟩
      simp [List.getLast_cons]
  · rw [if_neg hs, if_neg]
    · by_cases ha : al = false
      · simp [ha]
      · rw [if_neg ha, if_neg ha, if_neg (by omega)]
        have h1 := rd_append_at p b ((mid ++ [l]) ++ q)
        have h2 : rd (p ++ ((b :: (mid ++ [l])) ++ q)) ((p.length + (mid.length + 2) + 2 ^ 32 - 1) % 2 ^ 32) = C.ok l := by
          have e1 : (p.length + (mid.length + 2) + 2 ^ 32 - 1) % 2 ^ 32 = (p ++ b :: mid).length := by
            simp only [List.length_append, List.length_cons, List.length_nil, Nat.reducePow] at *
            omega
          have e2 : p ++ ((b :: (mid ++ [l])) ++ q) = (p ++ b :: mid) ++ l :: q := by simp
          rw [e1, e2, rd_append_at]
        simp only [List.cons_append] at *
        rw [h1]
        simp only [C.ok_bind]
        rcases createFromOffsetAndSize b off ((b.size + 2 ^ 32 - off) % 2 ^ 32) a1 f1 with ⟨w, evs⟩
        cases w with
        | none => rfl
        | some w =>
          simp only []
          rw [h2]
          simp only [C.ok_bind]
          rcases createFromOffsetAndSize l 0 e a2 f2 with ⟨z, evs2⟩
          cases z with
          | none => rfl
          | some z =>
            simp only []
            rw [offsetLoop_eq _ _ _ _ _ (by simp)]
            have : List.take mid.length (List.drop (p.length + 1) (p ++ b :: (mid ++ [l] ++ q))) = mid := by
              have : p ++ b :: (mid ++ [l] ++ q) = (p ++ [b]) ++ (mid ++ ([l] ++ q)) := by simp
              rw [this, List.drop_left' (by simp), List.take_left]
            rw [this]
            simp
    · rintro ⟨h1, h2, h3⟩
      simp at h1
      have hp : p = [] := List.eq_nil_of_length_eq_zero (by omega)
      have hq : q = [] := List.eq_nil_of_length_eq_zero (by omega)
      subst hp hq
      refine hs ⟨rfl, rfl, h2, ?_⟩
      rw [h3]
      congr 1
      simp [List.getLast_cons]

theorem list_shape (sub : List Buf) (h : 1 ≤ sub.length) : (∃ b, sub = [b]) ∨ ∃ b mid l, sub = b :: (mid ++ [l]) := by
  match sub, h with
  | [b], _ => exact Or.inl ⟨b, rfl⟩
  | b :: c :: rest, _ =>
    exact Or.inr ⟨b, (c :: rest).dropLast, (c :: rest).getLast (by simp), by rw [List.dropLast_concat_getLast]⟩

theorem offset_cases (p sub q : List Buf) (off e : Nat) (al a1 a2 : Bool) (f1 f2 : Nat)
    (h32 : (p ++ (sub ++ q)).length < 2 ^ 32) (hsz : ∀ b ∈ (p ++ (sub ++ q)), b.size < 2 ^ 32) (hoff : off < 2 ^ 32)
    (hn : 1 ≤ sub.length) :
    (create_from_buffer_offset_and_count (some (p ++ (sub ++ q))) p.length sub.length off e al a1 a2 f1 f2 = C.ok (.same, []) ∧
      cut (contents sub) off e = contents (p ++ (sub ++ q))) ∨
    (∃ bs, Yields (create_from_buffer_offset_and_count (some (p ++ (sub ++ q))) p.length sub.length off e al a1 a2 f1 f2) bs ∧
      contents bs = cut (contents sub) off e ∧ bs.tail.dropLast = sub.tail.dropLast) ∨
    FailsClean (create_from_buffer_offset_and_count (some (p ++ (sub ++ q))) p.length sub.length off e al a1 a2 f1 f2) := by
  rcases list_shape sub hn with ⟨b, rfl⟩ | ⟨b, mid, l, rfl⟩
  · rw [List.length_singleton, offset_one _ _ _ _ _ _ _ _ _ _ h32]
    split
    · rename_i hs
      obtain ⟨rfl, rfl, rfl, rfl⟩ := hs
      left
      refine ⟨rfl, ?_⟩
      simp [cut, cutLast, contents, Buf.size]
    · split
      · exact Or.inr (Or.inr ⟨_, rfl, takes_nil⟩)
      · rcases createWin_cases b off e f1 a1 with hc | ⟨w, evs, hc, ht, hle, hb⟩
        · rw [hc]; exact Or.inr (Or.inr ⟨_, rfl, takes_nil⟩)
        · rw [hc]
          exact Or.inr (Or.inl ⟨[w], ⟨_, rfl, ht⟩, by simp [contents, cut, cutLast, hb], rfl⟩)
  · have hl : (b :: (mid ++ [l])).length = mid.length + 2 := by simp
    rw [hl, offset_many _ _ _ _ _ _ _ _ _ _ _ _ h32]
    have hcut : cut (contents (b :: (mid ++ [l]))) off e = b.bytes.drop off :: (contents mid ++ [l.bytes.take e]) := by
      simp only [contents, List.map_cons, List.map_append, List.map_nil, cut, cutLast_snoc]
    have hbs : b.size < 2 ^ 32 := hsz b (by simp)
    split
    · rename_i hs
      obtain ⟨rfl, rfl, rfl, rfl⟩ := hs
      left
      refine ⟨rfl, ?_⟩
      rw [hcut]
      simp [contents, Buf.size]
    · split
      · exact Or.inr (Or.inr ⟨_, rfl, takes_nil⟩)
      · rcases createWin_cases b off ((b.size + 2 ^ 32 - off) % 2 ^ 32) f1 a1 with hc | ⟨w, evs, hc, ht, hle, hb⟩
        · rw [hc]; exact Or.inr (Or.inr ⟨_, rfl, takes_nil⟩)
        · rw [hc]
          rcases createWin_cases l 0 e f2 a2 with hc2 | ⟨z, evs2, hc2, ht2, hle2, hb2⟩
          · rw [hc2]
            refine Or.inr (Or.inr ⟨_, rfl, ?_⟩)
            simp only [List.append_nil]
            exact takes_dec ht
          · rw [hc2]
            refine Or.inr (Or.inl ⟨w :: (mid ++ [z]), ⟨_, rfl, ?_⟩, ?_, by simp⟩)
            · refine takes_perm (takes_append (takes_append ht ht2) (takes_map_inc mid)) ?_
              simp only [List.singleton_append, List.cons_append, List.nil_append]
              exact List.Perm.cons _ (List.perm_append_singleton z mid).symm
            · rw [hcut]
              have hsz1 : (b.size + 2 ^ 32 - off) % 2 ^ 32 = b.size - off := by
                simp only [Nat.reducePow] at *; omega
              rw [hsz1] at hb
              have : w.bytes = b.bytes.drop off := by
                rw [hb, List.take_of_length_le]; simp [Buf.size]
              simp [contents, this, hb2]

theorem offset_null_iff (p sub q : List Buf) (off e : Nat) (f1 f2 : Nat)
    (h32 : (p ++ (sub ++ q)).length < 2 ^ 32) (hsz : ∀ b ∈ (p ++ (sub ++ q)), b.size < 2 ^ 32) (hoff : off < 2 ^ 32)
    (hn : 1 ≤ sub.length) :
    (∃ evs, create_from_buffer_offset_and_count (some (p ++ (sub ++ q))) p.length sub.length off e true true true f1 f2 =
      C.ok (.null, evs)) ↔ ¬ fits sub off e := by
  rcases list_shape sub hn with ⟨b, rfl⟩ | ⟨b, mid, l, rfl⟩
  · rw [List.length_singleton, offset_one _ _ _ _ _ _ _ _ _ _ h32]
    have hbs : b.size < 2 ^ 32 := hsz b (by simp)
    split
    · rename_i hs
      obtain ⟨rfl, rfl, rfl, rfl⟩ := hs
      simp [fits]
    · rw [if_neg (by simp)]
      by_cases h : off + e ≤ b.size
      · obtain ⟨w, evs, hc, -, -⟩ := createWin_ok b off e f1 h (by unfold U32MAX; simp only [Nat.reducePow] at *; omega)
        rw [hc]
        simp [fits, h]
      · rw [createWin_bad b off e f1 true h]
        simp [fits, h]
  · have hl : (b :: (mid ++ [l])).length = mid.length + 2 := by simp
    rw [hl, offset_many _ _ _ _ _ _ _ _ _ _ _ _ h32]
    have hbs : b.size < 2 ^ 32 := hsz b (by simp)
    have hls : l.size < 2 ^ 32 := hsz l (by simp)
    have hf : fits (b :: (mid ++ [l])) off e ↔ off ≤ b.size ∧ e ≤ l.size := by
      cases mid with
      | nil => simp [fits]
      | cons m mid => simp [fits, List.getLast_cons]
    rw [hf]
    split
    · rename_i hs
      obtain ⟨rfl, rfl, rfl, rfl⟩ := hs
      simp
    · rw [if_neg (by simp)]
      by_cases h1 : off ≤ b.size
      · have hsz1 : (b.size + 2 ^ 32 - off) % 2 ^ 32 = b.size - off := by
          simp only [Nat.reducePow] at *; omega
        obtain ⟨w, evs, hc, -, -⟩ := createWin_ok b off ((b.size + 2 ^ 32 - off) % 2 ^ 32) f1 (by omega)
          (by unfold U32MAX; simp only [Nat.reducePow] at *; omega)
        rw [hc]
        by_cases h2 : e ≤ l.size
        · obtain ⟨z, evs2, hc2, -, -⟩ := createWin_ok l 0 e f2 (by omega) (by unfold U32MAX; simp only [Nat.reducePow] at *; omega)
          rw [hc2]
          simp [h1, h2]
        · rw [createWin_bad l 0 e f2 true (by omega)]
          simp [h2]
      · rw [createWin_bad b off _ f1 true (by omega)]
        simp [h1]

end CUtil.ConstBufferArray
