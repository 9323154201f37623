import Verif.Buffer.Spec
set_option linter.unusedSimpArgs false
set_option linter.unusedVariables false
/-
Helper lemmas for C20.
-/
namespace CUtil.Buffer

theorem wf_zero {m : Mem} (h : Wf ⟨some m, 0⟩) : m = uninit 1 := h

theorem wf_pos {m : Mem} {n : Nat} (h : Wf ⟨some m, n⟩) (h0 : n ≠ 0) : m.length = n := by
  unfold Wf at h
  dsimp only at h
  rwa [if_neg h0] at h

theorem wf_none {n : Nat} (h : Wf ⟨none, n⟩) : n = 0 := h

theorem wf_take {m : Mem} {n : Nat} (h : Wf ⟨some m, n⟩) : n ≤ m.length := by
  by_cases h0 : n = 0
  · omega
  · have := wf_pos h h0; omega

theorem wf_le {m : Mem} {n k : Nat} (h : Wf ⟨some m, n⟩) (hk : k ≠ 0) : m.length ≤ n + k := by
  by_cases h0 : n = 0
  · subst h0; rw [wf_zero h]; simp; omega
  · have := wf_pos h h0; omega

theorem wf_view_length {buf : Option Mem} {n : Nat} (h : Wf ⟨buf, n⟩) : ((view ⟨buf, n⟩).getD []).length = n := by
  cases buf with
  | none => rw [wf_none h]; rfl
  | some m =>
    have := wf_take h
    show (m.take n).length = n
    rw [List.length_take]; omega

theorem wf_mk (m : Mem) (n : Nat) (h : m.length = n) (h0 : n ≠ 0) : Wf ⟨some m, n⟩ := by
  unfold Wf; simp [h, h0]

theorem view_mk (m : Mem) (n : Nat) (h : m.length = n) : view ⟨some m, n⟩ = some m := by
  unfold view; simp [← h]

/-- Appending a prefix of a block at the end of what a reallocated block held. -/
theorem append_copy (m : Mem) (src : Mem) (n k : Nat) (hm : n ≤ m.length) (hk : k ≤ src.length) (hx : m.length ≤ n + k) :
    memcpy (reallocMem m (n + k)) n src 0 k = C.ok (m.take n ++ src.take k) := by
  unfold memcpy reallocMem
  have hl : (m.take (n + k) ++ uninit (n + k - m.length)).length = n + k := by simp; omega
  rw [if_pos (by rw [hl]; omega)]
  congr 1
  rw [List.take_append_of_le_length (by simp; omega), List.take_take, Nat.min_eq_left (by omega),
    List.drop_of_length_le (Nat.le_of_eq hl)]
  simp

theorem block_copy (m : Mem) (src : Mem) (k : Nat) (hm : m.length = k) (hk : k ≤ src.length) :
    memcpy m 0 src 0 k = C.ok (src.take k) := by
  unfold memcpy
  rw [if_pos (by omega)]
  simp [← hm]

theorem realloc_length (m : Mem) (n : Nat) : (reallocMem m n).length = n := by
  unfold reallocMem; simp; omega

theorem fillLoop_eq (c : UInt8) (n : Nat) : ∀ (p m q : Mem) (i : Nat), i = p.length → m.length = n →
    fillLoop (p ++ (m ++ q)) c i n = C.ok (p ++ (List.replicate n (some c) ++ q)) := by
  induction n with
  | zero =>
    intro p m q i _ hm
    have : m = [] := List.eq_nil_of_length_eq_zero hm
    subst this; simp [fillLoop]
  | succ n ih =>
    intro p m q i hi hm
    cases m with
    | nil => simp at hm
    | cons x m =>
      simp only [fillLoop, List.cons_append]
      have hw : wr (p ++ x :: (m ++ q)) i c = C.ok (p ++ some c :: (m ++ q)) := by
        subst hi
        unfold wr
        rw [if_pos (by simp), List.set_append_right _ _ (by simp)]
        simp
      rw [hw]
      have := ih (p ++ [some c]) m q (i + 1) (by simp [hi]) (by simpa using hm)
      simp only [List.append_assoc, List.singleton_append] at this
      simp only [C.ok_bind, this, List.replicate_succ, List.cons_append]

theorem outcome_none {o : Op} {v : Option Vec} {a : Bool} (h : effect o v = none) : outcome o v a = (v, false) := by
  unfold outcome; rw [h]

theorem outcome_fail {o : Op} {v v' : Option Vec} {a : Bool} (h : effect o v = some v') (hn : needsMemory o v = true)
    (hf : a = false ∨ SIZE_MAX < (v'.getD []).length) : outcome o v a = (v, false) := by
  unfold outcome; rw [h]; dsimp only; rw [if_pos ⟨hn, hf⟩]

theorem outcome_ok {o : Op} {v v' : Option Vec} {a : Bool} (h : effect o v = some v')
    (hf : ¬ (needsMemory o v = true ∧ (a = false ∨ SIZE_MAX < (v'.getD []).length))) : outcome o v a = (v', true) := by
  unfold outcome; rw [h]; dsimp only; rw [if_neg hf]

/-- What is claimed of one executed call. -/
def Good (r : C (Option BUF × Bool)) (b : BUF) (out : Option Vec × Bool) : Prop :=
  ∃ b' f, r = C.ok (some b', f) ∧ Wf b' ∧ b'.size ≤ SIZE_MAX ∧ (view b', f) = out ∧ (f = false → b' = b)

theorem good_build (b : BUF) (a : Bool) (m : List UInt8) (n : Nat) (hb : Wf b) (hsz : b.size ≤ SIZE_MAX)
    (h1 : n ≤ m.length) (h2 : n ≤ SIZE_MAX) :
    Good (build (some b) (.ext m) n a) b (outcome (.build (m.take n)) (view b) a) := by
  simp only [build]
  by_cases h0 : n = 0
  · subst h0
    rw [if_pos rfl]
    exact ⟨⟨none, 0⟩, true, rfl, rfl, Nat.zero_le _, (outcome_ok (v' := none) (by simp [effect]) (by simp [needsMemory])).symm, by simp⟩
  · have hl : ((m.map some).take n).length = n := by simp; omega
    have hne : m.take n ≠ [] := by
      intro e; have := congrArg List.length e; rw [List.length_take] at this; simp only [List.length_nil] at this; omega
    rw [if_neg h0]
    have he : effect (.build (m.take n)) (view b) = some (some ((m.map some).take n)) := by
      simp only [effect, if_neg hne, List.map_take]
    cases a with
    | false => exact ⟨_, _, rfl, hb, hsz, (outcome_fail he (by simp [needsMemory, hne]) (Or.inl rfl)).symm, fun _ => rfl⟩
    | true =>
      rw [if_neg (by simp), block_copy _ _ _ (realloc_length _ _) (by simpa using h1)]
      refine ⟨_, _, rfl, wf_mk _ _ hl h0, h2, ?_, by simp⟩
      rw [view_mk _ _ hl, outcome_ok he]
      rw [Option.getD_some, hl]
      intro h; have := h.2; simp at this; omega

theorem good_append_build (b : BUF) (a : Bool) (m : List UInt8) (n : Nat) (hb : Wf b) (hsz : b.size ≤ SIZE_MAX)
    (h1 : n ≤ m.length) (h2 : n ≤ SIZE_MAX) :
    Good (append_build (some b) (.ext m) n a) b (outcome (.append_build (m.take n)) (view b) a) := by
  simp only [append_build]
  by_cases h0 : n = 0
  · subst h0
    rw [if_pos rfl]
    exact ⟨_, _, rfl, hb, hsz, (outcome_none (by simp [effect])).symm, fun _ => rfl⟩
  · have hl : ((m.map some).take n).length = n := by simp; omega
    have hne : m.take n ≠ [] := by
      intro e; have := congrArg List.length e; rw [List.length_take] at this; simp only [List.length_nil] at this; omega
    rw [if_neg h0]
    obtain ⟨buf, sz⟩ := b
    have he : effect (.append_build (m.take n)) (view ⟨buf, sz⟩) =
        some (some ((view ⟨buf, sz⟩).getD [] ++ (m.map some).take n)) := by
      simp only [effect, if_neg hne, List.map_take]
    have hlen : ((view ⟨buf, sz⟩).getD [] ++ (m.map some).take n).length = sz + n := by
      rw [List.length_append, hl, wf_view_length hb]
    cases buf with
    | none =>
      have hs := wf_none hb
      subst hs
      cases a with
      | false =>
        exact ⟨_, _, rfl, hb, hsz, (outcome_fail he rfl (Or.inl rfl)).symm, fun _ => rfl⟩
      | true =>
        simp only [safemalloc, if_true]
        rw [Option.getD_some, block_copy _ _ _ (by simp [h0]) (by simpa using h1)]
        refine ⟨_, _, rfl, wf_mk _ _ hl h0, h2, ?_, by simp⟩
        rw [view_mk _ _ hl, outcome_ok he]
        · rfl
        · rw [Option.getD_some, hlen]
          intro h; have := h.2; simp at this; omega
    | some mem =>
      dsimp only
      by_cases hf : a = false ∨ sz + n > SIZE_MAX
      · rw [if_pos hf]
        refine ⟨_, _, rfl, hb, hsz, (outcome_fail he rfl ?_).symm, fun _ => rfl⟩
        rw [Option.getD_some, hlen]; exact hf
      · rw [if_neg hf, append_copy _ _ _ _ (wf_take hb) (by simpa using h1) (wf_le hb h0)]
        refine ⟨_, _, rfl, wf_mk _ _ hlen (by omega), by simp only; omega, ?_, by simp⟩
        rw [view_mk (mem.take sz ++ (m.map some).take n) _ hlen, outcome_ok he]
        · rfl
        · rw [Option.getD_some, hlen]; exact fun h => hf h.2

theorem good_pre_build (b : BUF) (a : Bool) (n : Nat) (hb : Wf b) (hsz : b.size ≤ SIZE_MAX) (h2 : n ≤ SIZE_MAX) :
    Good (C.ok (pre_build (some b) n a)) b (outcome (.pre_build n) (view b) a) := by
  obtain ⟨buf, sz⟩ := b
  simp only [pre_build]
  by_cases h0 : n = 0
  · subst h0
    rw [if_pos rfl]
    exact ⟨_, _, rfl, hb, hsz, (outcome_none (by cases buf <;> simp [effect, view])).symm, fun _ => rfl⟩
  · rw [if_neg h0]
    cases buf with
    | some mem => exact ⟨_, _, rfl, hb, hsz, (outcome_none (by simp [effect, view])).symm, fun _ => rfl⟩
    | none =>
      have hs := wf_none hb
      subst hs
      have he : effect (.pre_build n) (view ⟨none, 0⟩) = some (some (List.replicate n none)) := by
        simp [effect, view, h0]
      cases a with
      | false => exact ⟨_, _, rfl, hb, hsz, (outcome_fail he rfl (Or.inl rfl)).symm, fun _ => rfl⟩
      | true =>
        refine ⟨_, _, rfl, wf_mk _ _ (by simp) h0, h2, ?_, by simp⟩
        rw [view_mk _ _ (by simp), outcome_ok he]
        · rfl
        · rw [Option.getD_some, List.length_replicate]
          intro h; have := h.2; simp at this; omega

theorem good_unbuild (b : BUF) (a : Bool) (hb : Wf b) (hsz : b.size ≤ SIZE_MAX) :
    Good (C.ok (unbuild (some b))) b (outcome .unbuild (view b) a) := by
  obtain ⟨buf, sz⟩ := b
  rw [outcome_ok (v' := none) rfl (by simp [needsMemory])]
  cases buf with
  | none => exact ⟨_, _, rfl, hb, hsz, rfl, by simp⟩
  | some mem => exact ⟨_, _, rfl, rfl, Nat.zero_le _, rfl, by simp⟩

theorem good_enlarge (b : BUF) (a : Bool) (n : Nat) (hb : Wf b) (hsz : b.size ≤ SIZE_MAX) :
    Good (C.ok (enlarge (some b) n a)) b (outcome (.enlarge n) (view b) a) := by
  obtain ⟨buf, sz⟩ := b
  simp only [enlarge]
  by_cases h0 : n = 0
  · subst h0
    rw [if_pos rfl]
    exact ⟨_, _, rfl, hb, hsz, (outcome_none (by simp [effect])).symm, fun _ => rfl⟩
  · rw [if_neg h0]
    have he : effect (.enlarge n) (view ⟨buf, sz⟩) = some (some ((view ⟨buf, sz⟩).getD [] ++ List.replicate n none)) := by
      simp [effect, h0]
    have hlen : ((view ⟨buf, sz⟩).getD [] ++ List.replicate n none).length = sz + n := by
      rw [List.length_append, List.length_replicate, wf_view_length hb]
    by_cases hf : a = false ∨ sz + n > SIZE_MAX
    · rw [if_pos hf]
      refine ⟨_, _, rfl, hb, hsz, (outcome_fail he rfl ?_).symm, fun _ => rfl⟩
      rw [Option.getD_some, hlen]; exact hf
    · rw [if_neg hf]
      refine ⟨_, _, rfl, wf_mk _ _ (realloc_length _ _) (by omega), by simp only; omega, ?_, by simp⟩
      rw [view_mk _ _ (realloc_length _ _), outcome_ok he]
      · have : reallocMem (buf.getD []) (sz + n) = (view ⟨buf, sz⟩).getD [] ++ List.replicate n none := by
          cases buf with
          | none =>
            have hs := wf_none hb
            subst hs
            simp [view, reallocMem, uninit]
          | some mem =>
            by_cases hs : sz = 0
            · subst hs
              rw [wf_zero hb]
              simp only [view, Option.map_some, Option.getD_some, reallocMem, uninit, List.take_zero, List.nil_append, Nat.zero_add,
                List.length_replicate, List.take_replicate, List.replicate_append_replicate]
              congr 1; omega
            · have hml := wf_pos hb hs
              simp only [view, Option.map_some, Option.getD_some, reallocMem, uninit]
              rw [List.take_of_length_le (by omega), List.take_of_length_le (by omega), hml]
              congr 2; omega
        rw [this]
      · rw [Option.getD_some, hlen]; exact fun h => hf h.2

theorem good_shrink (b : BUF) (a : Bool) (n : Nat) (e : Bool) (hb : Wf b) (hsz : b.size ≤ SIZE_MAX) :
    Good (shrink (some b) n e a) b (outcome (.shrink n e) (view b) a) := by
  obtain ⟨buf, sz⟩ := b
  have hlen := wf_view_length hb
  simp only [shrink]
  by_cases h0 : n = 0
  · subst h0
    rw [if_pos rfl]
    exact ⟨_, _, rfl, hb, hsz, (outcome_none (by simp [effect])).symm, fun _ => rfl⟩
  · rw [if_neg h0]
    by_cases h1 : n > sz
    · rw [if_pos h1]
      exact ⟨_, _, rfl, hb, hsz, (outcome_none (by simp only [effect]; rw [if_pos (by rw [hlen]; omega)])).symm, fun _ => rfl⟩
    · rw [if_neg h1]
      by_cases h2 : sz - n = 0
      · rw [if_pos h2]
        refine ⟨_, _, rfl, rfl, Nat.zero_le _, (outcome_ok (v' := none) ?_ ?_).symm, by simp⟩
        · simp only [effect]
          rw [if_neg (by rw [hlen]; omega), if_pos (by rw [hlen]; omega)]
        · simp only [needsMemory, hlen]
          rintro ⟨h, -⟩
          have := of_decide_eq_true h
          omega
      · rw [if_neg h2]
        cases buf with
        | none => have := wf_none hb; omega
        | some mem =>
        have hml := wf_pos hb (by omega)
        have hv : (view ⟨some mem, sz⟩).getD [] = mem := by rw [view_mk _ _ hml]; rfl
        have he : effect (.shrink n e) (view ⟨some mem, sz⟩) =
            some (some (if e then mem.take (sz - n) else mem.drop n)) := by
          simp only [effect]
          rw [if_neg (by rw [hlen]; omega), if_neg (by rw [hlen]; omega), hv, hml]
          cases e <;> rfl
        have hl : (if e then mem.take (sz - n) else mem.drop n).length = sz - n := by
          cases e <;> simp <;> omega
        have hn : needsMemory (.shrink n e) (view ⟨some mem, sz⟩) = true := by
          simp only [needsMemory, hlen]
          exact decide_eq_true (by omega)
        cases a with
        | false => exact ⟨_, _, rfl, hb, hsz, (outcome_fail he hn (Or.inl rfl)).symm, fun _ => rfl⟩
        | true =>
          have hc : memcpy (uninit (sz - n)) 0 mem (if e then 0 else n) (sz - n) =
              C.ok (if e then mem.take (sz - n) else mem.drop n) := by
            unfold memcpy
            rw [if_pos (by constructor
                           · cases e <;> simp <;> omega
                           · simp)]
            cases e
            · simp [List.take_of_length_le, hml]
            · simp
          rw [if_neg (by simp), Option.getD_some, hc]
          refine ⟨_, _, rfl, wf_mk _ _ hl h2, by simp only at *; omega, ?_, by simp⟩
          rw [view_mk _ _ hl, outcome_ok he]
          rw [Option.getD_some, hl]
          intro h; have := h.2; simp at this; simp only at hsz; omega

theorem good_append (b o : BUF) (a : Bool) (hb : Wf b) (ho : Wf o) (hsz : b.size ≤ SIZE_MAX) :
    Good (append (some b) (some o) false a) b (outcome (.append (view o)) (view b) a) := by
  obtain ⟨buf, sz⟩ := b
  obtain ⟨obuf, osz⟩ := o
  have hol := wf_view_length ho
  have hbl := wf_view_length hb
  simp only [append]
  rw [if_neg (by simp)]
  cases buf with
  | none => exact ⟨_, _, rfl, hb, hsz, (outcome_none rfl).symm, fun _ => rfl⟩
  | some m1 =>
  cases obuf with
  | none => exact ⟨_, _, rfl, hb, hsz, (outcome_none rfl).symm, fun _ => rfl⟩
  | some m2 =>
  dsimp only
  have he : effect (.append (view ⟨some m2, osz⟩)) (view ⟨some m1, sz⟩) = some (some (m1.take sz ++ m2.take osz)) := rfl
  by_cases h0 : osz = 0
  · subst h0
    rw [if_pos rfl]
    refine ⟨_, _, rfl, hb, hsz, ?_, fun _ => rfl⟩
    rw [outcome_ok he (by simp [needsMemory, view])]
    simp [view]
  · rw [if_neg h0]
    have hlen : (m1.take sz ++ m2.take osz).length = sz + osz := by
      rw [List.length_append]; exact (congr (congrArg _ hbl) hol)
    have hn : needsMemory (.append (view ⟨some m2, osz⟩)) (view ⟨some m1, sz⟩) = true := by
      simp only [needsMemory]
      exact decide_eq_true (by intro h; rw [h] at hol; exact h0 hol.symm)
    by_cases hf : a = false ∨ sz + osz > SIZE_MAX
    · rw [if_pos hf]
      refine ⟨_, _, rfl, hb, hsz, (outcome_fail he hn ?_).symm, fun _ => rfl⟩
      rw [Option.getD_some, hlen]; exact hf
    · rw [if_neg hf, append_copy _ _ _ _ (wf_take hb) (wf_take ho) (wf_le hb h0)]
      refine ⟨_, _, rfl, wf_mk _ _ hlen (by omega), by simp only; omega, ?_, by simp⟩
      rw [view_mk _ _ hlen, outcome_ok he]
      rw [Option.getD_some, hlen]; exact fun h => hf h.2

theorem good_prepend (b o : BUF) (a : Bool) (hb : Wf b) (ho : Wf o) (hsz : b.size ≤ SIZE_MAX) :
    Good (prepend (some b) (some o) false a) b (outcome (.prepend (view o)) (view b) a) := by
  obtain ⟨buf, sz⟩ := b
  obtain ⟨obuf, osz⟩ := o
  have hol := wf_view_length ho
  have hbl := wf_view_length hb
  simp only [prepend]
  rw [if_neg (by simp)]
  cases buf with
  | none => exact ⟨_, _, rfl, hb, hsz, (outcome_none rfl).symm, fun _ => rfl⟩
  | some m1 =>
  cases obuf with
  | none => exact ⟨_, _, rfl, hb, hsz, (outcome_none rfl).symm, fun _ => rfl⟩
  | some m2 =>
  dsimp only
  have he : effect (.prepend (view ⟨some m2, osz⟩)) (view ⟨some m1, sz⟩) = some (some (m2.take osz ++ m1.take sz)) := rfl
  by_cases h0 : osz = 0
  · subst h0
    rw [if_pos rfl]
    refine ⟨_, _, rfl, hb, hsz, ?_, fun _ => rfl⟩
    rw [outcome_ok he (by simp [needsMemory, view])]
    simp [view]
  · rw [if_neg h0]
    have hol' : (m2.take osz).length = osz := hol
    have hbl' : (m1.take sz).length = sz := hbl
    have hlen : (m2.take osz ++ m1.take sz).length = sz + osz := by
      rw [List.length_append]; omega
    have hn : needsMemory (.prepend (view ⟨some m2, osz⟩)) (view ⟨some m1, sz⟩) = true := by
      simp only [needsMemory]
      exact decide_eq_true (by intro h; rw [h] at hol; exact h0 hol.symm)
    by_cases hf : a = false ∨ sz + osz > SIZE_MAX
    · rw [if_pos hf]
      refine ⟨_, _, rfl, hb, hsz, (outcome_fail he hn ?_).symm, fun _ => rfl⟩
      rw [Option.getD_some, hlen]; exact hf
    · have hw1 := wf_take hb
      have hw2 := wf_take ho
      have hc1 : memcpy (uninit (sz + osz)) 0 m2 0 osz = C.ok (m2.take osz ++ uninit sz) := by
        unfold memcpy
        rw [if_pos (by simp; omega)]
        simp [uninit]
      have hc2 : memcpy (m2.take osz ++ uninit sz) osz m1 0 sz = C.ok (m2.take osz ++ m1.take sz) := by
        unfold memcpy
        rw [if_pos (by constructor
                       · omega
                       · rw [List.length_append, hol', uninit_length]; omega)]
        have hd : (m2.take osz ++ uninit sz).length = osz + sz := by rw [List.length_append, hol', uninit_length]
        rw [List.take_left' hol', List.drop_of_length_le (Nat.le_of_eq hd)]
        simp
      rw [if_neg hf, hc1, C.ok_bind, hc2]
      refine ⟨_, _, rfl, wf_mk _ _ hlen (by omega), by simp only; omega, ?_, by simp⟩
      rw [view_mk _ _ hlen, outcome_ok he]
      rw [Option.getD_some, hlen]; exact fun h => hf h.2

theorem good_fill (b : BUF) (a : Bool) (c : UInt8) (hb : Wf b) (hsz : b.size ≤ SIZE_MAX) :
    Good (fill (some b) c) b (outcome (.fill c) (view b) a) := by
  obtain ⟨buf, sz⟩ := b
  cases buf with
  | none =>
    have hs := wf_none hb
    subst hs
    exact ⟨_, _, rfl, hb, hsz, (outcome_ok (v' := none) rfl (by simp [needsMemory])).symm, by simp⟩
  | some m =>
    have ht := wf_take hb
    have := fillLoop_eq c sz [] (m.take sz) (m.drop sz) 0 rfl (by rw [List.length_take]; omega)
    simp only [List.nil_append, List.take_append_drop] at this
    simp only [fill, this]
    have hv : view ⟨some (List.replicate sz (some c) ++ m.drop sz), sz⟩ = some (List.replicate sz (some c)) := by
      unfold view
      simp
    refine ⟨_, _, rfl, ?_, hsz, ?_, by simp⟩
    · by_cases h0 : sz = 0
      · subst h0; simpa using hb
      · have hml := wf_pos hb h0
        refine wf_mk _ _ ?_ h0
        simp; omega
    · rw [hv, outcome_ok (v' := some (List.replicate sz (some c))) _ (by simp [needsMemory])]
      simp only [effect, view, Option.map_some]
      congr 2
      rw [List.map_const', List.length_take, Nat.min_eq_left ht]

end CUtil.Buffer
