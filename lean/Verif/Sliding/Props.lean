import Verif.Sliding.Model
set_option linter.unusedSimpArgs false
set_option linter.unusedVariables false
/-
C29: the sliding window average.  C30: it can run for ever - refuted.
-/
namespace CUtil.Sliding

/-! ## Specification -/

/-- The last (at most) `w` values. -/
def lastN (w : Nat) (xs : List Int) : List Int := xs.drop (xs.length - w)

/-- Fits `int64_t`. -/
def Fits (x : Int) : Prop := -9223372036854775808 ≤ x ∧ x ≤ 9223372036854775807

/-- No addition of the history leaves the range of `int64_t`: the windowed sums fit, and so do the differences between each value and the
one it pushes out. -/
def InRange (w : Nat) (xs : List Int) : Prop :=
  (∀ k ≤ xs.length, Fits ((lastN w (xs.take k)).sum)) ∧ (∀ k a b, xs[k]? = some a → xs[k + w]? = some b → Fits (b - a))

/-! ## Lemmas -/

theorem i64_of {x : Int} (h : Fits x) : i64 x = C.ok x := by unfold i64; unfold Fits at h; rw [if_pos h]
theorem i32_of {x : Int} (h : -2147483648 ≤ x ∧ x ≤ 2147483647) : i32 x = C.ok x := by unfold i32; rw [if_pos h]

/-- What holds after the values `xs`. -/
structure Inv (w : Nat) (xs : List Int) (s : Window) : Prop where
  pos : 0 < w
  wc : s.window_count = w
  slot : s.next_available_slot = xs.length
  sum : s.current_sum = (lastN w xs).sum
  cnt : s.current_count = (lastN w xs).length
  len : s.counts.length = w
  cells : ∀ j x, xs[j]? = some x → xs.length ≤ j + w → s.counts[j % w]? = some (some x)
  avg : s.current_average = if xs = [] then none else some ((lastN w xs).sum, ((lastN w xs).length : Int))

theorem lastN_short {w : Nat} {xs : List Int} (h : xs.length ≤ w) : lastN w xs = xs := by
  unfold lastN; rw [Nat.sub_eq_zero_of_le h]; rfl

theorem lastN_snoc_full {w : Nat} {xs : List Int} (hw : 0 < w) (h : w ≤ xs.length) (x old : Int) (ho : xs[xs.length - w]? = some old) :
    lastN w xs = old :: (lastN w (xs ++ [x])).dropLast ∧ lastN w (xs ++ [x]) = (lastN w xs).tail ++ [x] := by
  have h1 : lastN w (xs ++ [x]) = xs.drop (xs.length - w + 1) ++ [x] := by
    unfold lastN
    rw [List.length_append, List.length_singleton, show xs.length + 1 - w = xs.length - w + 1 by omega]
    rw [List.drop_append_of_le_length (by omega)]
  have hlt : xs.length - w < xs.length := by omega
  have h2 : lastN w xs = old :: xs.drop (xs.length - w + 1) := by
    unfold lastN
    rw [List.drop_eq_getElem_cons hlt]
    rw [List.getElem?_eq_getElem hlt] at ho
    cases ho; rfl
  rw [h1, h2]
  simp

theorem mod_ne {w j n : Nat} (h1 : j < n) (h2 : n < j + w) : j % w ≠ n % w := by
  intro e
  have : (n - j) % w = 0 := Nat.sub_mod_eq_zero_of_mod_eq e.symm
  have := Nat.eq_zero_of_dvd_of_lt (Nat.dvd_of_mod_eq_zero this) (by omega)
  omega

theorem tmod_nat (a b : Nat) : Int.tmod (a : Int) (b : Int) = ((a % b : Nat) : Int) := rfl

theorem setCount_nat (m : List (Option Int)) (i : Nat) (v : Int) (h : i < m.length) : setCount m (i : Int) v = C.ok (m.set i (some v)) := by
  unfold setCount
  rw [if_neg (by omega)]
  simp [wr, h]

theorem count_nat (m : List (Option Int)) (i : Nat) (v : Int) (h : m[i]? = some (some v)) : count m (i : Int) = C.ok v := by
  unfold count
  rw [if_neg (by omega)]
  simp [h]

theorem cells_next {w : Nat} {xs : List Int} {s : Window} (x : Int) (I : Inv w xs s) : ∀ j y, (xs ++ [x])[j]? = some y → (xs ++ [x]).length ≤ j + w →
    (s.counts.set (xs.length % w) (some x))[j % w]? = some (some y) := by
  have hp := I.pos
  intro j y hj hl
  rw [List.length_append, List.length_singleton] at hl
  by_cases e : j = xs.length
  · subst e
    rw [List.getElem?_append_right (Nat.le_refl _), Nat.sub_self] at hj
    simp at hj; subst hj
    rw [List.getElem?_set_self (by rw [I.len]; exact Nat.mod_lt _ hp)]
  · have hjl : j < xs.length := by
      have : j < (xs ++ [x]).length := by
        rcases Nat.lt_or_ge j (xs ++ [x]).length with h | h
        · exact h
        · rw [List.getElem?_eq_none h] at hj; exact absurd hj (by simp)
      rw [List.length_append, List.length_singleton] at this
      omega
    rw [List.getElem?_append_left hjl] at hj
    rw [List.getElem?_set_ne (Ne.symm (mod_ne hjl (by omega)))]
    exact I.cells j y hj (by omega)

/-- One addition. -/
theorem body_step {w : Nat} {xs : List Int} {s : Window} {x : Int} (I : Inv w xs s) (hf : Fits ((lastN w (xs ++ [x])).sum))
    (hd : ∀ old, w ≤ xs.length → xs[xs.length - w]? = some old → Fits (x - old)) (hl : xs.length < 2147483647) (hw : w ≤ 2147483647) :
    ∃ s', body s x = C.ok s' ∧ Inv w (xs ++ [x]) s' := by
  have hp := I.pos
  have hmod : xs.length % w < s.counts.length := by rw [I.len]; exact Nat.mod_lt _ hp
  unfold body
  rw [if_neg (by rw [I.wc]; omega), I.wc, I.slot, tmod_nat]
  dsimp only
  by_cases hfull : w ≤ xs.length
  · rw [if_pos (by omega)]
    have hlt : xs.length - w < xs.length := by omega
    obtain ⟨old, ho⟩ : ∃ old, xs[xs.length - w]? = some old := ⟨_, List.getElem?_eq_getElem hlt⟩
    obtain ⟨e1, e2⟩ := lastN_snoc_full hp hfull x old ho
    have hsum : (lastN w (xs ++ [x])).sum = (lastN w xs).sum + (x - old) := by
      have e3 := e2
      rw [e1] at e3
      rw [e3, e1]
      simp only [List.tail_cons, List.sum_append, List.sum_cons, List.sum_nil]
      omega
    have hc : s.counts[xs.length % w]? = some (some old) := by
      have := I.cells (xs.length - w) old ho (by omega)
      rwa [show (xs.length - w) % w = xs.length % w by
        rw [← Nat.add_mod_right (xs.length - w) w, Nat.sub_add_cancel hfull]] at this
    rw [count_nat _ _ _ hc, C.ok_bind, i64_of (hd old hfull ho), C.ok_bind, I.sum, ← hsum, i64_of hf, C.ok_bind, setCount_nat _ _ _ hmod, C.ok_bind, C.ok_bind]
    dsimp only
    rw [i32_of (by omega), C.ok_bind]
    refine ⟨_, rfl, ⟨hp, rfl, ?_, rfl, ?_, ?_, ?_, ?_⟩⟩
    · simp
    · have := congrArg List.length e2
      have h3 := congrArg List.length e1
      simp only [List.length_append, List.length_tail, List.length_cons, List.length_nil] at this h3
      dsimp only
      rw [I.cnt]
      omega
    · dsimp only; rw [List.length_set]; exact I.len
    · exact cells_next x I
    · dsimp only
      rw [if_neg (by simp), I.cnt]
      have := congrArg List.length e2
      have h3 := congrArg List.length e1
      simp only [List.length_append, List.length_tail, List.length_cons, List.length_nil] at this h3
      congr 2
      omega
  · rw [if_neg (by omega)]
    have e1 : lastN w xs = xs := lastN_short (by omega)
    have e2 : lastN w (xs ++ [x]) = xs ++ [x] := lastN_short (by rw [List.length_append, List.length_singleton]; omega)
    have hsum : (lastN w (xs ++ [x])).sum = (lastN w xs).sum + x := by rw [e1, e2]; simp
    rw [I.sum, ← hsum, i64_of hf, C.ok_bind, setCount_nat _ _ _ hmod, C.ok_bind]
    rw [I.cnt, e1, i64_of (by unfold Fits; omega), C.ok_bind, C.ok_bind]
    dsimp only
    rw [i32_of (by omega), C.ok_bind]
    refine ⟨_, rfl, ⟨hp, rfl, ?_, rfl, ?_, ?_, ?_, ?_⟩⟩
    · simp
    · rw [e2]; simp
    · dsimp only; rw [List.length_set]; exact I.len
    · exact cells_next x I
    · dsimp only
      rw [if_neg (by simp), e2]; simp

theorem addAll_inv {w : Nat} (hw : w ≤ 2147483647) : ∀ (ys xs : List Int) (s : Window), Inv w xs s → InRange w (xs ++ ys) → (xs ++ ys).length ≤ 2147483647 →
    ∃ s', addAll s ys = C.ok s' ∧ Inv w (xs ++ ys) s' := by
  intro ys
  induction ys with
  | nil => intro xs s I _ _; exact ⟨s, rfl, by rw [List.append_nil]; exact I⟩
  | cons y ys ih =>
    intro xs s I hr hl
    have e : xs ++ y :: ys = (xs ++ [y]) ++ ys := by simp
    have hlen : xs.length < 2147483647 := by rw [List.length_append, List.length_cons] at hl; omega
    obtain ⟨s1, h1, I1⟩ := body_step (x := y) I (by
        have := hr.1 (xs.length + 1) (by rw [List.length_append, List.length_cons]; omega)
        rw [e, List.take_left' (by simp)] at this
        exact this) (by
        intro old hfull ho
        refine hr.2 (xs.length - w) old y ?_ ?_
        · rw [List.getElem?_append_left (by have := I.pos; omega)]; exact ho
        · rw [Nat.sub_add_cancel hfull, List.getElem?_append_right (Nat.le_refl _), Nat.sub_self]; rfl) hlen hw
    obtain ⟨s2, h2, I2⟩ := ih (xs ++ [y]) s1 I1 (by rw [← e]; exact hr) (by rw [← e]; exact hl)
    refine ⟨s2, ?_, by rw [e]; exact I2⟩
    simp only [addAll, h1, C.ok_bind, h2]

theorem clear_spec (w : Nat) : ∀ (n i : Nat) (m : List (Option Int)), m.length = w → (∀ j < i, m[j]? = some (some 0)) → i ≤ w → w < i + n →
    ∃ m', clear w i m n = C.ok m' ∧ m'.length = w ∧ ∀ j < w, m'[j]? = some (some 0) := by
  intro n
  induction n with
  | zero => intro i m _ _ _ h; omega
  | succ n ih =>
    intro i m hl hm hi hn
    unfold clear
    by_cases h : i < w
    · rw [if_pos h]
      have e : wr m i (0 : Int) = C.ok (m.set i (some 0)) := by simp [wr, hl, h]
      rw [e, C.ok_bind]
      refine ih (i + 1) _ (by simpa using hl) ?_ (by omega) (by omega)
      intro j hj
      by_cases e : j = i
      · subst e; rw [List.getElem?_set_self (by omega)]
      · rw [List.getElem?_set_ne (Ne.symm e)]; exact hm j (by omega)
    · rw [if_neg h]
      exact ⟨m, rfl, hl, fun j hj => hm j (by omega)⟩

/-! ## Properties -/

/-- **C29**: creation fails exactly for a width below 1 or when a resource cannot be had; a new window has average 0. -/
theorem create_spec (memory lock : Bool) (width : Int) (hw : width ≤ 2147483647) :
    if 1 ≤ width ∧ memory = true ∧ lock = true then
      ∃ s, create memory lock width = C.ok (some s) ∧ Inv width.toNat [] s ∧ get (some s) true = some none
    else create memory lock width = C.ok none := by
  unfold create
  by_cases h1 : width < 1
  · rw [if_neg (by omega), if_pos h1]
  · rw [if_neg h1]
    cases memory with
    | false => simp
    | true =>
      cases lock with
      | false => simp
      | true =>
        rw [if_pos ⟨by omega, rfl, rfl⟩]
        simp only [Bool.not_true, Bool.false_eq_true, if_false]
        obtain ⟨m, e, hl, hm⟩ := clear_spec width.toNat (width.toNat + 1) 0 (uninit width.toNat) (by simp [uninit]) (by omega) (by omega) (by omega)
        rw [e, C.ok_bind]
        refine ⟨_, rfl, ⟨by omega, ?_, by simp, by simp [lastN], by simp [lastN], hl, by simp, by simp⟩, rfl⟩
        dsimp only; omega

/-- **C29**: after any values added to a window of width `w`, in a history without overflow, the average is the sum of the last `min(n, w)` values divided by
their number (0.0 before the first). -/
theorem average_spec (memory lock : Bool) (width : Int) (hw : width ≤ 2147483647) (s : Window) (hc : create memory lock width = C.ok (some s)) (xs : List Int)
    (hr : InRange width.toNat xs) (hl : xs.length ≤ 2147483647) :
    ∃ s', addAll s xs = C.ok s' ∧
      get (some s') true = some (if xs = [] then none else some ((xs.drop (xs.length - width.toNat)).sum, ((min xs.length width.toNat : Nat) : Int))) := by
  have h0 := create_spec memory lock width hw
  by_cases hok : 1 ≤ width ∧ memory = true ∧ lock = true
  · rw [if_pos hok] at h0
    obtain ⟨s0, e0, I0, _⟩ := h0
    rw [hc] at e0; cases e0
    obtain ⟨s', e, I⟩ := addAll_inv (by omega) xs [] s I0 hr hl
    refine ⟨s', e, ?_⟩
    unfold get
    dsimp only
    rw [if_pos rfl, I.avg, List.nil_append]
    congr 1
    by_cases hx : xs = []
    · rw [if_pos hx, if_pos hx]
    · rw [if_neg hx, if_neg hx]
      unfold lastN
      rw [List.length_drop]
      congr 2
      omega
  · rw [if_neg hok, hc] at h0
    exact absurd h0 (by simp)

/-- Values that are not negative need no condition on differences: it is enough that the sum of all values fits. -/
theorem inRange_of_nonneg (w : Nat) (xs : List Int) (h : ∀ x ∈ xs, 0 ≤ x) (hs : xs.sum ≤ 9223372036854775807) : InRange w xs := by
  have nonneg : ∀ l : List Int, (∀ x ∈ l, 0 ≤ x) → 0 ≤ l.sum := by
    intro l
    induction l with
    | nil => intro _; simp
    | cons a l ih =>
      intro h
      rw [List.sum_cons]
      have := ih (fun x hx => h x (by simp [hx]))
      have := h a (by simp)
      omega
  have split : ∀ (l : List Int) n, l.sum = (l.take n).sum + (l.drop n).sum := by
    intro l n
    rw [← List.sum_append, List.take_append_drop]
  have mem_le : ∀ (l : List Int), (∀ x ∈ l, 0 ≤ x) → ∀ x ∈ l, x ≤ l.sum := by
    intro l
    induction l with
    | nil => simp
    | cons a l ih =>
      intro h x hx
      rw [List.sum_cons]
      have h1 := nonneg l (fun x hx => h x (by simp [hx]))
      have h2 := h a (by simp)
      rcases List.mem_cons.mp hx with rfl | hx
      · omega
      · have := ih (fun x hx => h x (by simp [hx])) x hx; omega
  constructor
  · intro k hk
    have h1 := split xs k
    have h2 := split (xs.take k) ((xs.take k).length - w)
    have h3 := nonneg (xs.drop k) (fun x hx => h x (List.mem_of_mem_drop hx))
    have h4 := nonneg ((xs.take k).take ((xs.take k).length - w)) (fun x hx => h x (List.mem_of_mem_take (List.mem_of_mem_take hx)))
    have h5 := nonneg ((xs.take k).drop ((xs.take k).length - w)) (fun x hx => h x (List.mem_of_mem_take (List.mem_of_mem_drop hx)))
    unfold Fits lastN
    omega
  · intro k a b ha hb
    have ha' := List.mem_of_getElem? ha
    have hb' := List.mem_of_getElem? hb
    have := h a ha'; have := h b hb'
    have := mem_le xs h a ha'; have := mem_le xs h b hb'
    unfold Fits; omega

/-- A width of 3 and five values. -/
example : (do
    let some w ← create true true 3 | C.ub
    let w ← addAll w [10, 20, 30, 40, 50]
    C.ok (get (some w) true)) = C.ok (some (some (120, 3))) := rfl

example : InRange 3 [10, 20, 30, 40, 50] := inRange_of_nonneg _ _ (by decide) (by decide)

/-- **C29**: NULL handles and a NULL result pointer are refused. -/
theorem refusals (x : Int) (s : Window) : add none x = C.ok (none, false) ∧ get none true = none ∧ get (some s) false = none := ⟨rfl, rfl, rfl⟩

/-- **C30**, the part that holds: for fewer than 2^31 additions within range nothing is undefined. -/
theorem runs_partial (width : Int) (h1 : 1 ≤ width) (hw : width ≤ 2147483647) (xs : List Int) (hr : InRange width.toNat xs) (hl : xs.length ≤ 2147483647) :
    ∃ s s', create true true width = C.ok (some s) ∧ addAll s xs = C.ok s' := by
  have h0 := create_spec true true width hw
  rw [if_pos ⟨h1, rfl, rfl⟩] at h0
  obtain ⟨s, e, I, _⟩ := h0
  obtain ⟨s', e', _⟩ := addAll_inv (by omega) xs [] s I hr hl
  exact ⟨s, s', e, e'⟩

theorem addAll_append (s : Window) (xs ys : List Int) : addAll s (xs ++ ys) = (addAll s xs >>= fun s => addAll s ys) := by
  induction xs generalizing s with
  | nil => rfl
  | cons x xs ih =>
    simp only [List.cons_append, addAll]
    cases body s x with
    | ub => rfl
    | ok s1 => simp only [C.ok_bind]; exact ih s1

/-- **C30 is false**: whatever the width, the 2^31st addition overflows the slot counter, though every value is 0. -/
theorem slot_overflow (width : Int) (h1 : 1 ≤ width) (hw : width ≤ 2147483647) :
    ∃ s, create true true width = C.ok (some s) ∧ addAll s (List.replicate 2147483648 0) = C.ub := by
  have h0 := create_spec true true width hw
  rw [if_pos ⟨h1, rfl, rfl⟩] at h0
  obtain ⟨s, e, I, _⟩ := h0
  refine ⟨s, e, ?_⟩
  have hs : ∀ n, (List.replicate n (0 : Int)).sum = 0 := by
    intro n; induction n with
    | zero => rfl
    | succ n ih => rw [List.replicate_succ, List.sum_cons, ih]; rfl
  obtain ⟨s', e', I'⟩ := addAll_inv (by omega) (List.replicate 2147483647 0) [] s I
    (inRange_of_nonneg _ _ (by intro x hx; rw [List.nil_append] at hx; rw [List.eq_of_mem_replicate hx]; exact Int.le_refl 0)
      (by rw [List.nil_append, hs]; omega)) (by rw [List.nil_append, List.length_replicate]; exact Nat.le_refl _)
  have e1 : List.replicate 2147483648 (0 : Int) = List.replicate 2147483647 0 ++ [0] := by
    rw [← List.replicate_succ']
  rw [e1, addAll_append, e', C.ok_bind]
  unfold addAll
  suffices h : body s' 0 = C.ub by rw [h]; rfl
  have hslot := I'.slot
  rw [List.nil_append, List.length_replicate] at hslot
  have key : ∀ w : Window, w.next_available_slot = 2147483647 → i32 (w.next_available_slot + 1) = C.ub := by
    intro w h
    unfold i32
    rw [h, if_neg (by omega)]
  unfold body
  rw [if_neg (by rw [I'.wc]; omega)]
  dsimp only
  split
  · cases count s'.counts (Int.tmod s'.next_available_slot s'.window_count) with
    | ub => rfl
    | ok v =>
      simp only [C.ok_bind]
      cases i64 (0 - v) with
      | ub => rfl
      | ok d =>
        simp only [C.ok_bind]
        cases i64 (s'.current_sum + d) with
        | ub => rfl
        | ok t =>
          simp only [C.ok_bind]
          cases setCount s'.counts (Int.tmod s'.next_available_slot s'.window_count) 0 with
          | ub => rfl
          | ok m =>
            simp only [C.ok_bind]
            have := key s' (by rw [hslot]; rfl)
            rw [this]; rfl
  · cases i64 (s'.current_sum + 0) with
    | ub => rfl
    | ok t =>
      simp only [C.ok_bind]
      cases setCount s'.counts (Int.tmod s'.next_available_slot s'.window_count) 0 with
      | ub => rfl
      | ok m =>
        simp only [C.ok_bind]
        cases i64 (s'.current_count + 1) with
        | ub => rfl
        | ok n =>
          simp only [C.ok_bind]
          have := key s' (by rw [hslot]; rfl)
          rw [this]; rfl

/-- **C30 is false** for another reason: in a window of width 1 holding -1, adding INT64_MAX overflows `next_count - counts[...]`, although
every windowed sum fits. -/
theorem difference_overflow : ∃ s, create true true 1 = C.ok (some s) ∧ addAll s [-1, 9223372036854775807] = C.ub ∧
    ∀ k, Fits ((lastN 1 ([-1, 9223372036854775807].take k)).sum) := by
  refine ⟨_, rfl, rfl, ?_⟩
  intro k
  match k with
  | 0 => simp [lastN, Fits]
  | 1 => simp [lastN, Fits]
  | k + 2 => simp [lastN, Fits]

end CUtil.Sliding
