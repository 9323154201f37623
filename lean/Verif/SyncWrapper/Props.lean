import Verif.SyncWrapper.Model
set_option linter.unusedSimpArgs false
set_option linter.unusedVariables false
/-
C52: ownership of the out arguments of a sync wrapper.
-/
namespace CUtil.SyncWrapper
open CUtil

/-! ### Specification -/

/-- Some copy that is attempted fails: some handler of the list fails (they are called in order until one does). -/
def SomeFails (args : List Arg) : Prop := ∃ a ∈ args, a.custom = true ∧ a.copyOk = false

/-- The handler of argument `i` is called and succeeds: no handler before it failed. -/
def IsCopied (args : List Arg) (i : Nat) : Prop :=
  ∃ a, args[i]? = some a ∧ a.custom = true ∧ a.copyOk = true ∧ ∀ (j : Nat) (b : Arg), j < i → args[j]? = some b → b.custom = true → b.copyOk = true

/-! ### Lemmas -/

theorem copyArgs_error (args : List Arg) : ∀ (i : Nat),
    (copyArgs args i true).2.2 = true ∧ (∀ k, (copyArgs args i true).1.count (.copied k) = 0) ∧
      (copyArgs args i true).2.1 = List.replicate args.length false ∧ (∀ k, (copyArgs args i true).1.count (.freed k) = 0) := by
  induction args with
  | nil => intro i; simp [copyArgs]
  | cons a args ih =>
    intro i
    obtain ⟨h1, h2, h3, h4⟩ := ih (i + 1)
    unfold copyArgs
    cases a.custom with
    | true => simp [h1, h2, h3, h4, List.replicate_succ]
    | false => simp [h1, h2, h3, h4, List.replicate_succ, List.count_cons]

theorem copyArgs_flags_length (args : List Arg) : ∀ (i : Nat) (e : Bool), (copyArgs args i e).2.1.length = args.length := by
  induction args with
  | nil => intro i e; simp [copyArgs]
  | cons a args ih =>
    intro i e
    unfold copyArgs
    cases a.custom <;> cases e <;> cases a.copyOk <;> simp [ih]

/-- Numbers below the first argument do not occur. -/
theorem copyArgs_low (args : List Arg) : ∀ (i : Nat) (e : Bool) (k : Nat), k < i →
    (copyArgs args i e).1.count (.copied k) = 0 ∧ (copyArgs args i e).1.count (.assign k) = 0 := by
  induction args with
  | nil => intro i e k _; simp [copyArgs]
  | cons a args ih =>
    intro i e k hk
    have hne : i ≠ k := by omega
    unfold copyArgs
    cases a.custom <;> cases e <;> cases a.copyOk <;> simp [ih _ _ k (by omega : k < i + 1), List.count_cons, hne]

/-- The flag of an argument says whether it was copied; in the log that shows exactly once. -/
theorem copyArgs_spec (args : List Arg) : ∀ (i : Nat),
    ((copyArgs args i false).2.2 = true ↔ SomeFails args) ∧
    (∀ k, k < args.length → ((copyArgs args i false).1.count (.copied (i + k)) = if (copyArgs args i false).2.1[k]? = some true then 1 else 0) ∧
      ((copyArgs args i false).2.1[k]? = some true ↔ IsCopied args k)) ∧
    (∀ k a, args[k]? = some a → a.custom = false → (copyArgs args i false).1.count (.assign (i + k)) = 1) := by
  induction args with
  | nil => intro i; simp [copyArgs, SomeFails]
  | cons a args ih =>
    intro i
    obtain ⟨h1, h2, h3⟩ := ih (i + 1)
    have hadd : ∀ k, i + (k + 1) = i + 1 + k := fun k => by omega
    -- one more argument in front that did not fail
    have hcop : (a.custom = true → a.copyOk = true) → ∀ k, IsCopied (a :: args) (k + 1) ↔ IsCopied args k := by
      intro ha k
      constructor
      · rintro ⟨b, e1, e2, e3, e4⟩
        refine ⟨b, by simpa using e1, e2, e3, ?_⟩
        intro j c hj hc
        exact e4 (j + 1) c (by omega) (by simpa using hc)
      · rintro ⟨b, e1, e2, e3, e4⟩
        refine ⟨b, by simpa using e1, e2, e3, ?_⟩
        intro j c hj hc
        cases j with
        | zero => simp only [List.getElem?_cons_zero, Option.some.injEq] at hc; subst hc; exact ha
        | succ j => exact e4 j c (by omega) (by simpa using hc)
    unfold copyArgs
    cases hc : a.custom with
    | false =>
      simp only [Bool.false_eq_true, if_false]
      refine ⟨?_, ?_, ?_⟩
      · rw [h1]; simp [SomeFails, hc]
      · intro k hk
        cases k with
        | zero =>
          refine ⟨?_, ?_⟩
          · simp [List.count_cons, (copyArgs_low args (i + 1) false i (by omega)).1]
          · simp only [List.getElem?_cons_zero, Option.some.injEq, Bool.false_eq_true, false_iff]
            rintro ⟨b, e1, e2, _⟩
            simp only [List.getElem?_cons_zero, Option.some.injEq] at e1
            subst e1; rw [hc] at e2; cases e2
        | succ k =>
          obtain ⟨g1, g2⟩ := h2 k (by simpa using hk)
          refine ⟨?_, ?_⟩
          · rw [hadd, List.count_cons_of_ne (by simp), g1]; simp
          · rw [hcop (by simp [hc])]; simpa using g2
      · intro k b hb hbc
        cases k with
        | zero => simp [List.count_cons, (copyArgs_low args (i + 1) false i (by omega)).2]
        | succ k =>
          rw [hadd, List.count_cons_of_ne (by simp; omega)]
          exact h3 k b (by simpa using hb) hbc
    | true =>
      cases ho : a.copyOk with
      | true =>
        simp only [if_true, Bool.false_eq_true, if_false]
        refine ⟨?_, ?_, ?_⟩
        · rw [h1]; simp [SomeFails, hc, ho]
        · intro k hk
          cases k with
          | zero =>
            refine ⟨?_, ?_⟩
            · simp [List.count_cons, (copyArgs_low args (i + 1) false i (by omega)).1]
            · simp only [List.getElem?_cons_zero, true_iff]
              exact ⟨a, rfl, hc, ho, by intro j _ hj; omega⟩
          | succ k =>
            obtain ⟨g1, g2⟩ := h2 k (by simpa using hk)
            refine ⟨?_, ?_⟩
            · rw [hadd, List.count_cons_of_ne (by simp; omega), g1]; simp
            · rw [hcop (fun _ => ho)]; simpa using g2
        · intro k b hb hbc
          cases k with
          | zero => simp only [List.getElem?_cons_zero, Option.some.injEq] at hb; subst hb; rw [hc] at hbc; cases hbc
          | succ k =>
            rw [hadd, List.count_cons_of_ne (by simp)]
            exact h3 k b (by simpa using hb) hbc
      | false =>
        simp only [if_true, Bool.false_eq_true, if_false]
        obtain ⟨k1, k2, k3, k4⟩ := copyArgs_error args (i + 1)
        have hno : ∀ k, ¬ IsCopied (a :: args) k := by
          rintro k ⟨b, e1, e2, e3, e4⟩
          cases k with
          | zero => simp only [List.getElem?_cons_zero, Option.some.injEq] at e1; subst e1; rw [ho] at e3; cases e3
          | succ k =>
            have := e4 0 a (by omega) rfl hc
            rw [ho] at this; cases this
        refine ⟨?_, ?_, ?_⟩
        · rw [k1]; simp [SomeFails, hc, ho]
        · intro k hk
          have hf : (false :: (copyArgs args (i + 1) true).2.1)[k]? ≠ some true := by
            rw [k3]
            cases k with
            | zero => simp
            | succ k => simp only [List.getElem?_cons_succ, List.getElem?_replicate]; split <;> simp
          refine ⟨?_, ?_⟩
          · rw [List.count_cons_of_ne (by simp), k2, if_neg hf]
          · exact iff_of_false hf (hno k)
        · -- plain arguments are assigned all the same
          have hasg : ∀ (args : List Arg) (i k : Nat) (b : Arg), args[k]? = some b → b.custom = false → (copyArgs args i true).1.count (.assign (i + k)) = 1 := by
            intro args
            induction args with
            | nil => intro i k b hb; simp at hb
            | cons a args ih =>
              intro i k b hb hbc
              have hadd' : ∀ k, i + (k + 1) = i + 1 + k := fun k => by omega
              unfold copyArgs
              cases hc : a.custom with
              | true =>
                simp only [if_true]
                cases k with
                | zero => simp only [List.getElem?_cons_zero, Option.some.injEq] at hb; subst hb; rw [hc] at hbc; cases hbc
                | succ k => rw [hadd']; exact ih (i + 1) k b (by simpa using hb) hbc
              | false =>
                simp only [Bool.false_eq_true, if_false]
                cases k with
                | zero => simp [List.count_cons, (copyArgs_low args (i + 1) true i (by omega)).2]
                | succ k =>
                  rw [hadd', List.count_cons_of_ne (by simp; omega)]
                  exact ih (i + 1) k b (by simpa using hb) hbc
          intro k b hb hbc
          cases k with
          | zero => simp only [List.getElem?_cons_zero, Option.some.injEq] at hb; subst hb; rw [hc] at hbc; cases hbc
          | succ k =>
            rw [hadd, List.count_cons_of_ne (by simp)]
            exact hasg args (i + 1) k b (by simpa using hb) hbc

theorem freeFailed_spec (args : List Arg) : ∀ (flags : List Bool) (i : Nat) (e : Bool), flags.length = args.length →
    (∀ (k : Nat) (a : Arg), flags[k]? = some true → args[k]? = some a → a.custom = true) →
    (∀ k, (freeFailed args flags i e).count (.freed (i + k)) = if e = true ∧ flags[k]? = some true then 1 else 0) ∧
    (∀ k, k < i → (freeFailed args flags i e).count (.freed k) = 0) ∧ (∀ k, (freeFailed args flags i e).count (.copied k) = 0) ∧
    (∀ k, (freeFailed args flags i e).count (.assign k) = 0) := by
  induction args with
  | nil =>
    intro flags i e hl _
    have : flags = [] := List.eq_nil_of_length_eq_zero hl
    subst this
    simp [freeFailed]
  | cons a args ih =>
    intro flags i e hl hf
    cases flags with
    | nil => simp at hl
    | cons f flags =>
      obtain ⟨h1, h2, h3, h4⟩ := ih flags (i + 1) e (by simpa using hl) (fun k b hk hb => hf (k + 1) b (by simpa using hk) (by simpa using hb))
      have hadd : ∀ k, i + (k + 1) = i + 1 + k := fun k => by omega
      unfold freeFailed
      cases hc : a.custom with
      | false =>
        have hff : f = false := by
          cases f with
          | false => rfl
          | true => have := hf 0 a rfl rfl; rw [hc] at this; cases this
        subst hff
        simp only [Bool.false_eq_true, if_false]
        refine ⟨?_, fun k hk => h2 k (by omega), h3, h4⟩
        intro k
        cases k with
        | zero => rw [Nat.add_zero, h2 i (by omega)]; simp
        | succ k => rw [hadd, h1]; simp
      | true =>
        simp only [if_true]
        cases e <;> cases f
        · simp only [Bool.and_self, Bool.false_eq_true, if_false]
          refine ⟨?_, fun k hk => h2 k (by omega), h3, h4⟩
          intro k
          cases k with
          | zero => rw [Nat.add_zero, h2 i (by omega)]; simp
          | succ k => rw [hadd, h1]; simp
        · simp only [Bool.false_and, Bool.false_eq_true, if_false]
          refine ⟨?_, fun k hk => h2 k (by omega), h3, h4⟩
          intro k
          cases k with
          | zero => rw [Nat.add_zero, h2 i (by omega)]; simp
          | succ k => rw [hadd, h1]; simp
        · simp only [Bool.and_false, Bool.false_eq_true, if_false]
          refine ⟨?_, fun k hk => h2 k (by omega), h3, h4⟩
          intro k
          cases k with
          | zero => rw [Nat.add_zero, h2 i (by omega)]; simp
          | succ k => rw [hadd, h1]; simp
        · simp only [Bool.and_self, if_true]
          refine ⟨?_, ?_, ?_, ?_⟩
          · intro k
            cases k with
            | zero => rw [Nat.add_zero, List.count_cons_self, h2 i (by omega)]; simp
            | succ k => rw [hadd, List.count_cons_of_ne (by simp; omega), h1]; simp
          · intro k hk; rw [List.count_cons_of_ne (by simp; omega), h2 k (by omega)]
          · intro k; rw [List.count_cons_of_ne (by simp), h3 k]
          · intro k; rw [List.count_cons_of_ne (by simp), h4 k]

theorem copyArgs_no_freed (args : List Arg) : ∀ (i : Nat) (e : Bool) (k : Nat), (copyArgs args i e).1.count (.freed k) = 0 := by
  induction args with
  | nil => intro i e k; simp [copyArgs]
  | cons a args ih =>
    intro i e k
    unfold copyArgs
    cases a.custom <;> cases e <;> cases a.copyOk <;> simp [ih, List.count_cons]

/-! ### Properties -/

/-- What the callback does: an argument with a handler is copied, once, exactly when no handler before it failed and its own does
not; those copied are freed, each once, exactly when some handler failed; no other is freed; plain arguments are assigned once. -/
theorem callback_spec (args : List Arg) :
    ((callback args).2 = true ↔ SomeFails args) ∧
    ∀ k, k < args.length →
      (IsCopied args k → (callback args).1.count (.copied k) = 1 ∧ (callback args).1.count (.freed k) = if (callback args).2 then 1 else 0) ∧
      (¬ IsCopied args k → (callback args).1.count (.copied k) = 0 ∧ (callback args).1.count (.freed k) = 0) ∧
      (∀ a, args[k]? = some a → a.custom = false → (callback args).1.count (.assign k) = 1) := by
  obtain ⟨h1, h2, h3⟩ := copyArgs_spec args 0
  simp only [Nat.zero_add] at h2 h3
  obtain ⟨f1, f2, f3, f4⟩ := freeFailed_spec args (copyArgs args 0 false).2.1 0 (copyArgs args 0 false).2.2 (copyArgs_flags_length args 0 false) (by
    intro k a hk ha
    obtain ⟨hlt, _⟩ := List.getElem?_eq_some_iff.1 ha
    obtain ⟨b, e1, e2, _⟩ := (h2 k hlt).2.1 hk
    rw [ha] at e1; simp only [Option.some.injEq] at e1; subst e1; exact e2)
  simp only [Nat.zero_add] at f1
  unfold callback
  refine ⟨h1, ?_⟩
  intro k hk
  obtain ⟨g1, g2⟩ := h2 k hk
  simp only [List.count_append, f1, f3, f4, copyArgs_no_freed]
  refine ⟨?_, ?_, ?_⟩
  · intro hc
    rw [g1, if_pos (g2.2 hc)]
    refine ⟨rfl, ?_⟩
    simp only [g2.2 hc, and_true, Nat.zero_add]
  · intro hc
    have : (copyArgs args 0 false).2.1[k]? ≠ some true := fun h => hc (g2.1 h)
    rw [g1, if_neg this, if_neg (fun h => this h.2)]
    exact ⟨rfl, rfl⟩
  · intro a ha hac
    rw [h3 k a ha hac]

/-- C52: OK exactly when the call was accepted, waited for, and every out argument was copied (each once, none freed);
COPY_ARG_ERROR exactly when some copy failed, and then every argument copied was freed exactly once, no other was. -/
theorem wrapper_spec (args : List Arg) (null expected waitOk : Bool) :
    ((wrapper args null expected waitOk).1 = .ok ↔ null = false ∧ expected = true ∧ waitOk = true ∧ ¬ SomeFails args) ∧
    ((wrapper args null expected waitOk).1 = .callbackCopyArgError ↔ null = false ∧ expected = true ∧ waitOk = true ∧ SomeFails args) ∧
    ((wrapper args null expected waitOk).1 = .ok → ∃ log, (wrapper args null expected waitOk).2 = some log ∧
      ∀ k a, args[k]? = some a → log.count (.freed k) = 0 ∧ (a.custom = true → log.count (.copied k) = 1) ∧ (a.custom = false → log.count (.assign k) = 1)) ∧
    ((wrapper args null expected waitOk).1 = .callbackCopyArgError → ∃ log, (wrapper args null expected waitOk).2 = some log ∧
      ∀ k, k < args.length → log.count (.copied k) = log.count (.freed k) ∧ (log.count (.copied k) = 1 ↔ IsCopied args k) ∧ (log.count (.copied k) = 0 ↔ ¬ IsCopied args k)) ∧
    ((wrapper args null expected waitOk).1 = .invalidArgs ↔ null = true) ∧
    ((wrapper args null expected waitOk).1 = .callError ↔ null = false ∧ expected = false) := by
  obtain ⟨h1, h2⟩ := callback_spec args
  unfold wrapper
  cases null with
  | true => simp
  | false =>
    cases expected with
    | false => simp
    | true =>
      cases waitOk with
      | false => simp
      | true =>
        simp only [Bool.false_eq_true, if_false, Bool.true_eq_false, true_and]
        cases he : (callback args).2 with
        | true =>
          rw [he] at h1 h2
          have hs := h1.1 rfl
          simp only [if_true, reduceCtorEq, false_iff, not_true_eq_false, Classical.not_not, true_iff, false_implies, true_and, forall_const]
          refine ⟨hs, hs, ⟨_, rfl, ?_⟩, trivial⟩
          intro k hk
          obtain ⟨a1, a2, _⟩ := h2 k hk
          by_cases hc : IsCopied args k
          · obtain ⟨b1, b2⟩ := a1 hc
            rw [b1, b2]; simp [hc]
          · obtain ⟨b1, b2⟩ := a2 hc
            rw [b1, b2]; simp [hc]
        | false =>
          rw [he] at h1 h2
          have hs : ¬ SomeFails args := fun h => by have := h1.2 h; cases this
          simp only [Bool.false_eq_true, if_false, reduceCtorEq, false_iff, true_iff, false_implies, true_and, forall_const]
          refine ⟨hs, hs, ⟨_, rfl, ?_⟩, trivial⟩
          intro k a ha
          obtain ⟨hlt, _⟩ := List.getElem?_eq_some_iff.1 ha
          obtain ⟨a1, a2, a3⟩ := h2 k hlt
          refine ⟨?_, ?_, a3 a ha⟩
          · by_cases hc : IsCopied args k
            · rw [(a1 hc).2]; simp
            · exact (a2 hc).2
          · intro hcu
            have hmem : ∀ (j : Nat) (b : Arg), args[j]? = some b → b.custom = true → b.copyOk = true := by
              intro j b hb hbc
              cases hbo : b.copyOk with
              | true => rfl
              | false => exact absurd ⟨b, List.mem_of_getElem? hb, hbc, hbo⟩ hs
            exact (a1 ⟨a, ha, hcu, hmem k a ha hcu, fun j b _ => hmem j b⟩).1

/-- C52: when the arguments are refused or the asynchronous call does not start, the out arguments are not touched. -/
theorem refused_untouched (args : List Arg) (null expected waitOk : Bool)
    (h : (wrapper args null expected waitOk).1 = .invalidArgs ∨ (wrapper args null expected waitOk).1 = .callError) :
    (wrapper args null expected waitOk).2 = some [] := by
  unfold wrapper at h ⊢
  cases null with
  | true => rfl
  | false =>
    cases expected with
    | false => rfl
    | true => cases waitOk <;> cases hc : (callback args).2 <;> simp [hc] at h

/-! ### Witness: a string, a number, a string whose copy fails, a string, a number -/

example : wrapper [⟨true, true⟩, ⟨false, true⟩, ⟨true, false⟩, ⟨true, true⟩, ⟨false, true⟩] false true true =
    (.callbackCopyArgError, some [.copied 0, .assign 1, .copyFailed 2, .assign 4, .freed 0]) := by decide +kernel

example : wrapper [⟨true, true⟩, ⟨false, true⟩, ⟨true, true⟩] false true true = (.ok, some [.copied 0, .assign 1, .copied 2]) := by decide +kernel

end CUtil.SyncWrapper
