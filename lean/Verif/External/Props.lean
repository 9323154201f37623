import Verif.External.Model
set_option linter.unusedSimpArgs false
set_option linter.unusedVariables false
/-
C55: external_command_helper_execute.
-/
namespace CUtil.External
open CUtil

/-! ### Specification -/

/-- The output is these lines, each followed by its terminator, which is `\n` or `\r\n`; each line with its terminator has
at most `max` bytes. -/
inductive Lines (max : Nat) : List UInt8 → List (List UInt8) → Prop where
  | nil : Lines max [] []
  | cons {body term rest ls} : (∀ c ∈ body, c ≠ 0 ∧ c ≠ 10 ∧ c ≠ 13) → term = [10] ∨ term = [13, 10] → (body ++ term).length ≤ max →
      Lines max rest ls → Lines max (body ++ term ++ rest) (body :: ls)

/-- Every call the function makes succeeds. -/
structure NoFailure (env : Env) : Prop where
  popen : env.popen = true
  realloc : ∀ i, env.reallocOk i = true
  create : ∀ i, env.createOk i = true
  array : env.arrayOk = true
  read : env.readError = false

/-! ### Lemmas -/

theorem takeLine_line {body : List UInt8} (h : (10 : UInt8) ∉ body) (rest : List UInt8) : ∀ {k : Nat}, body.length < k →
    takeLine k (body ++ 10 :: rest) = (body ++ [10], rest) := by
  induction body with
  | nil =>
    intro k hk
    cases k with
    | zero => simp at hk
    | succ k => simp [takeLine]
  | cons c body ih =>
    intro k hk
    cases k with
    | zero => simp at hk
    | succ k =>
      have hc : c ≠ 10 := fun e => h (by simp [e])
      have := ih (fun hm => h (by simp [hm])) (k := k) (by simpa using hk)
      simp [takeLine, hc, this]

theorem takeLine_spec : ∀ (k : Nat) (s : List UInt8), (takeLine k s).1 ++ (takeLine k s).2 = s ∧
    ((∃ body, (takeLine k s).1 = body ++ [10] ∧ (10 : UInt8) ∉ body ∧ body.length < k) ∨
      ((10 : UInt8) ∉ (takeLine k s).1 ∧ ((takeLine k s).1.length = k ∨ (takeLine k s).2 = []))) := by
  intro k
  induction k with
  | zero => intro s; simp [takeLine]
  | succ k ih =>
    intro s
    cases s with
    | nil => simp [takeLine]
    | cons c s =>
      unfold takeLine
      by_cases hc : c = 10
      · subst hc
        rw [if_pos rfl]
        exact ⟨rfl, Or.inl ⟨[], rfl, by simp, by simp⟩⟩
      · rw [if_neg hc]
        obtain ⟨h1, h2⟩ := ih s
        refine ⟨by simp [h1], ?_⟩
        rcases h2 with ⟨body, e1, e2, e3⟩ | ⟨e1, e2⟩
        · refine Or.inl ⟨c :: body, by simp [e1], ?_, by simp only [List.length_cons]; omega⟩
          intro hm
          rw [List.mem_cons] at hm
          rcases hm with hm | hm
          · exact hc hm.symm
          · exact e2 hm
        · refine Or.inr ⟨?_, ?_⟩
          · intro hm
            rw [List.mem_cons] at hm
            rcases hm with hm | hm
            · exact hc hm.symm
            · exact e1 hm
          · rcases e2 with e2 | e2
            · left; simp [e2]
            · right; exact e2

theorem takeWhile_all {p : UInt8 → Bool} : ∀ {s : List UInt8}, (∀ c ∈ s, p c = true) → s.takeWhile p = s := by
  intro s
  induction s with
  | nil => simp
  | cons c s ih =>
    intro h
    rw [List.takeWhile_cons, if_pos (h c (by simp)), ih (fun d hd => h d (by simp [hd]))]

theorem takeWhile_stop {p : UInt8 → Bool} {c : UInt8} (hc : p c = false) (t : List UInt8) : ∀ {s : List UInt8}, (∀ c ∈ s, p c = true) →
    (s ++ c :: t).takeWhile p = s := by
  intro s
  induction s with
  | nil => intro _; simp [List.takeWhile_cons, hc]
  | cons d s ih =>
    intro h
    rw [List.cons_append, List.takeWhile_cons, if_pos (h d (by simp)), ih (fun e he => h e (by simp [he]))]

theorem strcspn_body {body t : List UInt8} {c : UInt8} (h : ∀ c ∈ body, c ≠ 0 ∧ c ≠ 10 ∧ c ≠ 13) (hc : c = 10 ∨ c = 13) :
    strcspn (body ++ c :: t) = body.length := by
  unfold strcspn
  rw [takeWhile_stop]
  · rcases hc with rfl | rfl <;> decide
  · intro d hd
    obtain ⟨h1, h2, h3⟩ := h d hd
    simp [h1, h2, h3]

theorem strlen_nozero {s : List UInt8} (h : ∀ c ∈ s, c ≠ 0) : strlen s = s.length := by
  unfold strlen
  rw [takeWhile_all]
  intro c hc
  simp [h c hc]

/-- The entries of the array that were created. -/
def made (lines : List (Option (List UInt8))) : List (List UInt8) := lines.filterMap id

theorem fgets_progress {n : Nat} {s : List UInt8} {e : Bool} {buf rest : List UInt8} (h : fgets n s e = some (buf, rest)) :
    takeLine (n - 1) s = (buf, rest) ∧ buf ≠ [] ∧ rest.length < s.length := by
  unfold fgets at h
  split at h
  · cases h
  · rename_i hne
    split at h
    · cases h
    · simp only [Option.some.injEq] at h
      have h1 := (takeLine_spec (n - 1) s).1
      rw [h] at h1 hne
      refine ⟨h, hne, ?_⟩
      rw [← h1, List.length_append]
      have : buf.length ≠ 0 := fun e => hne (List.eq_nil_of_length_eq_zero e)
      simp only at hne ⊢
      omega

/-- The loop ends (never out of fuel) unless there are 2^32 lines; the lines it already had are kept in front. -/
theorem loop_spec (env : Env) : ∀ (fuel : Nat) (s : List UInt8) (failed : Bool) (lines : List (Option (List UInt8))),
    s.length < fuel → lines.length + s.length < 4294967295 → (failed = false → ∀ l ∈ lines, l ≠ none) →
    ∃ f' more, loop env fuel s failed lines = C.ok (f', lines ++ more) ∧ (failed = true → f' = true) ∧ (f' = false → ∀ l ∈ lines ++ more, l ≠ none) := by
  intro fuel
  induction fuel with
  | zero => intro s _ _ h; omega
  | succ fuel ih =>
    intro s failed lines hf hl hn
    unfold loop
    cases hg : fgets bufferSize s env.readError with
    | none => exact ⟨failed, [], by simp, by simp, by simpa using hn⟩
    | some br =>
      obtain ⟨buf, rest⟩ := br
      obtain ⟨_, _, hlt⟩ := fgets_progress hg
      dsimp only
      have hT : ∃ f' more, loop env fuel rest true lines = C.ok (f', lines ++ more) ∧ (failed = true → f' = true) ∧ (f' = false → ∀ l ∈ lines ++ more, l ≠ none) := by
        obtain ⟨f', more, h1, h2, h3⟩ := ih rest true lines (by omega) (by omega) (by simp)
        exact ⟨f', more, h1, fun _ => h2 rfl, h3⟩
      cases failed with
      | true => rw [if_pos rfl]; exact hT
      | false =>
        rw [if_neg (by simp)]
        split
        · exact hT
        · split
          · rw [if_neg (by omega)]
            split
            · obtain ⟨f', more, h1, _, h3⟩ := ih rest false (lines ++ [some (buf.take (strcspn buf))]) (by omega)
                (by simp only [List.length_append, List.length_cons, List.length_nil]; omega)
                (by
                  intro _ l hl'
                  rw [List.mem_append, List.mem_singleton] at hl'
                  rcases hl' with hl' | rfl
                  · exact hn rfl l hl'
                  · simp)
              refine ⟨f', some (buf.take (strcspn buf)) :: more, by rw [h1]; simp, by simp, ?_⟩
              intro hfe l hl'
              exact h3 hfe l (by simpa using hl')
            · obtain ⟨f', more, h1, h2, h3⟩ := ih rest true (lines ++ [none]) (by omega)
                (by simp only [List.length_append, List.length_cons, List.length_nil]; omega) (by simp)
              refine ⟨f', none :: more, by rw [h1]; simp, by simp, ?_⟩
              intro hfe
              rw [h2 rfl] at hfe; cases hfe
          · exact hT

/-- An output of lines that fit, everything succeeding. -/
theorem loop_lines {env : Env} (hn : NoFailure env) {s : List UInt8} {ls : List (List UInt8)} (h : Lines 2047 s ls) :
    ∀ (fuel : Nat) (lines : List (Option (List UInt8))), s.length < fuel → lines.length + s.length < 4294967295 →
      loop env fuel s false lines = C.ok (false, lines ++ ls.map some) := by
  induction h with
  | nil =>
    intro fuel lines hf hl
    cases fuel with
    | zero => simp at hf
    | succ fuel => simp [loop, fgets, takeLine]
  | @cons body term rest ls hb ht hlen _ ih =>
    intro fuel lines hf hl
    cases fuel with
    | zero => simp at hf
    | succ fuel =>
      have htl : takeLine (bufferSize - 1) (body ++ term ++ rest) = (body ++ term, rest) := by
        rcases ht with rfl | rfl
        · rw [List.append_assoc, List.singleton_append]
          apply takeLine_line
          · intro hm; exact (hb _ hm).2.1 rfl
          · simp only [List.length_append, List.length_cons, List.length_nil] at hlen
            show body.length < 2048 - 1
            omega
        · have : body ++ [13, 10] ++ rest = (body ++ [13]) ++ 10 :: rest := by simp
          rw [this, takeLine_line]
          · simp
          · intro hm
            rw [List.mem_append] at hm
            rcases hm with hm | hm
            · exact (hb _ hm).2.1 rfl
            · revert hm; decide
          · simp only [List.length_append, List.length_cons, List.length_nil] at hlen ⊢
            show body.length + (0 + 1) < 2048 - 1
            omega
      have htne : body ++ term ≠ [] := by rcases ht with rfl | rfl <;> simp
      have hg : fgets bufferSize (body ++ term ++ rest) env.readError = some (body ++ term, rest) := by
        unfold fgets
        rw [htl, if_neg htne, hn.read, if_neg (by simp)]
      have hs1 : strlen (body ++ term) = (body ++ term).length := by
        apply strlen_nozero
        intro c hc
        rw [List.mem_append] at hc
        rcases hc with hc | hc
        · exact (hb c hc).1
        · rcases ht with rfl | rfl
          · revert c; decide
          · revert c; decide
      have hs2 : strcspn (body ++ term) = body.length := by
        rcases ht with rfl | rfl
        · exact strcspn_body hb (Or.inl rfl)
        · exact strcspn_body hb (Or.inr rfl)
      have htl2 : term.length ≠ 0 := by rcases ht with rfl | rfl <;> decide
      unfold loop
      rw [hg]
      dsimp only
      simp only [List.length_append] at hf hl hlen hs1
      rw [if_neg (by simp), hs1, hs2, if_neg (by show ¬ (_ ∨ body.length ≥ 2048); omega), hn.realloc, if_pos rfl, if_neg (by omega), hn.create, if_pos rfl, ih]
      · simp
      · omega
      · simp only [List.length_append, List.length_cons, List.length_nil]; omega

/-- The loop does not fail on plain text only if what it reads is lines that fit, and those are what it collected. -/
theorem loop_sound {env : Env} (hr : env.readError = false) : ∀ (fuel : Nat) (s : List UInt8) (lines out : List (Option (List UInt8))),
    (∀ c ∈ s, c ≠ 0 ∧ c ≠ 13) → s.length < fuel → lines.length + s.length < 4294967295 →
    loop env fuel s false lines = C.ok (false, out) → ∃ ls, Lines 2047 s ls ∧ out = lines ++ ls.map some := by
  intro fuel
  induction fuel with
  | zero => intro s _ _ _ h; omega
  | succ fuel ih =>
    intro s lines out hplain hf hl h
    unfold loop at h
    cases hg : fgets bufferSize s env.readError with
    | none =>
      rw [hg] at h
      simp only [C.ok.injEq, Prod.mk.injEq, true_and] at h
      subst h
      have : s = [] := by
        unfold fgets at hg
        rw [hr] at hg
        split at hg
        · rename_i he
          cases s with
          | nil => rfl
          | cons c s =>
            simp only [bufferSize, takeLine, Nat.reduceSub] at he
            split at he <;> cases he
        · simp at hg
      subst this
      exact ⟨[], .nil, by simp⟩
    | some br =>
      obtain ⟨buf, rest⟩ := br
      obtain ⟨ht, hne, hlt⟩ := fgets_progress hg
      obtain ⟨t1, t2⟩ := takeLine_spec (bufferSize - 1) s
      rw [ht] at t1 t2
      simp only at t1 t2
      rw [hg] at h
      dsimp only at h
      rw [if_neg (by simp)] at h
      have hT : ∀ lines' : List (Option (List UInt8)), lines'.length + rest.length < 4294967295 → loop env fuel rest true lines' ≠ C.ok (false, out) := by
        intro lines' hl' he
        obtain ⟨f', more, h1, h2, _⟩ := loop_spec env fuel rest true lines' (by omega) hl' (by simp)
        rw [h1] at he
        simp only [C.ok.injEq, Prod.mk.injEq] at he
        rw [h2 rfl] at he; cases he.1
      have hsub : ∀ c ∈ rest, c ≠ 0 ∧ c ≠ 13 := fun c hc => hplain c (by rw [← t1]; simp [hc])
      have hbuf : ∀ c ∈ buf, c ≠ 0 ∧ c ≠ 13 := fun c hc => hplain c (by rw [← t1]; simp [hc])
      rcases t2 with ⟨body, rfl, e2, e3⟩ | ⟨e1, e2⟩
      · have hb : ∀ c ∈ body, c ≠ 0 ∧ c ≠ 10 ∧ c ≠ 13 := by
          intro c hc
          have := hbuf c (by simp [hc])
          exact ⟨this.1, fun e => e2 (e ▸ hc), this.2⟩
        rw [strcspn_body hb (Or.inl rfl), strlen_nozero (fun c hc => (hbuf c hc).1)] at h
        have e3' : body.length < 2047 := e3
        rw [if_neg (by simp only [List.length_append, List.length_cons, List.length_nil]; show ¬ (_ ∨ body.length ≥ 2048); omega)] at h
        split at h
        · rw [if_neg (by omega)] at h
          split at h
          · simp only [List.take_left'] at h
            obtain ⟨ls, l1, l2⟩ := ih rest _ out hsub (by omega) (by simp only [List.length_append, List.length_cons, List.length_nil]; omega) h
            refine ⟨body :: ls, ?_, by rw [l2]; simp⟩
            rw [← t1]
            exact .cons hb (Or.inl rfl) (by simp only [List.length_append, List.length_cons, List.length_nil]; omega) l1
          · exact absurd h (hT _ (by simp only [List.length_append, List.length_cons, List.length_nil]; omega))
        · exact absurd h (hT _ (by omega))
      · have : strlen buf = strcspn buf := by
          rw [strlen_nozero (fun c hc => (hbuf c hc).1)]
          unfold strcspn
          rw [takeWhile_all]
          intro c hc
          obtain ⟨b1, b2⟩ := hbuf c hc
          have b3 : c ≠ 10 := fun e => e1 (e ▸ hc)
          simp [b1, b2, b3]
        rw [if_pos (Or.inl this)] at h
        exact absurd h (hT _ (by omega))

/-! ### Properties -/

/-- C55 (1): a command whose output is lines (with `\n` or `\r\n`) that fit the buffer: those lines, in order, without
terminators, and the exit code. -/
theorem execute_lines {env : Env} (hn : NoFailure env) {ls : List (List UInt8)} (h : Lines 2047 env.data ls) (hlen : env.data.length < 4294967295)
    {code : Int} (hp : env.pclose = some code) {command : List UInt8} (hc : command ≠ []) :
    execute (some command) false false env = C.ok ⟨.ok, some (ls.map some), some code, [], true, true⟩ := by
  unfold execute
  dsimp only
  rw [if_neg (by simp [hc]), if_neg (by simp [hn.popen]), loop_lines hn h _ _ (by omega) (by simpa using hlen)]
  simp [C.ok_bind, hn.read, hp, hn.array]

/-- C55 (2): if it succeeds, on output without carriage returns and zeros, then the output is exactly the lines returned. The
restriction is needed: see `carriage_return_cuts` and `crlf_extra_line`. -/
theorem execute_sound_partial {env : Env} {command : Option (List UInt8)} {l r : Bool} {o : Out} (hplain : ∀ c ∈ env.data, c ≠ 0 ∧ c ≠ 13)
    (hlen : env.data.length < 4294967295) (h : execute command l r env = C.ok o) (hok : o.status = .ok) :
    ∃ ls code, Lines 2047 env.data ls ∧ o = ⟨.ok, some (ls.map some), some code, [], true, true⟩ ∧ env.pclose = some code ∧ env.readError = false := by
  unfold execute at h
  cases command with
  | none => simp only [C.ok.injEq] at h; subst h; cases hok
  | some command =>
    dsimp only at h
    split at h
    · simp only [C.ok.injEq] at h; subst h; cases hok
    · split at h
      · simp only [C.ok.injEq] at h; subst h; cases hok
      · obtain ⟨f', more, h1, _, _⟩ := loop_spec env (env.data.length + 1) env.data false [] (by omega) (by simpa using hlen) (by simp)
        rw [h1, C.ok_bind] at h
        dsimp only at h
        split at h
        · simp only [C.ok.injEq] at h; subst h; cases hok
        · rename_i hre
          cases hpc : env.pclose with
          | none => rw [hpc] at h; simp only [C.ok.injEq] at h; subst h; cases hok
          | some code =>
            rw [hpc] at h
            dsimp only at h
            cases f' with
            | true => rw [if_pos rfl] at h; simp only [C.ok.injEq] at h; subst h; cases hok
            | false =>
              rw [if_neg (by simp)] at h
              split at h
              · simp only [C.ok.injEq] at h
                have hr : env.readError = false := by
                  cases he : env.readError with
                  | false => rfl
                  | true => exact absurd ⟨rfl, he⟩ hre
                obtain ⟨ls, l1, l2⟩ := loop_sound hr _ _ _ _ hplain (by omega) (by simpa using hlen) h1
                simp only [List.nil_append] at l2 h
                exact ⟨ls, code, l1, by rw [← h, l2], rfl, hr⟩
              · simp only [C.ok.injEq] at h; subst h; cases hok

/-- C55 (3): whatever the command does, the call has an outcome; it stores the out arguments exactly when it returns OK; the
strings it created are either all in the array returned (none of which is NULL) or all released; the pipe is closed unless
reading it failed. -/
theorem execute_outcome (env : Env) (command : Option (List UInt8)) (l r : Bool) (hlen : env.data.length < 4294967295) :
    ∃ o, execute command l r env = C.ok o ∧ (o.status = .ok ↔ o.lines ≠ none) ∧ (o.status = .ok ↔ o.code ≠ none) ∧
      (∀ ls, o.lines = some ls → ∀ x ∈ ls, x ≠ none) ∧ (o.lines ≠ none → o.released = []) ∧
      (o.opened = true ∧ o.closed = false → env.readError = true) ∧
      (o.status = .invalidArgs ↔ command = none ∨ command = some [] ∨ l = true ∨ r = true) ∧
      (o.opened = true → ∃ f arr, loop env (env.data.length + 1) env.data false [] = C.ok (f, arr) ∧
        (o.lines = none → o.released = made arr) ∧ (∀ ls, o.lines = some ls → ls = arr)) := by
  unfold execute
  cases command with
  | none => refine ⟨_, rfl, ?_⟩; simp
  | some command =>
    dsimp only
    split
    · rename_i hc
      refine ⟨_, rfl, ?_⟩
      simpa using hc
    · rename_i hc
      have hc' : ¬ (some command = none ∨ some command = some [] ∨ l = true ∨ r = true) := by simpa using hc
      split
      · refine ⟨_, rfl, ?_⟩
        simpa using hc
      · obtain ⟨f', more, h1, _, h3⟩ := loop_spec env (env.data.length + 1) env.data false [] (by omega) (by simpa using hlen) (by simp)
        rw [h1, C.ok_bind]
        dsimp only
        simp only [List.nil_append] at h3 ⊢
        split
        · rename_i hre
          refine ⟨_, rfl, by simp, by simp, by simp, by simp, fun _ => hre.2, iff_of_false (by simp) hc', fun _ => ⟨f', more, rfl, fun _ => rfl, by simp⟩⟩
        · cases env.pclose with
          | none => exact ⟨_, rfl, by simp, by simp, by simp, by simp, by simp, iff_of_false (by simp) hc', fun _ => ⟨f', more, rfl, fun _ => rfl, by simp⟩⟩
          | some code =>
            dsimp only
            cases f' with
            | true => exact ⟨_, rfl, by simp, by simp, by simp, by simp, by simp, iff_of_false (by simp) hc', fun _ => ⟨true, more, rfl, fun _ => rfl, by simp⟩⟩
            | false =>
              rw [if_neg (by simp)]
              split
              · refine ⟨_, rfl, by simp, by simp, ?_, by simp, by simp, iff_of_false (by simp) hc', fun _ => ⟨false, more, rfl, by simp, ?_⟩⟩
                · intro ls hls
                  simp only [Option.some.injEq] at hls
                  rw [← hls]; exact h3 rfl
                · intro ls hls; simp only [Option.some.injEq] at hls; exact hls.symm
              · exact ⟨_, rfl, by simp, by simp, by simp, by simp, by simp, iff_of_false (by simp) hc', fun _ => ⟨false, more, rfl, fun _ => rfl, by simp⟩⟩

/-! ### Findings -/

/-- Everything succeeds on this output. -/
def plainEnv (data : List UInt8) : Env := ⟨data, false, true, fun _ => true, fun _ => true, true, some 0⟩

/-- Finding: a line with a carriage return in the middle is cut there, and the call succeeds. -/
theorem carriage_return_cuts : execute (some [120]) false false (plainEnv "ab\rcd\n".toUTF8.toList) =
    C.ok ⟨.ok, some [some "ab".toUTF8.toList], some 0, [], true, true⟩ := by decide +kernel

/-- Finding: a line of 2046 bytes that ends with `\r\n` comes back as two lines, the second empty: the buffer has room for the
`\r` but not for the `\n`, and the `\r` alone is taken for the end of the line. -/
theorem crlf_extra_line {body : List UInt8} (hb : ∀ c ∈ body, c ≠ 0 ∧ c ≠ 10 ∧ c ≠ 13) (hlen : body.length = 2046) :
    execute (some [120]) false false (plainEnv (body ++ [13, 10])) = C.ok ⟨.ok, some [some body, some []], some 0, [], true, true⟩ := by
  have key : ∀ (b : List UInt8) k, (∀ c ∈ b, c ≠ 0 ∧ c ≠ 10 ∧ c ≠ 13) → b.length + 1 = k → takeLine k (b ++ [13, 10]) = (b ++ [13], [10]) := by
    intro b
    induction b with
    | nil => intro k _ hk; simp only [List.length_nil, Nat.zero_add] at hk; subst hk; rfl
    | cons c b ih =>
      intro k h hk
      cases k with
      | zero => simp at hk
      | succ k =>
        have := ih k (fun d hd => h d (by simp [hd])) (by simpa using hk)
        have hc := (h c (by simp)).2.1
        simp [takeLine, hc, this]
  have hg : fgets bufferSize (body ++ [13, 10]) false = some (body ++ [13], [10]) := by
    unfold fgets
    rw [show bufferSize - 1 = 2047 from rfl, key body 2047 hb (by omega), if_neg (by simp), if_neg (by simp)]
  have h2 : strcspn (body ++ [13]) = 2046 := by rw [strcspn_body hb (Or.inr rfl), hlen]
  have h3 : strlen (body ++ [13]) = 2047 := by
    rw [strlen_nozero]
    · rw [List.length_append, hlen]; rfl
    · intro c hc
      rw [List.mem_append] at hc
      rcases hc with hc | hc
      · exact (hb c hc).1
      · revert c; decide
  have hend : ∀ fuel lines, lines.length + 1 < 4294967295 → loop (plainEnv (body ++ [13, 10])) (fuel + 2) [10] false lines = C.ok (false, lines ++ [some []]) := by
    intro fuel lines hl
    have hn : NoFailure (plainEnv (body ++ [13, 10])) := ⟨rfl, fun _ => rfl, fun _ => rfl, rfl, rfl⟩
    have hL : Lines 2047 [10] [[]] := Lines.cons (body := []) (by simp) (Or.inl rfl) (by decide) .nil
    have := loop_lines hn hL (fuel + 2) lines (by simp) (by simpa using hl)
    simpa using this
  have hloop : ∀ fuel, loop (plainEnv (body ++ [13, 10])) (fuel + 3) (body ++ [13, 10]) false [] = C.ok (false, [some body, some []]) := by
    intro fuel
    rw [loop.eq_def]
    dsimp only
    rw [show (plainEnv (body ++ [13, 10])).readError = false from rfl, hg]
    dsimp only
    rw [if_neg (by simp), h2, h3, if_neg (by decide), show (plainEnv (body ++ [13, 10])).reallocOk ([] : List (Option (List UInt8))).length = true from rfl,
      if_pos rfl, if_neg (by decide), show (plainEnv (body ++ [13, 10])).createOk ([] : List (Option (List UInt8))).length = true from rfl, if_pos rfl,
      List.take_left' hlen, hend fuel _ (by simp)]
    rfl
  unfold execute
  dsimp only
  have hl : (plainEnv (body ++ [13, 10])).data.length + 1 = body.length + 3 := by simp [plainEnv]
  rw [if_neg (by decide), if_neg (by simp [plainEnv]), hl, show (plainEnv (body ++ [13, 10])).data = body ++ [13, 10] from rfl, hloop, C.ok_bind]
  simp [plainEnv]

/-- Finding: when reading the pipe fails, the pipe is never closed. -/
theorem pipe_leak : execute (some [120]) false false { plainEnv "ab\n".toUTF8.toList with readError := true } =
    C.ok ⟨.error, none, none, ["ab".toUTF8.toList], true, false⟩ := by decide +kernel

/-- A last line without a newline makes the call fail, however short it is. -/
theorem unterminated_fails : execute (some [120]) false false (plainEnv "ab\nc".toUTF8.toList) =
    C.ok ⟨.error, none, none, ["ab".toUTF8.toList], true, true⟩ := by decide +kernel

/-! ### Witnesses -/

example : Lines 2047 "ab\nc\r\n\n".toUTF8.toList ["ab".toUTF8.toList, "c".toUTF8.toList, []] := by
  have e : "ab\nc\r\n\n".toUTF8.toList = [97, 98] ++ [10] ++ ([99] ++ [13, 10] ++ ([] ++ [10] ++ [])) := by decide +kernel
  rw [e, show "ab".toUTF8.toList = [97, 98] by decide +kernel, show "c".toUTF8.toList = [99] by decide +kernel]
  exact .cons (max := 2047) (body := [97, 98]) (by decide) (Or.inl rfl) (by decide)
    (.cons (max := 2047) (body := [99]) (by decide) (Or.inr rfl) (by decide) (.cons (max := 2047) (body := []) (by decide) (Or.inl rfl) (by decide) .nil))

example : NoFailure (plainEnv "ab\nc\r\n\n".toUTF8.toList) := ⟨rfl, fun _ => rfl, fun _ => rfl, rfl, rfl⟩

example : execute (some [120]) false false (plainEnv "ab\nc\r\n\n".toUTF8.toList) =
    C.ok ⟨.ok, some [some "ab".toUTF8.toList, some "c".toUTF8.toList, some []], some 0, [], true, true⟩ := by decide +kernel

end CUtil.External
