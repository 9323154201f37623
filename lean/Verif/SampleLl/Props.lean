import Verif.SampleLl.Lemmas
set_option linter.unusedSimpArgs false
set_option linter.unusedVariables false
/-
C81: the two modules of the samples that do the work themselves, under every interleaving of the caller, the worker, a client that cancels and releases, and an owner who destroys the module.
-/
namespace CUtil.SampleLl

variable {k : Kind} {s s' : Sys}

/-- Nothing is going on any more. -/
def Quiet (s : Sys) : Prop :=
  (∃ b, s.exec = .ret b) ∧ (s.worker = .idle ∨ s.worker = .fin) ∧ (s.can = .idle ∨ s.can = .done)

set_option maxHeartbeats 4000000 in
theorem badOp_step (i : Inv k s) (h : s.badOp = false) (st : Step k s s') : s'.badOp = false := by
  obtain ⟨h1, h2, h3, h4, h5, h6, h7, h8, h9, h10⟩ := i.o
  have hu : ∀ n, s.can = .enter n ∨ s.can = .call n → s.owns (.client n) = true := fun n e => h4 n (by rcases e with e | e <;> rw [e] <;> rfl)
  clear i
  cases st <;> simp only [own, release, touch] at * <;> grind

/-- C81: the memory of the operation is not used before it is there or after it was freed, and no reference is released twice, whatever the owner of the module does. -/
theorem operation_safe (h : Reach k s) : s.badOp = false := by
  induction h with
  | init => rfl
  | step h st ih => exact badOp_step (inv_reach h) ih st

/-- C81: the client's callback is called at most once, by the worker or by the cancel. -/
theorem callback_once (h : Reach k s) : s.calls.length ≤ 1 := by
  have i := (inv_reach h).f
  cases k with
  | fake =>
    have := i.f1 rfl
    split at this <;> omega
  | real =>
    cases ho : s.worker.over with
    | true => rw [i.f4 rfl ho]; exact Nat.le_refl _
    | false => rw [i.f5 rfl ho]; exact Nat.zero_le _

/-- C81: when the function has said that it failed, there is no callback, now or later, no work was started, and the call counts as ended. -/
theorem failed_silent (h : Reach k s) (hr : s.exec = .ret false) : s.calls = [] ∧ s.worker = .idle ∧ s.can = .idle ∧ s.inExec = false := by
  have i := (inv_reach h).p
  have h0 : s.exec.accepted = false := by rw [hr]; rfl
  have h1 := i.nacc h0
  refine ⟨i.ca h0, h1, ?_, ?_⟩
  · refine Classical.byContradiction fun hc => ?_
    have h2 := i.cn hc
    rw [hr] at h2
    cases h2
  · cases hb : s.inExec with
    | false => rfl
    | true =>
      have h2 := i.back hb
      rw [hr, h1] at h2
      simp [EPc.mine, WPc.auth] at h2

/-- C81: when the function has said that it succeeded and nothing is going on any more, the callback was called exactly once, with the result of the work or, if the client
has canceled, with "canceled". -/
theorem succeeded_called (h : Reach k s) (hr : s.exec = .ret true) (hq : Quiet s) :
    ∃ r, s.calls = [r] ∧ (s.got = some r ∨ (r = .canceled ∧ s.can = .done)) ∧ s.inExec = false := by
  have i := inv_reach h
  have h1 := i.p.acc (by rw [hr]; rfl)
  have h2 := hq.2.1.resolve_left h1
  have h3 : s.calls.length = 1 := by
    cases k with
    | fake =>
      have h4 := i.f.f1 rfl
      rw [i.f.f2 rfl (by rw [h2]; rfl), h2] at h4
      rcases hq.2.2 with e | e <;> rw [e] at h4 <;> simpa [WPc.claim, CPc.claim] using h4
    | real => exact i.f.f4 rfl (by rw [h2]; rfl)
  match hc : s.calls, h3 with
  | [r], _ =>
    refine ⟨r, rfl, ?_, ?_⟩
    · rcases i.f.t1 r (.inr (by simp [hc])) with e | ⟨e, e'⟩
      · exact .inl e
      · refine .inr ⟨e, ?_⟩
        rcases hq.2.2 with e2 | e2
        · rw [e2] at e'; exact nomatch e'
        · exact e2
    · cases hb : s.inExec with
      | false => rfl
      | true =>
        have h5 := i.p.back hb
        rw [hr, h2] at h5
        simp [EPc.mine, WPc.auth] at h5

/-- C81: every call of the callback is truthful: with the result of the work, or with "canceled" after the client has canceled. -/
theorem result_truthful (h : Reach k s) (r : Res) (hr : r ∈ s.calls) : s.got = some r ∨ (r = .canceled ∧ s.can.begun = true) := (inv_reach h).f.t1 r (.inr hr)

/-- C81, the module that cannot cancel its work: once the cancel function is through, the callback has been called, or the worker is about to call it. -/
theorem fake_cancel_prompt (h : Reach .fake s) (hd : s.can = .done) : s.calls ≠ [] ∨ s.worker = .result ∨ ∃ r, s.worker = .call r := by
  have i := inv_reach h
  have hf : s.flag = true := by
    refine Classical.byContradiction fun hf => ?_
    -- a cancel function that is through has seen the flag set, or has set it
    have : ∀ {s}, Reach .fake s → s.can.begun = true → s.flag = true := by
      intro s h
      induction h with
      | init => intro e; exact nomatch e
      | step h st ih =>
        have p := (inv_reach h).p
        have hx := p.cn
        cases st <;> simp only [release] at * <;> grind
    exact hf (this h (by rw [hd]; rfl))
  have h1 := i.f.f1 rfl
  rw [hf, hd] at h1
  cases hw : s.worker <;> simp_all [WPc.claim, CPc.claim] <;> (intro e; simp [e] at h1)

/-- C81, the module that can: after a cancel the worker need not wait any longer, and then reports "canceled". -/
theorem real_cancel_wakes (h : Reach .real s) (hc : s.can = .done) (hw : s.worker = .waiting) :
    ∃ s', Step .real s s' ∧ s'.worker = .endSm true ∧ ∀ s'', Step .real s' s'' → s''.worker = .endSm true ∨ s''.worker = .call .canceled := by
  have hf : s.flag = true := by
    have : ∀ {s}, Reach .real s → s.can = .done → s.flag = true := by
      intro s h
      induction h with
      | init => intro e; exact nomatch e
      | step h st ih =>
        have p := (inv_reach h).p
        have hx := p.cn
        have hy := (inv_reach h).f.f3 rfl
        cases st <;> simp only [release] at * <;> grind
    exact this h hc
  have hx : s.exec.accepted = true := by
    cases he : s.exec.accepted with
    | true => rfl
    | false => have := (inv_reach h).p.nacc he; rw [hw] at this; cases this
  refine ⟨_, .woken s hw rfl hf, rfl, fun s'' st => ?_⟩
  generalize hs : ({ s with worker := WPc.endSm true, badOp := touch s } : Sys) = s1 at st
  have h1 : s1.worker = .endSm true := by rw [← hs]
  have h2 : s1.exec.accepted = true := by rw [← hs]; exact hx
  cases st <;> simp only [release] at * <;> grind

/-- C81: the module is not used after it was destroyed if its owner destroys it only after the callback was called, or after the function has failed. -/
theorem module_safe_partial (h : Reach k s) (hh : s.hasty = false) : s.badModule = false := by
  cases hb : s.badModule with
  | false => rfl
  | true => rw [((inv_reach h).d.d3 hb).1] at hh; cases hh

/-- C81: when nothing is going on and the client holds no handle, the operation is freed. -/
theorem everything_freed (h : Reach k s) (hq : Quiet s) (hb : s.born = true) (hc : ∀ n, s.owns (.client n) = false) : s.disposed = true := by
  have i := (inv_reach h).o
  obtain ⟨⟨b, hx⟩, ho, hn⟩ := hq
  refine Classical.byContradiction fun hd => ?_
  obtain ⟨o, hw⟩ := i.live hb (by simpa using hd)
  cases o with
  | caller => rw [i.caller, hx] at hw; simp [EPc.holds] at hw
  | client n => rw [hc] at hw; cases hw
  | first => rw [i.first, hx] at hw; simp at hw
  | worker => rw [i.worker] at hw; rcases ho with e' | e' <;> rw [e'] at hw <;> simp [WPc.live] at hw

/-! ### Witnesses -/

/-- C81: false of both modules: the call counts as ended before the worker asks the module for the result, so a close that waits for all calls is through, the module is freed, and is then used. -/
theorem module_used_after_destroy : (∃ s, Reach .fake s ∧ s.exec = .ret true ∧ s.badModule = true) ∧ ∃ s, Reach .real s ∧ s.exec = .ret true ∧ s.badModule = true :=
  ⟨⟨_, Reach.init |>.step (.beginOk _ rfl) |>.step (.createOk _ rfl) |>.step (.ref _ rfl) |>.step (.startOk _ rfl) |>.step (.out _ 0 rfl rfl) |>.step (.elapsed _ rfl) |>.step (.endSmFake _ false rfl rfl)
      |>.step (.destroy _ (by simp [init]) rfl rfl) |>.step (.casWins _ rfl rfl) |>.step (.result _ .ok rfl), rfl, rfl⟩,
    ⟨_, Reach.init |>.step (.beginOk _ rfl) |>.step (.createOk _ rfl) |>.step (.ref _ rfl) |>.step (.startOk _ rfl) |>.step (.out _ 0 rfl rfl) |>.step (.elapsed _ rfl) |>.step (.endSmReal _ false rfl rfl)
      |>.step (.destroy _ (by simp [init]) rfl rfl) |>.step (.result _ .ok rfl), rfl, rfl⟩⟩

/-- Beside `callback_once`, `fake_cancel_prompt`: the cancel wins, the callback is called, the work ends later and says nothing. -/
example : ∃ s, Reach .fake s ∧ s.can = .done ∧ s.calls = [.canceled] ∧ s.worker = .rel :=
  ⟨_, Reach.init |>.step (.beginOk _ rfl) |>.step (.createOk _ rfl) |>.step (.ref _ rfl) |>.step (.startOk _ rfl) |>.step (.out _ 0 rfl rfl) |>.step (.cancel _ 0 rfl rfl) |>.step (.cancelWins _ 0 rfl rfl rfl)
    |>.step (.elapsed _ rfl) |>.step (.endSmFake _ false rfl rfl) |>.step (.cancelCalls _ 0 rfl) |>.step (.casLoses _ rfl rfl), rfl, rfl, rfl⟩

/-- Beside `fake_cancel_prompt`: the worker wins. -/
example : ∃ s, Reach .fake s ∧ s.can = .done ∧ s.calls = [] ∧ s.worker = .result :=
  ⟨_, Reach.init |>.step (.beginOk _ rfl) |>.step (.createOk _ rfl) |>.step (.ref _ rfl) |>.step (.startOk _ rfl) |>.step (.out _ 0 rfl rfl) |>.step (.elapsed _ rfl) |>.step (.endSmFake _ false rfl rfl)
    |>.step (.casWins _ rfl rfl) |>.step (.cancel _ 0 rfl rfl) |>.step (.cancelLoses _ 0 rfl rfl rfl), rfl, rfl, rfl⟩

theorem quiet_of (h : Reach k s) (h1 : s.exec = .ret true) (h2 : s.worker = .fin) (h4 : s.can = .done) (h5 : s.born = true) (h6 : s.calls = [.canceled]) (h8 : s.hasty = false) (h9 : s.destroyed = true)
    (h7 : ∀ n, s.owns (.client n) = false) :
    ∃ s, Reach k s ∧ s.exec = .ret true ∧ Quiet s ∧ s.born = true ∧ (∀ n, s.owns (.client n) = false) ∧ s.calls = [.canceled] ∧ s.disposed = true ∧ s.destroyed = true ∧ s.hasty = false :=
  have q : Quiet s := ⟨⟨_, h1⟩, .inr h2, .inr h4⟩
  ⟨s, h, h1, q, h5, h7, h6, everything_freed h q h5 h7, h9, h8⟩

/-- Beside `succeeded_called`, `everything_freed`, `module_safe_partial`, `real_cancel_wakes`: a whole call that is canceled, up to the end of the module. -/
example : ∃ s, Reach .real s ∧ s.exec = .ret true ∧ Quiet s ∧ s.born = true ∧ (∀ n, s.owns (.client n) = false) ∧ s.calls = [.canceled] ∧ s.disposed = true ∧ s.destroyed = true ∧ s.hasty = false := by
  have r := (Reach.init (k := .real)) |>.step (.beginOk _ rfl) |>.step (.createOk _ rfl) |>.step (.ref _ rfl) |>.step (.startOk _ rfl) |>.step (.out _ 0 rfl rfl) |>.step (.cancel _ 0 rfl rfl) |>.step (.cancelReal _ 0 rfl rfl)
    |>.step (.woken _ rfl rfl rfl) |>.step (.endSmReal _ true rfl rfl) |>.step (.call _ .canceled rfl) |>.step (.destroy _ (by simp [init]) rfl rfl) |>.step (.wRel _ rfl) |>.step (.drop _ 0 rfl (by simp [release, CPc.user, init]))
  exact quiet_of r rfl rfl rfl rfl rfl (by simp [release, init]) rfl (fun n => by simp [release, own, init])

/-- Beside `failed_silent`: the pool refuses the work. -/
example (k : Kind) : ∃ s, Reach k s ∧ s.exec = .ret false ∧ s.born = true :=
  ⟨_, Reach.init |>.step (.beginOk _ rfl) |>.step (.createOk _ rfl) |>.step (.ref _ rfl) |>.step (.startRefused _ rfl) |>.step (.relCb _ rfl) |>.step (.rel _ rfl) |>.step (.endExec _ rfl), rfl, rfl⟩

/-- Beside `real_cancel_wakes`. -/
example : ∃ s, Reach .real s ∧ s.can = .done ∧ s.worker = .waiting :=
  ⟨_, Reach.init |>.step (.beginOk _ rfl) |>.step (.createOk _ rfl) |>.step (.ref _ rfl) |>.step (.startOk _ rfl) |>.step (.out _ 0 rfl rfl) |>.step (.cancel _ 0 rfl rfl) |>.step (.cancelReal _ 0 rfl rfl), rfl, rfl⟩

end CUtil.SampleLl
