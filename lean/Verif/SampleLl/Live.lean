import Verif.SampleLl.Props
import Verif.Settle
set_option linter.unusedSimpArgs false
set_option linter.unusedVariables false
/-
C81: the callback comes: whatever the client and the owner do, the call comes to its end.
-/
namespace CUtil.SampleLl
open CUtil.Live

variable {k : Kind} {s s' : Sys} {σ : Nat → Sys}

/-- A step of the module itself: execute_async, the worker, or the cancel function once it was called. -/
def Auto (k : Kind) (s s' : Sys) : Prop := Step k s s' ∧ (s'.exec ≠ s.exec ∨ s'.worker ≠ s.worker ∨ (s.can ≠ .idle ∧ s'.can ≠ s.can))

def eR : EPc → Nat
  | .ask => 8 | .create => 7 | .ref => 6 | .start => 5 | .out => 4 | .relCb => 3 | .rel => 2 | .endExec => 1 | .ret _ => 0
def wR : WPc → Nat
  | .idle => 7 | .waiting => 6 | .endSm _ => 5 | .cas => 4 | .result => 3 | .call _ => 2 | .rel => 1 | .fin => 0
def cR : CPc → Nat
  | .idle => 3 | .enter _ => 2 | .call _ => 1 | .done => 0

/-- How many steps there may still be. -/
def left (s : Sys) : Nat := eR s.exec + wR s.worker + cR s.can

theorem steps_or_not (h : Reach k s) (st : Step k s s') : left s' < left s ∨ (s'.exec = s.exec ∧ s'.worker = s.worker ∧ s'.can = s.can) := by
  have i := (inv_reach h).p.nacc
  cases st with
  | clone | drop | destroy => exact .inr ⟨rfl, rfl, rfl⟩
  | startOk h =>
    have := i (by rw [h]; rfl)
    refine .inl ?_
    simp [left, eR, wR, h, this]
  | endSmReal c h hk => refine .inl ?_; cases c <;> simp [left, wR, h]
  | _ => refine .inl ?_; simp only [left, release]; simp [eR, wR, cR, *]

theorem progress (h : Reach k s) (hq : ¬ Quiet s) : Enabled (Auto k) s := by
  refine Classical.byContradiction fun no => hq ?_
  have q : ∀ s', Step k s s' → (s'.exec ≠ s.exec ∨ s'.worker ≠ s.worker ∨ (s.can ≠ .idle ∧ s'.can ≠ s.can)) → False := fun s' st d => no ⟨s', st, d⟩
  refine ⟨?_, ?_, ?_⟩
  · cases hp : s.exec with
    | ret b => exact ⟨b, rfl⟩
    | ask => exact (q _ (.beginOk s hp) (by simp [hp])).elim
    | create => exact (q _ (.createOk s hp) (by simp [hp])).elim
    | ref => exact (q _ (.ref s hp) (by simp [hp])).elim
    | start => exact (q _ (.startOk s hp) (by simp [hp])).elim
    | out =>
      refine (q _ (.out s 0 hp ?_) (by simp [hp])).elim
      cases ho : s.owns (.client 0) with
      | false => rfl
      | true => have := (inv_reach h).p.cl 0 ho; rw [hp] at this; cases this
    | relCb => exact (q _ (.relCb s hp) (by simp [hp])).elim
    | rel => exact (q _ (.rel s hp) (by simp [hp])).elim
    | endExec => exact (q _ (.endExec s hp) (by simp [hp])).elim
  · cases hp : s.worker with
    | idle => exact .inl rfl
    | fin => exact .inr rfl
    | waiting => exact (q _ (.elapsed s hp) (by simp [hp])).elim
    | endSm c =>
      cases k with
      | fake => exact (q _ (.endSmFake s c hp rfl) (by simp [hp])).elim
      | real => exact (q _ (.endSmReal s c hp rfl) (by cases c <;> simp [hp])).elim
    | cas =>
      cases hf : s.flag with
      | false => exact (q _ (.casWins s hp hf) (by simp [hp])).elim
      | true => exact (q _ (.casLoses s hp hf) (by simp [hp])).elim
    | result => exact (q _ (.result s .ok hp) (by simp [hp])).elim
    | call r => exact (q _ (.call s r hp) (by simp [hp])).elim
    | rel => exact (q _ (.wRel s hp) (by simp [hp])).elim
  · cases hp : s.can with
    | idle => exact .inl rfl
    | done => exact .inr rfl
    | enter n =>
      cases k with
      | fake =>
        cases hf : s.flag with
        | false => exact (q _ (.cancelWins s n hp rfl hf) (by simp [hp])).elim
        | true => exact (q _ (.cancelLoses s n hp rfl hf) (by simp [hp])).elim
      | real => exact (q _ (.cancelReal s n hp rfl) (by simp [hp])).elim
    | call n => exact (q _ (.cancelCalls s n hp) (by simp [hp])).elim

/-- C81: in every execution in which the module goes on running, whatever the client and the owner do, there comes, at any time, a later one when nothing is going on any more. -/
theorem comes_to_end (run : Run (Reach k) (Step k) σ) (f : Fair (Auto k) σ) (i : Nat) : ∃ j, i ≤ j ∧ Quiet (σ j) := by
  have hr : ∀ s s', Reach k s → Step k s s' → Reach k s' := fun _ _ h st => h.step st
  obtain ⟨j, hj, no⟩ := settles (I := Reach k) (i := i) left
    (fun s s' h a => by
      rcases steps_or_not h a.1 with l | ⟨e1, e2, e3⟩
      · exact l
      · have := a.2; rw [e1, e2, e3] at this; simp at this)
    (fun s s' h st => by
      rcases steps_or_not h st with l | ⟨e1, e2, e3⟩
      · omega
      · simp only [left, e1, e2, e3]; exact Nat.le_refl _)
    (fun j _ => run.next j) (fun j _ => run.reach hr j) f
  exact ⟨j, hj, Classical.byContradiction fun hq => no (progress (run.reach hr j) hq)⟩

theorem ret_stays (b : Bool) : ∀ s s', Reach k s → s.exec = .ret b → Step k s s' → s'.exec = .ret b := by
  intro s s' _ h st
  cases st <;> simp_all [release]

/-- C81: the callback comes: when the function has said that it succeeded, and the module goes on running, there comes a time when the callback has been called, exactly once. -/
theorem callback_comes (run : Run (Reach k) (Step k) σ) (f : Fair (Auto k) σ) (i : Nat) (h : (σ i).exec = .ret true) : ∃ j, i ≤ j ∧ ∃ r, (σ j).calls = [r] := by
  have hr : ∀ s s', Reach k s → Step k s s' → Reach k s' := fun _ _ h st => h.step st
  obtain ⟨j, hj, q⟩ := comes_to_end run f i
  obtain ⟨r, e, _⟩ := succeeded_called (run.reach hr j) (holds_on hr run (ret_stays true) hj h) q
  exact ⟨j, hj, r, e⟩

theorem quiet_end (hq : Quiet s) : ¬ Enabled (Auto k) s := by
  rintro ⟨s', st, d⟩
  obtain ⟨⟨b, q1⟩, q2, q3⟩ := hq
  cases st <;> simp_all [release]

/-- There are such executions: the operation succeeds, the work is done, nothing is left to do. -/
example : ∃ σ, Run (Reach .fake) (Step .fake) σ ∧ Fair (Auto .fake) σ ∧ ∃ i, (σ i).exec = .ret true := by
  have hr : ∀ s s', Reach .fake s → Step .fake s s' → Reach .fake s' := fun _ _ h st => h.step st
  obtain ⟨σ, n, run, h0, hn⟩ := exists_run (Step := Step .fake) hr Reach.init
    (.cons (.beginOk _ rfl) (.cons (.createOk _ rfl) (.cons (.ref _ rfl) (.cons (.startOk _ rfl) (.cons (.out _ 0 rfl rfl) (.cons (.elapsed _ rfl) (.cons (.endSmFake _ false rfl rfl) (.cons (.casWins _ rfl rfl)
      (.cons (.result _ .ok rfl) (.cons (.call _ .ok rfl) (.cons (.wRel _ rfl) (.nil _))))))))))))
  refine ⟨σ, run, fair_of_end hn ?_, n, ?_⟩
  · exact quiet_end ⟨⟨true, rfl⟩, .inr rfl, .inl rfl⟩
  · rw [hn n (Nat.le_refl n)]; rfl

end CUtil.SampleLl
