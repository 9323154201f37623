import Verif.SampleChain.Props
import Verif.Settle
set_option linter.unusedSimpArgs false
set_option linter.unusedVariables false
/-
C80: the callback comes: whatever the client does, the call comes to its end.
-/
namespace CUtil.SampleChain
open CUtil.Live

variable {s s' : Sys} {σ : Nat → Sys}

/-- A step of the module itself or of the layer below: execute_async, the completions, or the cancel function once it was called. -/
def Auto (s s' : Sys) : Prop := Step s s' ∧ (s'.exec ≠ s.exec ∨ s'.o1 ≠ s.o1 ∨ s'.o2 ≠ s.o2 ∨ (s.can ≠ .idle ∧ s'.can ≠ s.can))

def eR : EPc → Nat
  | .ask => 9 | .create => 8 | .ref => 7 | .start => 6 | .lock => 5 | .out => 4 | .relCb => 3 | .rel => 2 | .endExec => 1 | .ret _ => 0
def r1 : O1 → Nat
  | .idle => 12 | .running => 11 | .lock1 => 10 | .ref => 9 | .start => 8 | .relRef => 7 | .lock2 => 6 | .cancelLl => 5 | .relLl => 4 | .endExec _ => 3 | .call _ => 2 | .rel => 1 | .fin => 0
def r2 : O2 → Nat
  | .idle => 5 | .running => 4 | .endExec _ => 3 | .call _ => 2 | .rel => 1 | .fin => 0
def cR : CPc → Nat
  | .idle => 4 | .lock _ => 3 | .cancelLl _ _ => 2 | .relLl _ _ => 1 | .done => 0

/-- How many steps there may still be. -/
def left (s : Sys) : Nat := eR s.exec + r1 s.o1 + r2 s.o2 + cR s.can

theorem steps_or_not (h : Reach s) (st : Step s s') : left s' < left s ∨ (s'.exec = s.exec ∧ s'.o1 = s.o1 ∧ s'.o2 = s.o2 ∧ s'.can = s.can) := by
  have i := (inv_reach h).p.nacc
  have i2 := (inv_reach h).p.pre
  cases st with
  | clone | drop => exact .inr ⟨rfl, rfl, rfl, rfl⟩
  | startOk h =>
    have := i (by rw [h]; rfl)
    refine .inl ?_
    simp [left, eR, r1, h, this]
  | nextOk h =>
    have := i2 (by rw [h]; rfl)
    refine .inl ?_
    simp [left, r1, r2, h, this]
  | _ => refine .inl ?_; simp only [left, release]; simp [eR, r1, r2, cR, *]

theorem progress (h : Reach s) (hq : ¬ Quiet s) : Enabled Auto s := by
  refine Classical.byContradiction fun no => hq ?_
  have q : ∀ s', Step s s' → (s'.exec ≠ s.exec ∨ s'.o1 ≠ s.o1 ∨ s'.o2 ≠ s.o2 ∨ (s.can ≠ .idle ∧ s'.can ≠ s.can)) → False := fun s' st d => no ⟨s', st, d⟩
  refine ⟨?_, ?_, ?_, ?_⟩
  · cases hp : s.exec with
    | ret b => exact ⟨b, rfl⟩
    | ask => exact (q _ (.beginOk s hp) (by simp [hp])).elim
    | create => exact (q _ (.createOk s hp) (by simp [hp])).elim
    | ref => exact (q _ (.ref s hp) (by simp [hp])).elim
    | start => exact (q _ (.startOk s hp) (by simp [hp])).elim
    | lock =>
      by_cases he : s.step = 0
      · exact (q _ (.lockStores s hp he) (by simp [hp])).elim
      · exact (q _ (.lockDrops s hp he) (by simp [hp])).elim
    | out =>
      refine (q _ (.out s 0 hp ?_) (by simp [hp])).elim
      cases ho : s.owns (.client 0) with
      | false => rfl
      | true => have := (inv_reach h).p.cl 0 ho; rw [hp] at this; cases this
    | relCb => exact (q _ (.relCb s hp) (by simp [hp])).elim
    | rel => exact (q _ (.rel s hp) (by simp [hp])).elim
    | endExec => exact (q _ (.endExec s hp) (by simp [hp])).elim
  · cases hp : s.o1 with
    | idle => exact .inl rfl
    | fin => exact .inr rfl
    | running => exact (q _ (.completes1 s .ok hp) (by simp [hp])).elim
    | lock1 =>
      cases hc : s.canceled with
      | false => exact (q _ (.lock1 s hp hc) (by simp [hp])).elim
      | true => exact (q _ (.lock1Canceled s hp hc) (by simp [hp])).elim
    | ref => exact (q _ (.nextRef s hp) (by simp [hp])).elim
    | start => exact (q _ (.nextOk s hp) (by simp [hp])).elim
    | relRef => exact (q _ (.relRef s hp) (by simp [hp])).elim
    | lock2 =>
      cases hc : s.canceled with
      | false =>
        by_cases he : s.step = 1
        · exact (q _ (.lock2Stores s hp hc he) (by simp [hp])).elim
        · exact (q _ (.lock2Drops s hp hc he) (by simp [hp])).elim
      | true => exact (q _ (.lock2Canceled s hp hc) (by simp [hp])).elim
    | cancelLl => exact (q _ (.cancelNext s hp) (by simp [hp])).elim
    | relLl => exact (q _ (.relLl s hp) (by simp [hp])).elim
    | endExec r => exact (q _ (.endExec1 s r hp) (by simp [hp])).elim
    | call r => exact (q _ (.call1 s r hp) (by simp [hp])).elim
    | rel => exact (q _ (.rel1 s hp) (by simp [hp])).elim
  · cases hp : s.o2 with
    | idle => exact .inl rfl
    | fin => exact .inr rfl
    | running => exact (q _ (.completes2 s .ok hp) (by simp [hp])).elim
    | endExec r => exact (q _ (.endExec2 s r hp) (by simp [hp])).elim
    | call r => exact (q _ (.call2 s r hp) (by simp [hp])).elim
    | rel => exact (q _ (.rel2 s hp) (by simp [hp])).elim
  · cases hp : s.can with
    | idle => exact .inl rfl
    | done => exact .inr rfl
    | lock n =>
      cases hs : s.slot with
      | none => exact (q _ (.cLockNone s n hp hs) (by simp [hp])).elim
      | some k => exact (q _ (.cLock s n k hp hs) (by simp [hp])).elim
    | cancelLl n k => exact (q _ (.cCancel s n k hp) (by simp [hp])).elim
    | relLl n k => exact (q _ (.cRel s n k hp) (by simp [hp])).elim

/-- C80: in every execution in which the module and the layer below go on running, whatever the client does, there comes, at any time, a later one when nothing is going on any more. -/
theorem comes_to_end (run : Run Reach Step σ) (f : Fair Auto σ) (i : Nat) : ∃ j, i ≤ j ∧ Quiet (σ j) := by
  have hr : ∀ s s', Reach s → Step s s' → Reach s' := fun _ _ h st => h.step st
  obtain ⟨j, hj, no⟩ := settles (I := Reach) (i := i) left
    (fun s s' h a => by
      rcases steps_or_not h a.1 with l | ⟨e1, e2, e3, e4⟩
      · exact l
      · have := a.2; rw [e1, e2, e3, e4] at this; simp at this)
    (fun s s' h st => by
      rcases steps_or_not h st with l | ⟨e1, e2, e3, e4⟩
      · omega
      · simp only [left, e1, e2, e3, e4]; exact Nat.le_refl _)
    (fun j _ => run.next j) (fun j _ => run.reach hr j) f
  exact ⟨j, hj, Classical.byContradiction fun hq => no (progress (run.reach hr j) hq)⟩

theorem ret_stays (b : Bool) : ∀ s s', Reach s → s.exec = .ret b → Step s s' → s'.exec = .ret b := by
  intro s s' _ h st
  cases st <;> simp_all [release]

/-- C80: the callback comes: when the function has said that it succeeded, and the module and the layer below go on running, there comes a time when the callback has been called, exactly once. -/
theorem callback_comes (run : Run Reach Step σ) (f : Fair Auto σ) (i : Nat) (h : (σ i).exec = .ret true) : ∃ j, i ≤ j ∧ ∃ r, (σ j).calls = [r] := by
  have hr : ∀ s s', Reach s → Step s s' → Reach s' := fun _ _ h st => h.step st
  obtain ⟨j, hj, q⟩ := comes_to_end run f i
  obtain ⟨r, e, _⟩ := succeeded_called (run.reach hr j) (holds_on hr run (ret_stays true) hj h) q
  exact ⟨j, hj, r, e⟩

theorem quiet_end (hq : Quiet s) : ¬ Enabled Auto s := by
  rintro ⟨s', st, d⟩
  obtain ⟨⟨b, q1⟩, q2, q3, q4⟩ := hq
  cases st <;> simp_all [release]

/-- There are such executions: the first step completes, the second is refused, the client is told; nothing is left to do. -/
example : ∃ σ, Run Reach Step σ ∧ Fair Auto σ ∧ ∃ i, (σ i).exec = .ret true := by
  have hr : ∀ s s', Reach s → Step s s' → Reach s' := fun _ _ h st => h.step st
  obtain ⟨σ, n, run, h0, hn⟩ := exists_run (Step := Step) hr Reach.init
    (.cons (.beginOk _ rfl) (.cons (.createOk _ rfl) (.cons (.ref _ rfl) (.cons (.startOk _ rfl) (.cons (.lockStores _ rfl rfl) (.cons (.out _ 0 rfl rfl) (.cons (.completes1 _ .ok rfl) (.cons (.lock1 _ rfl rfl)
      (.cons (.nextRef _ rfl) (.cons (.nextRefused _ rfl) (.cons (.relRef _ rfl) (.cons (.endExec1 _ .error rfl) (.cons (.call1 _ .error rfl) (.cons (.rel1 _ rfl) (.nil _)))))))))))))))
  refine ⟨σ, run, fair_of_end hn ?_, n, ?_⟩
  · exact quiet_end ⟨⟨true, rfl⟩, .inr rfl, .inl rfl, .inl rfl⟩
  · rw [hn n (Nat.le_refl n)]; rfl

end CUtil.SampleChain
