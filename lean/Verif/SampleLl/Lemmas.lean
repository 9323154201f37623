import Verif.SampleLl.Model
set_option linter.unusedSimpArgs false
set_option linter.unusedVariables false
/-
Invariants for C81.
-/
namespace CUtil.SampleLl

/-- The call of the sample is still open. -/
def WPc.auth : WPc → Bool
  | .waiting => true | .endSm _ => true | _ => false
/-- The worker has won the right to call the callback and has not called it. -/
def WPc.claim : WPc → Nat
  | .result => 1 | .call _ => 1 | _ => 0
def WPc.over : WPc → Bool
  | .rel => true | .fin => true | _ => false
def WPc.live : WPc → Bool
  | .idle => false | .fin => false | _ => true
def CPc.claim : CPc → Nat
  | .call _ => 1 | _ => 0
def CPc.begun : CPc → Bool
  | .call _ => true | .done => true | _ => false
/-- execute_async holds the operation. -/
def EPc.holds : EPc → Bool
  | .ref => true | .start => true | .out => true | .relCb => true | .rel => true | _ => false
/-- execute_async is to call sm_exec_end itself. -/
def EPc.mine : EPc → Bool
  | .create => true | .ref => true | .start => true | .relCb => true | .rel => true | .endExec => true | _ => false
/-- The work was accepted. -/
def EPc.accepted : EPc → Bool
  | .out => true | .ret true => true | _ => false

attribute [grind] WPc.auth WPc.claim WPc.over WPc.live CPc.user CPc.claim CPc.begun EPc.holds EPc.mine EPc.accepted

theorem EPc.of_mine (p : EPc) (h : p.mine = true) : p.accepted = false := by cases p <;> simp_all [EPc.mine, EPc.accepted]
theorem EPc.cases4 (p : EPc) : p = .ask ∨ p.mine = true ∨ p.accepted = true ∨ p = .ret false := by
  cases p <;> first | (rename_i b; cases b <;> simp [EPc.accepted]) | simp [EPc.mine, EPc.accepted]

theorem only_iff (s : Sys) (o : Ref) : only s o = true ↔ ∀ o', o' ≠ o → s.owns o' = false := by simp [only]

structure InvP (k : Kind) (s : Sys) : Prop where
  acc : s.exec.accepted = true → s.worker ≠ .idle
  nacc : s.exec.accepted = false → s.worker = .idle
  cl : ∀ n, s.owns (.client n) = true → s.exec = .ret true
  cn : s.can ≠ .idle → s.exec = .ret true
  fl : s.flag = true → s.exec.accepted = true
  mine : s.exec.mine = true → s.inExec = true
  auth : s.worker.auth = true → s.inExec = true
  back : s.inExec = true → s.exec.mine = true ∨ s.worker.auth = true
  ca : s.exec.accepted = false → s.calls = []

structure InvO (s : Sys) : Prop where
  caller : s.owns .caller = s.exec.holds
  first : s.owns .first = true ↔ s.exec = .start ∨ s.exec = .relCb
  worker : s.owns .worker = s.worker.live
  use : ∀ n, s.can.user = some n → s.owns (.client n) = true
  born : ∀ o, s.owns o = true → s.born = true
  disp : s.disposed = true → ∀ o, s.owns o = false
  live : s.born = true → s.disposed = false → ∃ o, s.owns o = true
  nborn : s.exec = .ask ∨ s.exec = .create → s.born = false
  acc : s.exec.holds = true ∨ s.exec.accepted = true → s.born = true
  dborn : s.disposed = true → s.born = true

structure InvF (k : Kind) (s : Sys) : Prop where
  f1 : k = .fake → s.worker.claim + s.can.claim + s.calls.length = if s.flag then 1 else 0
  f2 : k = .fake → s.worker.over = true → s.flag = true
  f3 : k = .real → s.worker ≠ .cas ∧ s.can.claim = 0
  f4 : k = .real → s.worker.over = true → s.calls.length = 1
  f5 : k = .real → s.worker.over = false → s.calls = []
  f6 : k = .real → s.flag = true → s.can = .done
  f7 : ∀ c, s.worker = .endSm c → c = true → k = .real ∧ s.flag = true
  t1 : ∀ r, s.worker = .call r ∨ r ∈ s.calls → s.got = some r ∨ (r = .canceled ∧ s.can.begun = true)
  t2 : s.worker = .idle ∨ s.worker.auth = true ∨ s.worker = .cas ∨ s.worker = .result → s.got = none

structure InvD (s : Sys) : Prop where
  d1 : s.destroyed = true → s.exec ≠ .ask ∧ s.inExec = false
  d2 : s.destroyed = true → s.hasty = true ∨ s.calls ≠ [] ∨ s.exec = .ret false
  d3 : s.badModule = true → s.hasty = true ∧ s.destroyed = true

set_option maxHeartbeats 4000000 in
theorem invP_step {k : Kind} {s s' : Sys} (h : InvP k s) (st : Step k s s') : InvP k s' := by
  obtain ⟨h1, h2, h3, h4, h5, h6, h7, h8, h9⟩ := h
  have q := EPc.of_mine
  cases st <;> constructor <;> simp only [own, release] at * <;> grind

set_option maxHeartbeats 4000000 in
theorem invO_step {k : Kind} {s s' : Sys} (p : InvP k s) (h : InvO s) (st : Step k s s') : InvO s' := by
  obtain ⟨h1, h2, h3, h4, h5, h6, h7, h8, h9, h10⟩ := h
  obtain ⟨p1, p2, p3, p4, p5, p6, p7, p8, p9⟩ := p
  have on := only_iff s
  cases st <;> constructor <;> simp only [own, release] at * <;> grind

set_option maxHeartbeats 4000000 in
theorem invF_step {k : Kind} {s s' : Sys} (p : InvP k s) (h : InvF k s) (st : Step k s s') : InvF k s' := by
  obtain ⟨h1, h2, h3, h4, h5, h6, h7, h8, h9⟩ := h
  obtain ⟨p1, p2, p3, p4, p5, p6, p7, p8, p9⟩ := p
  cases st <;> constructor <;> simp only [own, release, List.length_append, List.length_cons, List.length_nil] at * <;> grind

set_option maxHeartbeats 4000000 in
theorem invD_step {k : Kind} {s s' : Sys} (p : InvP k s) (f : InvF k s) (h : InvD s) (st : Step k s s') : InvD s' := by
  obtain ⟨h1, h2, h3⟩ := h
  obtain ⟨p1, p2, p3, p4, p5, p6, p7, p8, p9⟩ := p
  have q := EPc.cases4 s.exec
  have q' := EPc.of_mine s.exec
  have ha : ∀ r, s.calls ++ [r] ≠ [] := fun r => by simp
  have hr : s.worker = .result → s.calls = [] := by
    intro e
    cases k with
    | fake =>
      have := f.f1 rfl
      rw [e] at this
      refine List.eq_nil_of_length_eq_zero ?_
      simp only [WPc.claim] at this
      split at this <;> omega
    | real => exact f.f5 rfl (by rw [e]; rfl)
  clear f
  cases st <;> constructor <;> simp only [own, release, touchM] at * <;> grind

structure Inv (k : Kind) (s : Sys) : Prop where
  p : InvP k s
  o : InvO s
  f : InvF k s
  d : InvD s

theorem inv_reach {k : Kind} {s : Sys} (h : Reach k s) : Inv k s := by
  induction h with
  | init =>
    refine ⟨?_, ?_, ?_, ?_⟩ <;> constructor <;> simp [init, WPc.auth, WPc.claim, WPc.over, WPc.live, CPc.claim, EPc.holds, EPc.mine, EPc.accepted, CPc.user]
  | step _ st ih => exact ⟨invP_step ih.p st, invO_step ih.p ih.o st, invF_step ih.p ih.f st, invD_step ih.p ih.f ih.d st⟩

end CUtil.SampleLl
