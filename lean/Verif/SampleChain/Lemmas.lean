import Verif.SampleChain.Model
set_option linter.unusedSimpArgs false
set_option linter.unusedVariables false
/-
Invariants for C80.
-/
namespace CUtil.SampleChain

/-- The call of the sample is still open, in step 1. -/
def O1.auth : O1 → Bool
  | .running => true | .lock1 => true | .ref => true | .start => true | .relRef => true | .endExec _ => true | _ => false
/-- Step 2 has not been accepted. -/
def O1.pre : O1 → Bool
  | .idle => true | .running => true | .lock1 => true | .ref => true | .start => true | .relRef => true | .endExec _ => true | .call _ => true | _ => false
/-- The completion of step 1 holds the operation of step 2. -/
def O1.holds : O1 → Bool
  | .lock2 => true | .cancelLl => true | .relLl => true | _ => false
/-- Before the second lock. -/
def O1.open2 : O1 → Bool
  | .idle => true | .running => true | .lock1 => true | .ref => true | .start => true | .lock2 => true | _ => false
def O1.live : O1 → Bool
  | .idle => false | .fin => false | _ => true
def O1.rep : O1 → Option Res
  | .endExec r => some r | .call r => some r | _ => none
def O1.ended : O1 → Bool
  | .rel => true | .fin => true | _ => false
def O2.auth : O2 → Bool
  | .running => true | .endExec _ => true | _ => false
def O2.silent : O2 → Bool
  | .running => true | .endExec _ => true | .call _ => true | _ => false
def O2.live : O2 → Bool
  | .idle => false | .fin => false | _ => true
def O2.rep : O2 → Option Res
  | .endExec r => some r | .call r => some r | _ => none
def O2.ended : O2 → Bool
  | .rel => true | .fin => true | _ => false
/-- execute_async holds the operation. -/
def EPc.holds : EPc → Bool
  | .ref => true | .start => true | .lock => true | .out => true | .relCb => true | .rel => true | _ => false
/-- execute_async is to call sm_exec_end itself. -/
def EPc.mine : EPc → Bool
  | .create => true | .ref => true | .start => true | .relCb => true | .rel => true | .endExec => true | _ => false
/-- The lower layer has accepted. -/
def EPc.accepted : EPc → Bool
  | .lock => true | .out => true | .ret true => true | _ => false
def CPc.isCancelLl : CPc → Option LOp
  | .cancelLl _ k => some k | _ => none
def CPc.holds : CPc → Option LOp
  | .cancelLl _ k => some k | .relLl _ k => some k | _ => none
def CPc.begun : CPc → Bool
  | .cancelLl _ _ => true | .relLl _ _ => true | .done => true | _ => false

attribute [grind] O1.auth O1.pre O1.holds O1.open2 O1.live O1.rep O1.ended O2.auth O2.silent O2.live O2.rep O2.ended EPc.holds EPc.mine EPc.accepted CPc.user CPc.isCancelLl CPc.holds CPc.begun

theorem EPc.of_mine (p : EPc) (h : p.mine = true) : p.accepted = false := by cases p <;> simp_all [EPc.mine, EPc.accepted]
theorem O1.of_auth (p : O1) (h : p.auth = true) : p.pre = true ∧ p ≠ .idle := by cases p <;> simp_all [O1.auth, O1.pre]

theorem O1.of_open2 (p : O1) (h : p.open2 = true) : p.pre = true ∨ p = .lock2 := by cases p <;> simp_all [O1.open2, O1.pre]

theorem only_iff (s : Sys) (o : Ref) : only s o = true ↔ ∀ o', o' ≠ o → s.owns o' = false := by simp [only]

structure InvP (s : Sys) : Prop where
  acc : s.exec.accepted = true → s.o1 ≠ .idle
  nacc : s.exec.accepted = false → s.o1 = .idle
  pre : s.o1.pre = true → s.o2 = .idle
  post : s.o1.holds = true → s.o2 ≠ .idle
  cl : ∀ n, s.owns (.client n) = true → s.exec = .ret true
  cn : s.can ≠ .idle → s.exec = .ret true
  st0 : s.exec.accepted = false ∨ s.exec = .lock → s.step = 0
  st1 : s.exec = .out ∨ s.exec = .ret true → s.o1.open2 = true → s.step = 1
  ear : s.o1.open2 = true → s.early = false
  ear2 : s.exec = .lock → s.o1.open2 = false → s.o2 ≠ .idle → s.early = true

structure InvO (s : Sys) : Prop where
  caller : s.owns .caller = s.exec.holds
  first : s.owns .first = true ↔ s.exec = .start ∨ s.exec = .relCb
  next : s.owns .next = true ↔ s.o1 = .start ∨ s.o1 = .relRef
  cb1 : s.owns .cb1 = s.o1.live
  cb2 : s.owns .cb2 = s.o2.live
  use : ∀ n, s.can.user = some n → s.owns (.client n) = true
  born : ∀ o, s.owns o = true → s.born = true
  disp : s.disposed = true → ∀ o, s.owns o = false
  live : s.born = true → s.disposed = false → ∃ o, s.owns o = true
  nborn : s.exec = .ask ∨ s.exec = .create → s.born = false
  acc : s.exec.holds = true ∨ s.exec.accepted = true → s.born = true
  dborn : s.disposed = true → s.born = true
  slot : s.disposed = true → s.slot = none

structure InvX (s : Sys) : Prop where
  mine : s.exec.mine = true → s.inExec = true
  a1 : s.o1.auth = true → s.inExec = true
  a2 : s.o2.auth = true → s.inExec = true
  back : s.inExec = true → s.exec.mine = true ∨ s.o1.auth = true ∨ s.o2.auth = true
  c0 : s.o1.pre = true ∨ s.o2.silent = true → s.calls = []
  c1 : s.o1.ended = true → s.o2 = .idle → s.calls.length = 1
  c2 : s.o2.ended = true → s.calls.length = 1

structure InvC (s : Sys) : Prop where
  c1 : s.can.begun = s.canceled
  c2 : s.canceled = false → s.o1 = .running → s.slot = some .one ∨ s.exec = .lock
  c3 : s.canceled = false → s.o2 = .running → s.slot = some .two ∨ s.o1 = .lock2 ∨ s.early = true
  c4 : s.canceled = true → s.o1 = .running → s.llCanceled .one = true ∨ s.can.isCancelLl = some .one
  c5 : s.canceled = true → s.o2 = .running → s.llCanceled .two = true ∨ s.can.isCancelLl = some .two ∨ s.o1 = .lock2 ∨ s.o1 = .cancelLl ∨ s.early = true

structure InvL (s : Sys) : Prop where
  l2 : s.eref = true ↔ s.exec = .lock
  l3 : s.sref = s.o1.holds
  l4 : ∀ k, s.cref k = true ↔ s.can.holds = some k

set_option maxHeartbeats 4000000 in
theorem invP_step {s s' : Sys} (h : InvP s) (st : Step s s') : InvP s' := by
  obtain ⟨h1, h2, h3, h4, h5, h6, h7, h8, h9, h10⟩ := h
  cases st <;> constructor <;> simp only [own, set, release] at * <;> grind

set_option maxHeartbeats 4000000 in
theorem invO_step {s s' : Sys} (p : InvP s) (h : InvO s) (st : Step s s') : InvO s' := by
  obtain ⟨h1, h2, h3, h4, h5, h6, h7, h8, h9, h10, h11, h12, h13⟩ := h
  obtain ⟨p1, p2, p3, p4, p5, p6, p7, p8, p9, p10⟩ := p
  have on := only_iff s
  cases st <;> constructor <;> simp only [own, set, release] at * <;> grind

set_option maxHeartbeats 4000000 in
theorem invX_step {s s' : Sys} (p : InvP s) (h : InvX s) (st : Step s s') : InvX s' := by
  obtain ⟨h1, h2, h3, h4, h5, h6, h7⟩ := h
  have q1 := EPc.of_mine
  have q2 := O1.of_auth
  obtain ⟨p1, p2, p3, p4, p5, p6, p7, p8, p9, p10⟩ := p
  cases st <;> constructor <;> simp only [own, set, release] at * <;> grind

set_option maxHeartbeats 4000000 in
theorem invL_step {s s' : Sys} (p : InvP s) (h : InvL s) (st : Step s s') : InvL s' := by
  obtain ⟨h1, h2, h3⟩ := h
  obtain ⟨p1, p2, p3, p4, p5, p6, p7, p8, p9, p10⟩ := p
  cases st <;> constructor <;> simp only [own, set, release] at * <;> grind

set_option maxHeartbeats 4000000 in
theorem invC_step {s s' : Sys} (p : InvP s) (od : ∀ o, only s o = true → (s.o1 = .running → o = .cb1) ∧ (s.o2 = .running → o = .cb2)) (h : InvC s) (st : Step s s') : InvC s' := by
  obtain ⟨h1, h2, h3, h4, h5⟩ := h
  obtain ⟨p1, p2, p3, p4, p5, p6, p7, p8, p9, p10⟩ := p
  have q := O1.of_open2 s.o1
  cases st <;> constructor <;> simp only [own, set, release] at * <;> grind

theorem only_running {s : Sys} (h : InvO s) (o : Ref) (ho : only s o = true) : (s.o1 = .running → o = .cb1) ∧ (s.o2 = .running → o = .cb2) := by
  rw [only_iff] at ho
  refine ⟨fun hk => ?_, fun hk => ?_⟩ <;> refine Classical.byContradiction fun hn => ?_
  · have h1 := h.cb1
    rw [hk, ho .cb1 (fun e => hn e.symm)] at h1
    simp [O1.live] at h1
  · have h1 := h.cb2
    rw [hk, ho .cb2 (fun e => hn e.symm)] at h1
    simp [O2.live] at h1

structure Inv (s : Sys) : Prop where
  p : InvP s
  o : InvO s
  x : InvX s
  c : InvC s
  l : InvL s

theorem inv_reach {s : Sys} (h : Reach s) : Inv s := by
  induction h with
  | init =>
    refine ⟨?_, ?_, ?_, ?_, ?_⟩ <;> constructor <;> simp [init, O1.auth, O1.pre, O1.holds, O1.open2, O1.live, O1.ended, O2.auth, O2.silent, O2.live, O2.ended,
      EPc.holds, EPc.mine, EPc.accepted, CPc.user, CPc.holds, CPc.begun]
  | step _ st ih =>
    exact ⟨invP_step ih.p st, invO_step ih.p ih.o st, invX_step ih.p ih.x st, invC_step ih.p (fun o ho => only_running ih.o o ho) ih.c st, invL_step ih.p ih.l st⟩

end CUtil.SampleChain
