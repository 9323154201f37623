import Verif.SampleRetry.Model
set_option linter.unusedSimpArgs false
set_option linter.unusedVariables false
/-
Invariants for C79.
-/
namespace CUtil.SampleRetry
open CUtil.Conc

/-- The completion of the operation has started the next one. -/
def OPc.past : OPc → Bool
  | .lock2 _ => true | .cancelLl => true | .relLl => true | .rel => true | .fin => true | _ => false
/-- The call of the sample is still open. -/
def OPc.auth : OPc → Bool
  | .running => true | .lock1 => true | .ref _ => true | .start _ => true | .endExec _ => true | _ => false
/-- The completion holds the operation it started. -/
def OPc.holds : OPc → Bool
  | .lock2 _ => true | .cancelLl => true | .relLl => true | _ => false
def OPc.isLock2 : OPc → Bool
  | .lock2 _ => true | _ => false
def OPc.epoch : OPc → Option Nat
  | .ref e => some e | .start e => some e | _ => none
def OPc.isStart : OPc → Bool
  | .start _ => true | _ => false
def OPc.isCall : OPc → Bool
  | .call _ => true | _ => false
/-- The reference taken for the callback is still held by it. -/
def OPc.live : OPc → Bool
  | .idle => false | .fin => false | _ => true
/-- execute_async holds the operation. -/
def EPc.holds : EPc → Bool
  | .ref => true | .start => true | .lock => true | .out => true | .relCb => true | .rel => true | _ => false
/-- execute_async is to call sm_exec_end itself. -/
def EPc.mine : EPc → Bool
  | .create => true | .ref => true | .start => true | .relCb => true | .rel => true | .endExec => true | _ => false
/-- The lower layer has accepted. -/
def EPc.accepted : EPc → Bool
  | .lock => true | .out => true | .ret true => true | _ => false
def CPc.isCancelLl : CPc → Option Nat
  | .cancelLl _ k => some k | _ => none
def CPc.holds : CPc → Option Nat
  | .cancelLl _ k => some k | .relLl _ k => some k | _ => none
def CPc.begun : CPc → Bool
  | .cancelLl _ _ => true | .relLl _ _ => true | .done => true | _ => false

theorem OPc.of_past (p : OPc) (h : p.past = true) : p.auth = false ∧ p.isStart = false ∧ p.epoch = none ∧ p ≠ .running ∧ p.isCall = false ∧ p ≠ .idle := by
  cases p <;> simp_all [OPc.past, OPc.auth, OPc.isStart, OPc.epoch, OPc.isCall]
theorem EPc.of_mine (p : EPc) (h : p.mine = true) : p.accepted = false := by
  cases p <;> simp_all [EPc.mine, EPc.accepted]

theorem only_iff (s : Sys) (o : Ref) : only s o = true ↔ ∀ o', o' ≠ o → s.owns o' = false := by simp [only]

structure InvP (s : Sys) : Prop where
  past : ∀ j, j < s.last → (s.op j).past = true
  idle : ∀ k, s.last < k → s.op k = .idle
  acc : s.exec.accepted = true → s.op s.last ≠ .idle
  nacc : s.exec.accepted = false → s.last = 0 ∧ s.op 0 = .idle
  nohold : (s.op s.last).holds = false
  cl : ∀ n, s.owns (.client n) = true → s.exec = .ret true
  cn : s.can ≠ .idle → s.exec = .ret true
  rf : ∀ k, s.refused k = true → k = s.last ∧ (s.op k = .endExec .error ∨ s.op k = .call .error ∨ s.op k = .rel ∨ s.op k = .fin)

structure InvO (s : Sys) : Prop where
  caller : s.owns .caller = s.exec.holds
  first : s.owns .first = true ↔ s.exec = .start ∨ s.exec = .relCb
  next : ∀ k, s.owns (.next k) = true ↔ (s.op k).isStart = true ∨ s.refused k = true
  cb : ∀ k, s.owns (.cb k) = (s.op k).live
  use : ∀ n, s.can.user = some n → s.owns (.client n) = true
  born : ∀ o, s.owns o = true → s.born = true
  disp : s.disposed = true → ∀ o, s.owns o = false
  live : s.born = true → s.disposed = false → ∃ o, s.owns o = true
  nborn : s.exec = .ask ∨ s.exec = .create → s.born = false
  acc : s.exec.holds = true ∨ s.exec.accepted = true → s.born = true
  dborn : s.disposed = true → s.born = true
  slot : s.disposed = true → s.slot = none

structure InvX (s : Sys) : Prop where
  mine : s.exec.mine = true → s.inExec = true
  auth : ∀ k, (s.op k).auth = true → s.inExec = true
  back : s.inExec = true → s.exec.mine = true ∨ (s.op s.last).auth = true
  c0 : s.op s.last = .idle ∨ (s.op s.last).auth = true ∨ (s.op s.last).isCall = true → s.calls = []
  c1 : s.op s.last = .rel ∨ s.op s.last = .fin → s.calls.length = 1

structure InvE (s : Sys) : Prop where
  e1 : ∀ e, (s.op s.last).epoch = some e → s.epoch = e ∧ 1 ≤ e
  e2 : ∀ j e, s.op j = .lock2 e → 1 ≤ e ∧ e ≤ s.epoch
  e3 : ∀ e, 0 < s.last → s.op (s.last - 1) = .lock2 e → s.op s.last = .running → s.epoch = e
  e4 : ∀ e e', 0 < s.last → s.op (s.last - 1) = .lock2 e → (s.op s.last).epoch = some e' → e < s.epoch
  e5 : ∀ j e, s.op j = .lock2 e → j < s.last - 1 → e < s.epoch
  e6 : s.exec = .lock → s.last = 0 → s.op s.last = .running → s.epoch = 0
  e7 : s.exec = .lock → 0 < s.last → 0 < s.epoch
  e8 : s.exec.accepted = false → s.epoch = 0

structure InvC (s : Sys) : Prop where
  c1 : s.can.begun = s.canceled
  c2 : s.canceled = false → s.op s.last = .running → s.slot ≠ some s.last → (s.last = 0 ∧ s.exec = .lock) ∨ (0 < s.last ∧ (s.op (s.last - 1)).isLock2 = true)
  c3 : s.canceled = true → s.op s.last = .running → s.llCanceled s.last = false → s.can.isCancelLl ≠ some s.last →
    0 < s.last ∧ ((s.op (s.last - 1)).isLock2 = true ∨ s.op (s.last - 1) = .cancelLl)

structure InvL (s : Sys) : Prop where
  l2 : s.eref = true ↔ s.exec = .lock
  l3 : ∀ k, s.sref k = (s.op k).holds
  l4 : ∀ k, s.cref k = true ↔ s.can.holds = some k
  l5 : ∀ k, s.slot = some k → k ≤ s.last

attribute [grind] OPc.past OPc.auth OPc.holds OPc.isLock2 OPc.epoch OPc.isStart OPc.isCall OPc.live EPc.holds EPc.mine EPc.accepted CPc.user CPc.isCancelLl CPc.holds CPc.begun

set_option maxHeartbeats 4000000 in
theorem invP_step {s s' : Sys} (h : InvP s) (st : Step s s') : InvP s' := by
  obtain ⟨h1, h2, h3, h4, h5, h6, h7, h8⟩ := h
  have q := OPc.of_past
  have q' := EPc.of_mine
  cases st <;> constructor <;> simp only [upd_apply, own, release] at * <;> grind

set_option maxHeartbeats 4000000 in
theorem invO_step {s s' : Sys} (p : InvP s) (h : InvO s) (st : Step s s') : InvO s' := by
  obtain ⟨h1, h2, h3, h4, h5, h6, h7, h8, h9, h10, h11, h12⟩ := h
  obtain ⟨p1, p2, p3, p4, p5, p6, p7, p8⟩ := p
  have on := only_iff s
  have q := OPc.of_past
  have q' := EPc.of_mine
  cases st <;> constructor <;> simp only [upd_apply, own, release] at * <;> grind

set_option maxHeartbeats 4000000 in
theorem invX_step {s s' : Sys} (p : InvP s) (h : InvX s) (st : Step s s') : InvX s' := by
  obtain ⟨h1, h2, h3, h4, h5⟩ := h
  obtain ⟨p1, p2, p3, p4, p5, p6, p7, p8⟩ := p
  have q := OPc.of_past
  have q' := EPc.of_mine
  cases st <;> constructor <;> simp only [upd_apply, own, release] at * <;> grind

set_option maxHeartbeats 4000000 in
theorem invE_step {s s' : Sys} (p : InvP s) (h : InvE s) (st : Step s s') : InvE s' := by
  obtain ⟨h1, h2, h3, h4, h5, h6, h7, h8⟩ := h
  obtain ⟨p1, p2, p3, p4, p5, p6, p7, p8⟩ := p
  have q := OPc.of_past
  have q' := EPc.of_mine
  cases st <;> constructor <;> simp only [upd_apply, own, release, Nat.add_sub_cancel] at * <;> grind

set_option maxHeartbeats 4000000 in
theorem invL_step {s s' : Sys} (p : InvP s) (h : InvL s) (st : Step s s') : InvL s' := by
  obtain ⟨h1, h2, h3, h4⟩ := h
  obtain ⟨p1, p2, p3, p4, p5, p6, p7, p8⟩ := p
  have q := OPc.of_past
  have q' := EPc.of_mine
  cases st <;> constructor <;> simp only [upd_apply, own, release, Nat.add_sub_cancel] at * <;> grind

set_option maxHeartbeats 4000000 in
theorem invC_step {s s' : Sys} (p : InvP s) (od : ∀ o, only s o = true → s.op s.last = .running → o = .cb s.last) (e : InvE s) (h : InvC s) (st : Step s s') : InvC s' := by
  obtain ⟨h1, h2, h3⟩ := h
  obtain ⟨p1, p2, p3, p4, p5, p6, p7, p8⟩ := p
  obtain ⟨e1, e2, e3, e4, e5, e6, e7, e8⟩ := e
  have q := OPc.of_past
  have q' := EPc.of_mine
  cases st <;> constructor <;> simp only [upd_apply, own, release, Nat.add_sub_cancel] at * <;> grind

theorem only_running {s : Sys} (h : InvO s) (o : Ref) (ho : only s o = true) (k : Nat) (hk : s.op k = .running) : o = .cb k := by
  have h1 := h.cb k
  rw [hk] at h1
  rw [only_iff] at ho
  refine Classical.byContradiction fun hn => ?_
  have h2 := ho (.cb k) (fun e => hn e.symm)
  rw [h1] at h2
  simp [OPc.live] at h2

structure Inv (s : Sys) : Prop where
  p : InvP s
  o : InvO s
  x : InvX s
  e : InvE s
  c : InvC s
  l : InvL s

theorem inv_reach {s : Sys} (h : Reach s) : Inv s := by
  induction h with
  | init =>
    refine ⟨?_, ?_, ?_, ?_, ?_, ?_⟩ <;> constructor <;> simp [init, OPc.past, OPc.auth, OPc.holds, OPc.isStart, OPc.live, OPc.epoch, OPc.isCall, EPc.holds, EPc.mine, EPc.accepted, CPc.user, CPc.holds, CPc.begun]
  | step _ st ih =>
    exact ⟨invP_step ih.p st, invO_step ih.p ih.o st, invX_step ih.p ih.x st, invE_step ih.p ih.e st,
      invC_step ih.p (fun o ho hk => only_running ih.o o ho _ hk) ih.e ih.c st, invL_step ih.p ih.l st⟩

end CUtil.SampleRetry
