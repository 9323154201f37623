import Verif.SampleCancelAll.Model
set_option linter.unusedSimpArgs false
set_option linter.unusedVariables false
/-
Invariants for C82.
-/
namespace CUtil.SampleCancelAll
open CUtil.Conc

/-- The operation was not created, or given up. -/
def EPc.early : EPc → Bool
  | .idle => true | .ask => true | .create => true | _ => false
/-- execute_async is to call sm_exec_end itself. -/
def EPc.mine : EPc → Bool
  | .create => true | .ref => true | .start => true | .relCb => true | .rel => true | .endExec => true | _ => false
/-- The lower layer has accepted. -/
def EPc.accepted : EPc → Bool
  | .store => true | .lock => true | .check => true | .mark => true | .unlock => true | .unlockC => true | .cancel => true | .relTok => true | .ret true => true | _ => false
/-- execute_async holds the reference for the list. -/
def EPc.holds : EPc → Bool
  | .ref => true | .start => true | .store => true | .lock => true | .check => true | .unlockC => true | .cancel => true | .relTok => true | .relCb => true | .rel => true | _ => false
/-- execute_async holds the lock. -/
def EPc.locked : EPc → Bool
  | .check => true | .mark => true | .unlock => true | .unlockC => true | _ => false
/-- The handle of the lower layer is stored. -/
def EPc.stored : EPc → Bool
  | .lock => true | .check => true | .mark => true | .unlock => true | .unlockC => true | .cancel => true | .relTok => true | .ret true => true | _ => false
/-- The call cancels its operation itself. -/
def EPc.cancels : EPc → Bool
  | .unlockC => true | .cancel => true | .relTok => true | _ => false
/-- The call was granted. -/
def EPc.begun : EPc → Bool
  | .idle => false | .ask => false | .ret false => false | _ => true
/-- The call counts as going on. -/
def KPc.auth : KPc → Bool
  | .running => true | .lock _ => true | .cas _ => true | .remove _ => true | .relTok _ => true | .unlock _ => true | .endSm _ => true | _ => false
def KPc.live : KPc → Bool
  | .idle => false | .fin => false | _ => true
def KPc.over : KPc → Bool
  | .rel => true | .fin => true | _ => false
def KPc.locked : KPc → Bool
  | .cas _ => true | .remove _ => true | .relTok _ => true | .unlock _ => true | _ => false
def KPc.removing : KPc → Bool
  | .remove _ => true | _ => false
def KPc.before : KPc → Bool
  | .running => true | .lock _ => true | .cas _ => true | .remove _ => true | _ => false
def KPc.releasing : KPc → Bool
  | .relTok _ => true | _ => false
def KPc.res : KPc → Option Res
  | .lock r => some r | .cas r => some r | .remove r => some r | .relTok r => some r | .unlock r => some r | .endSm r => some r | .call r => some r | _ => none
def CPc.locked : CPc → Bool
  | .drain => true | .unmark _ => true | .unlock => true | _ => false
/-- The list was taken. -/
def CPc.taken : CPc → Bool
  | .unlock => true | .next => true | .cancel _ => true | .rel _ => true | .wait => true | _ => false
def CPc.sure : CPc → Bool
  | .drain => true | .unmark _ => true | .unlock => true | .next => true | .cancel _ => true | .rel _ => true | .wait => true | _ => false
/-- The list of operations to cancel is empty. -/
def CPc.empty : CPc → Bool
  | .idle => true | .lock => true | .wait => true | _ => false

attribute [grind] EPc.cancels EPc.begun EPc.early EPc.mine EPc.accepted EPc.holds EPc.locked EPc.stored EPc.out KPc.auth KPc.live KPc.over KPc.locked KPc.removing KPc.before KPc.releasing KPc.open KPc.res CPc.locked CPc.taken CPc.sure CPc.empty

theorem EPc.of_mine (p : EPc) (h : p.mine = true) : p.accepted = false := by cases p <;> simp_all [EPc.mine, EPc.accepted]
theorem CPc.of_taken (p : CPc) (h : p.taken = true) : p.sure = true := by cases p <;> simp_all [CPc.taken, CPc.sure]

theorem KPc.of_removing (p : KPc) (h : p.removing = true) : p.locked = true := by cases p <;> simp_all [KPc.removing, KPc.locked]

theorem KPc.of_open (p : KPc) (h : p.open = true) : p.before = true := by cases p <;> simp_all [KPc.open, KPc.before]

structure InvP (s : Sys) : Prop where
  acc : ∀ k, (s.epc k).accepted = true → s.kpc k ≠ .idle
  nacc : ∀ k, (s.epc k).accepted = false → s.kpc k = .idle
  mine : ∀ k, (s.epc k).mine = true → s.inExec k = true
  auth : ∀ k, (s.kpc k).auth = true → s.inExec k = true
  back : ∀ k, s.inExec k = true → (s.epc k).mine = true ∨ (s.kpc k).auth = true
  c0 : ∀ k, (s.kpc k).over = false → s.calls k = []
  c1 : ∀ k, (s.kpc k).over = true → ∃ r, s.got k = some r ∧ s.calls k = [r.passed]
  g : ∀ k r, (s.kpc k).res = some r → s.got k = some r

structure InvM (s : Sys) : Prop where
  le : ∀ k, s.lock = some (.caller k) ↔ (s.epc k).locked = true
  lk : ∀ k, s.lock = some (.comp k) ↔ (s.kpc k).locked = true
  lc : s.lock = some .closer ↔ s.cl.locked = true
  ms : s.cl = .idle ↔ s.ms ≠ .closing
  cl : s.cl.sure = true → s.closing = true
  ta : s.cl.taken = true → s.list = []
  ci : s.ms = .closed → s.list = []
  cc : s.ms = .closed → ∀ k, s.inExec k = false
  co : s.ms = .closed → s.closing = true ∨ ∀ k, (s.epc k).accepted = false
  te : s.cl.empty = true → s.temp = []
  de : s.destroyed = true → s.ms = .closed

structure InvO (s : Sys) : Prop where
  ho : ∀ k, (s.epc k).holds = true ↔ s.tok k = .caller
  no : ∀ k, (s.epc k).early = true → s.tok k = .none
  tn : ∀ k, s.tok k = .none → (s.epc k).accepted = false
  li : ∀ k, s.tok k = .list ↔ k ∈ s.list
  te : ∀ k, s.tok k = .temp ↔ k ∈ s.temp
  cl : ∀ k, s.tok k = .closer ↔ s.cl = .cancel k ∨ s.cl = .rel k
  co : ∀ k, s.tok k = .comp ↔ (s.kpc k).releasing = true
  nd : s.list.Nodup
  nt : s.temp.Nodup
  mu : ∀ k, s.epc k = .mark ∨ s.epc k = .unlock → s.tok k = .list
  rm : ∀ k, (s.kpc k).removing = true → s.tok k = .list
  um : ∀ k, s.cl = .unmark k → s.tok k = .temp
  fl : ∀ k, s.flag k = true → s.tok k = .list ∨ s.cl = .unmark k
  ls : ∀ k, s.llset k = (s.epc k).stored
  cb : ∀ k, s.cbr k = true ↔ s.epc k = .start ∨ s.epc k = .relCb ∨ (s.kpc k).live = true
  fr : ∀ k, s.freed k = true ↔ s.tok k = .gone ∧ s.cbr k = false
  ea : ∀ k, s.tok k = .list ∨ s.tok k = .temp ∨ s.tok k = .closer ∨ s.tok k = .comp → (s.epc k).stored = true
  ca : ∀ k, s.epc k = .relTok ∨ s.cl = .rel k → s.canceled k = true
  cg : ∀ k, s.tok k = .gone → (s.kpc k).open = true → s.canceled k = true
  rf : ∀ k, (s.kpc k).removing = true → s.flag k = false
  fc : ∀ k, s.tok k = .list → s.flag k = true ∨ s.epc k = .mark ∨ (s.kpc k).removing = true
  lt : ∀ k, s.tok k = .list → (s.kpc k).before = true ∨ s.late k = true

set_option maxHeartbeats 4000000 in
theorem invP_step {c : Bool} {s s' : Sys} (h : InvP s) (st : Step c s s') : InvP s' := by
  obtain ⟨h1, h2, h3, h4, h5, h6, h7, h8⟩ := h
  have q := EPc.of_mine
  have hr : ∀ k r, s.kpc k = .call r → s.got k = some r ∧ s.calls k = [] := fun k r e => ⟨h8 k r (by rw [e]; rfl), h6 k (by rw [e]; rfl)⟩
  cases st <;> constructor <;> simp only [upd_apply, relTok, relCb, cancelLl, unlock] at * <;> grind

set_option maxHeartbeats 4000000 in
theorem invM_step {c : Bool} {s s' : Sys} (p : InvP s) (h : InvM s) (st : Step c s s') : InvM s' := by
  obtain ⟨h1, h2, h3, h4, h5, h6, h7, h8, h9, h10, h11⟩ := h
  obtain ⟨p1, p2, p3, p4, p5, p6, p7, p8⟩ := p
  have q := CPc.of_taken
  cases st <;> constructor <;> simp only [upd_apply, relTok, relCb, cancelLl, unlock] at * <;> grind

set_option maxHeartbeats 4000000 in
theorem invO_step {c : Bool} {s s' : Sys} (p : InvP s) (m : InvM s) (h : InvO s) (st : Step c s s') : InvO s' := by
  obtain ⟨h1, h2, h3, h4, h5, h6, h7, h8, h9, h10, h11, h12, h13, h14, h15, h16, h17, h18, h19, h20, h21, h22⟩ := h
  obtain ⟨m1, m2, m3, m4, m5, m6, m7, m8, m9, m10, m11⟩ := m
  obtain ⟨p1, p2, p3, p4, p5, p6, p7, p8⟩ := p
  have q := KPc.of_removing
  have q' := KPc.of_open
  have he : ∀ a k, a ∈ s.list.erase k ↔ a ≠ k ∧ a ∈ s.list := fun a k => h8.mem_erase_iff
  have hn : ∀ k, (s.list.erase k).Nodup := fun k => h8.erase k
  cases st <;> constructor <;> simp only [upd_apply, relTok, relCb, cancelLl, unlock, List.mem_append, List.mem_singleton, List.nodup_append, List.nodup_cons] at * <;> grind

structure InvB (s : Sys) : Prop where
  oc : s.ms = .opened → s.closing = false
  bo : ∀ k, (s.epc k).begun = true → s.ms = .opened → s.born k ≤ s.closeNo
  bc : ∀ k, (s.epc k).begun = true → s.ms ≠ .opened → s.born k < s.closeNo
  ec : ∀ k, (s.epc k).cancels = true → s.born k < s.closeNo
  tc : ∀ k, s.tok k = .temp ∨ s.tok k = .closer → s.born k < s.closeNo
  ca : ∀ k, s.canceled k = true → s.born k < s.closeNo
  nc : ∀ k, s.canceled k = true → (s.epc k).stored = true

theorem EPc.of_stored (p : EPc) (h : p.stored = true) : p.begun = true := by
  cases p with
  | ret b => cases b <;> simp_all [EPc.stored, EPc.begun]
  | _ => simp_all [EPc.stored, EPc.begun]

set_option maxHeartbeats 4000000 in
theorem invB_step {c : Bool} {s s' : Sys} (m : InvM s) (o : InvO s) (h : InvB s) (st : Step c s s') : InvB s' := by
  obtain ⟨h1, h2, h3, h4, h5, h6, h7⟩ := h
  have m1 := m.ms
  have m2 := m.cl
  have o1 := o.no
  have o2 := o.ea
  have o3 := o.li
  have o4 := o.te
  have o5 := o.cl
  have o6 := o.ls
  have q := EPc.of_stored
  clear m o
  cases st <;> constructor <;> simp only [upd_apply, relTok, relCb, cancelLl, unlock] at * <;> grind

structure Inv (s : Sys) : Prop where
  p : InvP s
  m : InvM s
  o : InvO s
  b : InvB s

theorem inv_reach {c : Bool} {s : Sys} (h : Reach c s) : Inv s := by
  induction h with
  | init b =>
    refine ⟨?_, ?_, ?_, ?_⟩ <;> constructor <;> simp [init, EPc.cancels, EPc.begun, EPc.early, EPc.mine, EPc.accepted, EPc.holds, EPc.locked, EPc.stored, KPc.auth, KPc.live, KPc.over, KPc.locked, KPc.removing, KPc.releasing, KPc.res, CPc.locked, CPc.taken, CPc.sure, CPc.empty]
  | step _ st ih => exact ⟨invP_step ih.p st, invM_step ih.p ih.m st, invO_step ih.p ih.m ih.o st, invB_step ih.m ih.o ih.b st⟩

end CUtil.SampleCancelAll
