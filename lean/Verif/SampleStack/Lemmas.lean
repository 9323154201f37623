import Verif.SampleStack.Model
set_option linter.unusedSimpArgs false
set_option linter.unusedVariables false
/-
Invariants for C83.
-/
namespace CUtil.SampleStack
open CUtil.Conc

/-- On the way down. -/
def EPc.desc : EPc → Bool
  | .ask => true | .create => true | .ref => true | .call => true | _ => false
/-- Has not returned. -/
def EPc.act : EPc → Bool
  | .idle => false | .ret _ => false | _ => true
/-- The layer below has accepted. -/
def EPc.up : EPc → Bool
  | .store => true | .out => true | .ret true => true | _ => false
/-- Compatible with an acceptance below. -/
def EPc.good : EPc → Bool
  | .inLower => true | .store => true | .out => true | .ret true => true | _ => false
/-- execute_async is to call sm_exec_end itself. -/
def EPc.mine : EPc → Bool
  | .create => true | .ref => true | .call => true | .relCb => true | .rel => true | .endExec => true | _ => false
/-- execute_async holds the operation. -/
def EPc.holds : EPc → Bool
  | .ref => true | .call => true | .inLower => true | .store => true | .out => true | .relCb => true | .rel => true | _ => false
/-- The reference for the completion was taken, and not given back by execute_async. -/
def EPc.refd : EPc → Bool
  | .call => true | .inLower => true | .store => true | .out => true | .ret true => true | .relCb => true | _ => false
def EPc.early : EPc → Bool
  | .idle => true | .ask => true | .create => true | _ => false
/-- `ll_async_op` is set. -/
def EPc.stored : EPc → Bool
  | .out => true | .ret true => true | _ => false
/-- The callback was not called. -/
def KPc.before : KPc → Bool
  | .idle => true | .running => true | .endSm _ => true | .call _ => true | _ => false
/-- In the middle of the completion. -/
def KPc.mid : KPc → Bool
  | .endSm _ => true | .call _ => true | .inUpper => true | .rel => true | _ => false
/-- The callback has returned. -/
def KPc.over : KPc → Bool
  | .rel => true | .fin => true | _ => false
/-- The call counts as going on. -/
def KPc.auth : KPc → Bool
  | .idle => true | .endSm _ => true | _ => false
def KPc.res : KPc → Option Res
  | .endSm r => some r | .call r => some r | _ => none
def CPc.active : CPc → Bool
  | .enter => true | .inLower => true | _ => false

attribute [grind] EPc.act EPc.desc EPc.up EPc.good EPc.mine EPc.holds EPc.refd EPc.early EPc.stored KPc.before KPc.mid KPc.over KPc.auth KPc.res CPc.active

theorem EPc.of_up (p : EPc) (h : p.up = true) : p.good = true := by
  cases p <;> first | (rename_i b; cases b <;> simp_all [EPc.up, EPc.good]) | simp_all [EPc.up, EPc.good]
theorem EPc.of_good (p : EPc) (h : p.good = true) : p.mine = false ∧ p.desc = false ∧ p.early = false ∧ p.refd = true := by
  cases p <;> first | (rename_i b; cases b <;> simp_all [EPc.mine, EPc.good, EPc.desc, EPc.early, EPc.refd]) | simp_all [EPc.mine, EPc.good, EPc.desc, EPc.early, EPc.refd]
theorem EPc.of_stored (p : EPc) (h : p.stored = true) : p.up = true := by
  cases p <;> first | (rename_i b; cases b <;> simp_all [EPc.up, EPc.stored]) | simp_all [EPc.up, EPc.stored]

/-- Where the thread of execute_async is. -/
structure InvE (n : Nat) (s : Sys) : Prop where
  hi : ∀ i, n < i → s.epc i = .idle
  de : ∀ i j, i < j → j ≤ n → s.epc j = .inLower ∨ (s.epc i).act = false
  id : ∀ i j, i ≤ n → j < i → s.epc j = .idle ∨ ((s.epc i).desc = false ∧ s.epc i ≠ .idle)
  ac : ∀ i, s.kpc 0 ≠ .idle → i ≤ n → (s.epc i).good = true
  na : ∀ i, s.kpc 0 = .idle → (s.epc i).up = false ∧ s.kpc i = .idle
  up : ∀ i j, j < i → s.epc j = .ret true ∨ (s.epc i).up = false
  z : s.epc 0 = .idle ∨ s.epc 0 = .ask ∨ ∃ b, s.epc 0 = .ret b

/-- Where the completion is. -/
structure InvK (n : Nat) (s : Sys) : Prop where
  hk : ∀ i, n < i → s.kpc i = .idle
  k0 : ∀ i, s.kpc i = .running → i = 0
  k1 : ∀ r, s.kpc 0 ≠ .endSm r
  lo : ∀ i j, j < i → s.kpc j = .inUpper ∨ (s.kpc i).mid = false
  hg : ∀ i j, i < j → s.kpc j = .idle ∨ (s.kpc i).before = false
  fi : ∀ i j, i < j → j ≤ n → s.kpc j = .fin ∨ (s.kpc i).over = false

/-- What it brings. -/
structure InvR (n : Nat) (s : Sys) : Prop where
  c0 : (s.kpc n).before = true → s.calls = []
  c1 : (s.kpc n).before = false → ∃ g, s.got = some g ∧ s.calls = [out n g]
  g : ∀ i r, (s.kpc i).res = some r → ∃ g, s.got = some g ∧ out i r = out i g

set_option maxHeartbeats 4000000 in
theorem invE_step {n : Nat} {s s' : Sys} (h : InvE n s) (st : Step n s s') : InvE n s' := by
  obtain ⟨h1, h2, h3, h4, h5, h6, h7⟩ := h
  have q1 := EPc.of_up
  have q2 := EPc.of_good
  cases st <;> constructor <;> simp only [upd_apply, relTok, relCb] at * <;> grind

set_option maxHeartbeats 4000000 in
theorem invK_step {n : Nat} {s s' : Sys} (e : InvE n s) (h : InvK n s) (st : Step n s s') : InvK n s' := by
  obtain ⟨h1, h2, h3, h4, h5, h6⟩ := h
  have e4 := e.ac 0
  have e5 := e.na
  clear e
  cases st
  case callUp i r hi h =>
    have f1 : ∀ j, j < i → s.kpc j = .inUpper := fun j hj => (h4 i j hj).resolve_right (by rw [h]; simp [KPc.mid])
    have f2 : ∀ j, i < j → s.kpc j = .idle := fun j hj => (h5 i j hj).resolve_right (by rw [h]; simp [KPc.before])
    clear h4 h5 e4 e5
    constructor <;> simp only [upd_apply] at * <;> grind
  all_goals constructor <;> simp only [upd_apply, relTok, relCb] at * <;> grind

set_option maxHeartbeats 4000000 in
theorem invR_step {n : Nat} {s s' : Sys} (e : InvE n s) (k : InvK n s) (h : InvR n s) (st : Step n s s') : InvR n s' := by
  obtain ⟨h1, h2, h3⟩ := h
  obtain ⟨k1, k2, k3, k4, k5, k6⟩ := k
  clear k6
  have e4 := e.ac 0
  have e5 := e.na
  clear e
  have ho : ∀ i r, out (i + 1) r = r.passed := fun i r => by simp [out]
  have ho' : ∀ i r, out (i + 1) (out i r) = r.passed := fun i r => by
    cases i <;> cases r <;> rfl
  cases st
  case callUp i r hi h =>
    obtain ⟨g, f1, f2⟩ := h3 i r (by rw [h]; rfl)
    have f3 : out (i + 1) (out i r) = out (i + 1) g := by rw [f2, ho', ho]
    have f4 := h1 (by
      rcases Nat.lt_or_ge i n with hj | hj
      · rw [(k5 i n hj).resolve_right (by rw [h]; simp [KPc.before])]; rfl
      · omega)
    clear ho ho' k4 k5
    constructor <;> simp only [upd_apply] at * <;> grind
  case callClient r h =>
    obtain ⟨g, f1, f2⟩ := h3 n r (by rw [h]; rfl)
    have f4 := h1 (by rw [h]; rfl)
    refine ⟨fun hb => ?_, fun _ => ⟨g, f1, ?_⟩, fun i r' hr => ?_⟩
    · simp [KPc.before] at hb
    · simp [f4, f2]
    · simp only [upd_apply] at hr
      split at hr
      · simp [KPc.res] at hr
      · exact h3 i r' hr
  all_goals constructor <;> simp only [upd_apply, relTok, relCb] at * <;> grind

/-- Who holds what. -/
structure InvO (n : Nat) (s : Sys) : Prop where
  ho : ∀ i, s.tok i ≠ .caller → (s.epc i).holds = false
  hc : ∀ i, s.tok i = .caller → (s.epc i).holds = true
  no : ∀ i, (s.epc i).early = true → s.tok i = .none
  bo : ∀ i, (s.epc i).good = true → s.tok i ≠ .none
  vt : ∀ i, s.tok i = .var → s.epc i = .ret true
  vr : ∀ i j, i < j → j ≤ i + 1 → s.tok i ≠ .var ∨ s.epc j = .inLower ∨ s.epc j = .store
  ss : ∀ i j, i < j → j ≤ i + 1 → s.tok i ≠ .stored ∨ (s.epc j).stored = true
  sn : ∀ i, s.tok i = .stored ∨ s.tok i = .var → i < n
  vs : ∀ i j, i < j → j ≤ i + 1 → j ≤ n → s.epc i ≠ .ret true ∨ (s.epc j).stored = true ∨ s.tok i = .var
  cl : ∀ i, s.tok i = .client → i = n ∧ s.epc n = .ret true

/-- What is freed. -/
structure InvF (n : Nat) (s : Sys) : Prop where
  cb : ∀ i, s.cbr i = true ↔ (s.epc i).refd = true ∧ s.kpc i ≠ .fin
  fr : ∀ i, s.freed i = true ↔ s.tok i = .gone ∧ s.cbr i = false
  ls : ∀ i, 0 < i → s.llset i = (s.epc i).stored
  gf : ∀ i j, i < j → j ≤ i + 1 → j ≤ n → s.tok i ≠ .gone ∨ s.epc i ≠ .ret true ∨ s.freed j = true

/-- The cancel. -/
structure InvC (n : Nat) (s : Sys) : Prop where
  ca : ∀ i, (s.cpc i).active = true → i ≤ n ∧ s.epc n = .ret true ∧ (s.tok i = .client ∨ s.tok i = .stored)
  cj : ∀ i j, i < j → j ≤ n → s.cpc j = .inLower ∨ (s.cpc i).active = false
  cd : ∀ i, s.cpc i = .done → s.canceled = true

/-- The modules. -/
structure InvM (n : Nat) (s : Sys) : Prop where
  me : ∀ i, (s.epc i).mine = true → s.inExec i = true
  mk' : ∀ i, 0 < i → (s.epc i).good = true → (s.kpc i).auth = true → s.inExec i = true
  mb : ∀ i, s.inExec i = true → (s.epc i).mine = true ∨ ((s.epc i).good = true ∧ (s.kpc i).auth = true)
  dn : ∀ i, s.destroyed i = true → s.inExec i = false ∧ s.epc i ≠ .ask ∧ i ≤ n
  du : ∀ i j, i < j → j ≤ n → s.destroyed j = true ∨ s.destroyed i = false

set_option maxHeartbeats 4000000 in
theorem invO_step {n : Nat} {s s' : Sys} (e : InvE n s) (k : InvK n s) (h : InvO n s) (st : Step n s s') : InvO n s' := by
  obtain ⟨h1, h2, h3, h4, h5, h6, h7, h8, h9, h10⟩ := h
  obtain ⟨e1, e2, e3, e4, e5, e6, e7⟩ := e
  clear k
  have q1 := EPc.of_up
  have q2 := EPc.of_good
  have q3 := EPc.of_stored
  cases st
  case store i h =>
    have f1 : ∀ j, j < i + 1 → s.epc j = .ret true := fun j hj => (e6 (i + 1) j hj).resolve_right (by rw [h]; simp [EPc.up])
    have f2 : i + 1 ≤ n := by
      refine Nat.le_of_not_lt fun hn => ?_
      rw [e1 _ hn] at h
      cases h
    have f3 := f1 i (Nat.lt_succ_self i)
    clear e2 e3 e4 e5 e6 e7 e1
    constructor <;> simp only [upd_apply, relTok, relCb] at * <;> grind
  all_goals constructor <;> simp only [upd_apply, relTok, relCb] at * <;> grind

set_option maxHeartbeats 4000000 in
theorem invF_step {n : Nat} {s s' : Sys} (e : InvE n s) (k : InvK n s) (o : InvO n s) (h : InvF n s) (st : Step n s s') : InvF n s' := by
  obtain ⟨h1, h2, h3, h4⟩ := h
  have e4 := e.ac
  have e5 := e.na
  have e1 := e.hi
  have e3 := e.id
  have o9 := o.sn
  have o1 := o.ho
  have o2 := o.no
  have o4 := o.vs
  have k2 := k.k0
  have q2 := EPc.of_good
  cases st
  case store i h =>
    have f2 : i + 1 ≤ n := by
      refine Nat.le_of_not_lt fun hn => ?_
      rw [e1 _ hn] at h
      cases h
    have f3 := (e.up (i + 1) i (Nat.lt_succ_self i)).resolve_right (by rw [h]; simp [EPc.up])
    have f4 : s.tok i = .var := by
      rcases o4 i (i + 1) (Nat.lt_succ_self i) (Nat.le_refl _) f2 with h | h | h
      · exact absurd f3 h
      · simp_all [EPc.stored]
      · exact h
    clear e k o e1 e3 e4 e5 o9 o1 o2 o4 k2 q2
    constructor <;> simp only [upd_apply, relTok, relCb] at * <;> grind
  case callUp i r hi h =>
    have f1 := (k.hg i (i + 1) (Nat.lt_succ_self i)).resolve_right (by rw [h]; simp [KPc.before])
    clear e k o e1 e3 e4 e5 o9 o1 o2 o4 k2 q2
    constructor <;> simp only [upd_apply, relTok, relCb] at * <;> grind
  all_goals clear e k o; constructor <;> simp only [upd_apply, relTok, relCb] at * <;> grind

set_option maxHeartbeats 4000000 in
theorem invC_step {n : Nat} {s s' : Sys} (e : InvE n s) (o : InvO n s) (f : InvF n s) (h : InvC n s) (st : Step n s s') : InvC n s' := by
  obtain ⟨h1, h2, h3⟩ := h
  have ha : ∀ i, (s.cpc i).active = true → s.epc i = .ret true := fun i hi => by
    obtain ⟨c1, c2, _⟩ := h1 i hi
    rcases Nat.lt_or_ge i n with hj | hj
    · exact (e.up n i hj).resolve_right (by rw [c2]; simp [EPc.up])
    · rw [Nat.le_antisymm c1 hj]; exact c2
  cases st
  case cancelDown i h =>
    obtain ⟨c1, c2, c3⟩ := h1 (i + 1) (by rw [h]; rfl)
    have g1 : ∀ j, j < n → s.epc j = .ret true := fun j hj => (e.up n j hj).resolve_right (by rw [c2]; simp [EPc.up])
    have g2 : s.epc (i + 1) = .ret true := by
      rcases Nat.lt_or_ge (i + 1) n with hj | hj
      · exact g1 _ hj
      · rw [Nat.le_antisymm c1 hj]; exact c2
    have g3 := g1 i (by omega)
    have g4 : s.tok i = .stored := by
      have t1 := o.hc i
      have t2 := o.bo i
      have t3 := o.vr i (i + 1) (Nat.lt_succ_self i) (Nat.le_refl _)
      have t4 := o.cl i
      have t5 := f.gf i (i + 1) (Nat.lt_succ_self i) (Nat.le_refl _) c1
      have t6 := f.fr (i + 1)
      rw [g3] at t1 t2 t5
      rw [g2] at t3
      cases ht : s.tok i <;> simp_all [EPc.holds, EPc.good]
      omega
    clear e o f
    constructor <;> simp only [upd_apply] at * <;> grind
  all_goals
    have o8 := o.cl
    have o9 := o.sn
    have o5 := o.ss
    have o10 := o.hc
    have o11 := o.vt
    have e1 := e.hi
    have f2 := f.fr
    clear e o f
    constructor <;> simp only [upd_apply, relTok, relCb] at * <;> grind

set_option maxHeartbeats 4000000 in
theorem invM_step {n : Nat} {s s' : Sys} (e : InvE n s) (k : InvK n s) (h : InvM n s) (st : Step n s s') : InvM n s' := by
  obtain ⟨h1, h2, h3, h4, h5⟩ := h
  obtain ⟨e1, e2, e3, e4, e5, e6, e7⟩ := e
  obtain ⟨k1, k2, k3, k4, k5, k6⟩ := k
  clear k6
  have q1 := EPc.of_up
  have q2 := EPc.of_good
  cases st <;> constructor <;> simp only [upd_apply, relTok, relCb] at * <;> grind

structure Inv (n : Nat) (s : Sys) : Prop where
  e : InvE n s
  k : InvK n s
  r : InvR n s
  o : InvO n s
  f : InvF n s
  c : InvC n s
  m : InvM n s

theorem inv_reach {n : Nat} {s : Sys} (h : Reach n s) : Inv n s := by
  induction h with
  | init =>
    refine ⟨?_, ?_, ?_, ?_, ?_, ?_, ?_⟩ <;> constructor <;>
      simp [init, EPc.act, EPc.desc, EPc.up, EPc.good, EPc.mine, EPc.holds, EPc.refd, EPc.early, EPc.stored, KPc.before, KPc.mid, KPc.over, KPc.auth, KPc.res, CPc.active]
  | step _ st i => exact ⟨invE_step i.e st, invK_step i.e i.k st, invR_step i.e i.k i.r st, invO_step i.e i.k i.o st, invF_step i.e i.k i.o i.f st, invC_step i.e i.o i.f i.c st, invM_step i.e i.k i.m st⟩

end CUtil.SampleStack
