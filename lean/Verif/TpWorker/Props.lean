import Verif.TpWorker.Model
set_option linter.unusedSimpArgs false
set_option linter.unusedVariables false
/-
C38: the worker function never overlaps itself, no request is lost.
-/
namespace CUtil.TpWorker
open CUtil.Conc

/-! ### Specification -/

/-- A call of worker_func is to come, `n` steps of the thread concerned away: the thread is about to call it; the item is scheduled,
or the work item about to go around its loop; about to be scheduled; ...; running, and a further run was requested. -/
def DueIn (s : Sys) : Nat → Prop
  | 0 => ∃ w, s.wpc w = .start
  | 1 => 0 < s.items ∨ ∃ w, s.wpc w = .wakeLoop
  | 2 => (∃ t, s.pc t = .sched) ∨ ∃ w, s.wpc w = .cas2 ∧ s.st = .requested
  | 3 => (∃ t, s.pc t = .wakeSched) ∨ ∃ w, s.wpc w = .cas1 ∧ s.st = .requested
  | 4 => ∃ w, s.wpc w = .running ∧ s.st = .requested
  | _ => False

/-- A call of worker_func is to come. -/
def Due (s : Sys) : Prop := DueIn s 0 ∨ DueIn s 1 ∨ DueIn s 2 ∨ DueIn s 3 ∨ DueIn s 4

/-- The thread is about to call wake_by_address_all. -/
def AboutToWake (s : Sys) : Prop :=
  (∃ u, s.pc u = .wakeRet ∨ s.pc u = .wakeSched) ∨ ∃ w, s.wpc w = .wakeExit ∨ s.wpc w = .wakeLoop

/-! ### Invariant -/

def Active (p : WPc) : Prop := p = .start ∨ p = .running ∨ p = .cas1 ∨ p = .cas2 ∨ p = .wakeLoop
def Sched (p : SPc) : Prop := p = .wakeSched ∨ p = .sched

structure Inv (s : Sys) : Prop where
  one1 : s.items ≤ 1
  one2 : ∀ w, 0 < s.items → ¬ Active (s.wpc w)
  one3 : ∀ t, 0 < s.items → ¬ Sched (s.pc t)
  one4 : ∀ w w', Active (s.wpc w) → Active (s.wpc w') → w = w'
  one5 : ∀ w t, Active (s.wpc w) → ¬ Sched (s.pc t)
  one6 : ∀ t t', Sched (s.pc t) → Sched (s.pc t') → t = t'
  idle : s.st = .idle → s.items = 0 ∧ (∀ w, ¬ Active (s.wpc w)) ∧ ∀ t, ¬ Sched (s.pc t)
  cas2 : ∀ w, s.wpc w = .cas2 → s.st = .requested
  waits : ∀ t v, s.pc t = .waitNot v ∨ s.pc t = .asleep v → v ≠ .idle
  wakes : ∀ t v, s.pc t = .asleep v → s.st ≠ v → AboutToWake s
  snaps : ∀ t, s.snap t ≤ s.runs

/-- What holds as long as scheduling an item did not fail. -/
structure Inv2 (s : Sys) : Prop where
  busy : s.st ≠ .idle → 0 < s.items ∨ (∃ w, Active (s.wpc w)) ∨ ∃ t, Sched (s.pc t)
  kept : ∀ t, s.pc t = .ret ∨ s.pc t = .wakeRet ∨ s.pc t = .wakeSched ∨ s.pc t = .sched → s.snap t < s.runs ∨ Due s

theorem inv_init : Inv init := by
  constructor <;> simp [init, Active, Sched]

set_option maxHeartbeats 4000000 in
theorem inv_step {s s' : Sys} (h : Inv s) (st : Step s s') : Inv s' := by
  obtain ⟨h1, h2, h3, h4, h5, h6, h7, h8, h9, h10, h11⟩ := h
  have hst : s.st = .idle ∨ s.st = .executing ∨ s.st = .requested := by cases s.st <;> simp
  cases st <;> constructor <;> simp only [upd, wakeAll, Active, Sched, AboutToWake] at * <;> grind

set_option maxHeartbeats 4000000 in
/-- Steps other than a run keep the run that is due. -/
theorem due_step {s s' : Sys} (h : Inv s) (st : Step s s') (hf : s'.failed = false) :
    (DueIn s 0 → s.runs < s'.runs ∨ DueIn s' 0) ∧
    (DueIn s 1 → s.runs < s'.runs ∨ DueIn s' 0 ∨ DueIn s' 1) ∧
    (DueIn s 2 → s.runs < s'.runs ∨ DueIn s' 0 ∨ DueIn s' 1 ∨ DueIn s' 2) ∧
    (DueIn s 3 → s.runs < s'.runs ∨ DueIn s' 0 ∨ DueIn s' 1 ∨ DueIn s' 2 ∨ DueIn s' 3) ∧
    (DueIn s 4 → s.runs < s'.runs ∨ DueIn s' 0 ∨ DueIn s' 1 ∨ DueIn s' 2 ∨ DueIn s' 3 ∨ DueIn s' 4) := by
  obtain ⟨h1, h2, h3, h4, h5, h6, h7, h8, h9, h10, h11⟩ := h
  clear h10 h11 h9
  cases st <;> refine ⟨?_, ?_, ?_, ?_, ?_⟩ <;> simp only [DueIn, upd, wakeAll, Active, Sched] at * <;> grind

set_option maxHeartbeats 4000000 in
/-- The run that is due can always come closer. -/
theorem due_progress {s : Sys} :
    (DueIn s 0 → ∃ s', Step s s' ∧ s.runs < s'.runs) ∧
    (DueIn s 1 → (∃ w, s.wpc w = .off) → ∃ s', Step s s' ∧ DueIn s' 0) ∧
    (DueIn s 2 → ∃ s', Step s s' ∧ DueIn s' 1) ∧
    (DueIn s 3 → ∃ s', Step s s' ∧ DueIn s' 2) ∧
    (DueIn s 4 → ∃ s', Step s s' ∧ DueIn s' 3) := by
  refine ⟨?_, ?_, ?_, ?_, ?_⟩
  · rintro ⟨w, h⟩
    exact ⟨_, .run s w h, by simp⟩
  · rintro (h | ⟨w, h⟩) ⟨w', hw'⟩
    · exact ⟨_, .item s w' hw' h, w', by simp⟩
    · exact ⟨_, .loop s w h, w, by simp⟩
  · rintro (⟨t, h⟩ | ⟨w, h, hs⟩)
    · exact ⟨_, .sched s t h, Or.inl (by simp)⟩
    · exact ⟨_, .again s w h hs, Or.inr ⟨w, by simp⟩⟩
  · rintro (⟨t, h⟩ | ⟨w, h, hs⟩)
    · exact ⟨_, .wakeSched s t h, Or.inl ⟨t, by simp⟩⟩
    · exact ⟨_, .notToIdle s w h (by rw [hs]; simp), Or.inr ⟨w, by simp, hs⟩⟩
  · rintro ⟨w, h, hs⟩
    exact ⟨_, .runEnd s w h, Or.inr ⟨w, by simp, hs⟩⟩

theorem inv2_init : Inv2 init := by
  constructor <;> simp [init]

set_option maxHeartbeats 4000000 in
theorem busy_step {s s' : Sys} (h : Inv s) (h' : Inv2 s) (st : Step s s') (hf : s'.failed = false) :
    s'.st ≠ .idle → 0 < s'.items ∨ (∃ w, Active (s'.wpc w)) ∨ ∃ t, Sched (s'.pc t) := by
  obtain ⟨h1, h2, h3, h4, h5, h6, h7, h8, h9, h10, h11⟩ := h
  obtain ⟨g1, g2⟩ := h'
  clear h10 h11 h9 g2
  cases st <;> simp only [upd, wakeAll, Active, Sched] at * <;> grind

/-- A requested run is due. -/
theorem due_of_requested {s : Sys} (hb : 0 < s.items ∨ (∃ w, Active (s.wpc w)) ∨ ∃ t, Sched (s.pc t)) (hs : s.st = .requested) : Due s := by
  simp only [Due, DueIn, Active, Sched] at *
  grind

theorem due_step' {s s' : Sys} (h : Inv s) (st : Step s s') (hf : s'.failed = false) (hd : Due s) : s.runs < s'.runs ∨ Due s' := by
  obtain ⟨d0, d1, d2, d3, d4⟩ := due_step h st hf
  unfold Due at *
  grind

theorem runs_mono {s s' : Sys} (st : Step s s') : s.runs ≤ s'.runs := by
  cases st <;> simp

theorem failed_mono {s s' : Sys} (st : Step s s') (hf : s'.failed = false) : s.failed = false := by
  cases st <;> simp_all

/-- How a call comes to have made its request. -/
theorem enters {s s' : Sys} (st : Step s s') (t : Nat)
    (ht : s'.pc t = .ret ∨ s'.pc t = .wakeRet ∨ s'.pc t = .wakeSched ∨ s'.pc t = .sched) :
    ((s.pc t = .ret ∨ s.pc t = .wakeRet ∨ s.pc t = .wakeSched ∨ s.pc t = .sched) ∧ s'.snap t = s.snap t) ∨
      (s'.st = .requested ∧ s'.runs = s.runs) ∨ s'.pc t = .wakeSched := by
  cases st <;> simp only [upd, wakeAll] at * <;> grind

theorem inv2_step {s s' : Sys} (h : Inv s) (h' : Inv2 s) (st : Step s s') (hf : s'.failed = false) : Inv2 s' := by
  have hb := busy_step h h' st hf
  refine ⟨hb, ?_⟩
  intro t ht
  rcases enters st t ht with ⟨ht', hs⟩ | ⟨hr, _⟩ | hw
  · have hm := runs_mono st
    have hsn := h.snaps t
    rcases h'.kept t ht' with hlt | hd
    · exact Or.inl (by omega)
    · rcases due_step' h st hf hd with hlt | hd'
      · exact Or.inl (by omega)
      · exact Or.inr hd'
  · exact Or.inr (due_of_requested (hb (by rw [hr]; simp)) hr)
  · exact Or.inr (Or.inr (Or.inr (Or.inr (Or.inl (Or.inl ⟨t, hw⟩)))))

theorem inv_of_reach {s : Sys} (h : Reach s) : Inv s ∧ (s.failed = false → Inv2 s) := by
  induction h with
  | init => exact ⟨inv_init, fun _ => inv2_init⟩
  | step _ st ih =>
    refine ⟨inv_step ih.1 st, fun hf => ?_⟩
    exact inv2_step ih.1 (ih.2 (failed_mono st hf)) st hf

/-! ### Properties -/

/-- C38: worker_func never overlaps itself. -/
theorem no_overlap {s : Sys} (h : Reach s) {w w' : Nat} (hw : s.wpc w = .running) (hw' : s.wpc w' = .running) : w = w' :=
  (inv_of_reach h).1.one4 w w' (Or.inr (Or.inl hw)) (Or.inr (Or.inl hw'))

/-- C38: when schedule_process has returned OK, a run of worker_func has started since the call started, or one is due
(`due_step`: it stays due, never further away, until a run starts; `due_progress`: the thread concerned can always bring it closer).
Missing from the full property: threadpool_schedule_work_item must not fail (`schedule_failure_loses_all`). -/
theorem request_kept_partial {s : Sys} (h : Reach s) (hf : s.failed = false) {t : Nat} (ht : s.pc t = .ret) : s.snap t < s.runs ∨ Due s :=
  ((inv_of_reach h).2 hf).kept t (Or.inl ht)

/-- A run that is due comes closer or stays where it is, until a run starts. -/
theorem due_stays {s s' : Sys} (h : Reach s) (st : Step s s') (hf : s'.failed = false) :
    (DueIn s 0 → s.runs < s'.runs ∨ DueIn s' 0) ∧
    (DueIn s 1 → s.runs < s'.runs ∨ DueIn s' 0 ∨ DueIn s' 1) ∧
    (DueIn s 2 → s.runs < s'.runs ∨ DueIn s' 0 ∨ DueIn s' 1 ∨ DueIn s' 2) ∧
    (DueIn s 3 → s.runs < s'.runs ∨ DueIn s' 0 ∨ DueIn s' 1 ∨ DueIn s' 2 ∨ DueIn s' 3) ∧
    (DueIn s 4 → s.runs < s'.runs ∨ DueIn s' 0 ∨ DueIn s' 1 ∨ DueIn s' 2 ∨ DueIn s' 3 ∨ DueIn s' 4) :=
  due_step (inv_of_reach h).1 st hf

/-- A call of schedule_process that sleeps is woken: as soon as the state it waits on changed, somebody is about to wake it. It only
ever waits for a run to end or be requested again. -/
theorem no_lost_wakeup {s : Sys} (h : Reach s) {t : Nat} {v : St} (ht : s.pc t = .asleep v) : v ≠ .idle ∧ (s.st ≠ v → AboutToWake s) :=
  ⟨(inv_of_reach h).1.waits t v (Or.inr ht), (inv_of_reach h).1.wakes t v ht⟩

/-- No more runs than calls can be at work: while the state is idle nothing is scheduled or running. -/
theorem idle_quiet {s : Sys} (h : Reach s) (hs : s.st = .idle) : s.items = 0 ∧ ∀ w, s.wpc w = .off ∨ s.wpc w = .wakeExit := by
  obtain ⟨e1, e2, _⟩ := (inv_of_reach h).1.idle hs
  refine ⟨e1, fun w => ?_⟩
  have := e2 w
  unfold Active at this
  cases hw : s.wpc w <;> simp_all

/-! ### Findings -/

/-- Dead: the state says that a run is under way, and there is none. -/
def Dead (s : Sys) : Prop := s.st ≠ .idle ∧ s.items = 0 ∧ (∀ w, s.wpc w = .off ∨ s.wpc w = .wakeExit) ∧ ∀ t, ¬ Sched (s.pc t)

theorem dead_step {s s' : Sys} (h : Dead s) (st : Step s s') : Dead s' ∧ s'.runs = s.runs := by
  obtain ⟨h1, h2, h3, h4⟩ := h
  cases st <;> (refine ⟨⟨?_, ?_, ?_, ?_⟩, ?_⟩) <;> simp only [upd, wakeAll, Sched] at * <;> grind

/-- From a dead state on worker_func is never called again. -/
inductive Steps : Sys → Sys → Prop
  | refl (s : Sys) : Steps s s
  | step {s s' s'' : Sys} (h : Steps s s') (st : Step s' s'') : Steps s s''

theorem dead_forever {s s' : Sys} (h : Dead s) (hs : Steps s s') : Dead s' ∧ s'.runs = s.runs := by
  induction hs with
  | refl => exact ⟨h, rfl⟩
  | step _ st ih =>
    obtain ⟨i1, i2⟩ := ih
    obtain ⟨j1, j2⟩ := dead_step i1 st
    exact ⟨j1, by omega⟩

/-- Finding: the result of threadpool_schedule_work_item is ignored (:300). If it fails, schedule_process still returns OK, the state
stays EXECUTING, and neither this nor any later request is ever run. -/
theorem schedule_failure_loses_all : ∃ s, Reach s ∧ s.pc 0 = .ret ∧ s.runs = 0 ∧ s.snap 0 = 0 ∧ ∀ s', Steps s s' → s'.runs = 0 := by
  have h1 := Reach.init.step (.call _ 0 (Or.inl rfl))
  have h2 := h1.step (.notExecuting _ 0 rfl rfl)
  have h3 := h2.step (.execute _ 0 rfl rfl)
  have h4 := h3.step (.wakeSched _ 0 rfl)
  have h5 := h4.step (.schedFails _ 0 rfl)
  refine ⟨_, h5, rfl, rfl, rfl, ?_⟩
  intro s' hs
  refine (dead_forever ?_ hs).2
  refine ⟨by simp, rfl, fun w => Or.inl rfl, ?_⟩
  intro t
  simp only [upd, wakeAll, init, Sched]
  grind

/-- Finding: schedule_process can block for as long as worker_func runs: thread 1 saw the state idle, thread 0 got in between and its
run is under way; thread 1 sleeps until that run ends or somebody else requests another. -/
theorem schedule_can_block : ∃ s, Reach s ∧ s.pc 1 = .asleep .executing ∧ s.wpc 0 = .running ∧ s.st = .executing ∧ s.pc 0 = .ret := by
  have h1 := Reach.init.step (.call _ 1 (Or.inl rfl))
  have h2 := h1.step (.notExecuting _ 1 rfl rfl)
  have h3 := h2.step (.call _ 0 (Or.inl rfl))
  have h4 := h3.step (.notExecuting _ 0 rfl rfl)
  have h5 := h4.step (.execute _ 0 rfl rfl)
  have h6 := h5.step (.wakeSched _ 0 rfl)
  have h7 := h6.step (.sched _ 0 rfl)
  have h8 := h7.step (.item _ 0 rfl (by simp [init]))
  have h9 := h8.step (.run _ 0 rfl)
  have h10 := h9.step (.notIdle _ 1 rfl (by simp))
  have h11 := h10.step (.sleep _ 1 .executing rfl rfl)
  exact ⟨_, h11, rfl, rfl, rfl, rfl⟩

/-! ### Witness: a request during a run -/

example : ∃ s, Reach s ∧ s.failed = false ∧ s.pc 1 = .ret ∧ s.snap 1 = 1 ∧ s.runs = 1 ∧ s.wpc 0 = .running ∧ s.st = .requested ∧ Due s := by
  have h1 := Reach.init.step (.call _ 0 (Or.inl rfl))
  have h2 := h1.step (.notExecuting _ 0 rfl rfl)
  have h3 := h2.step (.execute _ 0 rfl rfl)
  have h4 := h3.step (.wakeSched _ 0 rfl)
  have h5 := h4.step (.sched _ 0 rfl)
  have h6 := h5.step (.item _ 0 rfl (by simp [init]))
  have h7 := h6.step (.run _ 0 rfl)
  have h8 := h7.step (.call _ 1 (Or.inl rfl))
  have h9 := h8.step (.request _ 1 rfl rfl)
  have h10 := h9.step (.wakeRet _ 1 rfl)
  exact ⟨_, h10, rfl, rfl, rfl, rfl, rfl, rfl, Or.inr (Or.inr (Or.inr (Or.inr ⟨0, rfl, rfl⟩)))⟩

end CUtil.TpWorker
