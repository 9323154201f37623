import Verif.WorkerThread.Model
set_option linter.unusedSimpArgs false
set_option linter.unusedVariables false
/-
C39: one worker thread, no request lost while open.
-/
namespace CUtil.WorkerThread
open CUtil.Conc

/-! ### Specification -/

/-- The thread exists: created and not ended. -/
def Live (p : WPc) : Prop := p ≠ .none ∧ p ≠ .ended

/-- A call of worker_func is to come, `n` steps of the worker thread away (from 4: once it is woken). -/
def DueIn (s : Sys) : Nat → Prop
  | 0 => ∃ w, s.wpc w = .start
  | 1 => ∃ w, s.wpc w = .cas
  | 2 => ∃ w, s.wpc w = .read ∧ s.st = .process
  | 3 => ∃ w, (s.wpc w = .wait ∨ s.wpc w = .running) ∧ s.st = .process
  | 4 => ∃ w, s.wpc w = .asleep ∧ s.st = .process
  | _ => False

def Due (s : Sys) : Prop := DueIn s 0 ∨ DueIn s 1 ∨ DueIn s 2 ∨ DueIn s 3 ∨ DueIn s 4

/-! ### Invariant -/

structure Inv (s : Sys) : Prop where
  fresh : ∀ w, s.threads ≤ w → s.wpc w = .none
  cur : ∀ w, Live (s.wpc w) → w + 1 = s.threads
  exec : ∀ t, InExec (s.pc t) → s.sm = .opened ∨ (s.sm = .closing ∧ s.closer = .drain)
  opener : s.opener ≠ .no ↔ s.sm = .opening
  closer : s.closer ≠ .no ↔ s.sm = .closing
  openLive : s.sm = .opened ∨ s.closer = .drain ∨ s.opener = .endOk → ∃ w, Live (s.wpc w)
  openSt : s.sm = .opened ∨ s.closer = .drain ∨ s.opener = .endOk ∨ s.opener = .create ∨ s.opener = .endFail → s.st ≠ .close
  live : ∀ w, Live (s.wpc w) → s.sm = .opened ∨ s.closer = .drain ∨ s.closer = .wake ∨ s.closer = .join ∨ s.opener = .endOk
  closing : s.closer = .wake ∨ s.closer = .join ∨ s.closer = .fin → s.st = .close
  joined : s.closer = .wake ∨ s.closer = .join → ∃ w, w + 1 = s.threads ∧ s.wpc w ≠ .none
  wakes : ∀ w, s.wpc w = .asleep → s.st ≠ .idle → (∃ t, s.pc t = .wake) ∨ s.closer = .wake
  snaps : ∀ t, s.snap t ≤ s.runs ∧ s.snapEpoch t ≤ s.epoch
  newEpoch : s.sm = .opening → ∀ t, s.snapEpoch t < s.epoch
  inEpoch : ∀ t, InExec (s.pc t) → s.snapEpoch t = s.epoch
  kept : ∀ t, s.pc t = .wake ∨ s.pc t = .endOk ∨ s.pc t = .retOk → s.snapEpoch t = s.epoch → s.sm = .opened ∨ s.closer = .drain → s.snap t < s.runs ∨ Due s

theorem inv_init : Inv init := by
  constructor <;> simp [init, Live, InExec]

set_option maxHeartbeats 4000000 in
theorem inv_step1 {s s' : Sys} (h : Inv s) (st : Step s s') :
    (∀ w, s'.threads ≤ w → s'.wpc w = .none) ∧ (∀ w, Live (s'.wpc w) → w + 1 = s'.threads) ∧
    (∀ t, InExec (s'.pc t) → s'.sm = .opened ∨ (s'.sm = .closing ∧ s'.closer = .drain)) := by
  obtain ⟨h1, h2, h3, h4, h5, h6, h7, h8, h9, h10, h11, h12, h15, h13, h14⟩ := h
  clear h14 h12 h13 h11
  cases st <;> refine ⟨?_, ?_, ?_⟩ <;> simp only [upd, Live, InExec] at * <;> grind

set_option maxHeartbeats 4000000 in
theorem inv_step2 {s s' : Sys} (h : Inv s) (st : Step s s') :
    (s'.opener ≠ .no ↔ s'.sm = .opening) ∧ (s'.closer ≠ .no ↔ s'.sm = .closing) ∧
    (s'.sm = .opened ∨ s'.closer = .drain ∨ s'.opener = .endOk → ∃ w, Live (s'.wpc w)) := by
  obtain ⟨h1, h2, h3, h4, h5, h6, h7, h8, h9, h10, h11, h12, h15, h13, h14⟩ := h
  clear h14 h12 h13 h11
  cases st <;> refine ⟨?_, ?_, ?_⟩ <;> simp only [upd, Live, InExec] at * <;> try grind
  exact fun _ => ⟨s.threads, by simp⟩

set_option maxHeartbeats 4000000 in
theorem inv_step3 {s s' : Sys} (h : Inv s) (st : Step s s') :
    (s'.sm = .opened ∨ s'.closer = .drain ∨ s'.opener = .endOk ∨ s'.opener = .create ∨ s'.opener = .endFail → s'.st ≠ .close) ∧
    (∀ w, Live (s'.wpc w) → s'.sm = .opened ∨ s'.closer = .drain ∨ s'.closer = .wake ∨ s'.closer = .join ∨ s'.opener = .endOk) ∧
    (s'.closer = .wake ∨ s'.closer = .join ∨ s'.closer = .fin → s'.st = .close) ∧
    (s'.closer = .wake ∨ s'.closer = .join → ∃ w, w + 1 = s'.threads ∧ s'.wpc w ≠ .none) ∧
    (∀ w, s'.wpc w = .asleep → s'.st ≠ .idle → (∃ t, s'.pc t = .wake) ∨ s'.closer = .wake) := by
  obtain ⟨h1, h2, h3, h4, h5, h6, h7, h8, h9, h10, h11, h12, h15, h13, h14⟩ := h
  clear h14 h12 h13
  cases st <;> refine ⟨?_, ?_, ?_, ?_, ?_⟩ <;> simp only [upd, Live, InExec] at * <;> try grind

set_option maxHeartbeats 4000000 in
theorem inv_step4 {s s' : Sys} (h : Inv s) (st : Step s s') :
    (∀ t, s'.snap t ≤ s'.runs ∧ s'.snapEpoch t ≤ s'.epoch) ∧ (s'.sm = .opening → ∀ t, s'.snapEpoch t < s'.epoch) ∧
    (∀ t, InExec (s'.pc t) → s'.snapEpoch t = s'.epoch) := by
  obtain ⟨h1, h2, h3, h4, h5, h6, h7, h8, h9, h10, h11, h12, h15, h13, h14⟩ := h
  clear h14 h11
  cases st <;> refine ⟨?_, ?_, ?_⟩ <;> simp only [upd, Live, InExec] at * <;> try grind

set_option maxHeartbeats 4000000 in
/-- While the object stays open the run that is due stays due, never further away, until a run starts. -/
theorem due_step {s s' : Sys} (h : Inv s) (st : Step s s') (ho : s'.sm = .opened ∨ s'.closer = .drain) :
    (DueIn s 0 → s.runs < s'.runs ∨ DueIn s' 0) ∧
    (DueIn s 1 → s.runs < s'.runs ∨ DueIn s' 0 ∨ DueIn s' 1) ∧
    (DueIn s 2 → s.runs < s'.runs ∨ DueIn s' 0 ∨ DueIn s' 1 ∨ DueIn s' 2) ∧
    (DueIn s 3 → s.runs < s'.runs ∨ DueIn s' 0 ∨ DueIn s' 1 ∨ DueIn s' 2 ∨ DueIn s' 3) ∧
    (DueIn s 4 → s.runs < s'.runs ∨ DueIn s' 0 ∨ DueIn s' 1 ∨ DueIn s' 2 ∨ DueIn s' 3 ∨ DueIn s' 4) := by
  obtain ⟨h1, h2, h3, h4, h5, h6, h7, h8, h9, h10, h11, h12, h15, h13, h14⟩ := h
  clear h14 h11 h12 h13 h3
  cases st <;> refine ⟨?_, ?_, ?_, ?_, ?_⟩ <;> simp only [DueIn, upd, Live] at * <;> try grind

/-- A set request is due: the worker thread is there. -/
theorem due_of_process {s : Sys} (h : Inv s) (ho : s.sm = .opened ∨ s.closer = .drain) (hs : s.st = .process) : Due s := by
  obtain ⟨w, hw⟩ := h.openLive (by grind)
  simp only [Due, DueIn, Live] at *
  have : s.wpc w = .none ∨ s.wpc w = .read ∨ s.wpc w = .wait ∨ s.wpc w = .asleep ∨ s.wpc w = .cas ∨ s.wpc w = .start ∨ s.wpc w = .running ∨ s.wpc w = .ended := by
    cases s.wpc w <;> simp
  grind

theorem runs_mono {s s' : Sys} (st : Step s s') : s.runs ≤ s'.runs := by
  cases st <;> simp

/-- The object was open before, unless this is the end of an open. -/
theorem open_before {s s' : Sys} (st : Step s s') (ho : s'.sm = .opened ∨ s'.closer = .drain) :
    (s.sm = .opened ∨ s.closer = .drain) ∧ s'.epoch = s.epoch ∨ s.opener = .endOk ∨ s.opener = .set ∨ s.sm = .closed := by
  cases st <;> simp only [] at * <;> grind

/-- How a call comes to have made its request. -/
theorem enters {s s' : Sys} (st : Step s s') (t : Nat) (ht : s'.pc t = .wake ∨ s'.pc t = .endOk ∨ s'.pc t = .retOk) :
    ((s.pc t = .wake ∨ s.pc t = .endOk ∨ s.pc t = .retOk) ∧ s'.snap t = s.snap t ∧ s'.snapEpoch t = s.snapEpoch t) ∨ s'.st = .process := by
  cases st <;> simp only [upd] at * <;> grind

theorem due_step' {s s' : Sys} (h : Inv s) (st : Step s s') (ho : s'.sm = .opened ∨ s'.closer = .drain) (hd : Due s) : s.runs < s'.runs ∨ Due s' := by
  obtain ⟨d0, d1, d2, d3, d4⟩ := due_step h st ho
  unfold Due at *
  grind

theorem inv_step {s s' : Sys} (h : Inv s) (st : Step s s') : Inv s' := by
  obtain ⟨a1, a2, a3⟩ := inv_step1 h st
  obtain ⟨b1, b2, b3⟩ := inv_step2 h st
  obtain ⟨c1, c2, c3, c4, c5⟩ := inv_step3 h st
  obtain ⟨d1, d2, d3⟩ := inv_step4 h st
  have hpart : (∀ t, s'.pc t = .wake ∨ s'.pc t = .endOk ∨ s'.pc t = .retOk → s'.snapEpoch t = s'.epoch → s'.sm = .opened ∨ s'.closer = .drain → s'.snap t < s'.runs ∨ Due s') := by
    intro t ht he ho
    rcases enters st t ht with ⟨ht', hs, hse⟩ | hp
    · have hm := runs_mono st
      have hsn := h.snaps t
      rcases open_before st ho with ⟨ho', hep⟩ | hop | hop | hop
      · rcases h.kept t ht' (by omega) ho' with hlt | hd
        · exact Or.inl (by omega)
        · rcases due_step' h st ho hd with hlt | hd'
          · exact Or.inl (by omega)
          · exact Or.inr hd'
      · have h1 := h.newEpoch (h.opener.1 (by rw [hop]; simp)) t
        have h2 : s'.epoch = s.epoch ∨ s'.epoch = s.epoch + 1 := by cases st <;> simp
        omega
      · have h1 := h.newEpoch (h.opener.1 (by rw [hop]; simp)) t
        have h2 : s'.epoch = s.epoch ∨ s'.epoch = s.epoch + 1 := by cases st <;> simp
        omega
      · have hc := h.closer
        have hoo := h.opener
        exfalso
        cases st <;> simp only [] at * <;> grind
    · -- the request is set, and the worker thread is there
      obtain ⟨w, hw⟩ := b3 (by grind)
      right
      simp only [Due, DueIn, Live] at *
      have : s'.wpc w = .none ∨ s'.wpc w = .read ∨ s'.wpc w = .wait ∨ s'.wpc w = .asleep ∨ s'.wpc w = .cas ∨ s'.wpc w = .start ∨ s'.wpc w = .running ∨ s'.wpc w = .ended := by
        cases s'.wpc w <;> simp
      grind
  exact ⟨a1, a2, a3, b1, b2, b3, c1, c2, c3, c4, c5, d1, d2, d3, hpart⟩

theorem inv_of_reach {s : Sys} (h : Reach s) : Inv s := by
  induction h with
  | init => exact inv_init
  | step _ st ih => exact inv_step ih st

/-! ### Properties -/

/-- C39: at any time at most one thread exists that could call worker_func, and only it does, in all openings together. -/
theorem one_thread {s : Sys} (h : Reach s) {w w' : Nat} (hw : Live (s.wpc w)) (hw' : Live (s.wpc w')) : w = w' := by
  have h1 := (inv_of_reach h).cur w hw
  have h2 := (inv_of_reach h).cur w' hw'
  omega

/-- worker_func never overlaps itself, and it runs only while the object is open or being closed. -/
theorem no_overlap {s : Sys} (h : Reach s) {w : Nat} (hw : s.wpc w = .running) :
    (∀ w', s.wpc w' = .running → w' = w) ∧ s.sm ≠ .closed := by
  have hl : Live (s.wpc w) := by rw [hw]; simp [Live]
  refine ⟨fun w' hw' => one_thread h (by rw [hw']; simp [Live]) hl, ?_⟩
  intro hc
  have hi := inv_of_reach h
  have h1 := hi.live w hl
  have h2 := hi.closer
  have h3 := hi.opener
  grind

/-- C39: when schedule_process has returned OK and the object is still open (the same opening), a run of worker_func has started
since the call started, or one is due (`due_stays`, `due_progress`). -/
theorem request_kept {s : Sys} (h : Reach s) (ho : s.sm = .opened) {t : Nat} (ht : s.pc t = .retOk) (he : s.snapEpoch t = s.epoch) :
    s.snap t < s.runs ∨ Due s :=
  (inv_of_reach h).kept t (Or.inr (Or.inr ht)) he (Or.inl ho)

/-- While the object stays open a run that is due stays due, never further away, until a run starts. -/
theorem due_stays {s s' : Sys} (h : Reach s) (st : Step s s') (ho : s'.sm = .opened) :
    (DueIn s 0 → s.runs < s'.runs ∨ DueIn s' 0) ∧
    (DueIn s 1 → s.runs < s'.runs ∨ DueIn s' 0 ∨ DueIn s' 1) ∧
    (DueIn s 2 → s.runs < s'.runs ∨ DueIn s' 0 ∨ DueIn s' 1 ∨ DueIn s' 2) ∧
    (DueIn s 3 → s.runs < s'.runs ∨ DueIn s' 0 ∨ DueIn s' 1 ∨ DueIn s' 2 ∨ DueIn s' 3) ∧
    (DueIn s 4 → s.runs < s'.runs ∨ DueIn s' 0 ∨ DueIn s' 1 ∨ DueIn s' 2 ∨ DueIn s' 3 ∨ DueIn s' 4) :=
  due_step (inv_of_reach h) st (Or.inl ho)

/-- The run that is due can always come closer; for a sleeping worker thread, by the thread that is about to wake it. -/
theorem due_progress {s : Sys} (h : Reach s) (ho : s.sm = .opened) :
    (DueIn s 0 → ∃ s', Step s s' ∧ s.runs < s'.runs) ∧
    (DueIn s 1 → ∃ s', Step s s' ∧ DueIn s' 0) ∧
    (DueIn s 2 → ∃ s', Step s s' ∧ DueIn s' 1) ∧
    (DueIn s 3 → ∃ s', Step s s' ∧ DueIn s' 2) ∧
    (DueIn s 4 → ∃ s' t, s.pc t = .wake ∧ Step s s' ∧ DueIn s' 3) := by
  refine ⟨?_, ?_, ?_, ?_, ?_⟩
  · rintro ⟨w, h⟩
    exact ⟨_, .run s w h, by simp⟩
  · rintro ⟨w, h⟩
    by_cases hs : s.st = .process
    · exact ⟨_, .taken s w h hs, w, by simp⟩
    · exact ⟨_, .notTaken s w h hs, w, by simp⟩
  · rintro ⟨w, h, hs⟩
    exact ⟨_, .readProcess s w h hs, w, by simp⟩
  · rintro ⟨w, h | h, hs⟩
    · exact ⟨_, .noSleep s w h (by rw [hs]; simp), w, by simp, hs⟩
    · exact ⟨_, .runEnd s w h, w, by simp, hs⟩
  · rintro ⟨w, hw, hs⟩
    have hi := inv_of_reach h
    have hc : s.closer = .no := by
      have := hi.closer
      rw [ho] at this
      cases hcl : s.closer <;> simp_all
    rcases hi.wakes w hw (by rw [hs]; simp) with ⟨t, ht⟩ | hcl
    · exact ⟨_, t, ht, .wake s t w ht hw, w, by simp, hs⟩
    · rw [hc] at hcl; cases hcl

/-- The worker thread never sleeps through a request or a close. -/
theorem no_lost_wakeup {s : Sys} (h : Reach s) {w : Nat} (hw : s.wpc w = .asleep) (hs : s.st ≠ .idle) :
    (∃ t, s.pc t = .wake) ∨ s.closer = .wake := (inv_of_reach h).wakes w hw hs

/-- A call that is granted never finds the state CLOSE (the branch at worker_thread.c:259-267 is dead). -/
theorem never_finds_close {s : Sys} (h : Reach s) {t : Nat} (ht : s.pc t = .cas) : s.st ≠ .close := by
  have hi := inv_of_reach h
  refine hi.openSt ?_
  rcases hi.exec t (Or.inl ht) with h1 | ⟨_, h1⟩
  · exact Or.inl h1
  · exact Or.inr (Or.inl h1)

/-- When worker_thread_close returns no thread is left. -/
theorem closed_quiet {s : Sys} (h : Reach s) (hs : s.sm = .closed) (w : Nat) : s.wpc w = .none ∨ s.wpc w = .ended := by
  have hi := inv_of_reach h
  by_cases hl : Live (s.wpc w)
  · have h1 := hi.live w hl
    have h2 := hi.closer
    have h3 := hi.opener
    grind
  · unfold Live at hl
    by_cases h1 : s.wpc w = .none
    · exact Or.inl h1
    · by_cases h2 : s.wpc w = .ended
      · exact Or.inr h2
      · exact absurd ⟨h1, h2⟩ hl

/-- Finding: a close drops a request that was accepted: schedule_process returned OK, no run follows it. -/
theorem close_drops_request : ∃ s, Reach s ∧ s.pc 0 = .retOk ∧ s.snapEpoch 0 = s.epoch ∧ s.sm = .closed ∧ s.runs = 0 := by
  have h1 := Reach.init.step (.openBegin _ rfl)
  have h2 := h1.step (.openSet _ rfl)
  have h3 := h2.step (.openCreate _ rfl)
  have h4 := h3.step (.openEnd _ rfl)
  have h5 := h4.step (.call _ 0 (Or.inl rfl) rfl)
  have h6 := h5.step (.set _ 0 rfl rfl)
  have h7 := h6.step (.wakeNone _ 0 rfl (by intro w; simp only [upd, init]; grind))
  have h8 := h7.step (.endOk _ 0 rfl)
  have h9 := h8.step (.closeBegin _ rfl)
  have h10 := h9.step (.closeSet _ rfl (by intro t; simp only [upd, init, InExec]; grind))
  have h11 := h10.step (.closeWakeNone _ rfl (by intro w; simp only [upd, init]; grind))
  have h12 := h11.step (.readClose _ 0 rfl rfl)
  have h13 := h12.step (.closeJoin _ rfl rfl)
  have h14 := h13.step (.closeEnd _ rfl)
  exact ⟨_, h14, rfl, rfl, rfl, rfl⟩

/-! ### Witness: the worker thread asleep, a request set, about to be woken -/

example : ∃ s, Reach s ∧ s.sm = .opened ∧ s.wpc 0 = .asleep ∧ s.st = .process ∧ s.pc 0 = .wake ∧ DueIn s 4 := by
  have h1 := Reach.init.step (.openBegin _ rfl)
  have h2 := h1.step (.openSet _ rfl)
  have h3 := h2.step (.openCreate _ rfl)
  have h4 := h3.step (.openEnd _ rfl)
  have h5 := h4.step (.readIdle _ 0 rfl rfl)
  have h6 := h5.step (.sleep _ 0 rfl rfl)
  have h7 := h6.step (.call _ 0 (Or.inl rfl) rfl)
  have h8 := h7.step (.set _ 0 rfl rfl)
  exact ⟨_, h8, rfl, rfl, rfl, rfl, 0, rfl, rfl⟩

end CUtil.WorkerThread
