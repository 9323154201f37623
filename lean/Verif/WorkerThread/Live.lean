import Verif.Live
import Verif.WorkerThread.Props
set_option linter.unusedSimpArgs false
set_option linter.unusedVariables false
/-
C68: in every fair execution the functions of worker_thread.c return, and every accepted request is served unless the object is closed first.
-/
namespace CUtil.WorkerThread
open CUtil.Conc CUtil.Live

/-! ### Fairness -/

/-- The worker thread makes a step of its own: it is not woken, neither by another thread nor for no reason. The end of a call of worker_func is one of these steps. -/
def WorkerMoves (w : Nat) (s s' : Sys) : Prop := Step s s' ∧ Live (s.wpc w) ∧ s.wpc w ≠ .asleep ∧ s'.wpc w ≠ s.wpc w

/-- A thread in worker_thread_schedule_process makes a step. -/
def CallerMoves (t : Nat) (s s' : Sys) : Prop := Step s s' ∧ InExec (s.pc t) ∧ s'.pc t ≠ s.pc t

/-- The thread in worker_thread_open makes a step. -/
def OpenerMoves (s s' : Sys) : Prop := Step s s' ∧ s.opener ≠ .no ∧ s'.opener ≠ s.opener

/-- The thread in worker_thread_close makes a step. -/
def CloserMoves (s s' : Sys) : Prop := Step s s' ∧ s.closer ≠ .no ∧ s'.closer ≠ s.closer

/-- A fair execution: every thread that can go on all the time does so in the end, and calls of worker_func return. -/
structure FairRun (σ : Nat → Sys) : Prop where
  run : Run Reach Step σ
  worker : ∀ w, Fair (WorkerMoves w) σ
  caller : ∀ t, Fair (CallerMoves t) σ
  opener : Fair OpenerMoves σ
  closer : Fair CloserMoves σ

variable {σ : Nat → Sys}

theorem FairRun.reach (h : FairRun σ) (i : Nat) : Reach (σ i) := h.run.reach (fun _ _ r st => r.step st) i

theorem FairRun.inv (h : FairRun σ) (i : Nat) : Inv (σ i) := inv_of_reach (h.reach i)

/-! ### worker_thread_open -/

theorem open_set (h : FairRun σ) : LeadsTo σ (fun s => s.opener = .set) (fun s => s.opener = .create) :=
  ensures h.inv h.run.next h.opener (fun s s' _ hp st => by cases st <;> simp only at * <;> grind)
    (fun s _ hp => ⟨_, .openSet s hp, by rw [hp]; simp, by simp [hp]⟩) (fun s s' _ hp ⟨st, _, hm⟩ => by cases st <;> simp only at * <;> grind)

theorem open_create (h : FairRun σ) : LeadsTo σ (fun s => s.opener = .create) (fun s => s.opener = .endOk ∨ s.opener = .endFail) :=
  ensures h.inv h.run.next h.opener (fun s s' hi hp st => by have := hi.opener; cases st <;> simp only at * <;> grind)
    (fun s _ hp => ⟨_, .openFails s hp, by rw [hp]; simp, by simp [hp]⟩) (fun s s' hi hp ⟨st, _, hm⟩ => by have := hi.opener; cases st <;> simp only at * <;> grind)

theorem open_end (h : FairRun σ) : LeadsTo σ (fun s => s.opener = .endOk ∨ s.opener = .endFail) (fun s => s.sm = .opened ∨ s.sm = .closed) :=
  ensures h.inv h.run.next h.opener (fun s s' hi hp st => by have := hi.opener; cases st <;> simp only at * <;> grind)
    (fun s _ hp => by
      rcases hp with hp | hp
      · exact ⟨_, .openEnd s hp, by rw [hp]; simp, by simp [hp]⟩
      · exact ⟨_, .openEndFail s hp, by rw [hp]; simp, by simp [hp]⟩)
    (fun s s' hi hp ⟨st, _, hm⟩ => by have := hi.opener; cases st <;> simp only at * <;> grind)

/-- C68: worker_thread_open returns. -/
theorem open_returns (h : FairRun σ) : LeadsTo σ (fun s => s.sm = .opening) (fun s => s.sm = .opened ∨ s.sm = .closed) := by
  have h2 := (open_create h).trans (open_end h)
  have h1 := (open_set h).trans h2
  intro i hp
  have ho := ((h.inv i).opener).2 hp
  cases e : (σ i).opener with
  | no => exact absurd e ho
  | set => exact h1 i e
  | create => exact h2 i e
  | endOk => exact open_end h i (.inl e)
  | endFail => exact open_end h i (.inr e)

/-! ### worker_thread_schedule_process -/

/-- Steps a call has left. -/
def left : SPc → Nat
  | .cas => 3
  | .wake => 2
  | .endOk => 1
  | .endInvalid => 1
  | _ => 0

theorem call_moves (h : FairRun σ) (t n : Nat) :
    LeadsTo σ (fun s => InExec (s.pc t) ∧ left (s.pc t) = n) (fun s => ¬ InExec (s.pc t) ∨ (InExec (s.pc t) ∧ left (s.pc t) < n)) :=
  ensures h.inv h.run.next (h.caller t)
    (fun s s' hi hp st => by
      by_cases e : s'.pc t = s.pc t
      · left; rw [e]; exact hp
      · right
        obtain ⟨hp1, hp2⟩ := hp
        cases st <;> simp only [upd_apply, InExec, left] at * <;> grind [left])
    (fun s hi hp => by
      obtain ⟨hp, _⟩ := hp
      have hp' := hp
      have mv : ∀ v, s.pc t ≠ v → (upd s.pc t v) t ≠ s.pc t := fun v hv => by simpa using Ne.symm hv
      rcases hp' with e | e | e | e
      · cases e2 : s.st with
        | idle => exact ⟨_, .set s t e e2, hp, mv _ (by rw [e]; simp)⟩
        | process => exact ⟨_, .isSet s t e e2, hp, mv _ (by rw [e]; simp)⟩
        | close => exact ⟨_, .isClose s t e e2, hp, mv _ (by rw [e]; simp)⟩
      · by_cases hw : ∃ w, s.wpc w = .asleep
        · obtain ⟨w, hw⟩ := hw
          exact ⟨_, .wake s t w e hw, hp, mv _ (by rw [e]; simp)⟩
        · exact ⟨_, .wakeNone s t e (fun w y => hw ⟨w, y⟩), hp, mv _ (by rw [e]; simp)⟩
      · exact ⟨_, .endOk s t e, hp, mv _ (by rw [e]; simp)⟩
      · exact ⟨_, .endInvalid s t e, hp, mv _ (by rw [e]; simp)⟩)
    (fun s s' hi hp ⟨st, _, hm⟩ => by
      obtain ⟨hp1, hp2⟩ := hp
      cases st <;> simp only [upd_apply, InExec, left] at * <;> grind [left])

/-- C68: worker_thread_schedule_process returns. -/
theorem schedule_returns (h : FairRun σ) (t : Nat) : LeadsTo σ (fun s => InExec (s.pc t)) (fun s => ¬ InExec (s.pc t)) :=
  .rank (fun s => left (s.pc t)) (call_moves h t)

/-! ### A request is served -/

/-- The object is open, the worker thread `w` is there and no run has started since there were `n`. -/
def Waits (w n : Nat) (s : Sys) : Prop := s.sm = .opened ∧ s.runs = n

/-- A run has started, or the object is not open any more. -/
def Served (n : Nat) (s : Sys) : Prop := n < s.runs ∨ s.sm ≠ .opened

set_option maxHeartbeats 4000000 in
/-- The worker thread is about to run. -/
theorem served0 (h : FairRun σ) (w n : Nat) : LeadsTo σ (fun s => s.wpc w = .start ∧ Waits w n s) (Served n) :=
  ensures h.inv h.run.next (h.worker w)
    (fun s s' hi ⟨hp, ho, hn⟩ st => by
      have := hi.fresh w
      cases st <;> simp only [Waits, Served, upd_apply] at * <;> grind)
    (fun s hi ⟨hp, _⟩ => ⟨_, .run s w hp, by rw [hp]; simp [Live], by rw [hp]; simp, by simp [hp]⟩)
    (fun s s' hi ⟨hp, ho, hn⟩ ⟨st, _, _, hm⟩ => by
      have := hi.fresh w
      cases st <;> simp only [Waits, Served, upd_apply] at * <;> grind)

set_option maxHeartbeats 4000000 in
theorem served1 (h : FairRun σ) (w n : Nat) : LeadsTo σ (fun s => s.wpc w = .cas ∧ Waits w n s) (Served n) :=
  LeadsTo.chain (ensures h.inv h.run.next (h.worker w)
    (fun s s' hi ⟨hp, ho, hn⟩ st => by
      have := hi.fresh w
      cases st <;> simp only [Waits, Served, upd_apply] at * <;> grind)
    (fun s hi ⟨hp, _⟩ => by
      by_cases hs : s.st = .process
      · exact ⟨_, .taken s w hp hs, by rw [hp]; simp [Live], by rw [hp]; simp, by simp [hp]⟩
      · exact ⟨_, .notTaken s w hp hs, by rw [hp]; simp [Live], by rw [hp]; simp, by simp [hp]⟩)
    (fun s s' hi ⟨hp, ho, hn⟩ ⟨st, _, _, hm⟩ => by
      have := hi.fresh w
      cases st <;> simp only [Waits, Served, upd_apply] at * <;> grind)) (served0 h w n)

set_option maxHeartbeats 4000000 in
theorem served2 (h : FairRun σ) (w n : Nat) : LeadsTo σ (fun s => s.wpc w = .read ∧ s.st = .process ∧ Waits w n s) (Served n) :=
  LeadsTo.chain (ensures h.inv h.run.next (h.worker w)
    (fun s s' hi ⟨hp, hs, ho, hn⟩ st => by
      have h1 := hi.fresh w
      have h2 := hi.cur w
      have h3 := hi.cur
      have h4 := hi.opener
      have h5 := hi.closer
      cases st <;> simp only [Waits, Served, upd_apply, Live] at * <;> grind)
    (fun s hi ⟨hp, hs, _⟩ => ⟨_, .readProcess s w hp hs, by rw [hp]; simp [Live], by rw [hp]; simp, by simp [hp]⟩)
    (fun s s' hi ⟨hp, hs, ho, hn⟩ ⟨st, _, _, hm⟩ => by
      have := hi.fresh w
      cases st <;> simp only [Waits, Served, upd_apply] at * <;> grind)) (served1 h w n)

set_option maxHeartbeats 4000000 in
theorem served3 (h : FairRun σ) (w n : Nat) : LeadsTo σ (fun s => (s.wpc w = .wait ∨ s.wpc w = .running) ∧ s.st = .process ∧ Waits w n s) (Served n) :=
  LeadsTo.chain (ensures h.inv h.run.next (h.worker w)
    (fun s s' hi ⟨hp, hs, ho, hn⟩ st => by
      have h1 := hi.fresh w
      have h3 := hi.cur
      have h4 := hi.opener
      have h5 := hi.closer
      cases st <;> simp only [Waits, Served, upd_apply, Live] at * <;> grind)
    (fun s hi ⟨hp, hs, _⟩ => by
      rcases hp with hp | hp
      · exact ⟨_, .noSleep s w hp (by rw [hs]; simp), by rw [hp]; simp [Live], by rw [hp]; simp, by simp [hp]⟩
      · exact ⟨_, .runEnd s w hp, by rw [hp]; simp [Live], by rw [hp]; simp, by simp [hp]⟩)
    (fun s s' hi ⟨hp, hs, ho, hn⟩ ⟨st, _, _, hm⟩ => by
      have := hi.fresh w
      have h3 := hi.cur
      cases st <;> simp only [Waits, Served, upd_apply, Live] at * <;> grind)) (served2 h w n)

set_option maxHeartbeats 4000000 in
/-- The worker thread sleeps: the thread that set the request wakes it. -/
theorem served4 (h : FairRun σ) (w n : Nat) : LeadsTo σ (fun s => s.wpc w = .asleep ∧ s.st = .process ∧ Waits w n s) (Served n) := by
  intro i ⟨hp, hs, ho, hn⟩
  have hi := h.inv i
  have hc : (σ i).closer ≠ .wake := by
    intro e
    have := hi.closer.1 (by rw [e]; simp)
    rw [ho] at this; cases this
  obtain ⟨t, ht⟩ := (hi.wakes w hp (by rw [hs]; simp)).resolve_right hc
  refine LeadsTo.chain (P := fun s => s.pc t = .wake ∧ s.wpc w = .asleep ∧ s.st = .process ∧ Waits w n s) (ensures h.inv h.run.next (h.caller t)
    (fun s s' hi ⟨ht, hp, hs, ho, hn⟩ st => by
      have h1 := hi.fresh w
      have h3 := hi.cur
      have h4 := hi.opener
      have h5 := hi.closer
      cases st <;> simp only [Waits, Served, upd_apply, Live] at * <;> grind)
    (fun s hi ⟨ht, hp, _⟩ => ⟨_, .wake s t w ht hp, by rw [ht]; simp [InExec], by simp [ht]⟩)
    (fun s s' hi ⟨ht, hp, hs, ho, hn⟩ ⟨st, _, hm⟩ => by
      have h1 := hi.fresh w
      have h3 := hi.cur
      cases st <;> simp only [Waits, Served, upd_apply, Live] at * <;> grind)) (served3 h w n) i ⟨ht, hp, hs, ho, hn⟩

theorem served (h : FairRun σ) {i : Nat} (ho : (σ i).sm = .opened) (hd : Due (σ i)) : ∃ j, i ≤ j ∧ Served (σ i).runs (σ j) := by
  rcases hd with ⟨w, e⟩ | ⟨w, e⟩ | ⟨w, e, e2⟩ | ⟨w, e, e2⟩ | ⟨w, e, e2⟩
  · exact served0 h w _ i ⟨e, ho, rfl⟩
  · exact served1 h w _ i ⟨e, ho, rfl⟩
  · exact served2 h w _ i ⟨e, e2, ho, rfl⟩
  · exact served3 h w _ i ⟨e, e2, ho, rfl⟩
  · exact served4 h w _ i ⟨e, e2, ho, rfl⟩

/-- C68: when worker_thread_schedule_process has returned OK, worker_func is called after the start of that call, unless the object is closed. -/
theorem request_served (h : FairRun σ) {i t : Nat} (ho : (σ i).sm = .opened) (ht : (σ i).pc t = .retOk) (he : (σ i).snapEpoch t = (σ i).epoch) :
    ∃ j, i ≤ j ∧ ((σ i).snap t < (σ j).runs ∨ (σ j).sm ≠ .opened) := by
  rcases request_kept (h.reach i) ho ht he with hr | hd
  · exact ⟨i, Nat.le_refl i, .inl hr⟩
  · obtain ⟨j, hj, hr⟩ := served h ho hd
    have := ((h.inv i).snaps t).1
    exact ⟨j, hj, hr.imp (fun y => by omega) id⟩

/-! ### worker_thread_close -/

/-- Only finitely many threads have ever called. -/
theorem finitely_many {s : Sys} (h : Reach s) : ∃ N, ∀ t, N ≤ t → s.pc t = .out := by
  induction h with
  | init => exact ⟨0, fun _ _ => rfl⟩
  | step h st ih =>
    obtain ⟨N, hN⟩ := ih
    have : ∀ (f : Nat → SPc) (t : Nat) (v : SPc), (∀ u, N ≤ u → f u = .out) → ∀ u, max N (t + 1) ≤ u → upd f t v u = .out := by
      intro f t v hf u hu
      rw [upd_ne _ _ (by omega)]; exact hf u (by omega)
    cases st
    case call t _ _ => exact ⟨_, this _ t _ hN⟩
    case refused t _ _ => exact ⟨_, this _ t _ hN⟩
    case set t _ _ => exact ⟨_, this _ t _ hN⟩
    case isSet t _ _ => exact ⟨_, this _ t _ hN⟩
    case isClose t _ _ => exact ⟨_, this _ t _ hN⟩
    case wake t _ _ _ => exact ⟨_, this _ t _ hN⟩
    case wakeNone t _ _ => exact ⟨_, this _ t _ hN⟩
    case endOk t _ => exact ⟨_, this _ t _ hN⟩
    case endInvalid t _ => exact ⟨_, this _ t _ hN⟩
    all_goals exact ⟨N, hN⟩

/-- sm_close_begin returns: the calls in progress end and no new ones are granted. -/
theorem close_drain (h : FairRun σ) : LeadsTo σ (fun s => s.closer = .drain) (fun s => s.closer = .wake) := by
  intro i hp
  by_cases hq : ∃ j, i ≤ j ∧ (σ j).closer = .wake
  · exact hq
  · exfalso
    have drain : ∀ j, i ≤ j → (σ j).closer = .drain := by
      intro j hj
      obtain ⟨k, rfl⟩ := Nat.le.dest hj
      clear hj
      induction k with
      | zero => exact hp
      | succ k ih =>
        have nq : (σ (i + k + 1)).closer ≠ .wake := fun y => hq ⟨_, by omega, y⟩
        rcases h.run.next (i + k) with st | e
        · show (σ (i + k + 1)).closer = .drain
          generalize σ (i + k + 1) = s' at *
          cases st <;> simp only at * <;> grind
        · show (σ (i + k + 1)).closer = .drain
          rw [e]; exact ih
    have stay : ∀ t j, i ≤ j → ¬ InExec ((σ j).pc t) → ¬ InExec ((σ (j + 1)).pc t) := by
      intro t j hj hn
      have hd := drain j hj
      have hi := (h.inv j).closer.1 (by rw [hd]; simp)
      rcases h.run.next j with st | e
      · generalize σ (j + 1) = s' at *
        cases st <;> simp only [upd_apply, InExec] at * <;> grind
      · rw [e]; exact hn
    obtain ⟨N, hN⟩ := finitely_many (h.reach i)
    obtain ⟨j, hj, hall⟩ := all_together (σ := σ) (R := fun t s => ¬ InExec (s.pc t)) (i := i) N (fun t j _ hj => stay t j hj) (fun t _ => by
      by_cases he : InExec ((σ i).pc t)
      · exact schedule_returns h t i he
      · exact ⟨i, Nat.le_refl i, he⟩)
    have none : ∀ t, ¬ InExec ((σ j).pc t) := by
      intro t
      by_cases ht : t < N
      · exact hall t ht
      · obtain ⟨k, rfl⟩ := Nat.le.dest hj
        clear hall hj
        induction k with
        | zero => rw [show i + 0 = i from rfl, hN t (by omega)]; simp [InExec]
        | succ k ih => exact stay t (i + k) (by omega) ih
    have none' : ∀ k t, ¬ InExec ((σ (j + k)).pc t) := by
      intro k
      induction k with
      | zero => exact none
      | succ k ih => exact fun t => stay t (j + k) (by omega) (ih t)
    obtain ⟨k, hk, st, _, hm⟩ := h.closer j (fun k hk => by
      obtain ⟨d, rfl⟩ := Nat.le.dest hk
      have hd := drain (j + d) (by omega)
      exact ⟨_, .closeSet _ hd (none' d), by rw [hd]; simp, by rw [hd]; simp⟩)
    exact hm ((drain (k + 1) (by omega)).trans (drain k (by omega)).symm)

theorem close_wake (h : FairRun σ) : LeadsTo σ (fun s => s.closer = .wake) (fun s => s.closer = .join) :=
  ensures h.inv h.run.next h.closer
    (fun s s' hi hp st => by have := hi.closer; cases st <;> simp only at * <;> grind)
    (fun s hi hp => by
      by_cases hw : ∃ w, s.wpc w = .asleep
      · obtain ⟨w, hw⟩ := hw
        exact ⟨_, .closeWake s w hp hw, by rw [hp]; simp, by simp [hp]⟩
      · exact ⟨_, .closeWakeNone s hp (fun w y => hw ⟨w, y⟩), by rw [hp]; simp, by simp [hp]⟩)
    (fun s s' hi hp ⟨st, _, hm⟩ => by have := hi.closer; cases st <;> simp only at * <;> grind)

/-- Steps the worker thread has left when the state is CLOSE. -/
def leftW : WPc → Nat
  | .cas => 4
  | .start => 3
  | .running => 2
  | .wait => 2
  | .read => 1
  | _ => 0

/-- worker_thread_close waits for the thread `w`. -/
def Joins (w : Nat) (s : Sys) : Prop := s.closer = .join ∧ s.threads = w + 1

set_option maxHeartbeats 4000000 in
theorem worker_ends (h : FairRun σ) (w : Nat) :
    LeadsTo σ (fun s => Joins w s ∧ Live (s.wpc w)) (fun s => Joins w s ∧ s.wpc w = .ended) :=
  .rank (fun s => leftW (s.wpc w)) fun n => ensures h.inv h.run.next (h.worker w)
    (fun s s' hi ⟨⟨⟨hj, ht⟩, hl⟩, hn⟩ st => by
      have h1 := hi.closing
      have h2 := hi.opener
      have h3 := hi.closer
      have h4 := hi.exec
      have h5 := hi.wakes w
      have h6 := hi.cur
      have h7 : s.wpc (s.threads - 1) = s.wpc w := by rw [ht]; rfl
      by_cases e : s'.wpc w = s.wpc w
      · left
        rw [e]
        refine ⟨⟨?_, hl⟩, hn⟩
        clear e
        cases st <;> simp only [Joins, upd_apply, Live, InExec] at * <;> grind
      · right
        cases st <;> simp only [Joins, upd_apply, Live, InExec] at * <;> grind [leftW])
    (fun s hi ⟨⟨⟨hj, ht⟩, hl⟩, hn⟩ => by
      have hc := hi.closing (.inr (.inl hj))
      have hx : ∀ t, ¬ InExec (s.pc t) := by
        intro t y
        have := hi.closer.1 (by rw [hj]; simp)
        rcases hi.exec t y with y | y
        · rw [this] at y; cases y
        · rw [hj] at y; cases y.2
      have as : s.wpc w ≠ .asleep := by
        intro y
        rcases hi.wakes w y (by rw [hc]; simp) with ⟨t, e⟩ | e
        · exact hx t (by rw [e]; simp [InExec])
        · rw [hj] at e; cases e
      cases e : s.wpc w with
      | none => exact absurd e hl.1
      | ended => exact absurd e hl.2
      | asleep => exact absurd e as
      | read => exact ⟨_, .readClose s w e hc, hl, as, by simp [e]⟩
      | wait => exact ⟨_, .noSleep s w e (by rw [hc]; simp), hl, as, by simp [e]⟩
      | cas => exact ⟨_, .notTaken s w e (by rw [hc]; simp), hl, as, by simp [e]⟩
      | start => exact ⟨_, .run s w e, hl, as, by simp [e]⟩
      | running => exact ⟨_, .runEnd s w e, hl, as, by simp [e]⟩)
    (fun s s' hi ⟨⟨⟨hj, ht⟩, hl⟩, hn⟩ ⟨st, _, _, hm⟩ => by
      have h1 := hi.closing
      have h2 := hi.opener
      have h3 := hi.closer
      have h4 := hi.exec
      have h5 := hi.wakes w
      have h6 := hi.cur
      have h7 : s.wpc (s.threads - 1) = s.wpc w := by rw [ht]; rfl
      cases st <;> simp only [Joins, upd_apply, Live, InExec] at * <;> grind [leftW])

set_option maxHeartbeats 4000000 in
theorem close_join (h : FairRun σ) : LeadsTo σ (fun s => s.closer = .join) (fun s => s.closer = .fin) := by
  intro i hp
  have hi := h.inv i
  obtain ⟨w, hw, hn⟩ := hi.joined (.inr hp)
  have last : LeadsTo σ (fun s => Joins w s ∧ s.wpc w = .ended) (fun s => s.closer = .fin) :=
    ensures h.inv h.run.next h.closer
      (fun s s' hi ⟨⟨hj, ht⟩, hl⟩ st => by
        have h2 := hi.opener
        have h3 := hi.closer
        cases st <;> simp only [Joins, upd_apply, Live, InExec] at * <;> grind)
      (fun s hi ⟨⟨hj, ht⟩, hl⟩ => ⟨_, .closeJoin s hj (by rw [ht]; exact hl), by rw [hj]; simp, by simp [hj]⟩)
      (fun s s' hi ⟨⟨hj, ht⟩, hl⟩ ⟨st, _, hm⟩ => by
        have h3 := hi.closer
        cases st <;> simp only at * <;> grind)
  by_cases he : (σ i).wpc w = .ended
  · exact last i ⟨⟨hp, hw.symm⟩, he⟩
  · exact (worker_ends h w).trans last i ⟨⟨hp, hw.symm⟩, hn, he⟩

theorem close_fin (h : FairRun σ) : LeadsTo σ (fun s => s.closer = .fin) (fun s => s.sm = .closed) :=
  ensures h.inv h.run.next h.closer
    (fun s s' hi hp st => by have := hi.closer; cases st <;> simp only at * <;> grind)
    (fun s hi hp => ⟨_, .closeEnd s hp, by rw [hp]; simp, by simp [hp]⟩)
    (fun s s' hi hp ⟨st, _, hm⟩ => by have := hi.closer; cases st <;> simp only at * <;> grind)

/-- C68: worker_thread_close returns, whatever is scheduled meanwhile. -/
theorem close_returns (h : FairRun σ) : LeadsTo σ (fun s => s.sm = .closing) (fun s => s.sm = .closed) := by
  have h3 := (close_join h).trans (close_fin h)
  have h2 := (close_wake h).trans h3
  have h1 := (close_drain h).trans h2
  intro i hp
  have hc := ((h.inv i).closer).2 hp
  cases e : (σ i).closer with
  | no => exact absurd e hc
  | drain => exact h1 i e
  | wake => exact h2 i e
  | join => exact h3 i e
  | fin => exact close_fin h i e

/-! ### Fair executions exist: a request that is served, and a close that overlaps a call -/

/-- Nothing can go on: everybody has returned and a worker thread sleeps. -/
def Quiet (s : Sys) : Prop := (∀ w, Live (s.wpc w) → s.wpc w = .asleep) ∧ (∀ t, ¬ InExec (s.pc t)) ∧ s.opener = .no ∧ s.closer = .no

/-- From every reachable state from which the object can come to rest there is a fair execution. -/
theorem fair_run_exists {s e : Sys} (h : Reach s) (p : Path Step s e) (q : Quiet e) : ∃ σ n, FairRun σ ∧ σ 0 = s ∧ ∀ j, n ≤ j → σ j = e := by
  obtain ⟨σ, n, r, h0, hn⟩ := exists_run (Step := Step) (fun _ _ r st => Reach.step r st) h p
  obtain ⟨q1, q2, q3, q4⟩ := q
  refine ⟨σ, n, ⟨r, fun w => fair_of_end hn ?_, fun t => fair_of_end hn ?_, fair_of_end hn ?_, fair_of_end hn ?_⟩, h0, hn⟩
  · rintro ⟨s', _, hl, ha, _⟩; exact ha (q1 w hl)
  · rintro ⟨s', _, hx, _⟩; exact q2 t hx
  · rintro ⟨s', _, ho, _⟩; exact ho q3
  · rintro ⟨s', _, hc, _⟩; exact hc q4

example : ∃ σ, FairRun σ ∧ (σ 0).sm = .opened ∧ (σ 0).pc 0 = .retOk ∧ (σ 0).snapEpoch 0 = (σ 0).epoch ∧ (σ 0).snap 0 = (σ 0).runs := by
  have h1 := Reach.init.step (.openBegin _ rfl)
  have h2 := h1.step (.openSet _ rfl)
  have h3 := h2.step (.openCreate _ rfl)
  have h4 := h3.step (.openEnd _ rfl)
  have h5 := h4.step (.readIdle _ 0 rfl rfl)
  have h6 := h5.step (.sleep _ 0 rfl rfl)
  have h7 := h6.step (.call _ 0 (Or.inl rfl) rfl)
  have h8 := h7.step (.set _ 0 rfl rfl)
  have h9 := h8.step (.wake _ 0 0 rfl rfl)
  have h10 := h9.step (.endOk _ 0 rfl)
  obtain ⟨σ, n, f, h0, _⟩ := fair_run_exists h10
    (.cons (.noSleep _ 0 rfl (by decide)) <| .cons (.readProcess _ 0 rfl rfl) <| .cons (.taken _ 0 rfl rfl) <| .cons (.run _ 0 rfl) <|
      .cons (.runEnd _ 0 rfl) <| .cons (.readIdle _ 0 rfl rfl) <| .cons (.sleep _ 0 rfl rfl) <| .nil _)
    ⟨by intro w; simp only [upd, init, Live]; grind, by intro t; simp only [upd, init, InExec]; grind, rfl, rfl⟩
  exact ⟨σ, f, by rw [h0], by rw [h0]; rfl, by rw [h0]; rfl, by rw [h0]; rfl⟩

example : ∃ σ, FairRun σ ∧ (σ 0).sm = .closing ∧ InExec ((σ 0).pc 0) ∧ (σ 0).wpc 0 = .asleep := by
  have h1 := Reach.init.step (.openBegin _ rfl)
  have h2 := h1.step (.openSet _ rfl)
  have h3 := h2.step (.openCreate _ rfl)
  have h4 := h3.step (.openEnd _ rfl)
  have h5 := h4.step (.readIdle _ 0 rfl rfl)
  have h6 := h5.step (.sleep _ 0 rfl rfl)
  have h7 := h6.step (.call _ 0 (Or.inl rfl) rfl)
  have h8 := h7.step (.closeBegin _ rfl)
  obtain ⟨σ, n, f, h0, _⟩ := fair_run_exists h8
    (.cons (.set _ 0 rfl rfl) <| .cons (.wake _ 0 0 rfl rfl) <| .cons (.endOk _ 0 rfl) <|
      .cons (.closeSet _ rfl (by intro t; simp only [upd, init, InExec]; grind)) <| .cons (.closeWakeNone _ rfl (by intro w; simp only [upd, init]; grind)) <|
      .cons (.noSleep _ 0 rfl (by decide)) <| .cons (.readClose _ 0 rfl rfl) <| .cons (.closeJoin _ rfl rfl) <| .cons (.closeEnd _ rfl) <| .nil _)
    ⟨by intro w; simp only [upd, init, Live]; grind, by intro t; simp only [upd, init, InExec]; grind, rfl, rfl⟩
  exact ⟨σ, f, by rw [h0], by rw [h0]; exact .inl rfl, by rw [h0]; rfl⟩

end CUtil.WorkerThread
