import Verif.Live
import Verif.TpWorker.Props
set_option linter.unusedSimpArgs false
set_option linter.unusedVariables false
/-
C69: in every fair execution of tp_worker_thread.c an accepted request is served and a call that sleeps is woken.
-/
namespace CUtil.TpWorker
open CUtil.Conc CUtil.Live

/-! ### Fairness -/

/-- A thread running the work item makes a step (the end of a call of worker_func is one). -/
def WorkerMoves (w : Nat) (s s' : Sys) : Prop := Step s s' ∧ s.wpc w ≠ .off ∧ s'.wpc w ≠ s.wpc w

/-- The threadpool starts an item. -/
def PoolStarts (s s' : Sys) : Prop := Step s s' ∧ s'.items < s.items

/-- A thread in tp_worker_thread_schedule_process makes a step of its own: it is not woken. -/
def CallerMoves (t : Nat) (s s' : Sys) : Prop := Step s s' ∧ s.pc t ≠ .out ∧ s.pc t ≠ .ret ∧ (∀ v, s.pc t ≠ .asleep v) ∧ s'.pc t ≠ s.pc t

/-- A fair execution in which threadpool_schedule_work_item never fails: every thread that can go on all the time does so in the end, the threadpool
starts the items given to it, and calls of worker_func return. -/
structure FairRun (σ : Nat → Sys) : Prop where
  run : Run Reach Step σ
  never : ∀ i, (σ i).failed = false
  worker : ∀ w, Fair (WorkerMoves w) σ
  pool : Fair PoolStarts σ
  caller : ∀ t, Fair (CallerMoves t) σ

variable {σ : Nat → Sys}

/-- What holds at any time. -/
structure Inv3 (s : Sys) : Prop where
  ok : s.failed = false
  inv : Inv s
  inv2 : Inv2 s
  off : ∃ w, s.wpc w = .off

/-- Only finitely many threads have ever run the item. -/
theorem finitely_many {s : Sys} (h : Reach s) : ∃ N, ∀ w, N ≤ w → s.wpc w = .off := by
  induction h with
  | init => exact ⟨0, fun _ _ => rfl⟩
  | step h st ih =>
    obtain ⟨N, hN⟩ := ih
    have : ∀ (f : Nat → WPc) (t : Nat) (v : WPc), (∀ u, N ≤ u → f u = .off) → ∀ u, max N (t + 1) ≤ u → upd f t v u = .off := by
      intro f t v hf u hu
      rw [upd_ne _ _ (by omega)]; exact hf u (by omega)
    cases st
    case item t _ _ => exact ⟨_, this _ t _ hN⟩
    case run t _ => exact ⟨_, this _ t _ hN⟩
    case runEnd t _ => exact ⟨_, this _ t _ hN⟩
    case toIdle t _ _ => exact ⟨_, this _ t _ hN⟩
    case notToIdle t _ _ => exact ⟨_, this _ t _ hN⟩
    case exit t _ => exact ⟨_, this _ t _ hN⟩
    case again t _ _ => exact ⟨_, this _ t _ hN⟩
    case notAgain t _ _ => exact ⟨_, this _ t _ hN⟩
    case loop t _ => exact ⟨_, this _ t _ hN⟩
    all_goals exact ⟨N, hN⟩

theorem FairRun.reach (h : FairRun σ) (i : Nat) : Reach (σ i) := h.run.reach (fun _ _ r st => r.step st) i

theorem FairRun.inv (h : FairRun σ) (i : Nat) : Inv3 (σ i) := by
  obtain ⟨i1, i2⟩ := inv_of_reach (h.reach i)
  obtain ⟨N, hN⟩ := finitely_many (h.reach i)
  exact ⟨h.never i, i1, i2 (h.never i), N, hN N (Nat.le_refl N)⟩

/-! ### A request is served -/

set_option maxHeartbeats 4000000 in
theorem served0 (h : FairRun σ) (w n : Nat) : LeadsTo σ (fun s => s.wpc w = .start ∧ n ≤ s.runs) (fun s => n < s.runs) :=
  ensures h.inv h.run.next (h.worker w)
    (fun s s' hi ⟨hp, hn⟩ st => by cases st <;> simp only [upd_apply] at * <;> grind)
    (fun s hi ⟨hp, _⟩ => ⟨_, .run s w hp, by rw [hp]; simp, by simp [hp]⟩)
    (fun s s' hi ⟨hp, hn⟩ ⟨st, _, hm⟩ => by cases st <;> simp only [upd_apply] at * <;> grind)

set_option maxHeartbeats 4000000 in
theorem served1a (h : FairRun σ) (n : Nat) : LeadsTo σ (fun s => 0 < s.items ∧ n ≤ s.runs) (fun s => n < s.runs) := by
  have : LeadsTo σ (fun s => 0 < s.items ∧ n ≤ s.runs) (fun s => ∃ w, s.wpc w = .start ∧ n ≤ s.runs) :=
    ensures h.inv h.run.next h.pool
      (fun s s' hi ⟨hp, hn⟩ st => by
        by_cases e : ∃ w, s'.wpc w = .start ∧ n ≤ s'.runs
        · exact .inr e
        · left
          have g1 := hi.inv.one2
          cases st <;> simp only [upd_apply, Active] at * <;> grind)
      (fun s hi ⟨hp, _⟩ => by
        obtain ⟨w, hw⟩ := hi.off
        exact ⟨_, .item s w hw hp, by simp; omega⟩)
      (fun s s' hi ⟨hp, hn⟩ ⟨st, hm⟩ => by
        cases st <;> simp only [upd_apply] at * <;> grind)
  intro i hp
  obtain ⟨j, hj, w, hw⟩ := this i hp
  obtain ⟨k, hk, hr⟩ := served0 h w n j hw
  exact ⟨k, by omega, hr⟩

set_option maxHeartbeats 4000000 in
theorem served1b (h : FairRun σ) (w n : Nat) : LeadsTo σ (fun s => s.wpc w = .wakeLoop ∧ n ≤ s.runs) (fun s => n < s.runs) :=
  (ensures h.inv h.run.next (h.worker w)
    (fun s s' hi ⟨hp, hn⟩ st => by cases st <;> simp only [upd_apply] at * <;> grind)
    (fun s hi ⟨hp, _⟩ => ⟨_, .loop s w hp, by rw [hp]; simp, by simp [hp]⟩)
    (fun s s' hi ⟨hp, hn⟩ ⟨st, _, hm⟩ => by cases st <;> simp only [upd_apply] at * <;> grind)).trans (served0 h w n)

set_option maxHeartbeats 4000000 in
theorem served2a (h : FairRun σ) (t n : Nat) : LeadsTo σ (fun s => s.pc t = .sched ∧ n ≤ s.runs) (fun s => n < s.runs) :=
  (ensures2 h.inv h.run.next (h.caller t)
    (fun s s' hi hi' ⟨hp, hn⟩ st => by
      have := hi'.ok
      cases st <;> simp only [upd_apply, wakeAll] at * <;> grind)
    (fun s hi ⟨hp, _⟩ => ⟨_, .sched s t hp, by rw [hp]; simp, by rw [hp]; simp, by rw [hp]; simp, by simp [hp]⟩)
    (fun s s' hi hi' ⟨hp, hn⟩ ⟨st, _, _, _, hm⟩ => by
      have := hi'.ok
      cases st <;> simp only [upd_apply, wakeAll] at * <;> grind)).trans (served1a h n)

set_option maxHeartbeats 4000000 in
theorem served2b (h : FairRun σ) (w n : Nat) : LeadsTo σ (fun s => s.wpc w = .cas2 ∧ n ≤ s.runs) (fun s => n < s.runs) :=
  (ensures h.inv h.run.next (h.worker w)
    (fun s s' hi ⟨hp, hn⟩ st => by
      have := hi.inv.cas2 w
      cases st <;> simp only [upd_apply] at * <;> grind)
    (fun s hi ⟨hp, _⟩ => ⟨_, .again s w hp (hi.inv.cas2 w hp), by rw [hp]; simp, by simp [hp]⟩)
    (fun s s' hi ⟨hp, hn⟩ ⟨st, _, hm⟩ => by
      have := hi.inv.cas2 w
      cases st <;> simp only [upd_apply] at * <;> grind)).trans (served1b h w n)

set_option maxHeartbeats 4000000 in
theorem served3a (h : FairRun σ) (t n : Nat) : LeadsTo σ (fun s => s.pc t = .wakeSched ∧ n ≤ s.runs) (fun s => n < s.runs) :=
  (ensures h.inv h.run.next (h.caller t)
    (fun s s' hi ⟨hp, hn⟩ st => by cases st <;> simp only [upd_apply, wakeAll] at * <;> grind)
    (fun s hi ⟨hp, _⟩ => ⟨_, .wakeSched s t hp, by rw [hp]; simp, by rw [hp]; simp, by rw [hp]; simp, by simp [hp]⟩)
    (fun s s' hi ⟨hp, hn⟩ ⟨st, _, _, _, hm⟩ => by cases st <;> simp only [upd_apply, wakeAll] at * <;> grind)).trans (served2a h t n)

set_option maxHeartbeats 4000000 in
theorem served3b (h : FairRun σ) (w n : Nat) : LeadsTo σ (fun s => s.wpc w = .cas1 ∧ s.st = .requested ∧ n ≤ s.runs) (fun s => n < s.runs) :=
  (ensures h.inv h.run.next (h.worker w)
    (fun s s' hi ⟨hp, hs, hn⟩ st => by
      have g1 := hi.inv.one4 w
      cases st <;> simp only [upd_apply, Active] at * <;> grind)
    (fun s hi ⟨hp, hs, _⟩ => ⟨_, .notToIdle s w hp (by rw [hs]; simp), by rw [hp]; simp, by simp [hp]⟩)
    (fun s s' hi ⟨hp, hs, hn⟩ ⟨st, _, hm⟩ => by cases st <;> simp only [upd_apply] at * <;> grind)).trans (served2b h w n)

set_option maxHeartbeats 4000000 in
theorem served4 (h : FairRun σ) (w n : Nat) : LeadsTo σ (fun s => s.wpc w = .running ∧ s.st = .requested ∧ n ≤ s.runs) (fun s => n < s.runs) :=
  (ensures h.inv h.run.next (h.worker w)
    (fun s s' hi ⟨hp, hs, hn⟩ st => by
      have g1 := hi.inv.one4 w
      cases st <;> simp only [upd_apply, Active] at * <;> grind)
    (fun s hi ⟨hp, hs, _⟩ => ⟨_, .runEnd s w hp, by rw [hp]; simp, by simp [hp]⟩)
    (fun s s' hi ⟨hp, hs, hn⟩ ⟨st, _, hm⟩ => by cases st <;> simp only [upd_apply] at * <;> grind)).trans (served3b h w n)

/-- C69: when tp_worker_thread_schedule_process has returned OK, worker_func is called after the start of that call. -/
theorem request_served (h : FairRun σ) {i t : Nat} (ht : (σ i).pc t = .ret) : ∃ j, i ≤ j ∧ (σ i).snap t < (σ j).runs := by
  rcases request_kept_partial (h.reach i) (h.never i) ht with hr | hd
  · exact ⟨i, Nat.le_refl i, hr⟩
  · have hs : ∃ j, i ≤ j ∧ (σ i).runs < (σ j).runs := by
      rcases hd with ⟨w, e⟩ | (e | ⟨w, e⟩) | (⟨t, e⟩ | ⟨w, e, _⟩) | (⟨t, e⟩ | ⟨w, e, e2⟩) | ⟨w, e, e2⟩
      · exact served0 h w _ i ⟨e, Nat.le_refl _⟩
      · exact served1a h _ i ⟨e, Nat.le_refl _⟩
      · exact served1b h w _ i ⟨e, Nat.le_refl _⟩
      · exact served2a h t _ i ⟨e, Nat.le_refl _⟩
      · exact served2b h w _ i ⟨e, Nat.le_refl _⟩
      · exact served3a h t _ i ⟨e, Nat.le_refl _⟩
      · exact served3b h w _ i ⟨e, e2, Nat.le_refl _⟩
      · exact served4 h w _ i ⟨e, e2, Nat.le_refl _⟩
    obtain ⟨j, hj, hr⟩ := hs
    have := (h.inv i).inv.snaps t
    exact ⟨j, hj, by omega⟩

/-! ### A call that sleeps is woken -/

variable {t : Nat} {v : St}

set_option maxHeartbeats 4000000 in
/-- A caller is about to wake everybody. -/
theorem woken_by_caller (h : FairRun σ) (u : Nat) :
    LeadsTo σ (fun s => s.pc t = .asleep v ∧ (s.pc u = .wakeRet ∨ s.pc u = .wakeSched)) (fun s => s.pc t ≠ .asleep v) :=
  ensures h.inv h.run.next (h.caller u)
    (fun s s' hi ⟨hp, hu⟩ st => by cases st <;> simp only [upd_apply, wakeAll] at * <;> grind)
    (fun s hi ⟨hp, hu⟩ => by
      rcases hu with hu | hu
      · exact ⟨_, .wakeRet s u hu, by rw [hu]; simp, by rw [hu]; simp, by rw [hu]; simp, by simp [hu]⟩
      · exact ⟨_, .wakeSched s u hu, by rw [hu]; simp, by rw [hu]; simp, by rw [hu]; simp, by simp [hu]⟩)
    (fun s s' hi ⟨hp, hu⟩ ⟨st, _, _, _, hm⟩ => by cases st <;> simp only [upd_apply, wakeAll] at * <;> grind)

set_option maxHeartbeats 4000000 in
/-- The work item is about to wake everybody. -/
theorem woken_by_item (h : FairRun σ) (w : Nat) :
    LeadsTo σ (fun s => s.pc t = .asleep v ∧ (s.wpc w = .wakeExit ∨ s.wpc w = .wakeLoop)) (fun s => s.pc t ≠ .asleep v) :=
  ensures h.inv h.run.next (h.worker w)
    (fun s s' hi ⟨hp, hu⟩ st => by cases st <;> simp only [upd_apply, wakeAll] at * <;> grind)
    (fun s hi ⟨hp, hu⟩ => by
      rcases hu with hu | hu
      · exact ⟨_, .exit s w hu, by rw [hu]; simp, by simp [hu]⟩
      · exact ⟨_, .loop s w hu, by rw [hu]; simp, by simp [hu]⟩)
    (fun s s' hi ⟨hp, hu⟩ ⟨st, _, hm⟩ => by cases st <;> simp only [upd_apply, wakeAll] at * <;> grind)

theorem woken_changed (h : FairRun σ) : LeadsTo σ (fun s => s.pc t = .asleep v ∧ s.st ≠ v) (fun s => s.pc t ≠ .asleep v) := by
  intro i ⟨hp, hs⟩
  rcases (h.inv i).inv.wakes t v hp hs with ⟨u, hu⟩ | ⟨w, hw⟩
  · exact woken_by_caller h u i ⟨hp, hu⟩
  · exact woken_by_item h w i ⟨hp, hw⟩

/-- Steps of the work item until it changes the state. -/
def leftW : WPc → Nat
  | .wakeLoop => 5
  | .start => 4
  | .running => 3
  | .cas1 => 2
  | .cas2 => 1
  | _ => 0

set_option maxHeartbeats 4000000 in
theorem woken_active (h : FairRun σ) (w : Nat) : LeadsTo σ (fun s => s.pc t = .asleep v ∧ Active (s.wpc w)) (fun s => s.pc t ≠ .asleep v) := by
  have : LeadsTo σ (fun s => s.pc t = .asleep v ∧ s.st = v ∧ Active (s.wpc w)) (fun s => s.pc t ≠ .asleep v ∨ (s.pc t = .asleep v ∧ s.st ≠ v)) := by
    refine .rank (fun s => leftW (s.wpc w)) fun n => ensures h.inv h.run.next (h.worker w) ?_ ?_ ?_
    · intro s s' hi ⟨⟨hp, hv0, ha⟩, hn⟩ st
      have g1 := hi.inv.cas2 w
      have g2 := hi.inv.waits t v
      by_cases hp' : s'.pc t = .asleep v
      · by_cases e : s'.wpc w = s.wpc w
        · by_cases hv : s'.st = v
          · left; rw [e]; exact ⟨⟨hp', hv, ha⟩, hn⟩
          · exact .inr (.inl (.inr ⟨hp', hv⟩))
        · right
          by_cases hv : s'.st = v
          · right
            refine ⟨⟨hp', hv, ?_⟩, ?_⟩ <;> cases st <;> simp only [upd_apply, wakeAll, Active] at * <;> grind [leftW]
          · exact .inl (.inr ⟨hp', hv⟩)
      · exact .inr (.inl (.inl hp'))
    · intro s hi ⟨⟨hp, hv0, ha⟩, hn⟩
      have off : s.wpc w ≠ .off := by rcases ha with e | e | e | e | e <;> rw [e] <;> simp
      rcases ha with e | e | e | e | e
      · exact ⟨_, .run s w e, off, by simp [e]⟩
      · exact ⟨_, .runEnd s w e, off, by simp [e]⟩
      · by_cases hs : s.st = .executing
        · exact ⟨_, .toIdle s w e hs, off, by simp [e]⟩
        · exact ⟨_, .notToIdle s w e hs, off, by simp [e]⟩
      · exact ⟨_, .again s w e (hi.inv.cas2 w e), off, by simp [e]⟩
      · exact ⟨_, .loop s w e, off, by simp [e]⟩
    · intro s s' hi ⟨⟨hp, hv0, ha⟩, hn⟩ ⟨st, _, hm⟩
      have g1 := hi.inv.cas2 w
      have g2 := hi.inv.waits t v
      by_cases hp' : s'.pc t = .asleep v
      · by_cases hv : s'.st = v
        · right
          refine ⟨⟨hp', hv, ?_⟩, ?_⟩ <;> cases st <;> simp only [upd_apply, wakeAll, Active] at * <;> grind [leftW]
        · exact .inl (.inr ⟨hp', hv⟩)
      · exact .inl (.inl hp')
  intro i ⟨hp, ha⟩
  by_cases hs : (σ i).st = v
  · exact this.chain (woken_changed h) i ⟨hp, hs, ha⟩
  · exact woken_changed h i ⟨hp, hs⟩

set_option maxHeartbeats 4000000 in
theorem woken_items (h : FairRun σ) : LeadsTo σ (fun s => s.pc t = .asleep v ∧ 0 < s.items) (fun s => s.pc t ≠ .asleep v) := by
  have : LeadsTo σ (fun s => s.pc t = .asleep v ∧ 0 < s.items) (fun s => s.pc t ≠ .asleep v ∨ ∃ w, s.pc t = .asleep v ∧ Active (s.wpc w)) :=
    ensures h.inv h.run.next h.pool
      (fun s s' hi ⟨hp, hn⟩ st => by
        by_cases hp' : s'.pc t = .asleep v
        · by_cases e : ∃ w, s'.pc t = .asleep v ∧ Active (s'.wpc w)
          · exact .inr (.inr e)
          · left
            have g1 := hi.inv.one2
            cases st <;> simp only [upd_apply, wakeAll, Active] at * <;> grind
        · exact .inr (.inl hp'))
      (fun s hi ⟨hp, hn⟩ => by
        obtain ⟨w, hw⟩ := hi.off
        exact ⟨_, .item s w hw hn, by simp; omega⟩)
      (fun s s' hi ⟨hp, hn⟩ ⟨st, hm⟩ => by
        by_cases hp' : s'.pc t = .asleep v
        · right
          cases st <;> simp only [upd_apply, wakeAll, Active] at * <;> grind
        · exact .inl hp')
  intro i hp
  obtain ⟨j, hj, hq | ⟨w, hw⟩⟩ := this i hp
  · exact ⟨j, hj, hq⟩
  · obtain ⟨k, hk, hr⟩ := woken_active h w j hw
    exact ⟨k, by omega, hr⟩

set_option maxHeartbeats 4000000 in
theorem woken_sched (h : FairRun σ) (u : Nat) : LeadsTo σ (fun s => s.pc t = .asleep v ∧ s.pc u = .sched) (fun s => s.pc t ≠ .asleep v) :=
  (ensures2 h.inv h.run.next (h.caller u)
    (fun s s' hi hi' ⟨hp, hu⟩ st => by
      have := hi'.ok
      cases st <;> simp only [upd_apply, wakeAll] at * <;> grind)
    (fun s hi ⟨hp, hu⟩ => ⟨_, .sched s u hu, by rw [hu]; simp, by rw [hu]; simp, by rw [hu]; simp, by simp [hu]⟩)
    (fun s s' hi hi' ⟨hp, hu⟩ ⟨st, _, _, _, hm⟩ => by
      have := hi'.ok
      cases st <;> simp only [upd_apply, wakeAll] at * <;> grind)).chain (woken_items h)

/-- C69: a call of tp_worker_thread_schedule_process that sleeps is woken. -/
theorem sleeper_woken (h : FairRun σ) (t : Nat) (v : St) : LeadsTo σ (fun s => s.pc t = .asleep v) (fun s => s.pc t ≠ .asleep v) := by
  intro i hp
  by_cases hs : (σ i).st = v
  · have hv := (h.inv i).inv.waits t v (.inr hp)
    rcases (h.inv i).inv2.busy (by rw [hs]; exact hv) with hb | ⟨w, hw⟩ | ⟨u, hu | hu⟩
    · exact woken_items h i ⟨hp, hb⟩
    · exact woken_active h w i ⟨hp, hw⟩
    · exact woken_by_caller h u i ⟨hp, .inr hu⟩
    · exact woken_sched h u i ⟨hp, hu⟩
  · exact woken_changed h i ⟨hp, hs⟩

/-! ### Fair executions exist -/

/-- Nothing can go on. -/
def Quiet (s : Sys) : Prop := s.items = 0 ∧ (∀ w, s.wpc w = .off) ∧ ∀ t, s.pc t = .out ∨ s.pc t = .ret

theorem fair_run_exists {s e : Sys} (h : Reach s) (p : Path Step s e) (hf : e.failed = false) (q : Quiet e) :
    ∃ σ n, FairRun σ ∧ σ 0 = s ∧ ∀ j, n ≤ j → σ j = e := by
  obtain ⟨σ, n, r, h0, hn⟩ := exists_run (Step := Step) (fun _ _ r st => Reach.step r st) h p
  obtain ⟨q1, q2, q3⟩ := q
  have back : ∀ i k, (σ (i + k)).failed = false → (σ i).failed = false := by
    intro i k
    induction k with
    | zero => exact id
    | succ k ih =>
      intro y
      rcases r.next (i + k) with st | e
      · exact ih (failed_mono st y)
      · exact ih (by rw [← e]; exact y)
  refine ⟨σ, n, ⟨r, fun i => back i n (by rw [hn (i + n) (by omega)]; exact hf), fun w => fair_of_end hn ?_, fair_of_end hn ?_, fun t => fair_of_end hn ?_⟩, h0, hn⟩
  · rintro ⟨s', _, ho, _⟩; exact ho (q2 w)
  · rintro ⟨s', _, hi⟩; rw [q1] at hi; omega
  · rintro ⟨s', _, h1, h2, _⟩; exact (q3 t).elim h1 h2

/-- A request made while worker_func runs. -/
example : ∃ σ, FairRun σ ∧ (σ 0).pc 1 = .ret ∧ (σ 0).snap 1 = (σ 0).runs ∧ (σ 0).wpc 0 = .running := by
  have h1 := Reach.init.step (.call _ 0 (Or.inl rfl))
  have h2 := h1.step (.notExecuting _ 0 rfl rfl)
  have h3 := h2.step (.execute _ 0 rfl rfl)
  have h4 := h3.step (.wakeSched _ 0 rfl)
  have h5 := h4.step (.sched _ 0 rfl)
  have h6 := h5.step (.item _ 0 rfl (by simp [init]))
  have h7 := h6.step (.run _ 0 rfl)
  have h8 := h7.step (.call _ 1 (Or.inl rfl))
  have h9 := h8.step (.request _ 1 rfl rfl)
  have h10 := h9.step (.wakeRet _ 1 rfl)
  obtain ⟨σ, n, f, h0, _⟩ := fair_run_exists h10
    (.cons (.runEnd _ 0 rfl) <| .cons (.notToIdle _ 0 rfl (by decide)) <| .cons (.again _ 0 rfl rfl) <| .cons (.loop _ 0 rfl) <| .cons (.run _ 0 rfl) <|
      .cons (.runEnd _ 0 rfl) <| .cons (.toIdle _ 0 rfl rfl) <| .cons (.exit _ 0 rfl) <| .nil _)
    rfl ⟨rfl, by intro w; simp only [upd, init]; grind, by intro t; simp only [upd, init, wakeAll]; grind⟩
  exact ⟨σ, f, by rw [h0]; rfl, by rw [h0]; rfl, by rw [h0]; rfl⟩

/-- A call that sleeps while worker_func runs. -/
example : ∃ σ, FairRun σ ∧ (σ 0).pc 1 = .asleep .executing ∧ (σ 0).wpc 0 = .running := by
  have h1 := Reach.init.step (.call _ 1 (Or.inl rfl))
  have h2 := h1.step (.notExecuting _ 1 rfl rfl)
  have h3 := h2.step (.call _ 0 (Or.inl rfl))
  have h4 := h3.step (.notExecuting _ 0 rfl rfl)
  have h5 := h4.step (.execute _ 0 rfl rfl)
  have h6 := h5.step (.wakeSched _ 0 rfl)
  have h7 := h6.step (.sched _ 0 rfl)
  have h8 := h7.step (.item _ 0 rfl (by simp [init]))
  have h9 := h8.step (.run _ 0 rfl)
  have h10 := h9.step (.notIdle _ 1 rfl (by simp))
  have h11 := h10.step (.sleep _ 1 .executing rfl rfl)
  obtain ⟨σ, n, f, h0, _⟩ := fair_run_exists h11
    (.cons (.runEnd _ 0 rfl) <| .cons (.toIdle _ 0 rfl rfl) <| .cons (.exit _ 0 rfl) <| .cons (.changed _ 1 .executing rfl (by decide)) <|
      .cons (.notExecuting _ 1 rfl rfl) <| .cons (.execute _ 1 rfl rfl) <| .cons (.wakeSched _ 1 rfl) <| .cons (.sched _ 1 rfl) <|
      .cons (.item _ 0 rfl (by simp [init])) <| .cons (.run _ 0 rfl) <| .cons (.runEnd _ 0 rfl) <| .cons (.toIdle _ 0 rfl rfl) <| .cons (.exit _ 0 rfl) <| .nil _)
    rfl ⟨rfl, by intro w; simp only [upd, init]; grind, by intro t; simp only [upd, init, wakeAll]; grind⟩
  exact ⟨σ, f, by rw [h0]; rfl, by rw [h0]; rfl⟩

/-! ### A call may never return -/

/-- Two threads at the given places, the others out. -/
def two (a b : SPc) : Nat → SPc := fun u => if u = 0 then a else if u = 1 then b else .out

theorem two_0 (a b c : SPc) : upd (two a b) 0 c = two c b := by funext u; simp only [upd, two]; grind
theorem two_1 (a b c : SPc) : upd (two a b) 1 c = two a c := by funext u; simp only [upd, two]; grind

/-- Thread 0 of the threadpool at the given place, the others off. -/
def one (a : WPc) : Nat → WPc := fun u => if u = 0 then a else .off

theorem one_0 (a b : WPc) : upd (one a) 0 b = one b := by funext u; simp only [upd, one]; grind

/-- The ghosts of the two threads. -/
def snaps (n : Nat) : Nat → Nat := fun u => if u = 0 then n else if u = 1 then 1 else 0

theorem snaps_0 (n m : Nat) : upd (snaps n) 0 m = snaps m := by funext u; simp only [upd, snaps]; grind

theorem wake_two (a b : SPc) (ha : ∀ v, a ≠ .asleep v) (hb : ∀ v, b ≠ .asleep v) : wakeAll (two a b) = two a b := by
  funext u
  simp only [wakeAll, two]
  by_cases h0 : u = 0
  · cases a <;> grind
  · by_cases h1 : u = 1
    · cases b <;> grind
    · grind

/-- Thread 1 finds the state idle at its first exchange and executing at its second, because thread 0 makes a call in between; then the request of thread 0 is served before
thread 1 has looked again. `n` rounds are over; `k` is the place in the round. -/
def starving (n : Nat) : Nat → Sys
  | 0 => ⟨.idle, two .ret .cas2, one .off, 0, n + 1, snaps n, false⟩
  | 1 => ⟨.idle, two .cas1 .cas2, one .off, 0, n + 1, snaps (n + 1), false⟩
  | 2 => ⟨.idle, two .cas2 .cas2, one .off, 0, n + 1, snaps (n + 1), false⟩
  | 3 => ⟨.executing, two .wakeSched .cas2, one .off, 0, n + 1, snaps (n + 1), false⟩
  | 4 => ⟨.executing, two .wakeSched (.waitNot .executing), one .off, 0, n + 1, snaps (n + 1), false⟩
  | 5 => ⟨.executing, two .sched (.waitNot .executing), one .off, 0, n + 1, snaps (n + 1), false⟩
  | 6 => ⟨.executing, two .ret (.waitNot .executing), one .off, 1, n + 1, snaps (n + 1), false⟩
  | 7 => ⟨.executing, two .ret (.waitNot .executing), one .start, 0, n + 1, snaps (n + 1), false⟩
  | 8 => ⟨.executing, two .ret (.waitNot .executing), one .running, 0, n + 2, snaps (n + 1), false⟩
  | 9 => ⟨.executing, two .ret (.waitNot .executing), one .cas1, 0, n + 2, snaps (n + 1), false⟩
  | 10 => ⟨.idle, two .ret (.waitNot .executing), one .wakeExit, 0, n + 2, snaps (n + 1), false⟩
  | 11 => ⟨.idle, two .ret (.waitNot .executing), one .off, 0, n + 2, snaps (n + 1), false⟩
  | _ => ⟨.idle, two .ret .cas1, one .off, 0, n + 2, snaps (n + 1), false⟩

theorem starving_step (n k : Nat) (hk : k < 12) : Step (starving n k) (starving n (k + 1)) := by
  have : k = 0 ∨ k = 1 ∨ k = 2 ∨ k = 3 ∨ k = 4 ∨ k = 5 ∨ k = 6 ∨ k = 7 ∨ k = 8 ∨ k = 9 ∨ k = 10 ∨ k = 11 := by omega
  rcases this with e | e | e | e | e | e | e | e | e | e | e | e <;> subst e
  · have := Step.call (starving n 0) 0 (.inr rfl)
    simpa only [starving, two_0, two_1, one_0, snaps_0] using this
  · have := Step.notExecuting (starving n 1) 0 rfl rfl
    simpa only [starving, two_0, two_1, one_0, snaps_0] using this
  · have := Step.execute (starving n 2) 0 rfl rfl
    simpa only [starving, two_0, two_1, one_0, snaps_0] using this
  · have := Step.notIdle (starving n 3) 1 rfl (by simp [starving])
    simpa only [starving, two_0, two_1, one_0, snaps_0] using this
  · have := Step.wakeSched (starving n 4) 0 rfl
    simp only [starving] at this
    rw [wake_two _ _ (by simp) (by simp)] at this
    simpa only [starving, two_0, two_1, one_0, snaps_0] using this
  · have := Step.sched (starving n 5) 0 rfl
    simpa only [starving, two_0, two_1, one_0, snaps_0] using this
  · have := Step.item (starving n 6) 0 rfl (by simp [starving])
    simpa only [starving, two_0, two_1, one_0, snaps_0] using this
  · have := Step.run (starving n 7) 0 rfl
    simpa only [starving, two_0, two_1, one_0, snaps_0] using this
  · have := Step.runEnd (starving n 8) 0 rfl
    simpa only [starving, two_0, two_1, one_0, snaps_0] using this
  · have := Step.toIdle (starving n 9) 0 rfl rfl
    simpa only [starving, two_0, two_1, one_0, snaps_0] using this
  · have := Step.exit (starving n 10) 0 rfl
    simp only [starving] at this
    rw [wake_two _ _ (by simp) (by simp)] at this
    simpa only [starving, two_0, two_1, one_0, snaps_0] using this
  · have := Step.changed (starving n 11) 1 .executing rfl (by simp [starving])
    simpa only [starving, two_0, two_1, one_0, snaps_0] using this

theorem starving_again (n : Nat) : Step (starving n 12) (starving (n + 1) 0) := by
  have := Step.notExecuting (starving n 12) 1 rfl rfl
  simpa only [starving, two_0, two_1, one_0, snaps_0] using this

/-- The endless execution. -/
def starve (i : Nat) : Sys := starving (i / 13) (i % 13)

theorem starve_next (i : Nat) : Step (starve i) (starve (i + 1)) := by
  unfold starve
  by_cases h : i % 13 = 12
  · rw [h, show (i + 1) / 13 = i / 13 + 1 by omega, show (i + 1) % 13 = 0 by omega]; exact starving_again _
  · rw [show (i + 1) / 13 = i / 13 by omega, show (i + 1) % 13 = i % 13 + 1 by omega]; exact starving_step _ _ (by omega)

theorem starve_reach : Reach (starve 0) := by
  have h1 := Reach.init.step (.call _ 0 (.inl rfl))
  have h2 := h1.step (.notExecuting _ 0 rfl rfl)
  have h3 := h2.step (.execute _ 0 rfl rfl)
  have h4 := h3.step (.wakeSched _ 0 rfl)
  have h5 := h4.step (.sched _ 0 rfl)
  have h6 := h5.step (.item _ 0 rfl (by simp [init]))
  have h7 := h6.step (.run _ 0 rfl)
  have h8 := h7.step (.runEnd _ 0 rfl)
  have h9 := h8.step (.toIdle _ 0 rfl rfl)
  have h10 := h9.step (.exit _ 0 rfl)
  have h11 := h10.step (.call _ 1 (.inl rfl))
  have h12 := h11.step (.notExecuting _ 1 rfl rfl)
  have z : (fun _ => SPc.out) = two .out .out := by funext u; simp only [two]; grind
  have z' : (fun _ => WPc.off) = one .off := by funext u; simp only [one]; grind
  have z'' : upd (upd (fun _ => 0) 0 0) 1 1 = snaps 0 := by funext u; simp only [upd, snaps]; grind
  have w : ∀ a b, (∀ v, a ≠ .asleep v) → (∀ v, b ≠ .asleep v) → wakeAll (two a b) = two a b := wake_two
  simp only [init, z, z', two_0, two_1, one_0] at h12
  rw [w _ _ (by simp) (by simp)] at h12
  simp only [two_0, two_1] at h12
  rw [w _ _ (by simp) (by simp)] at h12
  simp only [two_0, two_1, Nat.zero_add, z''] at h12
  exact h12

/-- Finding: there is a fair execution, in which the threadpool takes every item and every run returns, in which a call of tp_worker_thread_schedule_process never returns. -/
theorem call_may_never_return : ∃ σ, FairRun σ ∧ ∀ i, (σ i).pc 1 ≠ .out ∧ (σ i).pc 1 ≠ .ret := by
  have at' : ∀ i k, k < 13 → starve (13 * i + k) = starving i k := by
    intro i k hk
    unfold starve
    rw [show (13 * i + k) / 13 = i by omega, show (13 * i + k) % 13 = k by omega]
  have cases13 : ∀ (P : Sys → Prop), (∀ n, P (starving n 0) ∧ P (starving n 1) ∧ P (starving n 2) ∧ P (starving n 3) ∧ P (starving n 4) ∧ P (starving n 5) ∧ P (starving n 6) ∧
      P (starving n 7) ∧ P (starving n 8) ∧ P (starving n 9) ∧ P (starving n 10) ∧ P (starving n 11) ∧ P (starving n 12)) → ∀ i, P (starve i) := by
    intro P h i
    have : i % 13 = 0 ∨ i % 13 = 1 ∨ i % 13 = 2 ∨ i % 13 = 3 ∨ i % 13 = 4 ∨ i % 13 = 5 ∨ i % 13 = 6 ∨ i % 13 = 7 ∨ i % 13 = 8 ∨ i % 13 = 9 ∨ i % 13 = 10 ∨ i % 13 = 11 ∨ i % 13 = 12 := by omega
    have hh := h (i / 13)
    unfold starve
    rcases this with e | e | e | e | e | e | e | e | e | e | e | e | e <;> rw [e]
    · exact hh.1
    · exact hh.2.1
    · exact hh.2.2.1
    · exact hh.2.2.2.1
    · exact hh.2.2.2.2.1
    · exact hh.2.2.2.2.2.1
    · exact hh.2.2.2.2.2.2.1
    · exact hh.2.2.2.2.2.2.2.1
    · exact hh.2.2.2.2.2.2.2.2.1
    · exact hh.2.2.2.2.2.2.2.2.2.1
    · exact hh.2.2.2.2.2.2.2.2.2.2.1
    · exact hh.2.2.2.2.2.2.2.2.2.2.2.1
    · exact hh.2.2.2.2.2.2.2.2.2.2.2.2
  have act : ∀ i k, k < 12 → ∀ A : Sys → Sys → Prop, (Step (starving i k) (starving i (k + 1)) → A (starving i k) (starving i (k + 1))) →
      ∃ j, i ≤ j ∧ A (starve j) (starve (j + 1)) := by
    intro i k hk A h
    refine ⟨13 * i + k, by omega, ?_⟩
    rw [Nat.add_assoc, at' i k (by omega), at' i (k + 1) (by omega)]
    exact h (starving_step i k hk)
  refine ⟨starve, ⟨⟨starve_reach, fun i => .inl (starve_next i)⟩, cases13 (fun s => s.failed = false) ?_, fun w i hi => ?_, fun i hi => ?_, fun t i hi => ?_⟩, cases13 (fun s => s.pc 1 ≠ .out ∧ s.pc 1 ≠ .ret) ?_⟩
  · intro n; simp [starving]
  · by_cases w0 : w = 0
    · subst w0
      exact act i 7 (by omega) _ fun st => ⟨st, by simp [starving, one], by simp [starving, one]⟩
    · obtain ⟨s', _, ho, _⟩ := hi i (Nat.le_refl i)
      exact absurd (cases13 (fun s => s.wpc w = .off) (by intro n; simp [starving, one, w0]) i) ho
  · exact act i 6 (by omega) _ fun st => ⟨st, by simp [starving]⟩
  · by_cases t0 : t = 0
    · subst t0
      exact act i 1 (by omega) _ fun st => ⟨st, by simp [starving, two], by simp [starving, two], by simp [starving, two], by simp [starving, two]⟩
    · by_cases t1 : t = 1
      · subst t1
        exact act i 3 (by omega) _ fun st => ⟨st, by simp [starving, two], by simp [starving, two], by simp [starving, two], by simp [starving, two]⟩
      · obtain ⟨s', _, ho, _⟩ := hi i (Nat.le_refl i)
        exact absurd (cases13 (fun s => s.pc t = .out) (by intro n; simp [starving, two, t0, t1]) i) ho
  · intro n; simp [starving, two]

end CUtil.TpWorker
