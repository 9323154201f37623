import Verif.Watchdog.Model
/-
C45: the watchdog, for every interleaving of expiry, executions of the callback, reset and stop.
-/
namespace CUtil.Watchdog
open CUtil.Conc
set_option linter.unusedSimpArgs false
set_option linter.unusedVariables false

/-- The thread is in `watchdog_stop`, the timer not dropped yet. -/
def inStop : Pc → Bool
  | .sClose | .sDrain | .sCloseEnd | .sTimer | .sWait | .sDestroy | .sFree | .sDone => true
  | .out | .rClose | .rDrain | .rCancel | .rWait | .rCloseEnd | .rOpen | .rOpenEnd | .rRestart | .rRet _ => false

structure Inv (cfg : Cfg) (s : Sys) : Prop where
  one : s.stopping = true → ∀ t u, s.pc t ≠ .out → s.pc u ≠ .out → t = u
  st : ∀ t, inStop (s.pc t) = true → s.stopping = true
  st' : s.stopping = true → ∀ t, s.pc t = .out ∨ inStop (s.pc t) = true
  wt : ∀ t, s.pc t = .sWait → s.armed = none
  de : ∀ t, s.pc t = .sDestroy → s.armed = none ∧ (cfg.waits = true → ∀ k, s.cb k = .idle)
  fr : ∀ t, s.pc t = .sFree → s.armed = none ∧ (cfg.waits = true → ∀ k, s.cb k = .idle)
  dn : ∀ t, s.pc t = .sDone → s.armed = none ∧ (cfg.waits = true → ∀ k, s.cb k = .idle)
  fd : s.freed = true → ∃ t, s.pc t = .sDone
  sd : s.smDead = true → ∃ t, s.pc t = .sFree ∨ s.pc t = .sDone
  to : ∀ v, s.armed = some v → v = s.timeout
  bad : cfg.waits = true → s.bad = false

set_option maxHeartbeats 4000000 in
theorem inv_step {cfg s s'} (h : Inv cfg s) (st : Step cfg s s') : Inv cfg s' := by
  obtain ⟨h1, h2, h3, h4, h5, h6, h7, h8, h9, h10, h11⟩ := h
  cases st <;> constructor <;> simp only [upd] <;> grind [inStop]

theorem inv_reach {cfg v s} (r : Reach cfg v s) : Inv cfg s := by
  induction r with
  | init => constructor <;> simp [init, inStop]
  | step _ st ih => exact inv_step ih st

theorem Steps.reach {cfg v} {s s' : Sys} (st : Steps cfg s s') (r : Reach cfg v s) : Reach cfg v s' := by
  induction st with
  | refl => exact r
  | step _ st ih => exact ih.step st

/-- The user's callback is about to run or running. -/
def busy : Cb → Bool
  | .granted | .running => true
  | .idle | .start => false

/-- **C45**: once `watchdog_stop` has returned, no execution of the callback is in progress and none will start: the callback is never
called again. -/
theorem quiet_after_stop {cfg v} {s s' : Sys} (hw : cfg.waits = true) (r : Reach cfg v s) (t : Nat) (h : s.pc t = .sDone) (st : Steps cfg s s') :
    s'.calls = s.calls ∧ s'.armed = none ∧ ∀ k, s'.cb k = .idle := by
  have : s'.pc t = .sDone ∧ s'.calls = s.calls ∧ Reach cfg v s' := by
    induction st with
    | refl => exact ⟨h, rfl, r⟩
    | step _ st ih =>
      obtain ⟨h1, h2, h3⟩ := ih
      refine ⟨?_, ?_, h3.step st⟩
      · have := (inv_reach h3).st t (by rw [h1]; rfl)
        cases st <;> simp only [upd] <;> grind
      · have := ((inv_reach h3).dn t h1).2 hw
        cases st <;> first | exact h2 | (rename_i k hk; rw [this k] at hk; cases hk)
  have hd := (inv_reach this.2.2).dn t this.1
  exact ⟨this.2.1, hd.1, hd.2 hw⟩

/-- **C45**: nothing freed is used. -/
theorem no_use_after_free {cfg v} {s : Sys} (hw : cfg.waits = true) (r : Reach cfg v s) : s.bad = false := (inv_reach r).bad hw

/-- **C45**: the timer never runs with anything but the timeout of `watchdog_start`. -/
theorem timeout_kept {cfg v} {s : Sys} (r : Reach cfg v s) : s.timeout = v ∧ ∀ w, s.armed = some w → w = v := by
  have h : s.timeout = v := by
    induction r with
    | init => rfl
    | step _ st ih => cases st <;> exact ih
  exact ⟨h, fun w hw => by rw [← h]; exact (inv_reach r).to w hw⟩

/-! ### How often the callback is called -/

/-- The executions that may still call. -/
structure Cnt (s : Sys) (pend : List Nat) : Prop where
  nd : pend.Nodup
  mem : ∀ k, k ∈ pend ↔ s.cb k = .start ∨ s.cb k = .granted
  le : s.calls + pend.length + (if s.armed.isSome then 1 else 0) ≤ s.arms

theorem length_erase {k : Nat} {l : List Nat} (h : k ∈ l) : (l.erase k).length + 1 = l.length := by
  rw [List.length_erase_of_mem h]
  have : 0 < l.length := List.length_pos_of_mem h
  omega

theorem cnt_step {cfg s s'} {pend : List Nat} (h : Cnt s pend) (st : Step cfg s s') : ∃ pend', Cnt s' pend' := by
  obtain ⟨h1, h2, h3⟩ := h
  cases st with
  | expire k v ha hk =>
    refine ⟨k :: pend, ⟨List.nodup_cons.mpr ⟨?_, h1⟩, ?_, ?_⟩⟩
    · rw [h2]; simp [hk]
    · intro j; simp only [upd, List.mem_cons]; grind
    · rw [ha] at h3; simp at h3 ⊢; omega
  | cbGranted k hk hs => exact ⟨pend, ⟨h1, by intro j; simp only [upd]; grind, h3⟩⟩
  | cbRefused k hk hs =>
    have hm : k ∈ pend := (h2 k).mpr (Or.inl hk)
    have := length_erase hm
    refine ⟨pend.erase k, ⟨h1.erase k, ?_, ?_⟩⟩
    · intro j; rw [h1.mem_erase_iff]; simp only [upd]; grind
    · dsimp only; omega
  | cbCall k hk =>
    have hm : k ∈ pend := (h2 k).mpr (Or.inr hk)
    have := length_erase hm
    refine ⟨pend.erase k, ⟨h1.erase k, ?_, ?_⟩⟩
    · intro j; rw [h1.mem_erase_iff]; simp only [upd]; grind
    · dsimp only; omega
  | cbEnd k hk => exact ⟨pend, ⟨h1, by intro j; simp only [upd]; grind, h3⟩⟩
  | rCancel t hpc => exact ⟨pend, ⟨h1, h2, by simp; omega⟩⟩
  | sTimer t hpc => exact ⟨pend, ⟨h1, h2, by simp; omega⟩⟩
  | rRestartOk t hpc => exact ⟨pend, ⟨h1, h2, by simp; omega⟩⟩
  | _ => exact ⟨pend, ⟨h1, h2, h3⟩⟩

/-- **C45**: the callback is called at most once for every time the timer was started, whatever overlaps. -/
theorem calls_le_starts {cfg v} {s : Sys} (r : Reach cfg v s) : s.calls ≤ s.arms := by
  have : ∃ pend, Cnt s pend := by
    induction r with
    | init => exact ⟨[], ⟨by simp, by simp [init], by simp [init]⟩⟩
    | step _ st ih => obtain ⟨p, hp⟩ := ih; exact cnt_step hp st
  obtain ⟨p, hp⟩ := this
  have := hp.le
  omega

/-- The states the state machine goes through when calls do not overlap. -/
def smOf : Pc → Sm
  | .out | .rClose | .rRestart | .rRet _ | .sClose => .opened
  | .rDrain | .sDrain => .draining
  | .rCancel | .rWait | .rCloseEnd | .sCloseEnd => .closing
  | .rOpen | .sTimer | .sWait | .sDestroy | .sFree | .sDone => .created
  | .rOpenEnd => .opening

/-- The timer is cancelled and its executions are over. -/
def still : Pc → Bool
  | .rCloseEnd | .rOpen | .rOpenEnd | .rRestart => true
  | .out | .rClose | .rDrain | .rCancel | .rWait | .rRet _ | .sClose | .sDrain | .sCloseEnd | .sTimer | .sWait | .sDestroy | .sFree | .sDone => false

structure InvE (s : Sys) : Prop where
  one : ∀ t u, s.pc t ≠ .out → s.pc u ≠ .out → t = u
  sm0 : (∀ t, s.pc t = .out) → s.sm = .opened
  sm : ∀ t, s.pc t ≠ .out → s.sm = smOf (s.pc t)
  cw : ∀ t, s.pc t = .rWait → s.armed = none
  st : ∀ t, still (s.pc t) = true → s.armed = none ∧ ∀ k, s.cb k = .idle
  ar : s.armed.isSome = true → s.epoch = 0 ∧ ∀ k, s.cb k = .idle
  un : ∀ j k, s.cb j ≠ .idle → s.cb k ≠ .idle → j = k
  ep : ∀ k, s.cb k = .start ∨ s.cb k = .granted → s.epoch = 0
  le : s.epoch ≤ 1
  no : ∀ t, s.pc t = .rRet false → s.failed = true

set_option maxHeartbeats 4000000 in
theorem invE_step {cfg s s'} (hw : cfg.waits = true) (hs : cfg.serial = true) (h : InvE s) (st : Step cfg s s') : InvE s' := by
  obtain ⟨h1, h2, h3, h4, h5, h6, h7, h8, h9, h10⟩ := h
  cases st <;> constructor <;> simp only [upd] <;> grind [smOf, still]

theorem invE_reach {cfg v s} (hw : cfg.waits = true) (hs : cfg.serial = true) (r : Reach cfg v s) : InvE s := by
  induction r with
  | init => constructor <;> simp [init, still]
  | step _ st ih => exact invE_step hw hs ih st

/-- **C45**: between two starts of the timer the callback is called at most once, when calls on the watchdog do not overlap. -/
theorem at_most_once_per_start {cfg v} {s : Sys} (hw : cfg.waits = true) (hs : cfg.serial = true) (r : Reach cfg v s) : s.epoch ≤ 1 :=
  (invE_reach hw hs r).le

/-- **C45**: a reset re-arms the watchdog, unless the threadpool refuses to restart the timer; the state machine never gets in the way. -/
theorem reset_rearms {cfg v} {s : Sys} (hw : cfg.waits = true) (hs : cfg.serial = true) (r : Reach cfg v s) (t : Nat) :
    (s.pc t = .rRet false → s.failed = true) ∧
    (s.pc t = .rOpen → s.sm = .created) ∧ (s.pc t = .rClose → s.sm = .opened) := by
  have h := invE_reach hw hs r
  refine ⟨h.no t, fun e => ?_, fun e => ?_⟩
  · rw [h.sm t (by simp [e]), e]; rfl
  · rw [h.sm t (by simp [e]), e]; rfl

/-- **C45**: the step by which a reset succeeds starts the timer with the original timeout. -/
theorem restart_original_timeout {cfg v} {s s' : Sys} (r : Reach cfg v s) (st : Step cfg s s') (t : Nat) (h : s.pc t = .rRestart) (h' : s'.pc t = .rRet true) :
    s'.armed = some v ∧ s'.arms = s.arms + 1 := by
  have hv := (timeout_kept r).1
  cases st <;> simp only [upd] at h' ⊢ <;> grind

/-- The watchdog will fire, or has, or the threadpool refused. -/
def Live (s : Sys) : Prop := s.armed.isSome = true ∨ (∃ k, s.cb k = .start ∨ s.cb k = .granted) ∨ 1 ≤ s.epoch ∨ s.failed = true

/-- The thread owns a transition of the state machine. -/
def owns : Pc → Option Sm
  | .rDrain | .sDrain => some .draining
  | .rCancel | .rWait | .rCloseEnd | .sCloseEnd => some .closing
  | .rOpenEnd => some .opening
  | .out | .rClose | .rOpen | .rRestart | .rRet _ | .sClose | .sTimer | .sWait | .sDestroy | .sFree | .sDone => none

/-- What holds of the state machine even if resets overlap. -/
structure InvG (s : Sys) : Prop where
  ow : ∀ t m, owns (s.pc t) = some m → s.sm = m
  un : ∀ t u m n, owns (s.pc t) = some m → owns (s.pc u) = some n → t = u
  ti : ∀ t, s.pc t = .sTimer ∨ s.pc t = .sWait → s.sm ≠ .opened

set_option maxHeartbeats 4000000 in
theorem invG_step {cfg s s'} (hi : Inv cfg s) (h : InvG s) (st : Step cfg s s') : InvG s' := by
  obtain ⟨h1, h2, h3⟩ := h
  have i1 := hi.one
  have i2 := hi.st
  have i3 := hi.st'
  clear hi
  have ho : ∀ p, owns p ≠ some .opened ∧ owns p ≠ some .created := by intro p; cases p <;> simp [owns]
  cases st <;> constructor <;> simp only [upd] <;> grind [owns, inStop]

theorem invG_reach {cfg v s} (r : Reach cfg v s) : InvG s := by
  induction r with
  | init => constructor <;> simp [init, owns]
  | step r st ih => exact invG_step (inv_reach r) ih st

/-- Nothing `Live` speaks about changes. -/
theorem live_same {s s' : Sys} (h : Live s ∨ ∃ t, s.pc t = .rRestart) (e1 : s'.armed = s.armed) (e2 : s'.cb = s.cb) (e3 : s'.epoch = s.epoch) (e4 : s'.failed = s.failed)
    (e5 : ∀ t, s.pc t = .rRestart → s'.pc t = .rRestart) : Live s' ∨ ∃ t, s'.pc t = .rRestart := by
  unfold Live at *
  rw [e1, e2, e3, e4]
  rcases h with h | ⟨t, h⟩
  · exact Or.inl h
  · exact Or.inr ⟨t, e5 t h⟩

theorem live_step {cfg s s'} (hg : InvG s) (h : s.sm = .opened → Live s ∨ ∃ t, s.pc t = .rRestart) (st : Step cfg s s') :
    s'.sm = .opened → Live s' ∨ ∃ t, s'.pc t = .rRestart := by
  intro ho
  cases st with
  | expire k v ha hk => exact Or.inl (Or.inr (Or.inl ⟨k, by simp⟩))
  | cbGranted k hk hs => exact Or.inl (Or.inr (Or.inl ⟨k, by simp⟩))
  | cbRefused k hk hs => exact absurd ho hs
  | cbCall k hk => exact Or.inl (Or.inr (Or.inr (Or.inl (by simp))))
  | cbEnd k hk =>
    rcases h ho with (h1 | ⟨j, hj⟩ | h3) | h4
    · exact Or.inl (Or.inl h1)
    · refine Or.inl (Or.inr (Or.inl ⟨j, ?_⟩))
      have : j ≠ k := by rintro rfl; rw [hk] at hj; simp at hj
      simp only [upd_ne _ _ this]; exact hj
    · exact Or.inl (Or.inr (Or.inr h3))
    · exact Or.inr h4
  | rRestartOk t hpc => exact Or.inl (Or.inl rfl)
  | rRestartFail t hpc => exact Or.inl (Or.inr (Or.inr (Or.inr rfl)))
  | rOpenEnd t hpc => exact Or.inr ⟨t, by simp⟩
  | rDrain t hpc _ => cases ho
  | sDrain t hpc _ => cases ho
  | rCloseOk t hpc _ => cases ho
  | sCloseOk t hpc _ => cases ho
  | rOpenOk t hpc _ => cases ho
  | rCancel t hpc => have := hg.ow t .closing (by simp [hpc, owns]); rw [show s.sm = .opened from ho] at this; cases this
  | sTimer t hpc => exact absurd ho (hg.ti t (Or.inl hpc))
  | rCloseEnd t hpc =>
    have := hg.ow t .closing (by simp [hpc, owns])
    simp [this] at ho
  | sCloseEnd t hpc =>
    have := hg.ow t .closing (by simp [hpc, owns])
    simp [this] at ho
  | _ =>
    refine live_same (h ho) rfl rfl rfl rfl ?_
    intro u hu
    simp only [upd]
    grind

/-- **C45**: the watchdog does not silently die: whenever it is open (in particular when no call is in progress, if calls do not
overlap) the timer runs, or an execution of the callback is under way, or it has been called since the last start, or a reset is about to
restart the timer, or the threadpool refused to restart it. -/
theorem never_dead {cfg v} {s : Sys} (r : Reach cfg v s) (h : s.sm = .opened) : Live s ∨ ∃ t, s.pc t = .rRestart := by
  have : s.sm = .opened → Live s ∨ ∃ t, s.pc t = .rRestart := by
    clear h
    induction r with
    | init => exact fun _ => Or.inl (Or.inl rfl)
    | step r st ih => exact live_step (invG_reach r) ih st
  exact this h

/-- Between calls the watchdog is open. -/
theorem open_between_calls {cfg v} {s : Sys} (hw : cfg.waits = true) (hs : cfg.serial = true) (r : Reach cfg v s) (h : ∀ t, s.pc t = .out) : s.sm = .opened :=
  (invE_reach hw hs r).sm0 h

/-- **C45 (finding)**: a reset or stop made while the callback runs waits for it; made by the callback itself it waits for itself. -/
theorem waits_for_callback {cfg} {s s' : Sys} (st : Step cfg s s') (k t : Nat) (hk : s.cb k = .running) (ht : s.pc t = .rDrain ∨ s.pc t = .sDrain)
    : s'.pc t = s.pc t ∨ s'.cb k ≠ .running := by
  cases st <;> simp only [upd] <;> grind

/-- **C45**: the whole depends on the timer waiting for executions already started: if disposing of it did not, the callback could run on a
watchdog that has been freed. -/
theorem use_after_free_without_wait : ∃ s, Reach ⟨false, true⟩ 1000 s ∧ s.pc 0 = .sDone ∧ s.bad = true := by
  have h0 : Reach ⟨false, true⟩ 1000 _ := Reach.init
  have h1 := h0.step (.expire _ 0 1000 rfl rfl)
  have h2 := h1.step (.stop _ 0 (fun _ => rfl) rfl)
  have h3 := h2.step (.sCloseOk _ 0 (by simp) rfl)
  have h4 := h3.step (.sDrain _ 0 (by simp) (by intro k; simp only [upd, init]; grind))
  have h5 := h4.step (.sCloseEnd _ 0 (by simp))
  have h6 := h5.step (.sTimer _ 0 (by simp))
  have h7 := h6.step (.sWait _ 0 (by simp) (by simp))
  have h8 := h7.step (.sDestroy _ 0 (by simp))
  have h9 := h8.step (.sFree _ 0 (by simp))
  have h10 := h9.step (.cbRefused _ 0 (by simp) (by simp))
  exact ⟨_, h10, by simp, by simp⟩

/-- **C45 (finding)**: the result of `threadpool_timer_restart` is ignored: if it fails, reset returns (it has no result) and the watchdog,
open and looking healthy, never fires unless it is reset again: the timer does not run and nothing starts it. -/
theorem restart_failure_is_silent : ∃ s, Reach ⟨true, true⟩ 1000 s ∧ (∀ t, s.pc t = .out) ∧ s.sm = .opened ∧ s.armed = none ∧ (∀ k, s.cb k = .idle) ∧ s.calls = 0 := by
  have h0 : Reach ⟨true, true⟩ 1000 _ := Reach.init
  have h1 := h0.step (.reset _ 0 rfl rfl (fun _ _ => rfl))
  have h2 := h1.step (.rCloseOk _ 0 (by simp) rfl)
  have h3 := h2.step (.rDrain _ 0 (by simp) (by intro k; simp [init]))
  have h4 := h3.step (.rCancel _ 0 (by simp))
  have h5 := h4.step (.rWait _ 0 (by simp) (fun _ k => rfl))
  have h6 := h5.step (.rCloseEnd _ 0 (by simp))
  have h7 := h6.step (.rOpenOk _ 0 (by simp) (by simp))
  have h8 := h7.step (.rOpenEnd _ 0 (by simp))
  have h9 := h8.step (.rRestartFail _ 0 (by simp))
  have h10 := h9.step (.rRet _ 0 false (by simp))
  exact ⟨_, h10, by intro t; simp only [upd, init]; grind, by simp, rfl, fun _ => rfl, rfl⟩

/-! ### `watchdog_start` and `watchdog_stop`: resources -/

/-- **C45**: `watchdog_start` succeeds exactly if everything it calls does; failing, it has released everything it had acquired, each once;
succeeding, it has acquired exactly what `watchdog_stop` releases. -/
theorem start_spec (a b c d : Bool) :
    (start a b c d).1 = (a && b && c && d) ∧
    (∀ r, (start a b c d).1 = false → (start a b c d).2.1.count r = (start a b c d).2.2.count r) ∧
    (∀ r, (start a b c d).1 = true → (start a b c d).2.2 = [] ∧ (start a b c d).2.1.count r = stopReleases.count r) := by
  refine ⟨?_, ?_, ?_⟩ <;> cases a <;> cases b <;> cases c <;> cases d <;> simp [start, stopReleases] <;> intro r <;> cases r <;> rfl

/-! ## The theorems speak about executions that exist -/

/-- The timer expires, the callback is called; a reset re-arms; the callback is called again; then stop returns. -/
example : ∃ s, Reach ⟨true, true⟩ 1000 s ∧ s.pc 0 = .sDone ∧ s.calls = 2 ∧ s.arms = 2 := by
  have h0 : Reach ⟨true, true⟩ 1000 _ := Reach.init
  have g1 := h0.step (.expire _ 5 1000 rfl rfl)
  have g2 := g1.step (.cbGranted _ 5 (by simp) rfl)
  have g3 := g2.step (.cbCall _ 5 (by simp))
  have g4 := g3.step (.cbEnd _ 5 (by simp))
  have hi : ∀ k, upd (upd (upd (upd (init 1000).cb 5 .start) 5 .granted) 5 .running) 5 .idle k = .idle := by intro k; simp only [upd, init]; grind
  have h1 := g4.step (.reset _ 0 rfl rfl (fun _ _ => rfl))
  have h2 := h1.step (.rCloseOk _ 0 (by simp) rfl)
  have h3 := h2.step (.rDrain _ 0 (by simp) (by intro k; dsimp only; rw [hi k]; simp))
  have h4 := h3.step (.rCancel _ 0 (by simp))
  have h5 := h4.step (.rWait _ 0 (by simp) (fun _ k => hi k))
  have h6 := h5.step (.rCloseEnd _ 0 (by simp))
  have h7 := h6.step (.rOpenOk _ 0 (by simp) (by simp))
  have h8 := h7.step (.rOpenEnd _ 0 (by simp))
  have h9 := h8.step (.rRestartOk _ 0 (by simp))
  have h10 := h9.step (.rRet _ 0 true (by simp))
  have k1 := h10.step (.expire _ 6 1000 rfl (hi 6))
  have k2 := k1.step (.cbGranted _ 6 (by simp) (by simp))
  have k3 := k2.step (.cbCall _ 6 (by simp))
  have k4 := k3.step (.cbEnd _ 6 (by simp))
  have hj : ∀ k, upd (upd (upd (upd (upd (upd (upd (upd (init 1000).cb 5 .start) 5 .granted) 5 .running) 5 .idle) 6 .start) 6 .granted) 6 .running) 6 .idle k = .idle := by
    intro k; simp only [upd, init]; grind
  have l1 := k4.step (.stop _ 0 (by intro u; simp only [upd, init]; grind) rfl)
  have l2 := l1.step (.sCloseOk _ 0 (by simp) (by simp))
  have l3 := l2.step (.sDrain _ 0 (by simp) (by intro k; dsimp only; rw [hj k]; simp))
  have l4 := l3.step (.sCloseEnd _ 0 (by simp))
  have l5 := l4.step (.sTimer _ 0 (by simp))
  have l6 := l5.step (.sWait _ 0 (by simp) (fun _ k => hj k))
  have l7 := l6.step (.sDestroy _ 0 (by simp))
  have l8 := l7.step (.sFree _ 0 (by simp))
  exact ⟨_, l8, by simp, rfl, rfl⟩

/-- The callback runs while a stop waits. -/
example : ∃ s, Reach ⟨true, true⟩ 1000 s ∧ s.cb 5 = .running ∧ s.pc 0 = .sDrain := by
  have h0 : Reach ⟨true, true⟩ 1000 _ := Reach.init
  have g1 := h0.step (.expire _ 5 1000 rfl rfl)
  have g2 := g1.step (.cbGranted _ 5 (by simp) rfl)
  have g3 := g2.step (.cbCall _ 5 (by simp))
  have g4 := g3.step (.stop _ 0 (fun _ => rfl) rfl)
  have g5 := g4.step (.sCloseOk _ 0 (by simp) rfl)
  exact ⟨_, g5, by simp, by simp⟩

end CUtil.Watchdog
