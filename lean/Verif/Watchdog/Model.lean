import Verif.Conc
/-
Model of /repo/src/watchdog.c as a transition system: one watchdog, the timer, the executions of `watchdog_expired_callback` on the
threadpool, and any number of threads calling `watchdog_reset` and, at the end, `watchdog_stop`.

Dependencies, as their documentation has them (sources not in /repo).  `sm`: opening is granted in the state created only, closing in the
state opened only and then waits until no execution is inside; `sm_exec_begin` is granted in the state opened only; `sm_open_end` and
`sm_close_end` complete the respective transition.  `THREADPOOL_TIMER` with period 0: once started or restarted it expires at most once
and then runs the callback on some thread, at any time later (the model has no clock: how long `timeout_ms` is does not matter, but the
value given to the timer is recorded); cancelling disarms it.  `Cfg.waits` says whether cancelling and disposing of the timer also waits for
executions that have been started already (as on Windows, WaitForThreadpoolTimerCallbacks).  `Cfg.serial` says whether the caller makes one
call at a time on a watchdog.  The caller must not call anything during or after `watchdog_stop`; the model does not allow it.

Ghost fields: `arms` counts how often the timer was started, `calls` the calls of the user's callback, `epoch` the calls since the timer
was started last, `failed` says that the last restart failed.
-/
namespace CUtil.Watchdog
open CUtil.Conc

structure Cfg where
  waits : Bool
  serial : Bool

/-- The states of the state machine. -/
inductive Sm
  | created
  | opening
  | opened
  | draining
  | closing
  deriving DecidableEq

/-- An execution of `watchdog_expired_callback`. -/
inductive Cb
  | idle
  /-- :44 started by the threadpool, about to ask. -/
  | start
  /-- :49 granted, about to call the user's callback. -/
  | granted
  /-- :51 the user's callback runs; then `sm_exec_end`. -/
  | running
  deriving DecidableEq

/-- A thread calling `watchdog_reset` or `watchdog_stop`. -/
inductive Pc
  | out
  /-- :153 reset: about to close. -/
  | rClose
  /-- :153 reset: closing granted once nobody is inside. -/
  | rDrain
  /-- :160 reset: about to cancel the timer. -/
  | rCancel
  /-- :160 reset: waiting for executions of the callback. -/
  | rWait
  /-- :162 reset: about to end the close. -/
  | rCloseEnd
  /-- :167 reset: about to open. -/
  | rOpen
  /-- :174 reset: about to end the open. -/
  | rOpenEnd
  /-- :177 reset: about to restart the timer. -/
  | rRestart
  /-- :180 reset: returning; says whether the timer was restarted. -/
  | rRet (restarted : Bool)
  /-- :192 stop: about to close. -/
  | sClose
  /-- :192 stop: closing granted once nobody is inside. -/
  | sDrain
  /-- :199 stop: about to end the close. -/
  | sCloseEnd
  /-- :203 stop: about to drop the timer. -/
  | sTimer
  /-- :203 stop: waiting for executions of the callback. -/
  | sWait
  /-- :206 stop: about to destroy the state machine. -/
  | sDestroy
  /-- :210 stop: about to free. -/
  | sFree
  /-- :212 stop: returned. -/
  | sDone
  deriving DecidableEq

structure Sys where
  sm : Sm
  /-- The timer runs, with this timeout. -/
  armed : Option Nat
  /-- `timeout_ms` of the watchdog. -/
  timeout : Nat
  cb : Nat → Cb
  pc : Nat → Pc
  /-- `watchdog_stop` was called. -/
  stopping : Bool
  /-- :206 the state machine is destroyed. -/
  smDead : Bool
  /-- :210 the watchdog is freed. -/
  freed : Bool
  /-- Something freed was used. -/
  bad : Bool
  arms : Nat
  calls : Nat
  epoch : Nat
  failed : Bool

/-- :78-125 `watchdog_start` succeeded: opened, timer started with the timeout. -/
def init (timeout : Nat) : Sys :=
  { sm := .opened, armed := some timeout, timeout := timeout, cb := fun _ => .idle, pc := fun _ => .out, stopping := false, smDead := false, freed := false,
    bad := false, arms := 1, calls := 0, epoch := 0, failed := false }

/-- One step. -/
inductive Step (cfg : Cfg) : Sys → Sys → Prop
  /-- The timer expires: the callback is started on thread `k`. -/
  | expire (s) (k v) : s.armed = some v → s.cb k = .idle → Step cfg s { s with armed := none, cb := upd s.cb k .start }
  /-- :44 granted. -/
  | cbGranted (s) (k) : s.cb k = .start → s.sm = .opened → Step cfg s { s with bad := s.bad || s.freed || s.smDead, cb := upd s.cb k .granted }
  /-- :44,53-56 refused. -/
  | cbRefused (s) (k) : s.cb k = .start → s.sm ≠ .opened → Step cfg s { s with bad := s.bad || s.freed || s.smDead, cb := upd s.cb k .idle }
  /-- :46-49 the user's callback is called. -/
  | cbCall (s) (k) : s.cb k = .granted →
      Step cfg s { s with bad := s.bad || s.freed, calls := s.calls + 1, epoch := s.epoch + 1, cb := upd s.cb k .running }
  /-- :51 -/
  | cbEnd (s) (k) : s.cb k = .running → Step cfg s { s with bad := s.bad || s.freed || s.smDead, cb := upd s.cb k .idle }
  /-- :141 -/
  | reset (s) (t) : s.pc t = .out → s.stopping = false → (cfg.serial = true → ∀ u, s.pc u = .out) → Step cfg s { s with pc := upd s.pc t .rClose }
  /-- :153 closing begins. -/
  | rCloseOk (s) (t) : s.pc t = .rClose → s.sm = .opened → Step cfg s { s with sm := .draining, pc := upd s.pc t .rDrain }
  /-- :153-156 refused. -/
  | rCloseNo (s) (t) : s.pc t = .rClose → s.sm ≠ .opened → Step cfg s { s with pc := upd s.pc t .rOpen }
  /-- :153 nobody is inside. -/
  | rDrain (s) (t) : s.pc t = .rDrain → (∀ k, s.cb k ≠ .granted ∧ s.cb k ≠ .running) → Step cfg s { s with sm := .closing, pc := upd s.pc t .rCancel }
  /-- :160 -/
  | rCancel (s) (t) : s.pc t = .rCancel → Step cfg s { s with armed := none, pc := upd s.pc t .rWait }
  | rWait (s) (t) : s.pc t = .rWait → (cfg.waits = true → ∀ k, s.cb k = .idle) → Step cfg s { s with pc := upd s.pc t .rCloseEnd }
  /-- :162 -/
  | rCloseEnd (s) (t) : s.pc t = .rCloseEnd → Step cfg s { s with sm := (if s.sm = .closing then .created else s.sm), pc := upd s.pc t .rOpen }
  /-- :167 -/
  | rOpenOk (s) (t) : s.pc t = .rOpen → s.sm = .created → Step cfg s { s with sm := .opening, pc := upd s.pc t .rOpenEnd }
  /-- :167-170 -/
  | rOpenNo (s) (t) : s.pc t = .rOpen → s.sm ≠ .created → Step cfg s { s with pc := upd s.pc t (.rRet false) }
  /-- :174 -/
  | rOpenEnd (s) (t) : s.pc t = .rOpenEnd → Step cfg s { s with sm := (if s.sm = .opening then .opened else s.sm), pc := upd s.pc t .rRestart }
  /-- :177 -/
  | rRestartOk (s) (t) : s.pc t = .rRestart →
      Step cfg s { s with armed := some s.timeout, arms := s.arms + 1, epoch := 0, failed := false, pc := upd s.pc t (.rRet true) }
  /-- :177 the restart fails: the result is ignored. -/
  | rRestartFail (s) (t) : s.pc t = .rRestart → Step cfg s { s with failed := true, pc := upd s.pc t (.rRet false) }
  /-- :180 -/
  | rRet (s) (t b) : s.pc t = .rRet b → Step cfg s { s with pc := upd s.pc t .out }
  /-- :182 stop is called when no other call is in progress. -/
  | stop (s) (t) : (∀ u, s.pc u = .out) → s.stopping = false → Step cfg s { s with stopping := true, pc := upd s.pc t .sClose }
  /-- :192 -/
  | sCloseOk (s) (t) : s.pc t = .sClose → s.sm = .opened → Step cfg s { s with sm := .draining, pc := upd s.pc t .sDrain }
  /-- :192-195 -/
  | sCloseNo (s) (t) : s.pc t = .sClose → s.sm ≠ .opened → Step cfg s { s with pc := upd s.pc t .sTimer }
  | sDrain (s) (t) : s.pc t = .sDrain → (∀ k, s.cb k ≠ .granted ∧ s.cb k ≠ .running) → Step cfg s { s with sm := .closing, pc := upd s.pc t .sCloseEnd }
  /-- :199 -/
  | sCloseEnd (s) (t) : s.pc t = .sCloseEnd → Step cfg s { s with sm := (if s.sm = .closing then .created else s.sm), pc := upd s.pc t .sTimer }
  /-- :203 -/
  | sTimer (s) (t) : s.pc t = .sTimer → Step cfg s { s with armed := none, pc := upd s.pc t .sWait }
  | sWait (s) (t) : s.pc t = .sWait → (cfg.waits = true → ∀ k, s.cb k = .idle) → Step cfg s { s with pc := upd s.pc t .sDestroy }
  /-- :206 -/
  | sDestroy (s) (t) : s.pc t = .sDestroy → Step cfg s { s with smDead := true, pc := upd s.pc t .sFree }
  /-- :209-210 -/
  | sFree (s) (t) : s.pc t = .sFree → Step cfg s { s with freed := true, pc := upd s.pc t .sDone }

/-- The states an execution can be in. -/
inductive Reach (cfg : Cfg) (timeout : Nat) : Sys → Prop
  | init : Reach cfg timeout (init timeout)
  | step {s s'} : Reach cfg timeout s → Step cfg s s' → Reach cfg timeout s'

/-- Any number of further steps. -/
inductive Steps (cfg : Cfg) : Sys → Sys → Prop
  | refl (s) : Steps cfg s s
  | step {s s' s''} : Steps cfg s s' → Step cfg s' s'' → Steps cfg s s''

/-! ## `watchdog_start`, which is alone with the watchdog -/

/-- What `watchdog_start` acquires and releases. -/
inductive Res
  | memory | sm | message | timer
  deriving DecidableEq

/-- :60-138 `watchdog_start`; the parameters say which of the calls succeed.  The result: whether a handle is returned, what was acquired and
what was released, in order. -/
def start (malloc smCreate openBegin timerStart : Bool) : Bool × List Res × List Res :=
  if malloc = false then (false, [], [])                                              -- :78-83
  else if smCreate = false then (false, [.memory], [.memory])                         -- :87-92,131
  else if openBegin = false then (false, [.memory, .sm], [.sm, .memory])              -- :96-100,129,131
  else if timerStart = false then (false, [.memory, .sm, .message], [.message, .sm, .memory])  -- :104-120,127,129,131
  else (true, [.memory, .sm, .message, .timer], [])                                   -- :123-125

/-- :182-212 what `watchdog_stop` releases. -/
def stopReleases : List Res := [.timer, .sm, .message, .memory]

end CUtil.Watchdog
