import Verif.Conc
/-
worker_thread.c: /repo/src/worker_thread.c, open, close, schedule_process and the worker thread, as a transition system over any
number of scheduling threads and any number of times the object is opened and closed.

`sm` (c_pal): sm_open_begin is granted when closed, sm_close_begin when open, sm_exec_begin when open and no close has begun;
sm_close_begin returns when all executions granted before have ended. InterlockedHL_WaitForNotValue compares, and sleeps on the
address while the value is the given one (wait_on_address compares and falls asleep atomically, and may return for no reason);
wake_by_address_single wakes one sleeping thread if there is one. ThreadAPI_Create starts a thread; ThreadAPI_Join returns when it has ended.
-/
namespace CUtil.WorkerThread
open CUtil.Conc

/-- worker_thread.c:32-35 -/
inductive St where
  | idle | process | close
  deriving DecidableEq, Repr

/-- The state of `sm`. -/
inductive Sm where
  | closed | opening | opened | closing
  deriving DecidableEq, Repr

/-- A thread that calls worker_thread_schedule_process. -/
inductive SPc where
  | out
  /-- :258, about to exchange IDLE for PROCESS_ITEM -/
  | cas
  /-- :270 -/
  | wake
  /-- :276, about to call sm_exec_end, with the result OK -/
  | endOk
  /-- :276, with the result INVALID_STATE -/
  | endInvalid
  | retOk
  | retInvalid
  deriving DecidableEq, Repr

/-- A thread running worker_thread_func. -/
inductive WPc where
  /-- not created -/
  | none
  /-- :50, about to read the state -/
  | read
  /-- :60, about to compare -/
  | wait
  | asleep
  /-- :64, about to exchange PROCESS_ITEM for IDLE -/
  | cas
  /-- :67, about to call worker_func -/
  | start
  /-- :67, in worker_func -/
  | running
  | ended
  deriving DecidableEq, Repr

/-- The thread in worker_thread_open. -/
inductive OPc where
  | no
  /-- :187 -/
  | set
  /-- :190 -/
  | create
  /-- :203, about to call sm_open_end -/
  | endOk
  | endFail
  deriving DecidableEq, Repr

/-- The thread in worker_thread_close (or in worker_thread_destroy, :153-158). -/
inductive CPc where
  | no
  /-- :220, in sm_close_begin -/
  | drain
  /-- :134 -/
  | wake
  /-- :137 -/
  | join
  /-- :231, about to call sm_close_end -/
  | fin
  deriving DecidableEq, Repr

structure Sys where
  sm : Sm
  st : St
  pc : Nat → SPc
  wpc : Nat → WPc
  /-- the number of threads created -/
  threads : Nat
  opener : OPc
  closer : CPc
  /-- ghost: the number of calls of worker_func started -/
  runs : Nat
  /-- ghost: the number of times the object was opened -/
  epoch : Nat
  /-- ghost: `runs` when the thread's last call of schedule_process started -/
  snap : Nat → Nat
  /-- ghost: `epoch` then -/
  snapEpoch : Nat → Nat

/-- :78-122 after worker_thread_create -/
def init : Sys := ⟨.closed, .idle, fun _ => .out, fun _ => .none, 0, .no, .no, 0, 0, fun _ => 0, fun _ => 0⟩

/-- The thread is between sm_exec_begin and sm_exec_end. -/
def InExec (p : SPc) : Prop := p = .cas ∨ p = .wake ∨ p = .endOk ∨ p = .endInvalid

inductive Step : Sys → Sys → Prop
  /-- :179-187 sm_open_begin -/
  | openBegin (s : Sys) (h : s.sm = .closed) : Step s { s with sm := .opening, opener := .set, epoch := s.epoch + 1 }
  /-- :187 -/
  | openSet (s : Sys) (h : s.opener = .set) : Step s { s with st := .idle, opener := .create }
  /-- :190-200 ThreadAPI_Create succeeds -/
  | openCreate (s : Sys) (h : s.opener = .create) : Step s { s with wpc := upd s.wpc s.threads .read, threads := s.threads + 1, opener := .endOk }
  /-- :190-195 it fails -/
  | openFails (s : Sys) (h : s.opener = .create) : Step s { s with opener := .endFail }
  /-- :203 -/
  | openEnd (s : Sys) (h : s.opener = .endOk) : Step s { s with sm := .opened, opener := .no }
  /-- :203 -/
  | openEndFail (s : Sys) (h : s.opener = .endFail) : Step s { s with sm := .closed, opener := .no }
  /-- :220 sm_close_begin: no new executions -/
  | closeBegin (s : Sys) (h : s.sm = .opened) : Step s { s with sm := .closing, closer := .drain }
  /-- :220 it returns, when the executions have ended; :133 -/
  | closeSet (s : Sys) (h : s.closer = .drain) (hd : ∀ t, ¬ InExec (s.pc t)) : Step s { s with st := .close, closer := .wake }
  /-- :134 somebody sleeps -/
  | closeWake (s : Sys) (w : Nat) (h : s.closer = .wake) (hw : s.wpc w = .asleep) : Step s { s with wpc := upd s.wpc w .wait, closer := .join }
  /-- :134 nobody sleeps -/
  | closeWakeNone (s : Sys) (h : s.closer = .wake) (hw : ∀ w, s.wpc w ≠ .asleep) : Step s { s with closer := .join }
  /-- :137 the thread (`thread_handle`, the last one created) has ended -/
  | closeJoin (s : Sys) (h : s.closer = .join) (hw : s.wpc (s.threads - 1) = .ended) : Step s { s with closer := .fin }
  /-- :231 -/
  | closeEnd (s : Sys) (h : s.closer = .fin) : Step s { s with sm := .closed, closer := .no }
  /-- :249-256 sm_exec_begin is granted -/
  | call (s : Sys) (t : Nat) (h : s.pc t = .out ∨ s.pc t = .retOk ∨ s.pc t = .retInvalid) (ho : s.sm = .opened) :
      Step s { s with pc := upd s.pc t .cas, snap := upd s.snap t s.runs, snapEpoch := upd s.snapEpoch t s.epoch }
  /-- :249-253 it is not -/
  | refused (s : Sys) (t : Nat) (h : s.pc t = .out ∨ s.pc t = .retOk ∨ s.pc t = .retInvalid) (ho : s.sm ≠ .opened) :
      Step s { s with pc := upd s.pc t .retInvalid }
  /-- :258 -/
  | set (s : Sys) (t : Nat) (h : s.pc t = .cas) (hs : s.st = .idle) : Step s { s with st := .process, pc := upd s.pc t .wake }
  /-- :258 -/
  | isSet (s : Sys) (t : Nat) (h : s.pc t = .cas) (hs : s.st = .process) : Step s { s with pc := upd s.pc t .wake }
  /-- :258-266 -/
  | isClose (s : Sys) (t : Nat) (h : s.pc t = .cas) (hs : s.st = .close) : Step s { s with pc := upd s.pc t .endInvalid }
  /-- :270 somebody sleeps -/
  | wake (s : Sys) (t w : Nat) (h : s.pc t = .wake) (hw : s.wpc w = .asleep) : Step s { s with pc := upd s.pc t .endOk, wpc := upd s.wpc w .wait }
  /-- :270 nobody sleeps -/
  | wakeNone (s : Sys) (t : Nat) (h : s.pc t = .wake) (hw : ∀ w, s.wpc w ≠ .asleep) : Step s { s with pc := upd s.pc t .endOk }
  /-- :276 -/
  | endOk (s : Sys) (t : Nat) (h : s.pc t = .endOk) : Step s { s with pc := upd s.pc t .retOk }
  /-- :276 -/
  | endInvalid (s : Sys) (t : Nat) (h : s.pc t = .endInvalid) : Step s { s with pc := upd s.pc t .retInvalid }
  /-- :50-60 -/
  | readIdle (s : Sys) (w : Nat) (h : s.wpc w = .read) (hs : s.st = .idle) : Step s { s with wpc := upd s.wpc w .wait }
  /-- :50, :62 -/
  | readProcess (s : Sys) (w : Nat) (h : s.wpc w = .read) (hs : s.st = .process) : Step s { s with wpc := upd s.wpc w .cas }
  /-- :50, :69-76 -/
  | readClose (s : Sys) (w : Nat) (h : s.wpc w = .read) (hs : s.st = .close) : Step s { s with wpc := upd s.wpc w .ended }
  /-- :60 fall asleep -/
  | sleep (s : Sys) (w : Nat) (h : s.wpc w = .wait) (hs : s.st = .idle) : Step s { s with wpc := upd s.wpc w .asleep }
  /-- :60 return -/
  | noSleep (s : Sys) (w : Nat) (h : s.wpc w = .wait) (hs : s.st ≠ .idle) : Step s { s with wpc := upd s.wpc w .read }
  /-- :60 wake for no reason -/
  | spurious (s : Sys) (w : Nat) (h : s.wpc w = .asleep) : Step s { s with wpc := upd s.wpc w .wait }
  /-- :64 -/
  | taken (s : Sys) (w : Nat) (h : s.wpc w = .cas) (hs : s.st = .process) : Step s { s with st := .idle, wpc := upd s.wpc w .start }
  /-- :64, another value -/
  | notTaken (s : Sys) (w : Nat) (h : s.wpc w = .cas) (hs : s.st ≠ .process) : Step s { s with wpc := upd s.wpc w .start }
  /-- :67 worker_func is called -/
  | run (s : Sys) (w : Nat) (h : s.wpc w = .start) : Step s { s with wpc := upd s.wpc w .running, runs := s.runs + 1 }
  /-- :67 worker_func returns -/
  | runEnd (s : Sys) (w : Nat) (h : s.wpc w = .running) : Step s { s with wpc := upd s.wpc w .read }

inductive Reach : Sys → Prop
  | init : Reach init
  | step {s s' : Sys} (h : Reach s) (st : Step s s') : Reach s'

end CUtil.WorkerThread
