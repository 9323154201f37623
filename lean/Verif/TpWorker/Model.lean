import Verif.Conc
/-
tp_worker_thread.c: /repo/src/tp_worker_thread.c, schedule_process and the work item, as a transition system over any number of
scheduling threads, while the object is open (open and close are serialised with the calls by `sm`, c_pal).

The threadpool runs every scheduled item once, on some thread, in parallel with anything else. InterlockedHL_WaitForNotValue is a
loop that compares, and sleeps on the address while the value is the given one (wait_on_address compares and falls asleep
atomically, and may return for no reason); wake_by_address_all wakes all that sleep.
-/
namespace CUtil.TpWorker
open CUtil.Conc

/-- tp_worker_thread.c:23-28 -/
inductive St where
  | idle | executing | requested
  deriving DecidableEq, Repr

/-- A thread that calls tp_worker_thread_schedule_process. -/
inductive SPc where
  | out
  /-- :288, about to exchange EXECUTING for SCHEDULE_REQUESTED -/
  | cas1
  /-- :297, about to exchange IDLE for EXECUTING -/
  | cas2
  /-- :292 -/
  | wakeRet
  /-- :303 -/
  | wakeSched
  /-- :304, about to call threadpool_schedule_work_item -/
  | sched
  /-- :310, about to compare -/
  | waitNot (v : St)
  | asleep (v : St)
  /-- returned OK -/
  | ret
  deriving DecidableEq, Repr

/-- A threadpool thread. -/
inductive WPc where
  | off
  /-- :154, about to call worker_func -/
  | start
  /-- :154, in worker_func -/
  | running
  /-- :157, about to exchange EXECUTING for IDLE -/
  | cas1
  /-- :160 -/
  | wakeExit
  /-- :165, about to exchange SCHEDULE_REQUESTED for EXECUTING -/
  | cas2
  /-- :169 -/
  | wakeLoop
  deriving DecidableEq, Repr

structure Sys where
  st : St
  pc : Nat → SPc
  wpc : Nat → WPc
  /-- items scheduled and not started -/
  items : Nat
  /-- ghost: the number of calls of worker_func started -/
  runs : Nat
  /-- ghost: `runs` when the thread's last call of schedule_process started -/
  snap : Nat → Nat
  /-- ghost: threadpool_schedule_work_item has failed -/
  failed : Bool

/-- after tp_worker_thread_open (:176-244) -/
def init : Sys := ⟨.idle, fun _ => .out, fun _ => .off, 0, 0, fun _ => 0, false⟩

/-- wake_by_address_all -/
def wakeAll (pc : Nat → SPc) : Nat → SPc := fun u =>
  match pc u with
  | .asleep v => .waitNot v
  | p => p

inductive Step : Sys → Sys → Prop
  /-- :260-281 schedule_process is called -/
  | call (s : Sys) (t : Nat) (h : s.pc t = .out ∨ s.pc t = .ret) : Step s { s with pc := upd s.pc t .cas1, snap := upd s.snap t s.runs }
  /-- :288-291 -/
  | request (s : Sys) (t : Nat) (h : s.pc t = .cas1) (hs : s.st = .executing) : Step s { s with st := .requested, pc := upd s.pc t .wakeRet }
  /-- :288-291 -/
  | requested (s : Sys) (t : Nat) (h : s.pc t = .cas1) (hs : s.st = .requested) : Step s { s with pc := upd s.pc t .wakeRet }
  /-- :288, neither -/
  | notExecuting (s : Sys) (t : Nat) (h : s.pc t = .cas1) (hs : s.st = .idle) : Step s { s with pc := upd s.pc t .cas2 }
  /-- :297-303 -/
  | execute (s : Sys) (t : Nat) (h : s.pc t = .cas2) (hs : s.st = .idle) : Step s { s with st := .executing, pc := upd s.pc t .wakeSched }
  /-- :297, :307-310 -/
  | notIdle (s : Sys) (t : Nat) (h : s.pc t = .cas2) (hs : s.st ≠ .idle) : Step s { s with pc := upd s.pc t (.waitNot s.st) }
  /-- :310 the value is another: around the loop -/
  | changed (s : Sys) (t : Nat) (v : St) (h : s.pc t = .waitNot v) (hs : s.st ≠ v) : Step s { s with pc := upd s.pc t .cas1 }
  /-- :310 fall asleep -/
  | sleep (s : Sys) (t : Nat) (v : St) (h : s.pc t = .waitNot v) (hs : s.st = v) : Step s { s with pc := upd s.pc t (.asleep v) }
  /-- :310 wake for no reason -/
  | spurious (s : Sys) (t : Nat) (v : St) (h : s.pc t = .asleep v) : Step s { s with pc := upd s.pc t (.waitNot v) }
  /-- :292-293, :316-319 -/
  | wakeRet (s : Sys) (t : Nat) (h : s.pc t = .wakeRet) : Step s { s with pc := upd (wakeAll s.pc) t .ret }
  /-- :303 -/
  | wakeSched (s : Sys) (t : Nat) (h : s.pc t = .wakeSched) : Step s { s with pc := upd (wakeAll s.pc) t .sched }
  /-- :304-305, :316-319 -/
  | sched (s : Sys) (t : Nat) (h : s.pc t = .sched) : Step s { s with pc := upd s.pc t .ret, items := s.items + 1 }
  /-- :304-305, :316-319: scheduling fails; the result is not looked at -/
  | schedFails (s : Sys) (t : Nat) (h : s.pc t = .sched) : Step s { s with pc := upd s.pc t .ret, failed := true }
  /-- :140-151 the threadpool starts an item -/
  | item (s : Sys) (w : Nat) (h : s.wpc w = .off) (hi : 0 < s.items) : Step s { s with wpc := upd s.wpc w .start, items := s.items - 1 }
  /-- :154 worker_func is called -/
  | run (s : Sys) (w : Nat) (h : s.wpc w = .start) : Step s { s with wpc := upd s.wpc w .running, runs := s.runs + 1 }
  /-- :154 worker_func returns -/
  | runEnd (s : Sys) (w : Nat) (h : s.wpc w = .running) : Step s { s with wpc := upd s.wpc w .cas1 }
  /-- :157 -/
  | toIdle (s : Sys) (w : Nat) (h : s.wpc w = .cas1) (hs : s.st = .executing) : Step s { s with st := .idle, wpc := upd s.wpc w .wakeExit }
  /-- :157, another value -/
  | notToIdle (s : Sys) (w : Nat) (h : s.wpc w = .cas1) (hs : s.st ≠ .executing) : Step s { s with wpc := upd s.wpc w .cas2 }
  /-- :160-161 -/
  | exit (s : Sys) (w : Nat) (h : s.wpc w = .wakeExit) : Step s { s with pc := wakeAll s.pc, wpc := upd s.wpc w .off }
  /-- :165-166 -/
  | again (s : Sys) (w : Nat) (h : s.wpc w = .cas2) (hs : s.st = .requested) : Step s { s with st := .executing, wpc := upd s.wpc w .wakeLoop }
  /-- :165, another value: around the loop -/
  | notAgain (s : Sys) (w : Nat) (h : s.wpc w = .cas2) (hs : s.st ≠ .requested) : Step s { s with wpc := upd s.wpc w .start }
  /-- :169-170 -/
  | loop (s : Sys) (w : Nat) (h : s.wpc w = .wakeLoop) : Step s { s with pc := wakeAll s.pc, wpc := upd s.wpc w .start }

inductive Reach : Sys → Prop
  | init : Reach init
  | step {s s' : Sys} (h : Reach s) (st : Step s s') : Reach s'

end CUtil.TpWorker
