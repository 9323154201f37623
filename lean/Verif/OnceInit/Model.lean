import Verif.Conc
/-
Models of the two modules with a global, initialised once: /repo/src/watchdog_threadpool.c and
/repo/src/thread_notifications_dispatcher.c (with /repo/thread_notifications_lackey_dll/src/thread_notifications_lackey_dll.c:19-46), as transition
systems with any number of threads.

Objects are THANDLEs (dependency, assumed): reference counted, disposed of when the count becomes 0.  Copying one (`THANDLE_INITIALIZE`,
`THANDLE_ASSIGN`) reads the pointer and then increments the count of what it points to: two steps; doing so to an object that has been disposed of is
undefined behaviour (`bad`).  Objects get fresh numbers.
-/
namespace CUtil.OnceInit.Pool
open CUtil.Conc

/-- watchdog_threadpool.c:20-24 -/
inductive St
  | notInit | initializing | ok | deinitializing
  deriving DecidableEq

/-- Where a thread is (lines of watchdog_threadpool.c). -/
inductive Pc
  | out
  /-- :38 init: about to compare and exchange. -/
  | iCas
  /-- :49-60 init: about to create the execution engine and the threadpool. -/
  | iCreate
  /-- :70 init: about to store the threadpool. -/
  | iStore (p : Nat)
  /-- :72 init: about to say so. -/
  | iOk
  /-- :81 init: about to go back. -/
  | iBack
  /-- :83 init: returning; true for 0. -/
  | iRet (b : Bool)
  /-- :88 deinit: about to compare and exchange. -/
  | dCas
  /-- :96 deinit: about to drop the threadpool. -/
  | dDrop
  /-- :99 deinit: about to say so. -/
  | dBack
  /-- :107 get: about to read the state. -/
  | gRead
  /-- :117 get: about to read the pointer. -/
  | gLoad
  /-- :117 get: about to take a reference to `p`. -/
  | gInc (p : Nat)
  /-- :119 get: returning. -/
  | gRet (p : Option Nat)
  deriving DecidableEq

structure Sys where
  st : St
  /-- `g_watchdog.threadpool`. -/
  g : Option Nat
  refs : Nat → Nat
  /-- The references users have got from get. -/
  held : Nat → Nat
  fresh : Nat
  pc : Nat → Pc
  bad : Bool

/-- :30-31 -/
def init : Sys := { st := .notInit, g := none, refs := fun _ => 0, held := fun _ => 0, fresh := 0, pc := fun _ => .out, bad := false }

/-- The thread is between the two states: initialising or deinitialising. -/
def inBody : Pc → Bool
  | .iCreate | .iStore _ | .iOk | .iBack | .dDrop | .dBack => true
  | .out | .iCas | .iRet _ | .dCas | .gRead | .gLoad | .gInc _ | .gRet _ => false

/-- The thread is in get. -/
def inGet : Pc → Bool
  | .gRead | .gLoad | .gInc _ | .gRet _ => true
  | .out | .iCas | .iRet _ | .dCas | .iCreate | .iStore _ | .iOk | .iBack | .dDrop | .dBack => false

/-- The thread is in deinit. -/
def inDeinit : Pc → Bool
  | .dCas | .dDrop | .dBack => true
  | .gRead | .gLoad | .gInc _ | .gRet _ | .out | .iCas | .iRet _ | .iCreate | .iStore _ | .iOk | .iBack => false

/-- One step.  `excl` says that the callers do not let get and deinit overlap. -/
inductive Step (excl : Bool) : Sys → Sys → Prop
  /-- :34 -/
  | init (s) (t) : s.pc t = .out → Step excl s { s with pc := upd s.pc t .iCas }
  /-- :38 -/
  | iCasOk (s) (t) : s.pc t = .iCas → s.st = .notInit → Step excl s { s with st := .initializing, pc := upd s.pc t .iCreate }
  /-- :38-45 -/
  | iCasNo (s) (t) : s.pc t = .iCas → s.st ≠ .notInit → Step excl s { s with pc := upd s.pc t (.iRet false) }
  /-- :49-55,61-65 -/
  | iCreateFail (s) (t) : s.pc t = .iCreate → Step excl s { s with pc := upd s.pc t .iBack }
  /-- :60 -/
  | iCreateOk (s) (t) : s.pc t = .iCreate →
      Step excl s { s with refs := upd s.refs s.fresh 1, fresh := s.fresh + 1, pc := upd s.pc t (.iStore s.fresh) }
  /-- :70 -/
  | iStore (s) (t p) : s.pc t = .iStore p → Step excl s { s with g := some p, pc := upd s.pc t .iOk }
  /-- :72 -/
  | iOk (s) (t) : s.pc t = .iOk → Step excl s { s with st := .ok, pc := upd s.pc t (.iRet true) }
  /-- :81 -/
  | iBack (s) (t) : s.pc t = .iBack → Step excl s { s with st := .notInit, pc := upd s.pc t (.iRet false) }
  /-- :83 -/
  | iRet (s) (t b) : s.pc t = .iRet b → Step excl s { s with pc := upd s.pc t .out }
  /-- :86 -/
  | deinit (s) (t) : s.pc t = .out → (excl = true → ∀ u, inGet (s.pc u) = false) → Step excl s { s with pc := upd s.pc t .dCas }
  /-- :88 -/
  | dCasOk (s) (t) : s.pc t = .dCas → s.st = .ok → Step excl s { s with st := .deinitializing, pc := upd s.pc t .dDrop }
  /-- :88-93 -/
  | dCasNo (s) (t) : s.pc t = .dCas → s.st ≠ .ok → Step excl s { s with pc := upd s.pc t .out }
  /-- :96 -/
  | dDrop (s) (t p) : s.pc t = .dDrop → s.g = some p →
      Step excl s { s with g := none, refs := upd s.refs p (s.refs p - 1), bad := s.bad || decide (s.refs p = 0), pc := upd s.pc t .dBack }
  /-- :96 nothing to drop. -/
  | dDropNull (s) (t) : s.pc t = .dDrop → s.g = none → Step excl s { s with pc := upd s.pc t .dBack }
  /-- :99 -/
  | dBack (s) (t) : s.pc t = .dBack → Step excl s { s with st := .notInit, pc := upd s.pc t .out }
  /-- :103 -/
  | get (s) (t) : s.pc t = .out → (excl = true → ∀ u, inDeinit (s.pc u) = false) → Step excl s { s with pc := upd s.pc t .gRead }
  /-- :107-112 -/
  | gReadNo (s) (t) : s.pc t = .gRead → s.st ≠ .ok → Step excl s { s with pc := upd s.pc t (.gRet none) }
  | gReadOk (s) (t) : s.pc t = .gRead → s.st = .ok → Step excl s { s with pc := upd s.pc t .gLoad }
  /-- :117 -/
  | gLoad (s) (t p) : s.pc t = .gLoad → s.g = some p → Step excl s { s with pc := upd s.pc t (.gInc p) }
  | gLoadNull (s) (t) : s.pc t = .gLoad → s.g = none → Step excl s { s with pc := upd s.pc t (.gRet none) }
  /-- :117 -/
  | gInc (s) (t p) : s.pc t = .gInc p →
      Step excl s { s with refs := upd s.refs p (s.refs p + 1), held := upd s.held p (s.held p + 1), bad := s.bad || decide (s.refs p = 0), pc := upd s.pc t (.gRet (some p)) }
  /-- :119 -/
  | gRet (s) (t p) : s.pc t = .gRet p → Step excl s { s with pc := upd s.pc t .out }
  /-- A user drops a reference got from get. -/
  | drop (s) (p) : 0 < s.held p → Step excl s { s with held := upd s.held p (s.held p - 1), refs := upd s.refs p (s.refs p - 1), bad := s.bad || decide (s.refs p = 0) }

/-- The states an execution can be in. -/
inductive Reach (excl : Bool) : Sys → Prop
  | init : Reach excl init
  | step {s s'} : Reach excl s → Step excl s s' → Reach excl s'

end CUtil.OnceInit.Pool

namespace CUtil.OnceInit.Notif
open CUtil.Conc

/-- Where a thread is (lines of thread_notifications_dispatcher.c). -/
inductive Pc
  | out
  /-- :46 init: about to look at the state. -/
  | iCheck
  /-- :56 init: about to create the dispatcher. -/
  | iCreate
  /-- :66 init: about to store it. -/
  | iStore (p : Nat)
  /-- :69 init: about to set the callback of the lackey. -/
  | iLackey
  /-- :78 init: about to say so. -/
  | iSet
  /-- :85 init: about to drop the dispatcher. -/
  | iUndo
  /-- :90 init: returning; true for 0. -/
  | iRet (b : Bool)
  /-- :95 deinit: about to look at the state. -/
  | dCheck
  /-- :104 deinit: about to clear the callback of the lackey. -/
  | dLackey
  /-- :107 deinit: about to drop the dispatcher. -/
  | dDrop
  /-- :110 deinit: about to say so. -/
  | dSet
  deriving DecidableEq

structure Sys where
  /-- `thread_notifications_dispatcher.state` is INITIALIZED. -/
  st : Bool
  /-- `thread_notifications_call_dispatcher`. -/
  g : Option Nat
  /-- The lackey's `notifications_cb` is set. -/
  lackey : Bool
  /-- … by somebody else: `thread_notifications_lackey_dll_init_callback` is exported, anyone in the process can have called it. -/
  foreign : Bool
  /-- The dispatcher objects that exist. -/
  alive : Nat → Bool
  fresh : Nat
  pc : Nat → Pc

/-- :30-34 -/
def init : Sys := { st := false, g := none, lackey := false, foreign := false, alive := fun _ => false, fresh := 0, pc := fun _ => .out }

/-- Dropping what a pointer points to: nobody else has a reference in this model (get, which copies, is left out). -/
def dropObj (alive : Nat → Bool) : Option Nat → Nat → Bool
  | none => alive
  | some p => upd alive p false

/-- One step.  `serial` says that the callers make one call at a time. -/
inductive Step (serial : Bool) : Sys → Sys → Prop
  /-- :42 -/
  | init (s) (t) : s.pc t = .out → (serial = true → ∀ u, s.pc u = .out) → Step serial s { s with pc := upd s.pc t .iCheck }
  /-- :46-52 -/
  | iCheckNo (s) (t) : s.pc t = .iCheck → s.st = true → Step serial s { s with pc := upd s.pc t (.iRet false) }
  | iCheckOk (s) (t) : s.pc t = .iCheck → s.st = false → Step serial s { s with pc := upd s.pc t .iCreate }
  /-- :56-62 -/
  | iCreateFail (s) (t) : s.pc t = .iCreate → Step serial s { s with pc := upd s.pc t (.iRet false) }
  | iCreateOk (s) (t) : s.pc t = .iCreate →
      Step serial s { s with alive := upd s.alive s.fresh true, fresh := s.fresh + 1, pc := upd s.pc t (.iStore s.fresh) }
  /-- :66: the pointer is overwritten (`INITIALIZE_MOVE` does not drop what was there). -/
  | iStore (s) (t p) : s.pc t = .iStore p → Step serial s { s with g := some p, pc := upd s.pc t .iLackey }
  /-- :69, thread_notifications_lackey_dll.c:32-38: refused if a callback is set. -/
  | iLackeyNo (s) (t) : s.pc t = .iLackey → s.lackey = true → Step serial s { s with pc := upd s.pc t .iUndo }
  | iLackeyOk (s) (t) : s.pc t = .iLackey → s.lackey = false → Step serial s { s with lackey := true, pc := upd s.pc t .iSet }
  /-- :78-81 -/
  | iSet (s) (t) : s.pc t = .iSet → Step serial s { s with st := true, pc := upd s.pc t (.iRet true) }
  /-- :85 -/
  | iUndo (s) (t) : s.pc t = .iUndo → Step serial s { s with alive := dropObj s.alive s.g, g := none, pc := upd s.pc t (.iRet false) }
  /-- :90 -/
  | iRet (s) (t b) : s.pc t = .iRet b → Step serial s { s with pc := upd s.pc t .out }
  /-- thread_notifications_lackey_dll.c:19-46, somebody else's call; refused if a callback is set. -/
  | other (s) : s.lackey = false → Step serial s { s with lackey := true, foreign := true }
  /-- thread_notifications_lackey_dll.c:48-52, somebody else's call, made only by who set the callback. -/
  | otherOff (s) : s.foreign = true → Step serial s { s with lackey := false, foreign := false }
  /-- :93 -/
  | deinit (s) (t) : s.pc t = .out → (serial = true → ∀ u, s.pc u = .out) → Step serial s { s with pc := upd s.pc t .dCheck }
  /-- :95-100 -/
  | dCheckNo (s) (t) : s.pc t = .dCheck → s.st = false → Step serial s { s with pc := upd s.pc t .out }
  | dCheckOk (s) (t) : s.pc t = .dCheck → s.st = true → Step serial s { s with pc := upd s.pc t .dLackey }
  /-- :104 -/
  | dLackey (s) (t) : s.pc t = .dLackey → Step serial s { s with lackey := false, foreign := false, pc := upd s.pc t .dDrop }
  /-- :107 -/
  | dDrop (s) (t) : s.pc t = .dDrop → Step serial s { s with alive := dropObj s.alive s.g, g := none, pc := upd s.pc t .dSet }
  /-- :110 -/
  | dSet (s) (t) : s.pc t = .dSet → Step serial s { s with st := false, pc := upd s.pc t .out }

/-- The states an execution can be in. -/
inductive Reach (serial : Bool) : Sys → Prop
  | init : Reach serial init
  | step {s s'} : Reach serial s → Step serial s s' → Reach serial s'

end CUtil.OnceInit.Notif
