import Verif.Conc
/-
Thread notifications: /repo/thread_notifications_lackey_dll/src/thread_notifications_lackey_dll.c and the callback of
/repo/src/thread_notifications_dispatcher.c, as a transition system. One thread calls thread_notifications_dispatcher_init and _deinit (what happens when
several do is in Verif/OnceInit); any number of other threads start and end, and the loader calls DllMain for each of them.

Nobody else uses the lackey. The targets of the dispatcher
are in Verif/Dispatcher: here a dispatch is the access to the dispatcher at its beginning (tcall_dispatcher_ll.h:251-252) and at its end (:261).
-/
namespace CUtil.Lackey
open CUtil.Conc

/-! ### The lackey alone -/

/-- thread_notifications_lackey_dll.c:19-46 `thread_notifications_lackey_dll_init_callback` with the callback `f` (`none` is NULL): the new callback and whether it succeeds. -/
def initCallback (cell : Option Nat) (f : Option Nat) : Option Nat × Bool :=
  match f with
  | none => (cell, false)
  | some f => match cell with
    | none => (some f, true)
    | some g => (some g, false)

/-- thread_notifications_lackey_dll.c:48-52 `thread_notifications_lackey_dll_deinit_callback`. -/
def deinitCallback (_cell : Option Nat) : Option Nat := none

/-- The values of `fdwReason`, and any other. -/
inductive Why where
  | processAttach | processDetach | threadAttach | threadDetach | unknown
  deriving DecidableEq, Repr

/-- THREAD_NOTIFICATIONS_LACKEY_DLL_REASON -/
inductive Reason where
  | attach | detach
  deriving DecidableEq, Repr

/-- What `DllMain` does. -/
inductive Did where
  /-- it returns this, having called this callback -/
  | returned (result : Bool) (called : Option (Nat × Reason))
  | terminated
  deriving DecidableEq, Repr

/-- thread_notifications_lackey_dll.c:54-124 `DllMain`; `loggerOk`: logger_init succeeds. -/
def dllMain (cell : Option Nat) (why : Why) (loggerOk : Bool) : Did :=
  match why with
  | .unknown => .terminated
  | .processAttach => .returned loggerOk none
  | .threadAttach => .returned true (cell.map fun f => (f, .attach))
  | .threadDetach => .returned true (cell.map fun f => (f, .detach))
  | .processDetach => .returned true none

/-- A call of the lackey's functions. -/
inductive Op where
  | init (f : Option Nat)
  | deinit
  deriving DecidableEq, Repr

/-- The callback after the calls, the last one first in the list (every call is one atomic exchange). -/
def after : List Op → Option Nat
  | [] => none
  | .init f :: ops => (initCallback (after ops) f).1
  | .deinit :: ops => deinitCallback (after ops)

/-! ### With the dispatcher -/

/-- The thread that initialises and deinitialises. -/
inductive MPc where
  | out
  /-- thread_notifications_dispatcher.c:46 init: about to look at the state -/
  | iState
  /-- thread_notifications_dispatcher.c:56 init: about to create the dispatcher -/
  | iCreate
  /-- thread_notifications_dispatcher.c:66 init: about to store it -/
  | iStore (d : Nat)
  /-- thread_notifications_dispatcher.c:69 init: about to set the callback of the lackey -/
  | iLackey
  /-- thread_notifications_dispatcher.c:78 init: about to set the state -/
  | iSet
  /-- thread_notifications_dispatcher.c:95 deinit: about to look at the state -/
  | dState
  /-- thread_notifications_dispatcher.c:104 deinit: about to clear the callback of the lackey -/
  | dLackey
  /-- thread_notifications_dispatcher.c:107 deinit: about to release the dispatcher -/
  | dDrop
  /-- thread_notifications_dispatcher.c:110 deinit: about to set the state -/
  | dSet
  deriving DecidableEq, Repr

/-- A thread for which the loader calls DllMain. -/
inductive NPc where
  | out
  /-- thread_notifications_lackey_dll.c:90, thread_notifications_lackey_dll.c:105, about to read the callback -/
  | read (r : Reason)
  /-- thread_notifications_dispatcher.c:39 in the callback, about to read the dispatcher -/
  | get (r : Reason)
  /-- thread_notifications_dispatcher.c:39, about to dispatch -/
  | use (d : Nat) (r : Reason)
  /-- thread_notifications_dispatcher.c:39, dispatching -/
  | inside (d : Nat) (r : Reason)
  /-- thread_notifications_lackey_dll.c:97, thread_notifications_lackey_dll.c:111 returned -/
  | ret (r : Reason)
  deriving DecidableEq, Repr

structure Sys where
  /-- `notifications_cb` is set -/
  cell : Bool
  /-- `state` is INITIALIZED -/
  st : Bool
  /-- `thread_notifications_call_dispatcher` -/
  disp : Option Nat
  /-- the dispatcher object exists -/
  alive : Nat → Bool
  fresh : Nat
  main : MPc
  pc : Nat → NPc
  /-- a dispatcher that did not exist was used -/
  bad : Bool
  /-- ghost: what the thread's last notification dispatched, and to which dispatcher -/
  did : Nat → List (Nat × Reason)
  /-- ghost: no init or deinit was under way when the thread's last notification began, or has begun since -/
  quiet : Nat → Bool
  /-- ghost: the reason the loader gave in its last call of DllMain for the thread -/
  why : Nat → Reason

def init : Sys := ⟨false, false, none, fun _ => false, 0, .out, fun _ => .out, false, fun _ => [], fun _ => true, fun _ => .attach⟩

/-- The thread is in DllMain. -/
def Busy (p : NPc) : Prop := p ≠ .out ∧ ∀ r, p ≠ .ret r

/-- Deinitialising. -/
def Deinit (m : MPc) : Prop := m = .dState ∨ m = .dLackey ∨ m = .dDrop ∨ m = .dSet

/-- One step; with `calm`, threads do not start or end while deinit is under way. -/
inductive Step (calm : Bool) : Sys → Sys → Prop
  /-- thread_notifications_dispatcher.c:42 init is called -/
  | iCall (s : Sys) (h : s.main = .out) : Step calm s { s with main := .iState, quiet := fun _ => false }
  /-- thread_notifications_dispatcher.c:46-52 -/
  | iAlready (s : Sys) (h : s.main = .iState) (hs : s.st = true) : Step calm s { s with main := .out }
  | iNotYet (s : Sys) (h : s.main = .iState) (hs : s.st = false) : Step calm s { s with main := .iCreate }
  /-- thread_notifications_dispatcher.c:56-62 -/
  | iCreateFails (s : Sys) (h : s.main = .iCreate) : Step calm s { s with main := .out }
  | iCreate (s : Sys) (h : s.main = .iCreate) : Step calm s { s with main := .iStore s.fresh, alive := upd s.alive s.fresh true, fresh := s.fresh + 1 }
  /-- thread_notifications_dispatcher.c:66 -/
  | iStore (s : Sys) (d : Nat) (h : s.main = .iStore d) : Step calm s { s with main := .iLackey, disp := some d }
  /-- thread_notifications_dispatcher.c:69, thread_notifications_lackey_dll.c:32-44 (the callback is not set: nobody else uses the lackey) -/
  | iLackey (s : Sys) (h : s.main = .iLackey) : Step calm s { s with main := .iSet, cell := true }
  /-- thread_notifications_dispatcher.c:78-82 -/
  | iSet (s : Sys) (h : s.main = .iSet) : Step calm s { s with main := .out, st := true }
  /-- thread_notifications_dispatcher.c:93 deinit is called -/
  | dCall (s : Sys) (h : s.main = .out) (hc : calm = true → ∀ t, ¬ Busy (s.pc t)) : Step calm s { s with main := .dState, quiet := fun _ => false }
  /-- thread_notifications_dispatcher.c:95-100 -/
  | dNotInit (s : Sys) (h : s.main = .dState) (hs : s.st = false) : Step calm s { s with main := .out }
  | dIsInit (s : Sys) (h : s.main = .dState) (hs : s.st = true) : Step calm s { s with main := .dLackey }
  /-- thread_notifications_dispatcher.c:104, thread_notifications_lackey_dll.c:51 -/
  | dLackey (s : Sys) (h : s.main = .dLackey) : Step calm s { s with main := .dDrop, cell := false }
  /-- thread_notifications_dispatcher.c:107 the reference of the module is the last one -/
  | dDrop (s : Sys) (h : s.main = .dDrop) : Step calm s { s with main := .dSet, disp := none, alive := fun d => if s.disp = some d then false else s.alive d }
  /-- thread_notifications_dispatcher.c:107 somebody else holds a reference (thread_notifications_dispatcher_get_call_dispatcher) -/
  | dDropShared (s : Sys) (h : s.main = .dDrop) : Step calm s { s with main := .dSet, disp := none }
  /-- thread_notifications_dispatcher.c:110 -/
  | dSet (s : Sys) (h : s.main = .dSet) : Step calm s { s with main := .out, st := false }
  /-- thread_notifications_lackey_dll.c:54-64, thread_notifications_lackey_dll.c:87, thread_notifications_lackey_dll.c:102 the loader calls DllMain -/
  | notify (s : Sys) (t : Nat) (r : Reason) (h : s.pc t = .out ∨ ∃ r', s.pc t = .ret r') (hc : calm = true → ¬ Deinit s.main) :
      Step calm s { s with pc := upd s.pc t (.read r), did := upd s.did t [], quiet := upd s.quiet t (decide (s.main = .out)), why := upd s.why t r }
  /-- thread_notifications_lackey_dll.c:90-91, thread_notifications_lackey_dll.c:105-106 no callback; thread_notifications_lackey_dll.c:97, thread_notifications_lackey_dll.c:111 -/
  | noCallback (s : Sys) (t : Nat) (r : Reason) (h : s.pc t = .read r) (hc : s.cell = false) : Step calm s { s with pc := upd s.pc t (.ret r) }
  /-- thread_notifications_lackey_dll.c:90-93, thread_notifications_lackey_dll.c:105-108 the callback is called -/
  | callback (s : Sys) (t : Nat) (r : Reason) (h : s.pc t = .read r) (hc : s.cell = true) : Step calm s { s with pc := upd s.pc t (.get r) }
  /-- thread_notifications_dispatcher.c:39 the dispatcher is read: NULL, the dispatch fails (tcall_dispatcher_ll.h:241-246) -/
  | getNull (s : Sys) (t : Nat) (r : Reason) (h : s.pc t = .get r) (hd : s.disp = none) : Step calm s { s with pc := upd s.pc t (.ret r) }
  /-- thread_notifications_dispatcher.c:39 the dispatcher is read -/
  | get (s : Sys) (t : Nat) (r : Reason) (d : Nat) (h : s.pc t = .get r) (hd : s.disp = some d) : Step calm s { s with pc := upd s.pc t (.use d r) }
  /-- thread_notifications_dispatcher.c:39, tcall_dispatcher_ll.h:251-252 -/
  | use (s : Sys) (t : Nat) (r : Reason) (d : Nat) (h : s.pc t = .use d r) :
      Step calm s { s with pc := upd s.pc t (.inside d r), bad := s.bad || !s.alive d, did := upd s.did t (s.did t ++ [(d, r)]) }
  /-- thread_notifications_dispatcher.c:39, tcall_dispatcher_ll.h:261; thread_notifications_lackey_dll.c:97, thread_notifications_lackey_dll.c:111 -/
  | leave (s : Sys) (t : Nat) (r : Reason) (d : Nat) (h : s.pc t = .inside d r) : Step calm s { s with pc := upd s.pc t (.ret r), bad := s.bad || !s.alive d }

inductive Reach (calm : Bool) : Sys → Prop
  | init : Reach calm init
  | step {s s' : Sys} (h : Reach calm s) (st : Step calm s s') : Reach calm s'

end CUtil.Lackey
