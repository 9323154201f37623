import Verif.Tracker.Spec
import Verif.Conc

/-
/repo/src/object_lifetime_tracker.c with any number of threads, and with callbacks that may call the tracker again.

A thread is a stack of calls: the head is the call it is in, below it are the callbacks in which the calls were made. What a function does between
two operations on the lock or the calls of user functions is one step, with the effect proved in C33, C34 and C76 (`TrackerConc.race_free`
shows that nobody else looks at the lists meanwhile). The lists are one list of registrations, the most recent first, each with a number (ghost). The
lock (c_pal) is modelled by its contract: acquire_exclusive waits until nobody holds it, acquire_shared until nobody holds it exclusively. That calls
are refused for bad arguments (before the lock is touched) is not modelled again.
-/
namespace CUtil.TrackerConc
open CUtil.Tracker CUtil.Conc

/-- Where a call is. -/
inductive Frame where
  /-- object_lifetime_tracker.c:214, about to acquire exclusively -/
  | rLock (key : Nat) (o : Obj)
  /-- :216-314, in the exclusive section -/
  | rWork (key : Nat) (o : Obj)
  /-- :316, :321, `r` will be returned -/
  | rRel (key : Nat) (o : Obj) (r : Res)
  /-- :345 -/
  | uLock (key object : Nat)
  /-- :347-402 -/
  | uWork (key object : Nat)
  /-- :404, `r` will be returned -/
  | uRel (key object : Nat) (r : URes)
  /-- :419 -/
  | dLock (key : Nat)
  /-- :421-434 -/
  | dFind (key : Nat)
  /-- :439, about to remove the head of the list -/
  | dLoop (key : Nat)
  /-- :444, in the destroy function of registration `i` -/
  | dCall (key i : Nat) (o : Obj)
  /-- :456; `all`: the key was looked up -/
  | dRel (key : Nat) (all : Bool)
  /-- :481 -/
  | aLock (key object : Nat)
  /-- :483-517 -/
  | aFind (key object : Nat)
  /-- :524, in the action function, on the object of registration `i` -/
  | aCall (key object i : Nat) (arg : Nat)
  /-- :540, `r` will be returned; `back` records how the action function returned, with 0 or not, `none` if it was not called -/
  | aRel (key object : Nat) (back : Option Bool) (r : ARes)
deriving DecidableEq

/-- Inside the exclusive section. -/
def holdsX : Frame → Bool
  | .rWork .. | .rRel .. | .uWork .. | .uRel .. | .dFind .. | .dLoop .. | .dCall .. | .dRel .. => true
  | _ => false

/-- Inside the shared section. -/
def holdsS : Frame → Bool
  | .aFind .. | .aCall .. | .aRel .. => true
  | _ => false

/-- In a function of the user. -/
def inUser : Frame → Bool
  | .dCall .. | .aCall .. => true
  | _ => false

/-- The first statement of the calls. -/
def isCall : Frame → Bool
  | .rLock .. | .uLock .. | .dLock .. | .aLock .. => true
  | _ => false

/-- After the exclusive lock is acquired (:214, :345, :419). -/
def entersX : Frame → Option Frame
  | .rLock k o => some (.rWork k o)
  | .uLock k o => some (.uWork k o)
  | .dLock k => some (.dFind k)
  | _ => none

/-- About to release the exclusive lock (:316, :321, :404, :456). -/
def leavesX : Frame → Bool
  | .rRel .. | .uRel .. | .dRel .. => true
  | _ => false

structure Sys where
  /-- the registrations, most recent first -/
  regs : List (Nat × Reg)
  excl : Option Nat
  /-- how many times each thread holds the lock shared -/
  shared : Nat → Nat
  st : Nat → List Frame
  /-- ghost: number of the next registration -/
  fresh : Nat
  /-- ghost: what was registered under each number -/
  given : Nat → Reg
  /-- ghost: the destroy functions called, in order -/
  log : List Nat
  /-- ghost: the registrations unregistered -/
  gone : List Nat

/-- A new tracker. -/
def start : Sys := ⟨[], none, fun _ => 0, fun _ => [], 0, fun _ => ⟨0, ⟨0, 0, 0⟩⟩, [], []⟩

inductive Step (S : Same) : Sys → Sys → Prop where
  /-- a thread calls a function of the tracker, perhaps from a callback -/
  | call (s) (t f rest) : s.st t = rest → isCall f = true → (∀ g, rest.head? = some g → inUser g = true) → Step S s { s with st := upd s.st t (f :: rest) }
  /-- object_lifetime_tracker.c:214, :345, :419 -/
  | acquire (s) (t f f' rest) : s.st t = f :: rest → entersX f = some f' → s.excl = none → (∀ u, s.shared u = 0) →
      Step S s { s with excl := some t, st := upd s.st t (f' :: rest) }
  /-- object_lifetime_tracker.c:216-299: registered -/
  | registerNew (s) (t key o rest r) : s.st t = .rWork key o :: rest → (∀ e ∈ s.regs, S.is key o.object e.2 = false) →
      r = (if s.regs.any (fun e => S.isKey key e.2) then .newObject else .newKey) →
      Step S s { s with regs := (s.fresh, ⟨key, o⟩) :: s.regs, fresh := s.fresh + 1, given := upd s.given s.fresh ⟨key, o⟩, st := upd s.st t (.rRel key o r :: rest) }
  /-- object_lifetime_tracker.c:303-307: there already -/
  | registerThere (s) (t key o rest e) : s.st t = .rWork key o :: rest → s.regs.find? (fun e => S.is key o.object e.2) = some e →
      Step S s { s with st := upd s.st t (.rRel key o .exists :: rest) }
  /-- object_lifetime_tracker.c:218-223, 252-257, 264-269, 277-282, 310-314: something fails -/
  | registerFails (s) (t key o rest) : s.st t = .rWork key o :: rest → Step S s { s with st := upd s.st t (.rRel key o .error :: rest) }
  /-- object_lifetime_tracker.c:347-402: unregistered -/
  | unregister (s) (t key object rest e) : s.st t = .uWork key object :: rest → s.regs.find? (fun e => S.is key object e.2) = some e →
      Step S s { s with regs := s.regs.eraseP (fun e => S.is key object e.2), gone := e.1 :: s.gone, st := upd s.st t (.uRel key object .ok :: rest) }
  /-- object_lifetime_tracker.c:357-361, 376-380: not found -/
  | unregisterNot (s) (t key object rest r) : s.st t = .uWork key object :: rest → s.regs.find? (fun e => S.is key object e.2) = none →
      r = (if s.regs.any (fun e => S.isKey key e.2) then .notFound else .keyNotFound) → Step S s { s with st := upd s.st t (.uRel key object r :: rest) }
  /-- object_lifetime_tracker.c:349-354, 368-373: something fails -/
  | unregisterFails (s) (t key object rest) : s.st t = .uWork key object :: rest → Step S s { s with st := upd s.st t (.uRel key object .error :: rest) }
  /-- object_lifetime_tracker.c:423-434: the lookup fails -/
  | lookupFails (s) (t key rest) : s.st t = .dFind key :: rest → Step S s { s with st := upd s.st t (.dRel key false :: rest) }
  /-- object_lifetime_tracker.c:423-436: the key is looked up; if it is not there the list is taken to be empty -/
  | lookup (s) (t key rest) : s.st t = .dFind key :: rest → Step S s { s with st := upd s.st t (.dLoop key :: rest) }
  /-- object_lifetime_tracker.c:439-444: the next object is taken off the list and its destroy function is called -/
  | destroyNext (s) (t key rest e) : s.st t = .dLoop key :: rest → s.regs.find? (fun e => S.isKey key e.2) = some e →
      Step S s { s with regs := s.regs.eraseP (fun e => S.isKey key e.2), log := s.log ++ [e.1], st := upd s.st t (.dCall key e.1 e.2.obj :: rest) }
  /-- object_lifetime_tracker.c:444-447: the destroy function returns -/
  | destroyBack (s) (t key i o rest) : s.st t = .dCall key i o :: rest → Step S s { s with st := upd s.st t (.dLoop key :: rest) }
  /-- object_lifetime_tracker.c:439, 450-452: no object is left -/
  | destroyEnd (s) (t key rest) : s.st t = .dLoop key :: rest → (∀ e ∈ s.regs, S.isKey key e.2 = false) →
      Step S s { s with st := upd s.st t (.dRel key true :: rest) }
  /-- object_lifetime_tracker.c:316, :321, :404, :456 -/
  | release (s) (t f rest) : s.st t = f :: rest → leavesX f = true → Step S s { s with excl := none, st := upd s.st t rest }
  /-- object_lifetime_tracker.c:481 -/
  | acquireShared (s) (t key object rest) : s.st t = .aLock key object :: rest → s.excl = none →
      Step S s { s with shared := upd s.shared t (s.shared t + 1), st := upd s.st t (.aFind key object :: rest) }
  /-- object_lifetime_tracker.c:483-524: found, the action function is called -/
  | actCall (s) (t key object rest e) : s.st t = .aFind key object :: rest → s.regs.find? (fun e => S.is key object e.2) = some e →
      Step S s { s with st := upd s.st t (.aCall key object e.1 e.2.obj.object :: rest) }
  /-- object_lifetime_tracker.c:494-499, 513-518: not found -/
  | actNot (s) (t key object rest r) : s.st t = .aFind key object :: rest → s.regs.find? (fun e => S.is key object e.2) = none →
      r = (if s.regs.any (fun e => S.isKey key e.2) then .objectNotFound else .keyNotFound) → Step S s { s with st := upd s.st t (.aRel key object none r :: rest) }
  /-- object_lifetime_tracker.c:486-491, 505-510: something fails -/
  | actFails (s) (t key object rest) : s.st t = .aFind key object :: rest → Step S s { s with st := upd s.st t (.aRel key object none .error :: rest) }
  /-- object_lifetime_tracker.c:524-534: the action function returns, with 0 if `ok` -/
  | actBack (s) (t key object i arg rest) (ok : Bool) : s.st t = .aCall key object i arg :: rest →
      Step S s { s with st := upd s.st t (.aRel key object (some ok) (if ok then .ok else .error) :: rest) }
  /-- object_lifetime_tracker.c:540 -/
  | releaseShared (s) (t key object b r rest) : s.st t = .aRel key object b r :: rest → Step S s { s with shared := upd s.shared t (s.shared t - 1), st := upd s.st t rest }

inductive Reach (S : Same) : Sys → Prop where
  | start : Reach S start
  | step {s s'} : Reach S s → Step S s s' → Reach S s'

/-- What may follow. -/
inductive Later (S : Same) : Sys → Sys → Prop where
  | refl (s) : Later S s s
  | step {s s' s''} : Later S s s' → Step S s' s'' → Later S s s''

end CUtil.TrackerConc
