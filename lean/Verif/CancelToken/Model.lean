import Verif.Conc
/-
Model of /repo/src/cancellation_token.c as a transition system: any number of threads call create's token with
`cancellation_token_cancel`, `cancellation_token_is_canceled`, `cancellation_token_register_notify` and drop registrations.

The dispatcher is used as `Verif.Dispatcher` proves it to behave (C42): registering appends to the list of targets and unregistering
removes the target, both impossible while a dispatch holds the lock; a dispatch calls the targets of the list one after the other.  The
state is read and written with interlocked operations, one step each.  NULL arguments are refused before any of this and left out.
Every call of `cancellation_token_register_notify` gets a number of its own, which names its callback.

Ghost fields, which no step depends on: `succ` counts the cancel calls that succeeded, `called` the calls of each callback, `before` are
the targets in the list when a cancel call succeeded in changing the state, `done` the targets called by dispatching, `phase` how far the
successful cancel call is (0: none, 1: state changed, 2: dispatching, 3: dispatched), `winner` its thread, `direct` the callbacks called
by `cancellation_token_register_notify` itself, `disposed` the registrations whose target has been removed, `snap` the targets when the
dispatch got the lock.
-/
namespace CUtil.CancelToken
open CUtil.Conc

/-- Where a thread is. -/
inductive Pc
  | out
  /-- :155 register_notify: about to read the state. -/
  | rRead (i : Nat)
  /-- :158 register_notify: cancelled already, about to call. -/
  | rCall (i : Nat)
  /-- :163 register_notify: about to allocate the registration. -/
  | rAlloc (i : Nat)
  /-- :172 register_notify: about to register the target. -/
  | rReg (i : Nat)
  /-- :195 register_notify: returning a registration. -/
  | rOk (i : Nat)
  /-- :195 register_notify: returning NULL. -/
  | rNull (i : Nat)
  /-- :56 the last reference to registration `i` was dropped: about to remove its target. -/
  | uRem (i : Nat)
  /-- :213 cancel: about to compare and exchange. -/
  | cCas
  /-- :223 cancel: about to dispatch. -/
  | cLock
  /-- :223 cancel: dispatching, `rest` still to be called. -/
  | cAt (rest : List Nat)
  /-- :230 cancel: returning 0. -/
  | cOk
  /-- :230 cancel: returning failure. -/
  | cFail
  /-- :124 is_canceled: about to read the state. -/
  | iRead
  /-- :137 is_canceled: returning. -/
  | iRet (b : Bool)
  deriving DecidableEq

structure Sys where
  canceled : Bool
  /-- The targets registered with the dispatcher. -/
  L : List Nat
  /-- Dispatches holding the dispatcher's lock. -/
  readers : Nat
  pc : Nat → Pc
  /-- The registration was returned and is still referenced. -/
  owned : Nat → Bool
  fresh : Nat
  succ : Nat
  called : Nat → Nat
  before : List Nat
  done : List Nat
  phase : Nat
  winner : Nat
  direct : Nat → Bool
  disposed : Nat → Bool
  snap : List Nat

/-- :63-109 the token as created: cancelled as asked for. -/
def init (c : Bool) : Sys :=
  { canceled := c, L := [], readers := 0, pc := fun _ => .out, owned := fun _ => false, fresh := 0, succ := 0, called := fun _ => 0, before := [],
    done := [], phase := 0, winner := 0, direct := fun _ => false, disposed := fun _ => false, snap := [] }

/-- The targets without `i`. -/
def without (L : List Nat) (i : Nat) : List Nat := L.filter (fun j => decide (j ≠ i))

/-- One step. -/
inductive Step : Sys → Sys → Prop
  /-- :140 -/
  | register (s) (t) : s.pc t = .out → Step s { s with fresh := s.fresh + 1, pc := upd s.pc t (.rRead s.fresh) }
  /-- :155-156 -/
  | rReadCanceled (s) (t i) : s.pc t = .rRead i → s.canceled = true → Step s { s with pc := upd s.pc t (.rCall i) }
  | rReadNot (s) (t i) : s.pc t = .rRead i → s.canceled = false → Step s { s with pc := upd s.pc t (.rAlloc i) }
  /-- :158 -/
  | rCall (s) (t i) : s.pc t = .rCall i →
      Step s { s with called := upd s.called i (s.called i + 1), direct := upd s.direct i true, pc := upd s.pc t (.rNull i) }
  /-- :163-168 allocation fails. -/
  | rAllocFail (s) (t i) : s.pc t = .rAlloc i → Step s { s with pc := upd s.pc t (.rNull i) }
  | rAllocOk (s) (t i) : s.pc t = .rAlloc i → Step s { s with pc := upd s.pc t (.rReg i) }
  /-- :172-177,189 the dispatcher fails (no memory): the registration is freed without its dispose function, :189. -/
  | rRegFail (s) (t i) : s.pc t = .rReg i → Step s { s with pc := upd s.pc t (.rNull i) }
  /-- :172,180-186 -/
  | rRegOk (s) (t i) : s.pc t = .rReg i → s.readers = 0 → Step s { s with L := s.L ++ [i], pc := upd s.pc t (.rOk i) }
  /-- :195 -/
  | rOk (s) (t i) : s.pc t = .rOk i → Step s { s with owned := upd s.owned i true, pc := upd s.pc t .out }
  | rNull (s) (t i) : s.pc t = .rNull i → Step s { s with pc := upd s.pc t .out }
  /-- The user drops the last reference of a registration: :51-61 runs. -/
  | drop (s) (t i) : s.pc t = .out → s.owned i = true → Step s { s with owned := upd s.owned i false, pc := upd s.pc t (.uRem i) }
  /-- :56 -/
  | uRem (s) (t i) : s.pc t = .uRem i → s.readers = 0 →
      Step s { s with L := without s.L i, disposed := upd s.disposed i true, pc := upd s.pc t .out }
  /-- :198 -/
  | cancel (s) (t) : s.pc t = .out → Step s { s with pc := upd s.pc t .cCas }
  /-- :213 the exchange takes place. -/
  | cCasOk (s) (t) : s.pc t = .cCas → s.canceled = false →
      Step s { s with canceled := true, succ := s.succ + 1, before := s.L, phase := 1, winner := t, pc := upd s.pc t .cLock }
  /-- :213-219 cancelled already. -/
  | cCasFail (s) (t) : s.pc t = .cCas → s.canceled = true → Step s { s with pc := upd s.pc t .cFail }
  /-- :223 the dispatcher acquires its lock. -/
  | cLock (s) (t) : s.pc t = .cLock → Step s { s with readers := s.readers + 1, snap := s.L, phase := 2, pc := upd s.pc t (.cAt s.L) }
  /-- :223 the dispatcher calls a target. -/
  | cCall (s) (t i rest) : s.pc t = .cAt (i :: rest) →
      Step s { s with called := upd s.called i (s.called i + 1), done := s.done ++ [i], pc := upd s.pc t (.cAt rest) }
  /-- :223 the dispatcher releases its lock. -/
  | cEnd (s) (t) : s.pc t = .cAt [] → Step s { s with readers := s.readers - 1, phase := 3, pc := upd s.pc t .cOk }
  /-- :230 -/
  | cOk (s) (t) : s.pc t = .cOk → Step s { s with pc := upd s.pc t .out }
  | cFail (s) (t) : s.pc t = .cFail → Step s { s with pc := upd s.pc t .out }
  /-- :111 -/
  | isCanceled (s) (t) : s.pc t = .out → Step s { s with pc := upd s.pc t .iRead }
  /-- :124-134 -/
  | iRead (s) (t) : s.pc t = .iRead → Step s { s with pc := upd s.pc t (.iRet s.canceled) }
  /-- :137 -/
  | iRet (s) (t b) : s.pc t = .iRet b → Step s { s with pc := upd s.pc t .out }

/-- The states an execution with a token created by `cancellation_token_create(c)` can be in. -/
inductive Reach (c : Bool) : Sys → Prop
  | init : Reach c (init c)
  | step {s s'} : Reach c s → Step s s' → Reach c s'

/-- Any number of further steps. -/
inductive Steps : Sys → Sys → Prop
  | refl (s) : Steps s s
  | step {s s' s''} : Steps s s' → Step s' s'' → Steps s s''

end CUtil.CancelToken
