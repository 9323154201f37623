import Verif.Conc
import Verif.DList.Model
/-
Model of /repo/inc/c_util/tcall_dispatcher_ll.h (register, unregister, dispatch, free) as a transition system.

The shared memory is the doubly linked list of targets, link by link: `mem` is the heap of `Verif.DList`, the head of the list (field
`call_targets` of the dispatcher) is at address 0 and every target has its anchor at the address malloc returned.  `fn p` is what the
target at `p` has in `function_to_call` and `call_context` (one number for the pair).  Any number of calls may be in progress: a call is
identified by a number `t` (a thread, or a nested call made by a target of a thread) and `pc t` says how far it is.  The lock is the
reader/writer lock srw_lock_ll (dependency, assumed): `excl` is the call holding it exclusively, `shared t` says that `t` holds it shared.

Accesses to memory that is not allocated set `bad`.  Ghost fields, which no step depends on: `ident p` numbers the registrations (an
address may be used again after free), `hist` is the history of insertions and removals, `start t` is the history when the dispatch `t`
got the lock, `calls t` are the calls the dispatch `t` has made.

Simplifications: a list operation (`DList_InsertTailList`, ...) is one step, as it is made holding the lock exclusively; a target's
function is one step, during which it may make other calls, which are calls of their own here.  Arguments other than the context are
passed on unchanged and left out.
-/
namespace CUtil.Dispatcher
open CUtil.Conc

/-- Where a call is. -/
inductive Pc
  | out
  /-- :190 register: about to acquire the lock, target `p` filled in. -/
  | regLock (p : Nat)
  /-- :193 register: about to insert. -/
  | regIns (p : Nat)
  /-- :196 register: about to release. -/
  | regRel (p : Nat)
  /-- :201 register: returning `p`. -/
  | regRet (p : Nat)
  /-- :223 unregister: about to acquire the lock. -/
  | unLock (p : Nat)
  /-- :225 unregister: about to remove. -/
  | unRem (p : Nat)
  /-- :227 unregister: about to release. -/
  | unRel (p : Nat)
  /-- :229 unregister: about to free. -/
  | unFree (p : Nat)
  /-- :233 unregister of the registration `i`: returning 0. -/
  | unRet (i : Nat)
  /-- :251 dispatch: about to acquire the lock. -/
  | dLock
  /-- :252 dispatch: about to read the head. -/
  | dHead
  /-- :253-257 dispatch: `current_entry` is `p`, about to test it and call. -/
  | dAt (p : Nat)
  /-- :258 dispatch: the target at `p` has been called. -/
  | dNext (p : Nat)
  /-- :261 dispatch: about to release. -/
  | dRel
  /-- :265 dispatch: returning 0. -/
  | dRet
  deriving DecidableEq

/-- History: registration `i` of function `f` became effective, registration `i` was removed. -/
inductive Ev
  | reg (i f : Nat)
  | unreg (i : Nat)
  deriving DecidableEq

structure Sys where
  mem : DList.Heap
  fn : Nat → Nat
  excl : Option Nat
  shared : Nat → Bool
  pc : Nat → Pc
  /-- The handle `p` was returned by register and has not been passed to unregister. -/
  owned : Nat → Bool
  bad : Bool
  ident : Nat → Nat
  fresh : Nat
  hist : List Ev
  start : Nat → List Ev
  calls : Nat → List (Nat × Nat)

/-- :146 the list as `TCALL_DISPATCHER_LL_CREATE` leaves it: empty. -/
def init : Sys :=
  { mem := ⟨fun p => decide (p = 0), fun _ => 0, fun _ => 0⟩, fn := fun _ => 0, excl := none, shared := fun _ => false,
    pc := fun _ => .out, owned := fun _ => false, bad := false, ident := fun _ => 0, fresh := 0, hist := [], start := fun _ => [],
    calls := fun _ => [] }

/-- One step. -/
inductive Step : Sys → Sys → Prop
  /-- :177-187 register: malloc succeeds with an unused address, the target is filled in.  (malloc failing returns NULL without touching
  anything, :178-183.) -/
  | register (s) (t p f) : s.pc t = .out → s.mem.alive p = false →
      Step s { s with mem := ⟨upd s.mem.alive p true, s.mem.f, s.mem.b⟩, fn := upd s.fn p f, ident := upd s.ident p s.fresh, fresh := s.fresh + 1, pc := upd s.pc t (.regLock p) }
  /-- :190. -/
  | regLock (s) (t p) : s.pc t = .regLock p → s.excl = none → (∀ u, s.shared u = false) →
      Step s { s with excl := some t, pc := upd s.pc t (.regIns p) }
  /-- :193. -/
  | regIns (s) (t p m) : s.pc t = .regIns p → DList.insertTailList s.mem 0 p = C.ok m →
      Step s { s with mem := m, hist := s.hist ++ [.reg (s.ident p) (s.fn p)], pc := upd s.pc t (.regRel p) }
  | regInsBad (s) (t p) : s.pc t = .regIns p → DList.insertTailList s.mem 0 p = C.ub → Step s { s with bad := true }
  /-- :196. -/
  | regRel (s) (t p) : s.pc t = .regRel p → Step s { s with excl := none, pc := upd s.pc t (.regRet p) }
  /-- :201. -/
  | regRet (s) (t p) : s.pc t = .regRet p → Step s { s with owned := upd s.owned p true, pc := upd s.pc t .out }
  /-- :206 unregister is called, with a handle the caller owns: returned by register and not given to unregister before. -/
  | unregister (s) (t p) : s.pc t = .out → s.owned p = true → Step s { s with owned := upd s.owned p false, pc := upd s.pc t (.unLock p) }
  /-- :223. -/
  | unLock (s) (t p) : s.pc t = .unLock p → s.excl = none → (∀ u, s.shared u = false) →
      Step s { s with excl := some t, pc := upd s.pc t (.unRem p) }
  /-- :225. -/
  | unRem (s) (t p m r) : s.pc t = .unRem p → DList.removeEntryList s.mem p = C.ok (m, r) →
      Step s { s with mem := m, hist := s.hist ++ [.unreg (s.ident p)], pc := upd s.pc t (.unRel p) }
  | unRemBad (s) (t p) : s.pc t = .unRem p → DList.removeEntryList s.mem p = C.ub → Step s { s with bad := true }
  /-- :227. -/
  | unRel (s) (t p) : s.pc t = .unRel p → Step s { s with excl := none, pc := upd s.pc t (.unFree p) }
  /-- :229. -/
  | unFree (s) (t p) : s.pc t = .unFree p →
      Step s { s with mem := ⟨upd s.mem.alive p false, s.mem.f, s.mem.b⟩, bad := s.bad || !(s.mem.alive p), pc := upd s.pc t (.unRet (s.ident p)) }
  /-- :233. -/
  | unRet (s) (t i) : s.pc t = .unRet i → Step s { s with pc := upd s.pc t .out }
  /-- :238. -/
  | dispatch (s) (t) : s.pc t = .out → Step s { s with calls := upd s.calls t [], pc := upd s.pc t .dLock }
  /-- :251. -/
  | dLock (s) (t) : s.pc t = .dLock → s.excl = none →
      Step s { s with shared := upd s.shared t true, start := upd s.start t s.hist, pc := upd s.pc t .dHead }
  /-- :252. -/
  | dHead (s) (t p) : s.pc t = .dHead → DList.getF s.mem 0 = C.ok p → Step s { s with pc := upd s.pc t (.dAt p) }
  | dHeadBad (s) (t) : s.pc t = .dHead → DList.getF s.mem 0 = C.ub → Step s { s with bad := true }
  /-- :253 the loop ends. -/
  | dEnd (s) (t) : s.pc t = .dAt 0 → Step s { s with pc := upd s.pc t .dRel }
  /-- :255-257 the target is called. -/
  | dCall (s) (t p) : s.pc t = .dAt p → p ≠ 0 →
      Step s { s with calls := upd s.calls t (s.calls t ++ [(s.ident p, s.fn p)]), bad := s.bad || !(s.mem.alive p), pc := upd s.pc t (.dNext p) }
  /-- :258. -/
  | dNext (s) (t p q) : s.pc t = .dNext p → DList.getF s.mem p = C.ok q → Step s { s with pc := upd s.pc t (.dAt q) }
  | dNextBad (s) (t p) : s.pc t = .dNext p → DList.getF s.mem p = C.ub → Step s { s with bad := true }
  /-- :261. -/
  | dRel (s) (t) : s.pc t = .dRel → Step s { s with shared := upd s.shared t false, pc := upd s.pc t .dRet }
  /-- :265. -/
  | dRet (s) (t) : s.pc t = .dRet → Step s { s with pc := upd s.pc t .out }

/-- The states an execution can be in. -/
inductive Reach : Sys → Prop
  | init : Reach init
  | step {s s'} : Reach s → Step s s' → Reach s'

/-- :112-120 the loop of `TCALL_DISPATCHER_LL_FREE` (the lock's deinit is the dependency's); `fuel` bounds the iterations, `none` says it
ran out.  The result: the heap and the targets freed, in order. -/
def freeTargets : (fuel : Nat) → DList.Heap → List Nat → C (Option (DList.Heap × List Nat))
  | 0, _, _ => pure none
  | fuel + 1, m, freed => do
    let cur ← DList.getF m 0
    if cur = 0 then pure (some (m, freed))
    else do
      let (m, _) ← DList.removeEntryList m cur
      if m.alive cur then freeTargets fuel ⟨upd m.alive cur false, m.f, m.b⟩ (freed ++ [cur]) else C.ub

end CUtil.Dispatcher
