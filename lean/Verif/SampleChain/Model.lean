import Verif.Base
/-
One asynchronous call of the sample /repo/samples/async_op_samples_int/ml_async_op_module_with_async_chain.c ("the sample" below): two operations of the lower
layer one after the other, the thread in execute_async, the completions of the two, a client that cancels, copies and releases its handle of the operation.

The lower layer is any module with the interface: it refuses an operation (its callback is not called) or accepts it (its callback is called once, with any result,
before or after the lower layer's execute_async returns: a callback that comes inside that call is one that comes while the calling thread stands still).

The reference count of an ASYNC_OP is kept as the set of its holders, as in Verif/SampleRetry/Model.lean. What the sample does under its lock is one step.
async_op_cancel runs the cancel function at most once (C32), so there is one cancel at most. The result "can be retried" counts as an error (ml_async_op_module_with_async_chain.c:233-239).
-/
namespace CUtil.SampleChain

/-- COMMON_ASYNC_OP_MODULE_RESULT (common_async_op_module_interface.h:26-32); the last stands for every other one. -/
inductive Res where
  | ok | canceled | error
  deriving DecidableEq, Repr

/-- The two operations of the lower layer. -/
inductive LOp where
  | one | two
  deriving DecidableEq, Repr

/-- Who holds a reference on the operation. -/
inductive Ref where
  /-- the variable `async_op` of execute_async -/
  | caller
  /-- a handle of the client -/
  | client (n : Nat)
  /-- the reference that execute_async takes for the callback of step 1, until the lower layer has accepted -/
  | first
  /-- the reference that the completion of step 1 takes for the callback of step 2, until the lower layer has accepted -/
  | next
  /-- the context of the callback of the accepted step 1 -/
  | cb1
  /-- the context of the callback of the accepted step 2 -/
  | cb2
  deriving DecidableEq, Repr

/-- execute_async -/
inductive EPc where
  /-- ml_async_op_module_with_async_chain.c:373 about to ask the state manager -/
  | ask
  /-- ml_async_op_module_with_async_chain.c:381 about to create the operation -/
  | create
  /-- ml_async_op_module_with_async_chain.c:411 about to take the reference for the callback -/
  | ref
  /-- ml_async_op_module_with_async_chain.c:414 about to call the lower layer -/
  | start
  /-- ml_async_op_module_with_async_chain.c:422 the lower layer has accepted, about to store its operation -/
  | lock
  /-- ml_async_op_module_with_async_chain.c:441 about to give the operation to the caller -/
  | out
  /-- ml_async_op_module_with_async_chain.c:445 the lower layer has refused, about to release the reference for the callback -/
  | relCb
  /-- ml_async_op_module_with_async_chain.c:446 about to release the operation -/
  | rel
  /-- ml_async_op_module_with_async_chain.c:448 about to tell the state manager -/
  | endExec
  /-- returned -/
  | ret (ok : Bool)
  deriving DecidableEq, Repr

/-- Step 1: the operation of the lower layer and its completion. -/
inductive O1 where
  /-- not started -/
  | idle
  /-- accepted, the callback has not been called -/
  | running
  /-- ml_async_op_module_with_async_chain.c:275 about to lock -/
  | lock1
  /-- ml_async_op_module_with_async_chain.c:295 about to take a reference for step 2 -/
  | ref
  /-- ml_async_op_module_with_async_chain.c:298 about to start step 2 -/
  | start
  /-- ml_async_op_module_with_async_chain.c:302 step 2 is refused, about to release the reference taken for it -/
  | relRef
  /-- ml_async_op_module_with_async_chain.c:307 step 2 is accepted, about to lock again -/
  | lock2
  /-- ml_async_op_module_with_async_chain.c:331 about to cancel step 2 -/
  | cancelLl
  /-- ml_async_op_module_with_async_chain.c:333 about to release the lower layer's operation of step 2 -/
  | relLl
  /-- ml_async_op_module_with_async_chain.c:340 about to tell the state manager, result to be reported -/
  | endExec (r : Res)
  /-- ml_async_op_module_with_async_chain.c:343-350 about to call the callback -/
  | call (r : Res)
  /-- ml_async_op_module_with_async_chain.c:354 about to release the reference -/
  | rel
  | fin
  deriving DecidableEq, Repr

/-- Step 2: the operation of the lower layer and its completion. -/
inductive O2 where
  /-- not started -/
  | idle
  /-- accepted, the callback has not been called -/
  | running
  /-- ml_async_op_module_with_async_chain.c:228 about to tell the state manager -/
  | endExec (r : Res)
  /-- ml_async_op_module_with_async_chain.c:231-252 about to call the callback -/
  | call (r : Res)
  /-- ml_async_op_module_with_async_chain.c:255 about to release the reference -/
  | rel
  | fin
  deriving DecidableEq, Repr

/-- The cancel function ml_async_op_module_with_async_chain.c:178-205, called with the client's handle `n`. -/
inductive CPc where
  | idle
  /-- ml_async_op_module_with_async_chain.c:185 -/
  | lock (n : Nat)
  /-- ml_async_op_module_with_async_chain.c:200 -/
  | cancelLl (n : Nat) (k : LOp)
  /-- ml_async_op_module_with_async_chain.c:203 -/
  | relLl (n : Nat) (k : LOp)
  | done
  deriving DecidableEq, Repr

/-- The handle that the client is using to cancel. -/
def CPc.user : CPc → Option Nat
  | .lock n => some n
  | .cancelLl n _ => some n
  | .relLl n _ => some n
  | _ => none

structure Sys where
  /-- `ll_async_op_step` -/
  step : Nat
  /-- `is_canceled` -/
  canceled : Bool
  /-- `ll_async_op` of the context, which holds a reference on what it points to -/
  slot : Option LOp
  /-- holders of references on the operation -/
  owns : Ref → Bool
  /-- the operation was created -/
  born : Bool
  /-- the operation was disposed of and freed -/
  disposed : Bool
  exec : EPc
  o1 : O1
  o2 : O2
  can : CPc
  /-- the variable `ll_async_op` of execute_async holds the operation of step 1 -/
  eref : Bool
  /-- the variable `ll_async_op` of the completion of step 1 holds the operation of step 2 -/
  sref : Bool
  /-- the variable `async_op_ll_temp` of the cancel function holds the operation -/
  cref : LOp → Bool
  /-- the lower layer was told to cancel the operation -/
  llCanceled : LOp → Bool
  /-- between sm_exec_begin and sm_exec_end -/
  inExec : Bool
  /-- the results the client's callback was called with -/
  calls : List Res
  /-- memory was used that is not there, a reference was released that is not held, or sm_exec_end called out of place -/
  bad : Bool
  /-- ghost: the completion of step 1 came to its second lock before execute_async came to its own -/
  early : Bool
  /-- ghost: the lower layer refused step 2 -/
  refused : Bool
  /-- ghost: the results of the lower layer's operations -/
  res : LOp → Option Res

def init : Sys where
  step := 0
  canceled := false
  slot := none
  owns := fun _ => false
  born := false
  disposed := false
  exec := .ask
  o1 := .idle
  o2 := .idle
  can := .idle
  eref := false
  sref := false
  cref := fun _ => false
  llCanceled := fun _ => false
  inExec := false
  calls := []
  bad := false
  early := false
  refused := false
  res := fun _ => none

/-- The holder `o` takes (`true`) or gives back its reference. -/
def own (f : Ref → Bool) (o : Ref) (b : Bool) : Ref → Bool := fun o' => if o' = o then b else f o'

/-- The entry for the operation `k` of the lower layer is set. -/
def set {α : Type} (f : LOp → α) (k : LOp) (b : α) : LOp → α := fun k' => if k' = k then b else f k'

/-- The context of the operation is used. -/
def touch (s : Sys) : Bool := s.bad || s.disposed || !s.born

open Classical in
/-- The holder `o` is the only one. -/
noncomputable def only (s : Sys) (o : Ref) : Bool := decide (∀ o', o' ≠ o → s.owns o' = false)

/-- THANDLE_ASSIGN(ASYNC_OP)(.., NULL) by the holder `o`: the last one disposes of the operation and releases what `ll_async_op` holds (ml_async_op_module_with_async_chain.c:207-213, async_op.c:33-39). -/
noncomputable def release (s : Sys) (o : Ref) : Sys :=
  { s with
    owns := own s.owns o false
    disposed := s.disposed || only s o
    slot := if only s o then none else s.slot
    bad := s.bad || s.disposed || !s.owns o }

inductive Step : Sys → Sys → Prop
  /-- ml_async_op_module_with_async_chain.c:373-377 -/
  | beginRefused (s : Sys) (h : s.exec = .ask) : Step s { s with exec := .ret false }
  | beginOk (s : Sys) (h : s.exec = .ask) : Step s { s with exec := .create, inExec := true }
  /-- ml_async_op_module_with_async_chain.c:381-386 -/
  | createFails (s : Sys) (h : s.exec = .create) : Step s { s with exec := .endExec }
  /-- ml_async_op_module_with_async_chain.c:381, ml_async_op_module_with_async_chain.c:390-406 -/
  | createOk (s : Sys) (h : s.exec = .create) : Step s { s with exec := .ref, born := true, owns := own s.owns .caller true }
  /-- ml_async_op_module_with_async_chain.c:410-411 -/
  | ref (s : Sys) (h : s.exec = .ref) : Step s { s with exec := .start, owns := own s.owns .first true, bad := touch s }
  /-- ml_async_op_module_with_async_chain.c:414-418 -/
  | startRefused (s : Sys) (h : s.exec = .start) : Step s { s with exec := .relCb }
  /-- ml_async_op_module_with_async_chain.c:414 -/
  | startOk (s : Sys) (h : s.exec = .start) : Step s { s with exec := .lock, o1 := .running, owns := own (own s.owns .first false) .cb1 true, eref := true }
  /-- ml_async_op_module_with_async_chain.c:422-431 -/
  | lockStores (s : Sys) (h : s.exec = .lock) (he : s.step = 0) :
      Step s { s with exec := .out, step := 1, slot := some .one, eref := false, bad := touch s || !s.eref }
  /-- ml_async_op_module_with_async_chain.c:422-436 -/
  | lockDrops (s : Sys) (h : s.exec = .lock) (he : s.step ≠ 0) : Step s { s with exec := .out, eref := false, bad := touch s || !s.eref }
  /-- ml_async_op_module_with_async_chain.c:441-443 -/
  | out (s : Sys) (n : Nat) (h : s.exec = .out) (hn : s.owns (.client n) = false) :
      Step s { s with exec := .ret true, owns := own (own s.owns .caller false) (.client n) true, bad := s.bad || !s.owns .caller }
  /-- ml_async_op_module_with_async_chain.c:445 -/
  | relCb (s : Sys) (h : s.exec = .relCb) : Step s { release s .first with exec := .rel }
  /-- ml_async_op_module_with_async_chain.c:446 -/
  | rel (s : Sys) (h : s.exec = .rel) : Step s { release s .caller with exec := .endExec }
  /-- ml_async_op_module_with_async_chain.c:448 -/
  | endExec (s : Sys) (h : s.exec = .endExec) : Step s { s with exec := .ret false, inExec := false, bad := s.bad || !s.inExec }
  /-- the lower layer calls the callback of step 1, ml_async_op_module_with_async_chain.c:259-272; the result is not looked at -/
  | completes1 (s : Sys) (r : Res) (h : s.o1 = .running) : Step s { s with o1 := .lock1, res := set s.res .one (some r), bad := touch s }
  /-- ml_async_op_module_with_async_chain.c:275-286 -/
  | lock1Canceled (s : Sys) (h : s.o1 = .lock1) (hc : s.canceled = true) : Step s { s with slot := none, o1 := .endExec .canceled, bad := touch s }
  | lock1 (s : Sys) (h : s.o1 = .lock1) (hc : s.canceled = false) : Step s { s with slot := none, o1 := .ref, bad := touch s }
  /-- ml_async_op_module_with_async_chain.c:291-295 -/
  | nextRef (s : Sys) (h : s.o1 = .ref) : Step s { s with o1 := .start, owns := own s.owns .next true, bad := touch s }
  /-- ml_async_op_module_with_async_chain.c:298-301 -/
  | nextRefused (s : Sys) (h : s.o1 = .start) : Step s { s with o1 := .relRef, refused := true, bad := touch s || !s.inExec }
  /-- ml_async_op_module_with_async_chain.c:302 -/
  | relRef (s : Sys) (h : s.o1 = .relRef) : Step s { release s .next with o1 := .endExec .error }
  /-- ml_async_op_module_with_async_chain.c:298 -/
  | nextOk (s : Sys) (h : s.o1 = .start) :
      Step s { s with o1 := .lock2, o2 := .running, owns := own (own s.owns .next false) .cb2 true, sref := true, bad := touch s || !s.inExec }
  /-- ml_async_op_module_with_async_chain.c:307-314, ml_async_op_module_with_async_chain.c:325 -/
  | lock2Canceled (s : Sys) (h : s.o1 = .lock2) (hc : s.canceled = true) : Step s { s with o1 := .cancelLl, bad := touch s, early := decide (s.exec = .lock) }
  /-- ml_async_op_module_with_async_chain.c:307-325 -/
  | lock2Stores (s : Sys) (h : s.o1 = .lock2) (hc : s.canceled = false) (he : s.step = 1) :
      Step s { s with slot := some .two, o1 := .relLl, step := 2, bad := touch s || !s.sref, early := decide (s.exec = .lock) }
  | lock2Drops (s : Sys) (h : s.o1 = .lock2) (hc : s.canceled = false) (he : s.step ≠ 1) : Step s { s with o1 := .relLl, bad := touch s, early := decide (s.exec = .lock) }
  /-- ml_async_op_module_with_async_chain.c:331 -/
  | cancelNext (s : Sys) (h : s.o1 = .cancelLl) : Step s { s with o1 := .relLl, llCanceled := set s.llCanceled .two true, bad := s.bad || !s.sref }
  /-- ml_async_op_module_with_async_chain.c:333 -/
  | relLl (s : Sys) (h : s.o1 = .relLl) : Step s { s with o1 := .rel, sref := false, bad := s.bad || !s.sref }
  /-- ml_async_op_module_with_async_chain.c:340 -/
  | endExec1 (s : Sys) (r : Res) (h : s.o1 = .endExec r) : Step s { s with o1 := .call r, inExec := false, bad := touch s || !s.inExec }
  /-- ml_async_op_module_with_async_chain.c:343-350 -/
  | call1 (s : Sys) (r : Res) (h : s.o1 = .call r) : Step s { s with o1 := .rel, calls := s.calls ++ [r], bad := touch s }
  /-- ml_async_op_module_with_async_chain.c:354 -/
  | rel1 (s : Sys) (h : s.o1 = .rel) : Step s { release s .cb1 with o1 := .fin }
  /-- the lower layer calls the callback of step 2, ml_async_op_module_with_async_chain.c:215-225 -/
  | completes2 (s : Sys) (r : Res) (h : s.o2 = .running) : Step s { s with o2 := .endExec r, res := set s.res .two (some r), bad := touch s }
  /-- ml_async_op_module_with_async_chain.c:228 -/
  | endExec2 (s : Sys) (r : Res) (h : s.o2 = .endExec r) : Step s { s with o2 := .call r, inExec := false, bad := touch s || !s.inExec }
  /-- ml_async_op_module_with_async_chain.c:231-252 -/
  | call2 (s : Sys) (r : Res) (h : s.o2 = .call r) : Step s { s with o2 := .rel, calls := s.calls ++ [r], bad := touch s }
  /-- ml_async_op_module_with_async_chain.c:255 -/
  | rel2 (s : Sys) (h : s.o2 = .rel) : Step s { release s .cb2 with o2 := .fin }
  /-- the client copies its handle -/
  | clone (s : Sys) (n m : Nat) (hn : s.owns (.client n) = true) (hm : s.owns (.client m) = false) : Step s { s with owns := own s.owns (.client m) true, bad := touch s }
  /-- the client releases a handle that it does not use -/
  | drop (s : Sys) (n : Nat) (hn : s.owns (.client n) = true) (hu : s.can.user ≠ some n) : Step s (release s (.client n))
  /-- the client cancels: ml_async_op_module_with_async_chain.c:178 is called -/
  | cancel (s : Sys) (n : Nat) (hn : s.owns (.client n) = true) (h : s.can = .idle) : Step s { s with can := .lock n }
  /-- ml_async_op_module_with_async_chain.c:185-196 -/
  | cLockNone (s : Sys) (n : Nat) (h : s.can = .lock n) (hs : s.slot = none) : Step s { s with can := .done, canceled := true, bad := touch s }
  | cLock (s : Sys) (n : Nat) (k : LOp) (h : s.can = .lock n) (hs : s.slot = some k) :
      Step s { s with can := .cancelLl n k, canceled := true, cref := set s.cref k true, bad := touch s }
  /-- ml_async_op_module_with_async_chain.c:200 -/
  | cCancel (s : Sys) (n : Nat) (k : LOp) (h : s.can = .cancelLl n k) : Step s { s with can := .relLl n k, llCanceled := set s.llCanceled k true, bad := s.bad || !s.cref k }
  /-- ml_async_op_module_with_async_chain.c:203 -/
  | cRel (s : Sys) (n : Nat) (k : LOp) (h : s.can = .relLl n k) : Step s { s with can := .done, cref := set s.cref k false, bad := s.bad || !s.cref k }

inductive Reach : Sys → Prop
  | init : Reach init
  | step {s s' : Sys} (h : Reach s) (st : Step s s') : Reach s'

end CUtil.SampleChain
