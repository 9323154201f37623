import Verif.Conc
/-
One asynchronous call of the sample /repo/samples/async_op_samples_int/ml_async_op_module_with_retries.c ("the sample" below),
as a transition system: the thread in execute_async, the completions of the lower layer's operations, a client that cancels, copies and releases its handle of the operation.

The lower layer is any module with the interface: it refuses an operation (its callback is not called) or accepts it (its callback is called once, with any result,
before or after the lower layer's execute_async returns: a callback that comes inside that call is one that comes while the calling thread stands still). Operation `k + 1` of the lower layer is the
retry that the completion of operation `k` starts.

The reference count of an ASYNC_OP is kept as the set of its holders; the count is their number, and the object is disposed of when the last of them lets go (async_op.c:33-39, C18 and C35 for counts as such).
What the sample does under its lock is one step: `ll_async_op`, `ll_async_op_epoch` and `is_canceled` are used under the lock only (ml_async_op_module_with_retries.c:180, ml_async_op_module_with_retries.c:233, ml_async_op_module_with_retries.c:267, ml_async_op_module_with_retries.c:413), except before the first use and in dispose.
async_op_cancel runs the cancel function at most once (C32), so there is one cancel at most.
-/
namespace CUtil.SampleRetry
open CUtil.Conc

/-- COMMON_ASYNC_OP_MODULE_RESULT (common_async_op_module_interface.h:26-32) -/
inductive Res where
  | ok | error | retry | canceled
  deriving DecidableEq, Repr

/-- Who holds a reference on the operation. -/
inductive Ref where
  /-- the variable `async_op` of execute_async -/
  | caller
  /-- a handle of the client -/
  | client (n : Nat)
  /-- the reference that execute_async takes for the callback, until the lower layer has accepted -/
  | first
  /-- the reference that the completion of operation `k` takes for the callback of the retry, until the lower layer has accepted -/
  | next (k : Nat)
  /-- the context of the callback of the accepted operation `k` of the lower layer -/
  | cb (k : Nat)
  deriving DecidableEq, Repr

/-- execute_async -/
inductive EPc where
  /-- ml_async_op_module_with_retries.c:364 about to ask the state manager -/
  | ask
  /-- ml_async_op_module_with_retries.c:372 about to create the operation -/
  | create
  /-- ml_async_op_module_with_retries.c:402 about to take the reference for the callback -/
  | ref
  /-- ml_async_op_module_with_retries.c:405 about to call the lower layer -/
  | start
  /-- ml_async_op_module_with_retries.c:413 the lower layer has accepted, about to store its operation -/
  | lock
  /-- ml_async_op_module_with_retries.c:432 about to give the operation to the caller -/
  | out
  /-- ml_async_op_module_with_retries.c:436 the lower layer has refused, about to release the reference for the callback -/
  | relCb
  /-- ml_async_op_module_with_retries.c:437 about to release the operation -/
  | rel
  /-- ml_async_op_module_with_retries.c:439 about to tell the state manager -/
  | endExec
  /-- returned -/
  | ret (ok : Bool)
  deriving DecidableEq, Repr

/-- An operation of the lower layer, and where its completion is. -/
inductive OPc where
  /-- not started -/
  | idle
  /-- accepted, the callback has not been called -/
  | running
  /-- ml_async_op_module_with_retries.c:233 to be tried again, about to lock -/
  | lock1
  /-- ml_async_op_module_with_retries.c:255 about to take a reference for the retry, with the epoch of ml_async_op_module_with_retries.c:236 -/
  | ref (e : Nat)
  /-- ml_async_op_module_with_retries.c:258 about to start the retry -/
  | start (e : Nat)
  /-- ml_async_op_module_with_retries.c:267 the retry is accepted, about to lock again -/
  | lock2 (e : Nat)
  /-- ml_async_op_module_with_retries.c:290 about to cancel the retry -/
  | cancelLl
  /-- ml_async_op_module_with_retries.c:292 about to release the retry's operation -/
  | relLl
  /-- ml_async_op_module_with_retries.c:305 about to tell the state manager, result to be reported -/
  | endExec (r : Res)
  /-- ml_async_op_module_with_retries.c:309-341 about to call the callback -/
  | call (r : Res)
  /-- ml_async_op_module_with_retries.c:345 about to release the reference -/
  | rel
  | fin
  deriving DecidableEq, Repr

/-- The cancel function ml_async_op_module_with_retries.c:173-200, called with the client's handle `n`. -/
inductive CPc where
  | idle
  /-- ml_async_op_module_with_retries.c:180 -/
  | lock (n : Nat)
  /-- ml_async_op_module_with_retries.c:195 -/
  | cancelLl (n k : Nat)
  /-- ml_async_op_module_with_retries.c:198 -/
  | relLl (n k : Nat)
  | done
  deriving DecidableEq, Repr

/-- The handle that the client is using to cancel. -/
def CPc.user : CPc → Option Nat
  | .lock n => some n
  | .cancelLl n _ => some n
  | .relLl n _ => some n
  | _ => none

structure Sys where
  /-- `ll_async_op_epoch` -/
  epoch : Nat
  /-- `is_canceled` -/
  canceled : Bool
  /-- `ll_async_op` of the context, which holds a reference on what it points to -/
  slot : Option Nat
  /-- holders of references on the operation -/
  owns : Ref → Bool
  /-- the operation was created -/
  born : Bool
  /-- the operation was disposed of and freed -/
  disposed : Bool
  exec : EPc
  op : Nat → OPc
  can : CPc
  /-- the variable `ll_async_op` of execute_async holds operation 0 -/
  eref : Bool
  /-- the variable `ll_async_op` of the completion of operation `k` holds operation `k + 1` -/
  sref : Nat → Bool
  /-- the variable `async_op_ll_temp` of the cancel function holds operation `k` -/
  cref : Nat → Bool
  /-- the lower layer was told to cancel the operation -/
  llCanceled : Nat → Bool
  /-- between sm_exec_begin and sm_exec_end -/
  inExec : Bool
  /-- the results the client's callback was called with -/
  calls : List Res
  /-- memory was used that is not there, a reference was released that is not held, or sm_exec_end called out of place -/
  bad : Bool
  /-- ghost: starting the retry after operation `k` was refused -/
  refused : Nat → Bool
  /-- ghost: the result of the lower layer's operation -/
  res : Nat → Option Res
  /-- ghost: the last operation of the lower layer that was started -/
  last : Nat

def init : Sys where
  epoch := 0
  canceled := false
  slot := none
  owns := fun _ => false
  born := false
  disposed := false
  exec := .ask
  op := fun _ => .idle
  can := .idle
  eref := false
  sref := fun _ => false
  cref := fun _ => false
  llCanceled := fun _ => false
  inExec := false
  calls := []
  bad := false
  refused := fun _ => false
  res := fun _ => none
  last := 0

/-- The holder `o` takes (`true`) or gives back its reference. -/
def own (f : Ref → Bool) (o : Ref) (b : Bool) : Ref → Bool := fun o' => if o' = o then b else f o'

/-- The context of the operation is used. -/
def touch (s : Sys) : Bool := s.bad || s.disposed || !s.born

open Classical in
/-- The holder `o` is the only one. -/
noncomputable def only (s : Sys) (o : Ref) : Bool := decide (∀ o', o' ≠ o → s.owns o' = false)

/-- THANDLE_ASSIGN(ASYNC_OP)(.., NULL) by the holder `o`: the last one disposes of the operation and releases what `ll_async_op` holds (ml_async_op_module_with_retries.c:202-208). -/
noncomputable def release (s : Sys) (o : Ref) : Sys :=
  { s with
    owns := own s.owns o false
    disposed := s.disposed || only s o
    slot := if only s o then none else s.slot
    bad := s.bad || s.disposed || !s.owns o }

/-- What is reported for a result of the lower layer that is not to be tried again, ml_async_op_module_with_retries.c:319-340. -/
def report : Res → Res
  | .ok => .ok
  | .canceled => .canceled
  | _ => .error

inductive Step : Sys → Sys → Prop
  /-- ml_async_op_module_with_retries.c:364-368 -/
  | beginRefused (s : Sys) (h : s.exec = .ask) : Step s { s with exec := .ret false }
  | beginOk (s : Sys) (h : s.exec = .ask) : Step s { s with exec := .create, inExec := true }
  /-- ml_async_op_module_with_retries.c:372-377 -/
  | createFails (s : Sys) (h : s.exec = .create) : Step s { s with exec := .endExec }
  /-- ml_async_op_module_with_retries.c:372, ml_async_op_module_with_retries.c:381-397 -/
  | createOk (s : Sys) (h : s.exec = .create) : Step s { s with exec := .ref, born := true, owns := own s.owns .caller true }
  /-- ml_async_op_module_with_retries.c:401-402 -/
  | ref (s : Sys) (h : s.exec = .ref) : Step s { s with exec := .start, owns := own s.owns .first true, bad := touch s }
  /-- ml_async_op_module_with_retries.c:405-409 -/
  | startRefused (s : Sys) (h : s.exec = .start) : Step s { s with exec := .relCb }
  /-- ml_async_op_module_with_retries.c:405 -/
  | startOk (s : Sys) (h : s.exec = .start) : Step s { s with exec := .lock, op := upd s.op 0 .running, owns := own (own s.owns .first false) (.cb 0) true, eref := true }
  /-- ml_async_op_module_with_retries.c:413-428 -/
  | lockStores (s : Sys) (h : s.exec = .lock) (he : s.epoch = 0) :
      Step s { s with exec := .out, epoch := 1, slot := some 0, eref := false, bad := touch s || !s.eref }
  | lockDrops (s : Sys) (h : s.exec = .lock) (he : s.epoch ≠ 0) : Step s { s with exec := .out, eref := false, bad := touch s || !s.eref }
  /-- ml_async_op_module_with_retries.c:432-434 -/
  | out (s : Sys) (n : Nat) (h : s.exec = .out) (hn : s.owns (.client n) = false) :
      Step s { s with exec := .ret true, owns := own (own s.owns .caller false) (.client n) true, bad := s.bad || !s.owns .caller }
  /-- ml_async_op_module_with_retries.c:436 -/
  | relCb (s : Sys) (h : s.exec = .relCb) : Step s { release s .first with exec := .rel }
  /-- ml_async_op_module_with_retries.c:437 -/
  | rel (s : Sys) (h : s.exec = .rel) : Step s { release s .caller with exec := .endExec }
  /-- ml_async_op_module_with_retries.c:439 -/
  | endExec (s : Sys) (h : s.exec = .endExec) : Step s { s with exec := .ret false, inExec := false, bad := s.bad || !s.inExec }
  /-- the lower layer calls the callback, ml_async_op_module_with_retries.c:210-224, ml_async_op_module_with_retries.c:226 -/
  | completesRetry (s : Sys) (k : Nat) (h : s.op k = .running) : Step s { s with op := upd s.op k .lock1, res := upd s.res k (some .retry), bad := touch s }
  /-- ml_async_op_module_with_retries.c:226, ml_async_op_module_with_retries.c:296-302 -/
  | completes (s : Sys) (k : Nat) (r : Res) (h : s.op k = .running) (hr : r ≠ .retry) :
      Step s { s with op := upd s.op k (.endExec (report r)), res := upd s.res k (some r), bad := touch s }
  /-- ml_async_op_module_with_retries.c:233-246 -/
  | lock1Canceled (s : Sys) (k : Nat) (h : s.op k = .lock1) (hc : s.canceled = true) :
      Step s { s with slot := none, op := upd s.op k (.endExec .canceled), epoch := s.epoch + 1, bad := touch s }
  | lock1 (s : Sys) (k : Nat) (h : s.op k = .lock1) (hc : s.canceled = false) :
      Step s { s with slot := none, op := upd s.op k (.ref (s.epoch + 1)), epoch := s.epoch + 1, bad := touch s }
  /-- ml_async_op_module_with_retries.c:251-255 -/
  | retryRef (s : Sys) (k e : Nat) (h : s.op k = .ref e) : Step s { s with op := upd s.op k (.start e), owns := own s.owns (.next k) true, bad := touch s }
  /-- ml_async_op_module_with_retries.c:258-263: the reference taken for the callback is not released -/
  | retryRefused (s : Sys) (k e : Nat) (h : s.op k = .start e) :
      Step s { s with op := upd s.op k (.endExec .error), refused := upd s.refused k true, bad := touch s || !s.inExec }
  /-- ml_async_op_module_with_retries.c:258 -/
  | retryOk (s : Sys) (k e : Nat) (h : s.op k = .start e) :
      Step s { s with op := upd (upd s.op k (.lock2 e)) (k + 1) .running, owns := own (own s.owns (.next k) false) (.cb (k + 1)) true, sref := upd s.sref k true, last := k + 1, bad := touch s || !s.inExec }
  /-- ml_async_op_module_with_retries.c:267-274, ml_async_op_module_with_retries.c:284-287 -/
  | lock2Canceled (s : Sys) (k e : Nat) (h : s.op k = .lock2 e) (hc : s.canceled = true) : Step s { s with op := upd s.op k .cancelLl, bad := touch s }
  /-- ml_async_op_module_with_retries.c:267-287 -/
  | lock2Stores (s : Sys) (k e : Nat) (h : s.op k = .lock2 e) (hc : s.canceled = false) (he : s.epoch = e) :
      Step s { s with slot := some (k + 1), op := upd s.op k .relLl, epoch := e + 1, bad := touch s || !s.sref k }
  | lock2Drops (s : Sys) (k e : Nat) (h : s.op k = .lock2 e) (hc : s.canceled = false) (he : s.epoch ≠ e) : Step s { s with op := upd s.op k .relLl, bad := touch s }
  /-- ml_async_op_module_with_retries.c:290 -/
  | cancelRetry (s : Sys) (k : Nat) (h : s.op k = .cancelLl) :
      Step s { s with op := upd s.op k .relLl, llCanceled := upd s.llCanceled (k + 1) true, bad := s.bad || !s.sref k }
  /-- ml_async_op_module_with_retries.c:292 -/
  | relLl (s : Sys) (k : Nat) (h : s.op k = .relLl) : Step s { s with op := upd s.op k .rel, sref := upd s.sref k false, bad := s.bad || !s.sref k }
  /-- ml_async_op_module_with_retries.c:305 -/
  | opEndExec (s : Sys) (k : Nat) (r : Res) (h : s.op k = .endExec r) : Step s { s with op := upd s.op k (.call r), inExec := false, bad := touch s || !s.inExec }
  /-- ml_async_op_module_with_retries.c:309-341 -/
  | call (s : Sys) (k : Nat) (r : Res) (h : s.op k = .call r) : Step s { s with op := upd s.op k .rel, calls := s.calls ++ [r], bad := touch s }
  /-- ml_async_op_module_with_retries.c:345 -/
  | opRel (s : Sys) (k : Nat) (h : s.op k = .rel) : Step s { release s (.cb k) with op := upd s.op k .fin }
  /-- the client copies its handle -/
  | clone (s : Sys) (n m : Nat) (hn : s.owns (.client n) = true) (hm : s.owns (.client m) = false) : Step s { s with owns := own s.owns (.client m) true, bad := touch s }
  /-- the client releases a handle that it does not use -/
  | drop (s : Sys) (n : Nat) (hn : s.owns (.client n) = true) (hu : s.can.user ≠ some n) : Step s (release s (.client n))
  /-- the client cancels: ml_async_op_module_with_retries.c:173 is called -/
  | cancel (s : Sys) (n : Nat) (hn : s.owns (.client n) = true) (h : s.can = .idle) : Step s { s with can := .lock n }
  /-- ml_async_op_module_with_retries.c:180-191 -/
  | cLockNone (s : Sys) (n : Nat) (h : s.can = .lock n) (hs : s.slot = none) : Step s { s with can := .done, canceled := true, bad := touch s }
  | cLock (s : Sys) (n k : Nat) (h : s.can = .lock n) (hs : s.slot = some k) :
      Step s { s with can := .cancelLl n k, canceled := true, cref := upd s.cref k true, bad := touch s }
  /-- ml_async_op_module_with_retries.c:195 -/
  | cCancel (s : Sys) (n k : Nat) (h : s.can = .cancelLl n k) : Step s { s with can := .relLl n k, llCanceled := upd s.llCanceled k true, bad := s.bad || !s.cref k }
  /-- ml_async_op_module_with_retries.c:198 -/
  | cRel (s : Sys) (n k : Nat) (h : s.can = .relLl n k) : Step s { s with can := .done, cref := upd s.cref k false, bad := s.bad || !s.cref k }

inductive Reach : Sys → Prop
  | init : Reach init
  | step {s s' : Sys} (h : Reach s) (st : Step s s') : Reach s'

end CUtil.SampleRetry
