import Verif.Base
/-
One asynchronous call of the samples /repo/samples/async_op_samples_int/ll_async_op_module_fake_cancel.c and ll_async_op_module_real_cancel.c: the thread in
execute_async, the worker that completes the operation, a client that cancels, copies and releases its handle of the operation, and the owner of the module who closes and destroys it.

The worker runs on a thread of the pool or inside execute_async (ll_async_op_module_fake_cancel.c:313-316, ll_async_op_module_real_cancel.c:310-313): then execute_async stands still meanwhile. The pool may refuse the work. The reference count of an
ASYNC_OP is kept as the set of its holders, as in Verif/SampleRetry/Model.lean. async_op_cancel runs the cancel function at most once (C32), so there is one cancel at most. The close of the
module waits until every call has ended with sm_exec_end; that the other calls on the module have ended is up to the schedule. The result that the underlying operation reports is a setting of the test, and may be any.
-/
namespace CUtil.SampleLl

/-- Which of the two modules. -/
inductive Kind where
  | fake | real
  deriving DecidableEq, Repr

/-- COMMON_ASYNC_OP_MODULE_RESULT (common_async_op_module_interface.h:26-32) -/
inductive Res where
  | ok | error | retry | canceled
  deriving DecidableEq, Repr

/-- Who holds a reference on the operation. -/
inductive Ref where
  /-- the variable `async_op` of execute_async -/
  | caller
  /-- a handle of the client -/
  | client (n : Nat)
  /-- the reference that execute_async takes for the worker, until the work is accepted -/
  | first
  /-- the worker -/
  | worker
  deriving DecidableEq, Repr

/-- execute_async -/
inductive EPc where
  /-- ll_async_op_module_fake_cancel.c:340, ll_async_op_module_real_cancel.c:337 about to ask the state manager -/
  | ask
  /-- ll_async_op_module_fake_cancel.c:348, ll_async_op_module_real_cancel.c:345 about to create the operation -/
  | create
  /-- ll_async_op_module_fake_cancel.c:369, ll_async_op_module_real_cancel.c:366 about to take the reference for the worker -/
  | ref
  /-- ll_async_op_module_fake_cancel.c:372, ll_async_op_module_real_cancel.c:369 about to start the work -/
  | start
  /-- ll_async_op_module_fake_cancel.c:381, ll_async_op_module_real_cancel.c:378 the work is accepted, about to give the operation to the caller -/
  | out
  /-- ll_async_op_module_fake_cancel.c:385, ll_async_op_module_real_cancel.c:382 refused, about to release the reference for the worker -/
  | relCb
  /-- ll_async_op_module_fake_cancel.c:386, ll_async_op_module_real_cancel.c:383 about to release the operation -/
  | rel
  /-- ll_async_op_module_fake_cancel.c:388, ll_async_op_module_real_cancel.c:385 about to tell the state manager -/
  | endExec
  /-- returned -/
  | ret (ok : Bool)
  deriving DecidableEq, Repr

/-- The worker ll_async_op_module_fake_cancel.c:258-291, ll_async_op_module_real_cancel.c:255-288. -/
inductive WPc where
  /-- not started -/
  | idle
  /-- ll_async_op_module_fake_cancel.c:270, ll_async_op_module_real_cancel.c:267 the operation takes its time -/
  | waiting
  /-- ll_async_op_module_fake_cancel.c:273, ll_async_op_module_real_cancel.c:270 about to tell the state manager; `c`: the wait ended because of a cancel -/
  | endSm (c : Bool)
  /-- ll_async_op_module_fake_cancel.c:276 about to exchange the flag -/
  | cas
  /-- ll_async_op_module_fake_cancel.c:280, ll_async_op_module_real_cancel.c:282 about to get the result -/
  | result
  /-- ll_async_op_module_fake_cancel.c:280, ll_async_op_module_real_cancel.c:276, ll_async_op_module_real_cancel.c:282 about to call the callback -/
  | call (r : Res)
  /-- ll_async_op_module_fake_cancel.c:289, ll_async_op_module_real_cancel.c:286 about to release the reference -/
  | rel
  | fin
  deriving DecidableEq, Repr

/-- The cancel function ll_async_op_module_fake_cancel.c:198-216, ll_async_op_module_real_cancel.c:206-212, called with the client's handle `n`. -/
inductive CPc where
  | idle
  /-- ll_async_op_module_fake_cancel.c:205, ll_async_op_module_real_cancel.c:200 -/
  | enter (n : Nat)
  /-- ll_async_op_module_fake_cancel.c:209 -/
  | call (n : Nat)
  | done
  deriving DecidableEq, Repr

/-- The handle that the client is using to cancel. -/
def CPc.user : CPc → Option Nat
  | .enter n => some n
  | .call n => some n
  | _ => none

structure Sys where
  /-- `callback_was_called` of the one module, `underlying_cancel_happened` of the other -/
  flag : Bool
  /-- holders of references on the operation -/
  owns : Ref → Bool
  /-- the operation was created -/
  born : Bool
  /-- the operation was freed -/
  disposed : Bool
  exec : EPc
  worker : WPc
  can : CPc
  /-- between sm_exec_begin and sm_exec_end -/
  inExec : Bool
  /-- the module was closed, destroyed and freed -/
  destroyed : Bool
  /-- the results the client's callback was called with -/
  calls : List Res
  /-- the memory of the operation was used when it was not there, or a reference released that is not held -/
  badOp : Bool
  /-- the memory of the module was used when it was not there, or sm_exec_end called out of place -/
  badModule : Bool
  /-- ghost: the module was destroyed after the operation was accepted and before the callback was called -/
  hasty : Bool
  /-- ghost: the result of the underlying operation -/
  got : Option Res

def init : Sys where
  flag := false
  owns := fun _ => false
  born := false
  disposed := false
  exec := .ask
  worker := .idle
  can := .idle
  inExec := false
  destroyed := false
  calls := []
  badOp := false
  badModule := false
  hasty := false
  got := none

/-- The holder `o` takes (`true`) or gives back its reference. -/
def own (f : Ref → Bool) (o : Ref) (b : Bool) : Ref → Bool := fun o' => if o' = o then b else f o'

/-- The context of the operation is used. -/
def touch (s : Sys) : Bool := s.badOp || s.disposed || !s.born

/-- The module is used. -/
def touchM (s : Sys) : Bool := s.badModule || s.destroyed

open Classical in
/-- The holder `o` is the only one. -/
noncomputable def only (s : Sys) (o : Ref) : Bool := decide (∀ o', o' ≠ o → s.owns o' = false)

/-- THANDLE_ASSIGN(ASYNC_OP)(.., NULL) by the holder `o`: the last one frees the operation; its dispose function does nothing (ll_async_op_module_fake_cancel.c:218-222, ll_async_op_module_real_cancel.c:214-218, async_op.c:33-39). -/
noncomputable def release (s : Sys) (o : Ref) : Sys :=
  { s with
    owns := own s.owns o false
    disposed := s.disposed || only s o
    badOp := s.badOp || s.disposed || !s.owns o }

inductive Step (k : Kind) : Sys → Sys → Prop
  /-- ll_async_op_module_fake_cancel.c:340-344, ll_async_op_module_real_cancel.c:337-341 -/
  | beginRefused (s : Sys) (h : s.exec = .ask) : Step k s { s with exec := .ret false, badModule := touchM s }
  | beginOk (s : Sys) (h : s.exec = .ask) : Step k s { s with exec := .create, inExec := true, badModule := touchM s }
  /-- ll_async_op_module_fake_cancel.c:348-353, ll_async_op_module_real_cancel.c:345-350 -/
  | createFails (s : Sys) (h : s.exec = .create) : Step k s { s with exec := .endExec }
  /-- ll_async_op_module_fake_cancel.c:348, ll_async_op_module_fake_cancel.c:357-364, ll_async_op_module_real_cancel.c:345, ll_async_op_module_real_cancel.c:354-361 -/
  | createOk (s : Sys) (h : s.exec = .create) : Step k s { s with exec := .ref, born := true, flag := false, owns := own s.owns .caller true }
  /-- ll_async_op_module_fake_cancel.c:368-369, ll_async_op_module_real_cancel.c:365-366 -/
  | ref (s : Sys) (h : s.exec = .ref) : Step k s { s with exec := .start, owns := own s.owns .first true, badOp := touch s }
  /-- ll_async_op_module_fake_cancel.c:320, ll_async_op_module_fake_cancel.c:372-376, ll_async_op_module_real_cancel.c:317, ll_async_op_module_real_cancel.c:369-373 -/
  | startRefused (s : Sys) (h : s.exec = .start) : Step k s { s with exec := .relCb, badModule := touchM s }
  /-- ll_async_op_module_fake_cancel.c:295-323, ll_async_op_module_fake_cancel.c:372, ll_async_op_module_real_cancel.c:292-320, ll_async_op_module_real_cancel.c:369 -/
  | startOk (s : Sys) (h : s.exec = .start) : Step k s { s with exec := .out, worker := .waiting, owns := own (own s.owns .first false) .worker true, badModule := touchM s }
  /-- ll_async_op_module_fake_cancel.c:381-383, ll_async_op_module_real_cancel.c:378-380 -/
  | out (s : Sys) (n : Nat) (h : s.exec = .out) (hn : s.owns (.client n) = false) :
      Step k s { s with exec := .ret true, owns := own (own s.owns .caller false) (.client n) true, badOp := s.badOp || !s.owns .caller }
  /-- ll_async_op_module_fake_cancel.c:385, ll_async_op_module_real_cancel.c:382 -/
  | relCb (s : Sys) (h : s.exec = .relCb) : Step k s { release s .first with exec := .rel }
  /-- ll_async_op_module_fake_cancel.c:386, ll_async_op_module_real_cancel.c:383 -/
  | rel (s : Sys) (h : s.exec = .rel) : Step k s { release s .caller with exec := .endExec }
  /-- ll_async_op_module_fake_cancel.c:388, ll_async_op_module_real_cancel.c:385 -/
  | endExec (s : Sys) (h : s.exec = .endExec) : Step k s { s with exec := .ret false, inExec := false, badModule := touchM s || !s.inExec }
  /-- ll_async_op_module_fake_cancel.c:270 the time is over; ll_async_op_module_real_cancel.c:267 the wait times out or fails -/
  | elapsed (s : Sys) (h : s.worker = .waiting) : Step k s { s with worker := .endSm false, badOp := touch s }
  /-- ll_async_op_module_real_cancel.c:267 the wait sees the cancel -/
  | woken (s : Sys) (h : s.worker = .waiting) (hk : k = .real) (hf : s.flag = true) : Step k s { s with worker := .endSm true, badOp := touch s }
  /-- ll_async_op_module_fake_cancel.c:273 -/
  | endSmFake (s : Sys) (c : Bool) (h : s.worker = .endSm c) (hk : k = .fake) :
      Step k s { s with worker := .cas, inExec := false, badOp := touch s, badModule := touchM s || !s.inExec }
  /-- ll_async_op_module_real_cancel.c:270-273 -/
  | endSmReal (s : Sys) (c : Bool) (h : s.worker = .endSm c) (hk : k = .real) :
      Step k s { s with worker := if c then .call .canceled else .result, inExec := false, badOp := touch s, badModule := touchM s || !s.inExec }
  /-- ll_async_op_module_fake_cancel.c:276 -/
  | casWins (s : Sys) (h : s.worker = .cas) (hf : s.flag = false) : Step k s { s with worker := .result, flag := true, badOp := touch s }
  /-- ll_async_op_module_fake_cancel.c:276, ll_async_op_module_fake_cancel.c:282-286 -/
  | casLoses (s : Sys) (h : s.worker = .cas) (hf : s.flag = true) : Step k s { s with worker := .rel, badOp := touch s }
  /-- ll_async_op_module_fake_cancel.c:224-256, ll_async_op_module_fake_cancel.c:280, ll_async_op_module_real_cancel.c:220-252, ll_async_op_module_real_cancel.c:282 -/
  | result (s : Sys) (r : Res) (h : s.worker = .result) : Step k s { s with worker := .call r, got := some r, badOp := touch s, badModule := touchM s }
  /-- ll_async_op_module_fake_cancel.c:280, ll_async_op_module_real_cancel.c:276, ll_async_op_module_real_cancel.c:282 -/
  | call (s : Sys) (r : Res) (h : s.worker = .call r) : Step k s { s with worker := .rel, calls := s.calls ++ [r], badOp := touch s }
  /-- ll_async_op_module_fake_cancel.c:289, ll_async_op_module_real_cancel.c:286 -/
  | wRel (s : Sys) (h : s.worker = .rel) : Step k s { release s .worker with worker := .fin }
  /-- the client copies its handle -/
  | clone (s : Sys) (n m : Nat) (hn : s.owns (.client n) = true) (hm : s.owns (.client m) = false) : Step k s { s with owns := own s.owns (.client m) true, badOp := touch s }
  /-- the client releases a handle that it does not use -/
  | drop (s : Sys) (n : Nat) (hn : s.owns (.client n) = true) (hu : s.can.user ≠ some n) : Step k s (release s (.client n))
  /-- the client cancels: ll_async_op_module_fake_cancel.c:198, ll_async_op_module_real_cancel.c:206 is called -/
  | cancel (s : Sys) (n : Nat) (hn : s.owns (.client n) = true) (h : s.can = .idle) : Step k s { s with can := .enter n }
  /-- ll_async_op_module_fake_cancel.c:205 -/
  | cancelWins (s : Sys) (n : Nat) (h : s.can = .enter n) (hk : k = .fake) (hf : s.flag = false) : Step k s { s with can := .call n, flag := true, badOp := touch s }
  /-- ll_async_op_module_fake_cancel.c:205, ll_async_op_module_fake_cancel.c:211-215 -/
  | cancelLoses (s : Sys) (n : Nat) (h : s.can = .enter n) (hk : k = .fake) (hf : s.flag = true) : Step k s { s with can := .done, badOp := touch s }
  /-- ll_async_op_module_fake_cancel.c:209 -/
  | cancelCalls (s : Sys) (n : Nat) (h : s.can = .call n) : Step k s { s with can := .done, calls := s.calls ++ [.canceled], badOp := touch s }
  /-- ll_async_op_module_real_cancel.c:198-204, ll_async_op_module_real_cancel.c:211 -/
  | cancelReal (s : Sys) (n : Nat) (h : s.can = .enter n) (hk : k = .real) : Step k s { s with can := .done, flag := true, badOp := touch s }
  /-- ll_async_op_module_fake_cancel.c:119-150, ll_async_op_module_real_cancel.c:119-149: the owner closes and destroys the module; the close waits for the end of the call -/
  | destroy (s : Sys) (h : s.exec ≠ .ask) (hi : s.inExec = false) (hd : s.destroyed = false) :
      Step k s { s with destroyed := true, hasty := decide (s.worker ≠ .idle ∧ s.calls = []) }

inductive Reach (k : Kind) : Sys → Prop
  | init : Reach k init
  | step {s s' : Sys} (h : Reach k s) (st : Step k s s') : Reach k s'

end CUtil.SampleLl
