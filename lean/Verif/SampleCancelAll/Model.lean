import Verif.Conc
/-
The sample /repo/samples/async_op_samples_int/hl_async_op_module_cancel_all.c: a module that keeps a list of the pending operations and cancels them all when it is closed.
Any number of calls of execute_async, their completions, an owner who opens, closes and destroys the module. The operation `k` is the one of the `k`-th call.

The lower layer keeps the contract of execute_async of common_async_op_module_interface.h, which C79, C80 and C81 prove of the other modules: it refuses and there is no completion, or it accepts and completes once, at any
time, also before execute_async has returned. The state manager (c_pal, its code is not in the repository): sm_exec_begin is granted only while the module is open; one close at a time is granted;
the function given to sm_close_begin_with_cb is called when no new calls are granted any more; the close then waits until all calls granted have ended with sm_exec_end. A lock of c_pal is held by one thread at a
time. There are two references on an operation, the one that is for the list, and the one for the completion; the last to go frees the operation (C32).
-/
namespace CUtil.SampleCancelAll
open CUtil.Conc

/-- COMMON_ASYNC_OP_MODULE_RESULT (common_async_op_module_interface.h:26-32) -/
inductive Res where
  | ok | error | retry | canceled
  deriving DecidableEq, Repr

/-- hl_async_op_module_cancel_all.c:272-293 the result the callback gets when the lower layer reports `r` -/
def Res.passed : Res → Res
  | .ok => .ok
  | .canceled => .canceled
  | _ => .error

/-- Where the reference for the list is. -/
inductive Tok where
  /-- the operation was not created -/
  | none
  /-- in the variable `async_op` of execute_async -/
  | caller
  /-- in the list of pending operations -/
  | list
  /-- in the list of operations to cancel -/
  | temp
  /-- in the variable `current_context` of the loop that cancels -/
  | closer
  /-- in the variable of the completion -/
  | comp
  /-- released -/
  | gone
  deriving DecidableEq, Repr

/-- hl_async_op_module_cancel_all_execute_async -/
inductive EPc where
  | idle
  /-- hl_async_op_module_cancel_all.c:314 about to ask the state manager -/
  | ask
  /-- hl_async_op_module_cancel_all.c:322 about to create the operation -/
  | create
  /-- hl_async_op_module_cancel_all.c:347 about to take the reference for the completion -/
  | ref
  /-- hl_async_op_module_cancel_all.c:350 about to call the lower layer -/
  | start
  /-- hl_async_op_module_cancel_all.c:359 the lower layer has accepted -/
  | store
  /-- hl_async_op_module_cancel_all.c:364 about to take the lock -/
  | lock
  /-- hl_async_op_module_cancel_all.c:366 holds the lock -/
  | check
  /-- hl_async_op_module_cancel_all.c:377 the operation is in the list -/
  | mark
  /-- hl_async_op_module_cancel_all.c:379 about to release the lock -/
  | unlock
  /-- hl_async_op_module_cancel_all.c:379 about to release the lock, the module is closing -/
  | unlockC
  /-- hl_async_op_module_cancel_all.c:385 about to cancel -/
  | cancel
  /-- hl_async_op_module_cancel_all.c:388 about to release the reference for the list -/
  | relTok
  /-- hl_async_op_module_cancel_all.c:398 refused, about to release the reference for the completion -/
  | relCb
  /-- hl_async_op_module_cancel_all.c:399 about to release the other one -/
  | rel
  /-- hl_async_op_module_cancel_all.c:401 about to tell the state manager -/
  | endExec
  | ret (ok : Bool)
  deriving DecidableEq, Repr

/-- hl_async_op_module_cancel_all_on_ml_complete (hl_async_op_module_cancel_all.c:240-298), `r`: what the lower layer reports -/
inductive KPc where
  | idle
  /-- the lower layer is at work -/
  | running
  /-- hl_async_op_module_cancel_all.c:253 about to take the lock -/
  | lock (r : Res)
  /-- hl_async_op_module_cancel_all.c:255 -/
  | cas (r : Res)
  /-- hl_async_op_module_cancel_all.c:257 -/
  | remove (r : Res)
  /-- hl_async_op_module_cancel_all.c:259 -/
  | relTok (r : Res)
  /-- hl_async_op_module_cancel_all.c:265 -/
  | unlock (r : Res)
  /-- hl_async_op_module_cancel_all.c:269 -/
  | endSm (r : Res)
  /-- hl_async_op_module_cancel_all.c:272 -/
  | call (r : Res)
  /-- hl_async_op_module_cancel_all.c:296 -/
  | rel
  | fin
  deriving DecidableEq, Repr

/-- hl_async_op_module_cancel_all_close_internal (hl_async_op_module_cancel_all.c:153-160) and the function it gives to the state manager (hl_async_op_module_cancel_all.c:115-151) -/
inductive CPc where
  | idle
  /-- hl_async_op_module_cancel_all.c:123 about to take the lock -/
  | lock
  /-- hl_async_op_module_cancel_all.c:130 -/
  | drain
  /-- hl_async_op_module_cancel_all.c:137 -/
  | unmark (k : Nat)
  /-- hl_async_op_module_cancel_all.c:139 -/
  | unlock
  /-- hl_async_op_module_cancel_all.c:144 -/
  | next
  /-- hl_async_op_module_cancel_all.c:147 -/
  | cancel (k : Nat)
  /-- hl_async_op_module_cancel_all.c:149 -/
  | rel (k : Nat)
  /-- hl_async_op_module_cancel_all.c:155 waits until all calls have ended -/
  | wait
  deriving DecidableEq, Repr

/-- Who holds the lock. -/
inductive Who where
  | caller (k : Nat) | comp (k : Nat) | closer
  deriving DecidableEq, Repr

/-- The state manager of the module. -/
inductive MState where
  | closed | opened | closing
  deriving DecidableEq, Repr

structure Sys where
  epc : Nat → EPc
  kpc : Nat → KPc
  cl : CPc
  ms : MState
  lock : Option Who
  /-- `is_closing` -/
  closing : Bool
  /-- `pending_operations` -/
  list : List Nat
  /-- `pending_operations_to_cancel` -/
  temp : List Nat
  /-- the reference for the list -/
  tok : Nat → Tok
  /-- the reference for the completion is held -/
  cbr : Nat → Bool
  /-- the operation was freed -/
  freed : Nat → Bool
  /-- `is_in_pending_operations_list` -/
  flag : Nat → Bool
  /-- `ll_async_op` is set -/
  llset : Nat → Bool
  /-- the operation of the lower layer was canceled -/
  canceled : Nat → Bool
  /-- between sm_exec_begin and sm_exec_end -/
  inExec : Nat → Bool
  /-- the results the callback of the call was called with -/
  calls : Nat → List Res
  /-- the module was freed -/
  destroyed : Bool
  /-- an operation was used when it was not there, a reference released that is not held, an entry removed from a list it is not in, or no operation of the lower layer was there to be canceled -/
  badOp : Bool
  /-- the module was used after it was freed, a lock released that is not held, or sm_exec_end called out of place -/
  badModule : Bool
  /-- ghost: what the lower layer reported -/
  got : Nat → Option Res
  /-- ghost: the completion had been through with the list when the operation was put into it -/
  late : Nat → Bool
  /-- ghost: how many closes have begun -/
  closeNo : Nat
  /-- ghost: how many closes had begun when the call was granted -/
  born : Nat → Nat

/-- hl_async_op_module_cancel_all.c:63-113; `is_closing` has no value yet -/
def init (c : Bool) : Sys where
  epc := fun _ => .idle
  kpc := fun _ => .idle
  cl := .idle
  ms := .closed
  lock := none
  closing := c
  list := []
  temp := []
  tok := fun _ => .none
  cbr := fun _ => false
  freed := fun _ => false
  flag := fun _ => false
  llset := fun _ => false
  canceled := fun _ => false
  inExec := fun _ => false
  calls := fun _ => []
  destroyed := false
  badOp := false
  badModule := false
  got := fun _ => none
  late := fun _ => false
  closeNo := 0
  born := fun _ => 0

/-- The completion has not yet been through with the list. -/
def KPc.open : KPc → Bool
  | .running => true | .lock _ => true | _ => false

/-- The context of operation `k` is used. -/
def touch (s : Sys) (k : Nat) : Bool := s.badOp || s.freed k || decide (s.tok k = .none)

/-- The module is used. -/
def touchM (s : Sys) : Bool := s.badModule || s.destroyed

/-- The reference for the list is released by its holder `t`. -/
def relTok (s : Sys) (k : Nat) (t : Tok) : Sys :=
  { s with
    tok := upd s.tok k .gone
    freed := upd s.freed k (s.freed k || !s.cbr k)
    badOp := s.badOp || s.freed k || decide (s.tok k ≠ t) }

/-- The reference for the completion is released. -/
def relCb (s : Sys) (k : Nat) : Sys :=
  { s with
    cbr := upd s.cbr k false
    freed := upd s.freed k (s.freed k || decide (s.tok k = .gone))
    badOp := s.badOp || s.freed k || !s.cbr k }

/-- async_op_cancel of the operation of the lower layer that is stored in operation `k` -/
def cancelLl (s : Sys) (k : Nat) : Sys :=
  { s with
    canceled := upd s.canceled k true
    badOp := touch s k || !s.llset k }

/-- The lock is released by `w`. -/
def unlock (s : Sys) (w : Who) : Sys :=
  { s with
    lock := none
    badModule := touchM s || decide (s.lock ≠ some w) }

/-- execute_async is not going on for this call. -/
def EPc.out : EPc → Bool
  | .idle => true | .ret _ => true | _ => false

/-- `calm`: the owner destroys the module only when no call of execute_async is going on. -/
inductive Step (calm : Bool) : Sys → Sys → Prop
  /-- a client calls execute_async; hl_async_op_module_cancel_all.c:303-311 bad arguments are refused, not modelled -/
  | start (s : Sys) (k : Nat) (h : s.epc k = .idle) (hd : s.destroyed = false) : Step calm s { s with epc := upd s.epc k .ask }
  /-- hl_async_op_module_cancel_all.c:314-318 -/
  | beginRefused (s : Sys) (k : Nat) (h : s.epc k = .ask) : Step calm s { s with epc := upd s.epc k (.ret false), badModule := touchM s }
  /-- hl_async_op_module_cancel_all.c:314 -/
  | beginOk (s : Sys) (k : Nat) (h : s.epc k = .ask) (hm : s.ms = .opened) :
      Step calm s { s with epc := upd s.epc k .create, inExec := upd s.inExec k true, badModule := touchM s, born := upd s.born k s.closeNo }
  /-- hl_async_op_module_cancel_all.c:322-327 -/
  | createFails (s : Sys) (k : Nat) (h : s.epc k = .create) : Step calm s { s with epc := upd s.epc k .endExec }
  /-- hl_async_op_module_cancel_all.c:322, hl_async_op_module_cancel_all.c:331-342 -/
  | createOk (s : Sys) (k : Nat) (h : s.epc k = .create) :
      Step calm s { s with epc := upd s.epc k .ref, tok := upd s.tok k .caller, flag := upd s.flag k false, llset := upd s.llset k false }
  /-- hl_async_op_module_cancel_all.c:346-347 -/
  | ref (s : Sys) (k : Nat) (h : s.epc k = .ref) : Step calm s { s with epc := upd s.epc k .start, cbr := upd s.cbr k true, badOp := touch s k }
  /-- hl_async_op_module_cancel_all.c:350-354 -/
  | llRefuses (s : Sys) (k : Nat) (h : s.epc k = .start) : Step calm s { s with epc := upd s.epc k .relCb, badModule := touchM s }
  /-- hl_async_op_module_cancel_all.c:350 -/
  | llAccepts (s : Sys) (k : Nat) (h : s.epc k = .start) : Step calm s { s with epc := upd s.epc k .store, kpc := upd s.kpc k .running, badModule := touchM s }
  /-- hl_async_op_module_cancel_all.c:359 -/
  | store (s : Sys) (k : Nat) (h : s.epc k = .store) : Step calm s { s with epc := upd s.epc k .lock, llset := upd s.llset k true, badOp := touch s k }
  /-- hl_async_op_module_cancel_all.c:364 -/
  | lock (s : Sys) (k : Nat) (h : s.epc k = .lock) (hl : s.lock = none) : Step calm s { s with epc := upd s.epc k .check, lock := some (.caller k), badModule := touchM s }
  /-- hl_async_op_module_cancel_all.c:366-369 -/
  | sawClosing (s : Sys) (k : Nat) (h : s.epc k = .check) (hc : s.closing = true) : Step calm s { s with epc := upd s.epc k .unlockC, badModule := touchM s }
  /-- hl_async_op_module_cancel_all.c:366, hl_async_op_module_cancel_all.c:370-374 -/
  | insert (s : Sys) (k : Nat) (h : s.epc k = .check) (hc : s.closing = false) :
      Step calm s { s with
        epc := upd s.epc k .mark
        list := s.list ++ [k]
        tok := upd s.tok k .list
        late := upd s.late k (!(s.kpc k).open)
        badOp := touch s k || decide (s.tok k ≠ .caller)
        badModule := touchM s }
  /-- hl_async_op_module_cancel_all.c:377 -/
  | mark (s : Sys) (k : Nat) (h : s.epc k = .mark) : Step calm s { s with epc := upd s.epc k .unlock, flag := upd s.flag k true, badOp := touch s k }
  /-- hl_async_op_module_cancel_all.c:379, hl_async_op_module_cancel_all.c:390-396 -/
  | unlockE (s : Sys) (k : Nat) (h : s.epc k = .unlock) : Step calm s { unlock s (.caller k) with epc := upd s.epc k (.ret true) }
  /-- hl_async_op_module_cancel_all.c:379-382 -/
  | unlockC (s : Sys) (k : Nat) (h : s.epc k = .unlockC) : Step calm s { unlock s (.caller k) with epc := upd s.epc k .cancel }
  /-- hl_async_op_module_cancel_all.c:385, the cancel function hl_async_op_module_cancel_all.c:224-231 -/
  | cancelE (s : Sys) (k : Nat) (h : s.epc k = .cancel) : Step calm s { cancelLl s k with epc := upd s.epc k .relTok }
  /-- hl_async_op_module_cancel_all.c:388, hl_async_op_module_cancel_all.c:395-396 -/
  | relTokE (s : Sys) (k : Nat) (h : s.epc k = .relTok) : Step calm s { relTok s k .caller with epc := upd s.epc k (.ret true) }
  /-- hl_async_op_module_cancel_all.c:398 -/
  | relCbE (s : Sys) (k : Nat) (h : s.epc k = .relCb) : Step calm s { relCb s k with epc := upd s.epc k .rel }
  /-- hl_async_op_module_cancel_all.c:399 -/
  | relE (s : Sys) (k : Nat) (h : s.epc k = .rel) : Step calm s { relTok s k .caller with epc := upd s.epc k .endExec }
  /-- hl_async_op_module_cancel_all.c:401 -/
  | endExec (s : Sys) (k : Nat) (h : s.epc k = .endExec) :
      Step calm s { s with epc := upd s.epc k (.ret false), inExec := upd s.inExec k false, badModule := touchM s || !s.inExec k }
  /-- the lower layer completes with any result and calls hl_async_op_module_cancel_all_on_ml_complete (hl_async_op_module_cancel_all.c:240) -/
  | complete (s : Sys) (k : Nat) (r : Res) (h : s.kpc k = .running) : Step calm s { s with kpc := upd s.kpc k (.lock r), got := upd s.got k (some r) }
  /-- hl_async_op_module_cancel_all.c:249-253 -/
  | lockK (s : Sys) (k : Nat) (r : Res) (h : s.kpc k = .lock r) (hl : s.lock = none) :
      Step calm s { s with kpc := upd s.kpc k (.cas r), lock := some (.comp k), badOp := touch s k, badModule := touchM s }
  /-- hl_async_op_module_cancel_all.c:255 -/
  | casIn (s : Sys) (k : Nat) (r : Res) (h : s.kpc k = .cas r) (hf : s.flag k = true) : Step calm s { s with kpc := upd s.kpc k (.remove r), flag := upd s.flag k false, badOp := touch s k }
  /-- hl_async_op_module_cancel_all.c:255, hl_async_op_module_cancel_all.c:261-264 -/
  | casOut (s : Sys) (k : Nat) (r : Res) (h : s.kpc k = .cas r) (hf : s.flag k = false) : Step calm s { s with kpc := upd s.kpc k (.unlock r), badOp := touch s k }
  /-- hl_async_op_module_cancel_all.c:257-258 -/
  | remove (s : Sys) (k : Nat) (r : Res) (h : s.kpc k = .remove r) :
      Step calm s { s with
        kpc := upd s.kpc k (.relTok r)
        list := s.list.erase k
        tok := upd s.tok k .comp
        badOp := touch s k || decide (k ∉ s.list)
        badModule := touchM s }
  /-- hl_async_op_module_cancel_all.c:259 -/
  | relTokK (s : Sys) (k : Nat) (r : Res) (h : s.kpc k = .relTok r) : Step calm s { relTok s k .comp with kpc := upd s.kpc k (.unlock r) }
  /-- hl_async_op_module_cancel_all.c:265 -/
  | unlockK (s : Sys) (k : Nat) (r : Res) (h : s.kpc k = .unlock r) : Step calm s { unlock s (.comp k) with kpc := upd s.kpc k (.endSm r), badOp := touch s k }
  /-- hl_async_op_module_cancel_all.c:269 -/
  | endSm (s : Sys) (k : Nat) (r : Res) (h : s.kpc k = .endSm r) :
      Step calm s { s with kpc := upd s.kpc k (.call r), inExec := upd s.inExec k false, badOp := touch s k, badModule := touchM s || !s.inExec k }
  /-- hl_async_op_module_cancel_all.c:272-293 -/
  | call (s : Sys) (k : Nat) (r : Res) (h : s.kpc k = .call r) :
      Step calm s { s with kpc := upd s.kpc k .rel, calls := upd s.calls k (s.calls k ++ [r.passed]), badOp := touch s k }
  /-- hl_async_op_module_cancel_all.c:296 -/
  | relK (s : Sys) (k : Nat) (h : s.kpc k = .rel) : Step calm s { relCb s k with kpc := upd s.kpc k .fin }
  /-- hl_async_op_module_cancel_all.c:188-206; when the pool cannot be created the module stays closed -/
  | opens (s : Sys) (h : s.ms = .closed) (hd : s.destroyed = false) : Step calm s { s with ms := .opened, closing := false }
  /-- hl_async_op_module_cancel_all.c:155 -/
  | closes (s : Sys) (h : s.ms = .opened) : Step calm s { s with ms := .closing, cl := .lock, badModule := touchM s, closeNo := s.closeNo + 1 }
  /-- hl_async_op_module_cancel_all.c:123-126 -/
  | lockC (s : Sys) (h : s.cl = .lock) (hl : s.lock = none) : Step calm s { s with cl := .drain, lock := some .closer, closing := true, badModule := touchM s }
  /-- hl_async_op_module_cancel_all.c:130-134 -/
  | take (s : Sys) (k : Nat) (l : List Nat) (h : s.cl = .drain) (hl : s.list = k :: l) :
      Step calm s { s with cl := .unmark k, list := l, temp := s.temp ++ [k], tok := upd s.tok k .temp, badOp := touch s k, badModule := touchM s }
  /-- hl_async_op_module_cancel_all.c:137 -/
  | unmark (s : Sys) (k : Nat) (h : s.cl = .unmark k) : Step calm s { s with cl := .drain, flag := upd s.flag k false, badOp := touch s k }
  /-- hl_async_op_module_cancel_all.c:130 -/
  | drained (s : Sys) (h : s.cl = .drain) (hl : s.list = []) : Step calm s { s with cl := .unlock, badModule := touchM s }
  /-- hl_async_op_module_cancel_all.c:139 -/
  | unlockCl (s : Sys) (h : s.cl = .unlock) : Step calm s { unlock s .closer with cl := .next }
  /-- hl_async_op_module_cancel_all.c:144-146 -/
  | next (s : Sys) (k : Nat) (l : List Nat) (h : s.cl = .next) (hl : s.temp = k :: l) : Step calm s { s with cl := .cancel k, temp := l, tok := upd s.tok k .closer, badOp := touch s k }
  /-- hl_async_op_module_cancel_all.c:147 -/
  | cancelCl (s : Sys) (k : Nat) (h : s.cl = .cancel k) : Step calm s { cancelLl s k with cl := .rel k }
  /-- hl_async_op_module_cancel_all.c:148-149 -/
  | relCl (s : Sys) (k : Nat) (h : s.cl = .rel k) : Step calm s { relTok s k .closer with cl := .next }
  /-- hl_async_op_module_cancel_all.c:144, hl_async_op_module_cancel_all.c:151 -/
  | told (s : Sys) (h : s.cl = .next) (hl : s.temp = []) : Step calm s { s with cl := .wait }
  /-- hl_async_op_module_cancel_all.c:155-158 -/
  | closeEnd (s : Sys) (h : s.cl = .wait) (hn : ∀ k, s.inExec k = false) : Step calm s { s with cl := .idle, ms := .closed, badModule := touchM s }
  /-- hl_async_op_module_cancel_all.c:162-175, the module is closed -/
  | destroy (s : Sys) (h : s.ms = .closed) (hd : s.destroyed = false) (hc : calm = true → ∀ k, (s.epc k).out = true) : Step calm s { s with destroyed := true }

inductive Reach (calm : Bool) : Sys → Prop
  | init (c : Bool) : Reach calm (init c)
  | step {s s' : Sys} (h : Reach calm s) (st : Step calm s s') : Reach calm s'

end CUtil.SampleCancelAll
