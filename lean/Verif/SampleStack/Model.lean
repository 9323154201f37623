import Verif.Conc
/-
A stack of the sample modules /repo/samples/async_op_samples_int/hl_async_op_module.c and ml_async_op_module.c, which forward an asynchronous call to the layer below. The two files are the same but for names and for who is above and below; here the
layers 1, …, `n` are such modules, for any `n`, and layer 0 is a module that does the work (C81). One call on the top layer: the thread that goes down through execute_async of all layers and comes back, the completion that goes
up through their completion functions, the client who cancels and releases its handle, and the owner who closes and destroys the modules from the top.

Layer 0 keeps the contract of execute_async: it refuses, or it accepts and completes once, at any time, also before execute_async has returned; C81 proves it of the modules of the samples. There are two references on the operation of a layer: the one that
is given to the layer above, and the one for the completion; the last to go frees the operation, and its dispose function then releases the operation of the layer below (C32). async_op_cancel runs the cancel function at most once (C32). The state manager
(c_pal, its code is not in the repository): a close waits until every call that was granted has ended with sm_exec_end. The client does not release its handle while it cancels.
-/
namespace CUtil.SampleStack
open CUtil.Conc

/-- COMMON_ASYNC_OP_MODULE_RESULT (common_async_op_module_interface.h:26-32) -/
inductive Res where
  | ok | error | retry | canceled
  deriving DecidableEq, Repr

/-- hl_async_op_module.c:196-217, ml_async_op_module.c:197-218 the result that is passed to the layer above when the layer below reports `r` -/
def Res.passed : Res → Res
  | .ok => .ok
  | .canceled => .canceled
  | _ => .error

/-- What layer `i` passes on when `r` is reported to it; layer 0 reports its own result. -/
def out (i : Nat) (r : Res) : Res := if i = 0 then r else r.passed

/-- Where the reference on an operation is that is given to the layer above. -/
inductive Tok where
  /-- the operation was not created -/
  | none
  /-- in the variable `async_op` of execute_async of its layer -/
  | caller
  /-- in the variable `ll_async_op` of execute_async of the layer above -/
  | var
  /-- in the context of the operation of the layer above -/
  | stored
  /-- the client has it (top layer) -/
  | client
  /-- released -/
  | gone
  deriving DecidableEq, Repr

/-- execute_async of a layer (hl_async_op_module.c:224-299, ml_async_op_module.c:225-300) -/
inductive EPc where
  | idle
  /-- hl_async_op_module.c:239, ml_async_op_module.c:240 about to ask the state manager; layer 0: at work -/
  | ask
  /-- hl_async_op_module.c:247, ml_async_op_module.c:248 about to create the operation -/
  | create
  /-- hl_async_op_module.c:271, ml_async_op_module.c:272 about to take the reference for the completion -/
  | ref
  /-- hl_async_op_module.c:274, ml_async_op_module.c:275 about to call the layer below -/
  | call
  /-- hl_async_op_module.c:274, ml_async_op_module.c:275 in the layer below -/
  | inLower
  /-- hl_async_op_module.c:283, ml_async_op_module.c:284 the layer below has accepted -/
  | store
  /-- hl_async_op_module.c:287, ml_async_op_module.c:288 about to give the operation to the caller -/
  | out
  /-- hl_async_op_module.c:291, ml_async_op_module.c:292 refused, about to release the reference for the completion -/
  | relCb
  /-- hl_async_op_module.c:292, ml_async_op_module.c:293 about to release the operation -/
  | rel
  /-- hl_async_op_module.c:294, ml_async_op_module.c:295 about to tell the state manager -/
  | endExec
  | ret (ok : Bool)
  deriving DecidableEq, Repr

/-- The completion at a layer (hl_async_op_module.c:180-222, ml_async_op_module.c:181-223); layer 0 has no other part than to work, call and release. -/
inductive KPc where
  | idle
  /-- layer 0: at work -/
  | running
  /-- hl_async_op_module.c:193, ml_async_op_module.c:194 -/
  | endSm (r : Res)
  /-- hl_async_op_module.c:196, ml_async_op_module.c:197 about to call the callback -/
  | call (r : Res)
  /-- hl_async_op_module.c:202, hl_async_op_module.c:208, hl_async_op_module.c:214, ml_async_op_module.c:203, ml_async_op_module.c:209, ml_async_op_module.c:215 in the callback, which is the completion of the layer above -/
  | inUpper
  /-- hl_async_op_module.c:220, ml_async_op_module.c:221 about to release the reference -/
  | rel
  | fin
  deriving DecidableEq, Repr

/-- async_op_cancel of the operation of a layer (hl_async_op_module.c:164-171, ml_async_op_module.c:164-172) -/
inductive CPc where
  | idle
  /-- hl_async_op_module.c:170, ml_async_op_module.c:171 about to cancel the operation of the layer below -/
  | enter
  /-- hl_async_op_module.c:170, ml_async_op_module.c:171 in the cancel of the operation of the layer below -/
  | inLower
  | done
  deriving DecidableEq, Repr

structure Sys where
  epc : Nat → EPc
  kpc : Nat → KPc
  cpc : Nat → CPc
  /-- the reference that is given to the layer above -/
  tok : Nat → Tok
  /-- the reference for the completion is held -/
  cbr : Nat → Bool
  /-- the operation was freed -/
  freed : Nat → Bool
  /-- `ll_async_op` of the operation is set -/
  llset : Nat → Bool
  /-- between sm_exec_begin and sm_exec_end of the layer -/
  inExec : Nat → Bool
  /-- the module of the layer was closed, destroyed and freed -/
  destroyed : Nat → Bool
  /-- the work of layer 0 was canceled -/
  canceled : Bool
  /-- the results the client's callback was called with -/
  calls : List Res
  /-- an operation was used when it was not there, a reference released that is not held, or no operation of the layer below was there to be canceled -/
  badOp : Bool
  /-- a module was used after it was freed, or sm_exec_end called out of place -/
  badModule : Bool
  /-- ghost: the result of the work -/
  got : Option Res

def init : Sys where
  epc := fun _ => .idle
  kpc := fun _ => .idle
  cpc := fun _ => .idle
  tok := fun _ => .none
  cbr := fun _ => false
  freed := fun _ => false
  llset := fun _ => false
  inExec := fun _ => false
  destroyed := fun _ => false
  canceled := false
  calls := []
  badOp := false
  badModule := false
  got := none

/-- The context of the operation of layer `i` is used. -/
def touch (s : Sys) (i : Nat) : Bool := s.badOp || s.freed i || decide (s.tok i = .none)

/-- The module of layer `i` is used. -/
def touchM (s : Sys) (i : Nat) : Bool := s.badModule || s.destroyed i

/-- The reference that was given to the layer above is released by its holder `t`. -/
def relTok (s : Sys) (i : Nat) (t : Tok) : Sys :=
  { s with
    tok := upd s.tok i .gone
    freed := upd s.freed i (s.freed i || !s.cbr i)
    badOp := s.badOp || s.freed i || decide (s.tok i ≠ t) }

/-- The reference for the completion is released. -/
def relCb (s : Sys) (i : Nat) : Sys :=
  { s with
    cbr := upd s.cbr i false
    freed := upd s.freed i (s.freed i || decide (s.tok i = .gone))
    badOp := s.badOp || s.freed i || !s.cbr i }

/-- A stack of `n` modules above layer 0. -/
inductive Step (n : Nat) : Sys → Sys → Prop
  /-- the client calls execute_async of the top layer -/
  | start (s : Sys) (h : s.epc n = .idle) (hd : s.destroyed n = false) : Step n s { s with epc := upd s.epc n .ask }
  /-- hl_async_op_module.c:239-243, ml_async_op_module.c:240-244 -/
  | beginRefused (s : Sys) (i : Nat) (hi : 0 < i) (h : s.epc i = .ask) : Step n s { s with epc := upd s.epc i (.ret false), badModule := touchM s i }
  /-- hl_async_op_module.c:239, ml_async_op_module.c:240 -/
  | beginOk (s : Sys) (i : Nat) (hi : 0 < i) (h : s.epc i = .ask) :
      Step n s { s with epc := upd s.epc i .create, inExec := upd s.inExec i true, badModule := touchM s i }
  /-- hl_async_op_module.c:247-252, ml_async_op_module.c:248-253 -/
  | createFails (s : Sys) (i : Nat) (h : s.epc i = .create) : Step n s { s with epc := upd s.epc i .endExec }
  /-- hl_async_op_module.c:247, hl_async_op_module.c:256-266, ml_async_op_module.c:248, ml_async_op_module.c:257-267 -/
  | createOk (s : Sys) (i : Nat) (h : s.epc i = .create) : Step n s { s with epc := upd s.epc i .ref, tok := upd s.tok i .caller, llset := upd s.llset i false }
  /-- hl_async_op_module.c:270-271, ml_async_op_module.c:271-272 -/
  | ref (s : Sys) (i : Nat) (h : s.epc i = .ref) : Step n s { s with epc := upd s.epc i .call, cbr := upd s.cbr i true, badOp := touch s i }
  /-- hl_async_op_module.c:274, ml_async_op_module.c:275 -/
  | call (s : Sys) (i : Nat) (h : s.epc (i + 1) = .call) : Step n s { s with epc := upd (upd s.epc (i + 1) .inLower) i .ask, badModule := touchM s (i + 1) }
  /-- layer 0 refuses -/
  | refuse (s : Sys) (h : s.epc 0 = .ask) : Step n s { s with epc := upd s.epc 0 (.ret false), badModule := touchM s 0 }
  /-- layer 0 accepts and gives out an operation; its completion holds a reference on it -/
  | accept (s : Sys) (h : s.epc 0 = .ask) :
      Step n s { s with
        epc := upd s.epc 0 (.ret true)
        kpc := upd s.kpc 0 .running
        tok := upd s.tok 0 (if n = 0 then .client else .var)
        cbr := upd s.cbr 0 true
        badModule := touchM s 0 }
  /-- hl_async_op_module.c:274-278, ml_async_op_module.c:275-279 -/
  | lowerFailed (s : Sys) (i : Nat) (h : s.epc (i + 1) = .inLower) (hl : s.epc i = .ret false) : Step n s { s with epc := upd s.epc (i + 1) .relCb }
  /-- hl_async_op_module.c:274, ml_async_op_module.c:275 -/
  | lowerOk (s : Sys) (i : Nat) (h : s.epc (i + 1) = .inLower) (hl : s.epc i = .ret true) : Step n s { s with epc := upd s.epc (i + 1) .store }
  /-- hl_async_op_module.c:283, ml_async_op_module.c:284 -/
  | store (s : Sys) (i : Nat) (h : s.epc (i + 1) = .store) :
      Step n s { s with
        epc := upd s.epc (i + 1) .out
        tok := upd s.tok i .stored
        llset := upd s.llset (i + 1) true
        badOp := touch s (i + 1) || decide (s.tok i ≠ .var) }
  /-- hl_async_op_module.c:287-289, ml_async_op_module.c:288-290 -/
  | out (s : Sys) (i : Nat) (h : s.epc i = .out) :
      Step n s { s with
        epc := upd s.epc i (.ret true)
        tok := upd s.tok i (if i = n then .client else .var)
        badOp := s.badOp || decide (s.tok i ≠ .caller) }
  /-- hl_async_op_module.c:291, ml_async_op_module.c:292 -/
  | relCbE (s : Sys) (i : Nat) (h : s.epc i = .relCb) : Step n s { relCb s i with epc := upd s.epc i .rel }
  /-- hl_async_op_module.c:292, ml_async_op_module.c:293 -/
  | relE (s : Sys) (i : Nat) (h : s.epc i = .rel) : Step n s { relTok s i .caller with epc := upd s.epc i .endExec }
  /-- hl_async_op_module.c:294, ml_async_op_module.c:295 -/
  | endExec (s : Sys) (i : Nat) (h : s.epc i = .endExec) :
      Step n s { s with epc := upd s.epc i (.ret false), inExec := upd s.inExec i false, badModule := touchM s i || !s.inExec i }
  /-- layer 0 is through with its work -/
  | complete (s : Sys) (r : Res) (h : s.kpc 0 = .running) : Step n s { s with kpc := upd s.kpc 0 (.call r), got := some r }
  /-- hl_async_op_module.c:189-193, ml_async_op_module.c:190-194 -/
  | endSm (s : Sys) (i : Nat) (r : Res) (h : s.kpc i = .endSm r) :
      Step n s { s with kpc := upd s.kpc i (.call r), inExec := upd s.inExec i false, badOp := touch s i, badModule := touchM s i || !s.inExec i }
  /-- hl_async_op_module.c:196-217, ml_async_op_module.c:197-218 the callback is the completion of the layer above -/
  | callUp (s : Sys) (i : Nat) (r : Res) (hi : i < n) (h : s.kpc i = .call r) :
      Step n s { s with kpc := upd (upd s.kpc i .inUpper) (i + 1) (.endSm (CUtil.SampleStack.out i r)), badOp := touch s i }
  /-- hl_async_op_module.c:196-217, ml_async_op_module.c:197-218 the callback is the client's -/
  | callClient (s : Sys) (r : Res) (h : s.kpc n = .call r) :
      Step n s { s with kpc := upd s.kpc n .rel, calls := s.calls ++ [CUtil.SampleStack.out n r], badOp := touch s n }
  /-- the callback returns -/
  | upReturned (s : Sys) (i : Nat) (h : s.kpc i = .inUpper) (hu : s.kpc (i + 1) = .fin) : Step n s { s with kpc := upd s.kpc i .rel }
  /-- hl_async_op_module.c:220, ml_async_op_module.c:221 -/
  | relK (s : Sys) (i : Nat) (h : s.kpc i = .rel) : Step n s { relCb s i with kpc := upd s.kpc i .fin }
  /-- the dispose function of an operation that was freed: hl_async_op_module.c:173-178, ml_async_op_module.c:174-179 -/
  | dispose (s : Sys) (i : Nat) (h : s.freed (i + 1) = true) (ht : s.tok i = .stored) : Step n s (relTok s i .stored)
  /-- the client cancels -/
  | cancel (s : Sys) (h : s.tok n = .client) (hc : s.cpc n = .idle) : Step n s { s with cpc := upd s.cpc n .enter, badOp := touch s n }
  /-- hl_async_op_module.c:170, ml_async_op_module.c:171 -/
  | cancelDown (s : Sys) (i : Nat) (h : s.cpc (i + 1) = .enter) :
      Step n s { s with cpc := upd (upd s.cpc (i + 1) .inLower) i .enter, badOp := touch s (i + 1) || !s.llset (i + 1) }
  /-- layer 0 is told -/
  | cancelWork (s : Sys) (h : s.cpc 0 = .enter) : Step n s { s with cpc := upd s.cpc 0 .done, canceled := true, badOp := touch s 0 }
  /-- hl_async_op_module.c:171, ml_async_op_module.c:172 -/
  | cancelled (s : Sys) (i : Nat) (h : s.cpc (i + 1) = .inLower) (hl : s.cpc i = .done) : Step n s { s with cpc := upd s.cpc (i + 1) .done, badOp := touch s (i + 1) }
  /-- the client releases its handle -/
  | drop (s : Sys) (h : s.tok n = .client) (hc : s.cpc n = .idle ∨ s.cpc n = .done) : Step n s (relTok s n .client)
  /-- hl_async_op_module.c:94-116, ml_async_op_module.c:94-116: the owner closes and destroys the module of layer `i`, after those above it; the close waits for the end of the call -/
  | destroy (s : Sys) (i : Nat) (hn : i ≤ n) (hu : i < n → s.destroyed (i + 1) = true) (hi : s.inExec i = false) (he : s.epc i ≠ .ask) (h0 : i = 0 → s.kpc 0 ≠ .running) (hd : s.destroyed i = false) : Step n s { s with destroyed := upd s.destroyed i true }

inductive Reach (n : Nat) : Sys → Prop
  | init : Reach n init
  | step {s s' : Sys} (h : Reach n s) (st : Step n s s') : Reach n s'

end CUtil.SampleStack
