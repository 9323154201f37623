import Verif.Base
/-
Model of /repo/src/async_op.c on a 64 bit target: `sizeof(CONTEXT_TO_ASYNC_OP)` and its alignment are 8, and the structure of
/repo/inc/c_util/async_op.h:33-52 has `context`, `cancel`, `dispose` (8 bytes each), the 4 byte state and then `private_context` at
offset 28.  Memory is a function from addresses to bytes; a block is a range of addresses.
-/
namespace CUtil.AsyncOp

abbrev Memory := Nat → UInt8

/-- A pointer stored at `a` (little endian). -/
def storePtr (m : Memory) (a v : Nat) : Memory := fun q => if a ≤ q ∧ q < a + 8 then UInt8.ofNat (v / 256 ^ (q - a)) else m q

/-- The pointer at `a`. -/
def loadPtr (m : Memory) (a : Nat) : Nat :=
  (m a).toNat + (m (a + 1)).toNat * 256 + (m (a + 2)).toNat * 256 ^ 2 + (m (a + 3)).toNat * 256 ^ 3 +
  (m (a + 4)).toNat * 256 ^ 4 + (m (a + 5)).toNat * 256 ^ 5 + (m (a + 6)).toNat * 256 ^ 6 + (m (a + 7)).toNat * 256 ^ 7

/-- async_op.c:45-56 `get_next_aligned_address`.  The sum is in `uintptr_t`. -/
def nextAligned (start align : Nat) : Nat :=
  let m := start % align
  (start + (if m ≠ 0 then 1 else 0) * (align - m)) % 2 ^ 64

/-- async_op.c:59-73 `get_prev_aligned_with_size_address`. -/
def prevAligned (start size align : Nat) : Nat :=
  let first := (start + 2 ^ 64 - size) % 2 ^ 64
  let m := first % align
  first - m

/-- What `async_op_create` sets up. -/
structure Op where
  /-- address of the structure, the value of the handle -/
  addr : Nat
  /-- bytes after the fixed part -/
  flex : Nat
  context : Nat
  cancel : Bool
  dispose : Bool

/-- Address of `private_context`. -/
def Op.priv (o : Op) : Nat := o.addr + 28

/-- async_op.c:41-42 and 83-88: the check of the arguments.  The arithmetic is in `size_t`. -/
def refused (context_size context_align : Nat) : Bool :=
  decide (context_align = 0) || !decide (context_align &&& (context_align - 1) = 0) ||
    decide (context_size > (4294967295 - 8 - 8 - 1 - 1 - context_align))

/-- async_op.c:79-135 `async_op_create`; `alloc n` is the address of a new structure with `n` more bytes.  The size is passed as a 32 bit number. -/
def create (alloc : Nat → Option Nat) (mem : Memory) (cancel : Bool) (context_size context_align : Nat) (dispose : Bool) : C (Memory × Option Op) :=
  if refused context_size context_align then C.ok (mem, none)
  else
    let flex := (8 + 8 + context_size + context_align - 1 - 1) % 2 ^ 32
    match alloc flex with
    | none => C.ok (mem, none)
    | some addr =>
      let priv := addr + 28
      let temp := nextAligned priv 8
      let context := nextAligned (temp + 8) context_align
      let back := prevAligned context 8 8
      -- the store of the back pointer must be within the block
      if priv ≤ back ∧ back + 8 ≤ priv + flex then C.ok (storePtr mem back addr, some ⟨addr, flex, context, cancel, dispose⟩)
      else C.ub

/-- async_op.c:190-191: where the back pointer is looked for. -/
def backAddress (start : Nat) : Nat :=
  (start + 2 ^ 64 - 8) % 2 ^ 64 - (start + 2 ^ 64 - 8) % 2 ^ 64 % 8

/-- async_op.c:171-197 `async_op_from_context`. -/
def fromContext (mem : Memory) (context : Option Nat) : Option Nat :=
  match context with
  | none => none
  | some start => some (loadPtr mem (backAddress start))

/-- async_op.c:33-39 `async_op_dispose`: what `dispose` is called with, if it is called. -/
def disposeCall (o : Op) : Option Nat := if o.dispose then some o.context else none

/-! ## async_op_cancel, any number of concurrent calls

Each call is a small program of atomic steps; the calls are numbered and interleave in any order. -/

/-- async_op.h:25-28. -/
inductive State | running | cancelling | invalidArg
deriving DecidableEq

/-- Where a call of `async_op_cancel` is. -/
inductive Pc
  /-- async_op.c:149 about to exchange -/
  | start
  /-- async_op.c:155-158 exchanged RUNNING for CANCELLING, about to test and call `cancel` -/
  | won
  /-- async_op.c:167 returned -/
  | done (result : State)
deriving DecidableEq

structure Sys where
  state : State
  pc : Nat → Pc
  /-- number of times the cancel function was called -/
  calls : Nat
  /-- the contexts it was called with -/
  args : List Nat

def setPc (pc : Nat → Pc) (t : Nat) (v : Pc) : Nat → Pc := fun u => if u = t then v else pc u

/-- async_op.c:137-168: one step of call `t`. -/
inductive Step (o : Op) : Sys → Sys → Prop
  | exchange_ok (s t) : s.pc t = .start → s.state = .running → Step o s ⟨.cancelling, setPc s.pc t .won, s.calls, s.args⟩
  | exchange_no (s t) : s.pc t = .start → s.state ≠ .running → Step o s ⟨s.state, setPc s.pc t (.done s.state), s.calls, s.args⟩
  | call (s t) : s.pc t = .won → o.cancel = true → Step o s ⟨s.state, setPc s.pc t (.done .cancelling), s.calls + 1, o.context :: s.args⟩
  | no_call (s t) : s.pc t = .won → o.cancel = false → Step o s ⟨s.state, setPc s.pc t (.done .cancelling), s.calls, s.args⟩

/-- Any interleaving of any number of calls. -/
inductive Reach (o : Op) : Sys → Prop
  | init : Reach o ⟨.running, fun _ => .start, 0, []⟩
  | step (s s') : Reach o s → Step o s s' → Reach o s'

/-- async_op.c:140-145: a NULL handle. -/
def cancelNull : State := .invalidArg

end CUtil.AsyncOp
