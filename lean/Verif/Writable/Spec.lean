import Verif.Writable.Model
/-
The users of writable buffers.  `w p` and `r p` are the references the users own through writable and through constant handles, `log` the bytes
stored so far (newest first).  Users use a handle only while they own a reference of that sort, and store within the size.
-/
namespace CUtil.Writable.Spec
open CUtil Conc

structure Sys where
  heap : Heap
  w : Nat → Nat
  r : Nat → Nat
  log : List (Nat × Nat × UInt8)

def init : Sys := ⟨⟨0, fun _ => [], fun _ => 0, fun _ => 0, fun _ => 0⟩, fun _ => 0, fun _ => 0, []⟩

inductive Op where
  | create (size : Nat) (alloc : Bool)
  | write (p i : Nat) (b : UInt8)
  | sealW (p : Nat) (alloc : Bool)
  | wInc (p : Nat)
  | wDec (p : Nat)
  | inc (p : Nat)
  | dec (p : Nat)

/-- The rules. -/
def Allowed (s : Sys) : Op → Prop
  | .create _ _ => True
  | .write p i _ => 0 < s.w p ∧ i < s.heap.size p
  | .sealW p _ => 0 < s.w p
  | .wInc p => 0 < s.w p
  | .wDec p => 0 < s.w p
  | .inc p => 0 < s.r p
  | .dec p => 0 < s.r p

/-- Who owns what after sealing: without a copy the writable reference has become a constant one, with a copy it is kept. -/
def afterSeal (twin : Bool) (s : Sys) (p : Nat) : Option Nat × Heap → Sys
  | (none, h) => { s with heap := h }
  | (some q, h) => if twin then { s with heap := h, r := upd s.r q 1 } else { s with heap := h, w := upd s.w p (s.w p - 1), r := upd s.r p (s.r p + 1) }

def exec (twin : Bool) (s : Sys) : Op → C Sys
  | .create size alloc =>
    match createWritable s.heap size alloc with
    | (none, h) => C.ok { s with heap := h }
    | (some p, h) => C.ok { s with heap := h, w := upd s.w p 1 }
  | .write p i b => do
    let h ← write s.heap p i b
    pure { s with heap := h, log := (p, i, b) :: s.log }
  | .sealW p alloc => do
    let x ← sealW twin s.heap p alloc
    pure (afterSeal twin s p x)
  | .wInc p => do
    let h ← incRef s.heap p
    pure { s with heap := h, w := upd s.w p (s.w p + 1) }
  | .wDec p => do
    let h ← decRef s.heap p
    pure { s with heap := h, w := upd s.w p (s.w p - 1) }
  | .inc p => do
    let h ← incRef s.heap p
    pure { s with heap := h, r := upd s.r p (s.r p + 1) }
  | .dec p => do
    let h ← decRef s.heap p
    pure { s with heap := h, r := upd s.r p (s.r p - 1) }

/-- The states users can bring about. -/
inductive Reach (twin : Bool) : Sys → Prop
  | init : Reach twin init
  | step {s s'} (op : Op) : Reach twin s → Allowed s op → exec twin s op = C.ok s' → Reach twin s'

/-- The byte stored last at index `i` of `p`, if any. -/
def lastWrite : List (Nat × Nat × UInt8) → Nat → Nat → Option UInt8
  | [], _, _ => none
  | (q, j, b) :: l, p, i => if q = p ∧ j = i then some b else lastWrite l p i

end CUtil.Writable.Spec
