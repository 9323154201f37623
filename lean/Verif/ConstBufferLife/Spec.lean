import Verif.ConstBufferLife.Model
/-
Clients of CONSTBUFFER: who owns how many references, and what each handle should contain.
`held h` is the number of references to `h` the clients own, `view h` the bytes it was created
with, for a window the slice of its parent's.  A client may use a handle only while it owns a
reference to it; apart from that, threads may interleave in any way.
-/
namespace CUtil.ConstBufferLife.Spec
open CUtil

structure Sys where
  heap : Heap
  held : Nat → Nat
  view : Nat → List UInt8

def Sys.init : Sys := ⟨⟨[], []⟩, fun _ => 0, fun _ => []⟩

def upd {α : Type} (f : Nat → α) (h : Nat) (v : α) : Nat → α := fun i => if i = h then v else f i

/-- What a client thread can do next. -/
inductive Op where
  | create (k : Kind) (src : Source) (alloc : Bool)
  | window (h offset size : Nat) (alloc : Bool)
  | windowCopy (h offset size : Nat) (alloc : Bool)
  | incRef (h : Nat)
  | decRef (h : Nat)
  | finish (h : Nat)

/-- The rules of the API: blocks are as long as announced, sizes are 32 bit, buffers are used
and released only while owned; a release that reached zero may be carried on at any time. -/
def Allowed (s : Sys) : Op → Prop
  | .create k src _ => (∀ p, k ≠ .window p) ∧ src.size < 2 ^ 32 ∧ ∀ m, src.block = some m → src.size ≤ m.length
  | .window h off size _ => 0 < s.held h ∧ off < 2 ^ 32 ∧ size < 2 ^ 32
  | .windowCopy h off size _ => 0 < s.held h ∧ off < 2 ^ 32 ∧ size < 2 ^ 32
  | .incRef h => 0 < s.held h
  | .decRef h => 0 < s.held h
  | .finish h => ∃ o, s.heap.objs[h]? = some o ∧ o.phase = .dying

/-- A new handle `r` with content `v` (or NULL), owned once. -/
def gain (s : Sys) (r : Option Nat × Heap) (v : List UInt8) : Sys :=
  match r with
  | (none, hp) => { s with heap := hp }
  | (some r, hp) => { heap := hp, held := upd s.held r (s.held r + 1), view := upd s.view r v }

def slice (bs : List UInt8) (off size : Nat) : List UInt8 := (bs.drop off).take size

/-- Effect of an operation on the system. -/
def exec (s : Sys) : Op → C Sys
  | .create k src alloc => do
    let r ← create s.heap k src alloc
    pure (gain s r ((src.block.getD []).take src.size))
  | .window h off size alloc => do
    let r ← createWindow s.heap h off size alloc
    pure (gain s r (slice (s.view h) off size))
  | .windowCopy h off size alloc => do
    let r ← createWindowCopy s.heap h off size alloc
    pure (gain s r (slice (s.view h) off size))
  | .incRef h => do
    let hp ← incRef s.heap h
    pure { s with heap := hp, held := upd s.held h (s.held h + 1) }
  | .decRef h => do
    let hp ← decRef s.heap h
    pure { s with heap := hp, held := upd s.held h (s.held h - 1) }
  | .finish h => do
    let hp ← finish s.heap h
    pure { s with heap := hp }

/-- States reachable by any interleaving of allowed operations. -/
inductive Reachable : Sys → Prop where
  | init : Reachable Sys.init
  | step {s s' : Sys} (op : Op) : Reachable s → Allowed s op → exec s op = C.ok s' → Reachable s'

/-- Nothing is waiting to be finished. -/
def Quiet (s : Sys) : Prop := ∀ o ∈ s.heap.objs, o.phase ≠ .dying

/-- `h` is `r` or a window of a window of ... of `r`. -/
inductive Below (s : Sys) : Nat → Nat → Prop where
  | refl (h : Nat) : Below s h h
  | step {h p r : Nat} {o : Obj} : s.heap.objs[h]? = some o → o.kind = .window p → Below s p r → Below s h r

end CUtil.ConstBufferLife.Spec
