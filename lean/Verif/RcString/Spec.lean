import Verif.RcString.Model
/-
Clients of RC_STRING and RC_PTR: who owns how many references, what was each handle created
with, and what should its holders read.  A client may use a handle only while it owns a
reference; apart from that, threads may interleave in any way.
-/
namespace CUtil.RcString.Spec
open CUtil

structure Sys where
  heap : Heap
  /-- references owned by clients -/
  held : Nat → Nat
  /-- the text each string handle was created with -/
  view : Nat → List UInt8
  /-- the resources each handle was created with -/
  made : Nat → Option Kind
  /-- blocks of text the clients own (not yet moved into a handle) -/
  mine : Nat → Option (List UInt8)

def Sys.init : Sys := ⟨⟨0, fun _ => none, []⟩, fun _ => 0, fun _ => [], fun _ => none, fun _ => none⟩

def upd {α : Type} (f : Nat → α) (h : Nat) (v : α) : Nat → α := fun i => if i = h then v else f i

/-- What a client thread can do next. -/
inductive Op where
  | newText (t : List UInt8)
  | freeText (b : Nat)
  | create (t : List UInt8) (alloc : Bool)
  | createVformat (t : List UInt8) (ok1 ok2 alloc : Bool)
  | createMove (b : Nat) (alloc : Bool)
  | createCustom (t : List UInt8) (f ctx : Nat) (alloc : Bool)
  | recreate (p : Nat) (alloc : Bool)
  | ptrCreate (x : Nat) (f : Option Nat) (ctx : Nat) (alloc : Bool)
  | incRef (p : Nat)
  | decRef (p : Nat)
  | finish (p : Nat)

/-- A handle to a string (not an RC_PTR). -/
def IsString (s : Sys) (p : Nat) : Prop := ∃ k, s.made p = some k ∧ ∀ x f c, k ≠ .ptr x f c

/-- The rules of the API: texts are C strings (shorter than 2^31 - 1 when formatted, than the address
space otherwise); blocks are moved by their owner; handles are used and released only
while owned; a release that reached zero may be carried on at any time. -/
def Allowed (s : Sys) : Op → Prop
  | .newText t => 0 ∉ t
  | .freeText b => s.mine b ≠ none
  | .create t _ => 0 ∉ t ∧ t.length + 1 ≤ sizeMax - extraSize
  | .createVformat t _ _ _ => 0 ∉ t ∧ t.length < intMax
  | .createMove b _ => s.mine b ≠ none
  | .createCustom t _ _ _ => 0 ∉ t
  | .recreate p _ => 0 < s.held p ∧ IsString s p ∧ (s.view p).length + 1 ≤ sizeMax - extraSize
  | .ptrCreate .. => True
  | .incRef p => 0 < s.held p
  | .decRef p => 0 < s.held p
  | .finish p => ∃ o, s.heap.cell p = some (.obj o) ∧ o.dying = true

/-- The kind of the object at `p`. -/
def kindAt (h : Heap) (p : Nat) : Option Kind :=
  match h.cell p with
  | some (.obj o) => some o.kind
  | _ => none

/-- A new handle with text `v` (or NULL), owned once. -/
def gain (s : Sys) (r : Option Nat × Heap) (v : List UInt8) : Sys :=
  match r with
  | (none, hp) => { s with heap := hp }
  | (some p, hp) => { s with heap := hp, held := upd s.held p (s.held p + 1), view := upd s.view p v,
                              made := upd s.made p (kindAt hp p) }

/-- Effect of an operation on the system. -/
def exec (s : Sys) : Op → C Sys
  | .newText t =>
    let (b, hp) := malloc s.heap (.raw ((t ++ [0]).map some))
    C.ok { s with heap := hp, mine := upd s.mine b (some t) }
  | .freeText b => do
    let hp ← free s.heap b
    C.ok { s with heap := hp, mine := upd s.mine b none }
  | .create t alloc => do
    let r ← create s.heap (some ((t ++ [0]).map some)) alloc
    C.ok (gain s r t)
  | .createVformat t ok1 ok2 alloc => do
    let r ← createVformat s.heap false (if ok1 then some t.length else none) (if ok2 then some t else none) alloc
    C.ok (gain s r t)
  | .createMove b alloc => do
    let r ← createMove s.heap (some b) alloc
    let s' := gain s r ((s.mine b).getD [])
    C.ok (if r.1 = none then s' else { s' with mine := upd s.mine b none })
  | .createCustom t f ctx alloc => do
    let r ← createCustom s.heap (some t) (some f) ctx alloc
    C.ok (gain s r t)
  | .recreate p alloc => do
    let r ← recreate s.heap (some p) alloc
    C.ok (gain s r (s.view p))
  | .ptrCreate x f ctx alloc => do
    let r ← ptrCreate s.heap (some x) f ctx alloc
    C.ok (gain s r [])
  | .incRef p => do
    let hp ← incRef s.heap p
    C.ok { s with heap := hp, held := upd s.held p (s.held p + 1) }
  | .decRef p => do
    let hp ← decRef s.heap p
    C.ok { s with heap := hp, held := upd s.held p (s.held p - 1) }
  | .finish p => do
    let hp ← finish s.heap p
    C.ok { s with heap := hp }

/-- States reachable by any interleaving of allowed operations. -/
inductive Reachable : Sys → Prop where
  | init : Reachable Sys.init
  | step {s s' : Sys} (op : Op) : Reachable s → Allowed s op → exec s op = C.ok s' → Reachable s'

/-- No release is under way. -/
def Quiet (s : Sys) : Prop := ∀ p o, s.heap.cell p = some (.obj o) → o.dying = false

/-- What has to happen, once, when a handle created with `k` is released. -/
def duties (p : Nat) : Kind → List Event
  | .copied _ => [.free p]
  | .moved b => [.free p, .free b]
  | .custom _ f ctx => [.free p, .strFree p f ctx]
  | .ptr x (some f) ctx => [.free p, .ptrFree p f ctx x]
  | .ptr _ none _ => [.free p]

end CUtil.RcString.Spec
