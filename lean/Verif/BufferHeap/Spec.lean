import Verif.BufferHeap.Model
import Verif.Buffer.Spec
/-
What it means that a heap holds exactly the buffers of a user.
-/
namespace CUtil.BufferHeap
open CUtil CUtil.Conc
open CUtil.Buffer (BUF)

/-- The heap holds the buffers `W` (by handle) and nothing else: every buffer has its structure and, if it has storage, its block; no block belongs to
two buffers; every structure and every block belongs to a buffer; NULL and the addresses not yet handed out are free. -/
structure Rep (h : Heap) (W : Nat → Option BUF) : Prop where
  live : ∀ p b, W p = some b → ∃ q, h.st p = some ⟨some q, some b.size⟩ ∧ (if q = 0 then b.buffer = none else b.buffer = h.mem q ∧ h.mem q ≠ none)
  dead : ∀ p, W p = none → h.st p = none
  sep : ∀ p p' n n' q, h.st p = some ⟨some q, n⟩ → h.st p' = some ⟨some q, n'⟩ → q ≠ 0 → p = p'
  owned : ∀ q m, h.mem q = some m → ∃ p n, h.st p = some ⟨some q, n⟩
  fresh : ∀ p, h.next ≤ p → h.st p = none ∧ h.mem p = none
  null : h.st 0 = none ∧ h.mem 0 = none ∧ 0 < h.next

/-- Nothing is allocated. -/
def Empty (h : Heap) : Prop := ∀ p, h.st p = none ∧ h.mem p = none

/-- The source has at least `n` bytes, which are the first `n` of `bytes`, and it is not the storage of the buffer `p` itself. -/
def Gives (h : Heap) (p : Nat) (source : Src) (bytes : List UInt8) (n : Nat) : Prop :=
  n ≤ bytes.length ∧
  match source with
  | .null => False
  | .ext m => m = bytes
  | .blk q off => ∃ m, h.mem q = some m ∧ off ≤ m.length ∧ m.drop off = bytes.map some ∧ ∀ n', h.st p ≠ some ⟨some q, n'⟩

/-- A call of a function of buffer.h that creates, changes or deletes. The Booleans are the outcomes of its allocations. -/
inductive Call where
  | new (a : Bool)
  | create (source : Src) (bytes : List UInt8) (n : Nat) (a1 a2 : Bool)
  | createWithSize (n : Nat) (a1 a2 : Bool)
  | clone (p : Nat) (a1 a2 : Bool)
  | delete (p : Nat)
  | build (p : Nat) (source : Src) (bytes : List UInt8) (n : Nat) (a : Bool)
  | appendBuild (p : Nat) (source : Src) (bytes : List UInt8) (n : Nat) (a : Bool)
  | preBuild (p n : Nat) (a : Bool)
  | unbuild (p : Nat)
  | enlarge (p n : Nat) (a : Bool)
  | shrink (p n : Nat) (fromEnd : Bool) (a : Bool)
  | append (p1 p2 : Nat) (a : Bool)
  | prepend (p1 p2 : Nat) (a : Bool)
  | fill (p : Nat) (c : UInt8)

/-- What a call answers. -/
inductive Ans where
  | handle (p : Nat)
  | ok (b : Bool)
  | nothing
deriving DecidableEq, Repr

def asHandle (x : C (Heap × Nat)) : C (Heap × Ans) := do
  let (h, p) ← x
  pure (h, .handle p)

def asOk (x : C (Heap × Bool)) : C (Heap × Ans) := do
  let (h, b) ← x
  pure (h, .ok b)

def exec (h : Heap) : Call → C (Heap × Ans)
  | .new a => asHandle (BufferHeap.new h a)
  | .create s _ n a1 a2 => asHandle (BufferHeap.create h s n a1 a2)
  | .createWithSize n a1 a2 => asHandle (BufferHeap.create_with_size h n a1 a2)
  | .clone p a1 a2 => asHandle (BufferHeap.clone h p a1 a2)
  | .delete p => do
    let h ← BufferHeap.delete h p
    pure (h, .nothing)
  | .build p s _ n a => asOk (BufferHeap.build h p s n a)
  | .appendBuild p s _ n a => asOk (BufferHeap.append_build h p s n a)
  | .preBuild p n a => asOk (BufferHeap.pre_build h p n a)
  | .unbuild p => asOk (BufferHeap.unbuild h p)
  | .enlarge p n a => asOk (BufferHeap.enlarge h p n a)
  | .shrink p n e a => asOk (BufferHeap.shrink h p n e a)
  | .append p1 p2 a => asOk (BufferHeap.append h p1 p2 a)
  | .prepend p1 p2 a => asOk (BufferHeap.prepend h p1 p2 a)
  | .fill p c => asOk (BufferHeap.fill h p c)

/-- The user's side of the contract: a handle is NULL or that of a buffer not yet deleted; a source is NULL or has the bytes; sizes fit a size_t. -/
def Valid (h : Heap) (W : Nat → Option BUF) : Call → Prop
  | .new _ => True
  | .create s bytes n _ _ => n ≤ SIZE_MAX ∧ (s = .null ∨ Gives h 0 s bytes n)
  | .createWithSize n _ _ => n ≤ SIZE_MAX
  | .clone p _ _ => p = 0 ∨ W p ≠ none
  | .delete p => p = 0 ∨ W p ≠ none
  | .build p s bytes n _ => (p = 0 ∨ W p ≠ none) ∧ n ≤ SIZE_MAX ∧ (s = .null ∨ Gives h p s bytes n)
  | .appendBuild p s bytes n _ => (p = 0 ∨ W p ≠ none) ∧ n ≤ SIZE_MAX ∧ (s = .null ∨ Gives h p s bytes n)
  | .preBuild p n _ => (p = 0 ∨ W p ≠ none) ∧ n ≤ SIZE_MAX
  | .unbuild p => p = 0 ∨ W p ≠ none
  | .enlarge p n _ => (p = 0 ∨ W p ≠ none) ∧ n ≤ SIZE_MAX
  | .shrink p _ _ _ => p = 0 ∨ W p ≠ none
  | .append p1 p2 _ => (p1 = 0 ∨ W p1 ≠ none) ∧ (p2 = 0 ∨ W p2 ≠ none)
  | .prepend p1 p2 _ => (p1 = 0 ∨ W p1 ≠ none) ∧ (p2 = 0 ∨ W p2 ≠ none)
  | .fill p _ => p = 0 ∨ W p ≠ none

/-- The result of a constructor that returns the buffer `b` at the address `p` (NULL and no buffer when it fails). -/
def made (W : Nat → Option BUF) (p : Nat) : Option BUF → (Nat → Option BUF) × Ans
  | some b => (upd W p (some b), .handle p)
  | none => (W, .handle 0)

/-- The result of a function that changes the buffer at `p` (nothing changes when the handle is NULL). -/
def changed (W : Nat → Option BUF) (p : Nat) : Option BUF × Bool → (Nat → Option BUF) × Ans
  | (some b, f) => (upd W p (some b), .ok f)
  | (none, f) => (W, .ok f)

/-- The source as Verif/Buffer has it. -/
def val (s : Src) (bytes : List UInt8) : Buffer.Src := if s = .null then .null else .ext bytes

/-- What each call does to the buffers of the user, in terms of the functions of Verif/Buffer (about which C20 is proved). `p'` is the address of a new
buffer. -/
def effect (W : Nat → Option BUF) (p' : Nat) : Call → C ((Nat → Option BUF) × Ans)
  | .new a => C.ok (made W p' (Buffer.new a))
  | .create s bytes n a1 a2 => do
    let b ← Buffer.create (if s = .null then none else some bytes) n a1 a2
    pure (made W p' b)
  | .createWithSize n a1 a2 => C.ok (made W p' (Buffer.create_with_size n a1 a2))
  | .clone p a1 a2 => do
    let b ← Buffer.clone (W p) a1 a2
    pure (made W p' b)
  | .delete p => C.ok (upd W p none, .nothing)
  | .build p s bytes n a => do
    let x ← Buffer.build (W p) (val s bytes) n a
    pure (changed W p x)
  | .appendBuild p s bytes n a => do
    let x ← Buffer.append_build (W p) (val s bytes) n a
    pure (changed W p x)
  | .preBuild p n a => C.ok (changed W p (Buffer.pre_build (W p) n a))
  | .unbuild p => C.ok (changed W p (Buffer.unbuild (W p)))
  | .enlarge p n a => C.ok (changed W p (Buffer.enlarge (W p) n a))
  | .shrink p n e a => do
    let x ← Buffer.shrink (W p) n e a
    pure (changed W p x)
  | .append p1 p2 a => do
    let x ← Buffer.append (W p1) (W p2) (decide (p1 = p2)) a
    pure (changed W p1 x)
  | .prepend p1 p2 a => do
    let x ← Buffer.prepend (W p1) (W p2) (decide (p1 = p2)) a
    pure (changed W p1 x)
  | .fill p c => do
    let x ← Buffer.fill (W p) c
    pure (changed W p x)

/-- The buffers are well formed (as in Verif/Buffer). -/
def Good (W : Nat → Option BUF) : Prop := ∀ p b, W p = some b → Buffer.Wf b ∧ b.size ≤ SIZE_MAX

end CUtil.BufferHeap
