import Verif.ArrayLife.Model
/-
What the client may do with buffers and arrays, and what a new array has to contain.
-/
namespace CUtil.ArrayLife
open CUtil

/-- The heap, and how many references on each object the client (all its threads together) holds. -/
structure Sys where
  heap : Heap
  held : Nat → Nat

def plus (f : Nat → Nat) (x : Nat) : Nat → Nat := fun y => if y = x then f y + 1 else f y
def minus (f : Nat → Nat) (x : Nat) : Nat → Nat := fun y => if y = x then f y - 1 else f y

/-- What can happen. -/
inductive Op
  /-- the client creates a buffer of its own -/
  | newBuf (size : Nat)
  /-- the client makes a part of a buffer -/
  | newWindow (b size : Nat)
  | incRef (x : Nat)
  | decRef (x : Nat)
  /-- a creating function is called, and has its memory -/
  | start (c : Call)
  /-- a creating function takes its next reference; `alloc`: there is memory for a part of a buffer -/
  | fill (x : Nat) (alloc : Bool)
  /-- it returns -/
  | done (x : Nat)
  | createMove (bs : List Nat)
  | createView (original start n : Nat)
  | getBuffer (a i : Nat)
  /-- the thread that destroys `x` makes its next step -/
  | release (x : Nat)

/-- The handle a call returns, if any, is now held by the client. -/
def give (held : Nat → Nat) : Option Nat → Nat → Nat
  | none => held
  | some x => plus held x

def exec (s : Sys) : Op → C Sys
  | .newBuf size => C.ok ⟨new s.heap (.buf size none), plus s.held s.heap.objs.length⟩
  | .newWindow b size => do
    let h ← incRef s.heap b
    C.ok ⟨new h (.buf size (some b)), plus s.held h.objs.length⟩
  | .incRef x => do
    let h ← incRef s.heap x
    C.ok ⟨h, plus s.held x⟩
  | .decRef x => do
    let h ← decrement s.heap x
    C.ok ⟨h, minus s.held x⟩
  | .start c => do
    let h ← start s.heap c
    C.ok ⟨h, s.held⟩
  | .fill x alloc => do
    let (b, h) ← fill s.heap x alloc
    C.ok ⟨h, give s.held b⟩
  | .done x => do
    let h ← done s.heap x
    C.ok ⟨h, plus s.held x⟩
  | .createMove bs => C.ok ⟨new s.heap (.moved bs), fun y => if y = s.heap.objs.length then 1 else s.held y - bs.count y⟩
  | .createView original start n => do
    let (v, h) ← createView s.heap original start n
    C.ok ⟨h, give s.held v⟩
  | .getBuffer a i => do
    let (b, h) ← getBuffer s.heap a i
    C.ok ⟨h, give s.held b⟩
  | .release x => do
    let h ← release s.heap x
    C.ok ⟨h, s.held⟩

def IsBuf (s : Heap) (b : Nat) : Prop := ∃ o z p, s.objs[b]? = some o ∧ o.kind = .buf z p

def IsArr (s : Heap) (a : Nat) : Prop := ∃ o, s.objs[a]? = some o ∧ ∀ z p, o.kind ≠ .buf z p

/-- The client has a buffer. -/
def HasBuf (s : Sys) (b : Nat) : Prop := 0 < s.held b ∧ IsBuf s.heap b

/-- The client has an array. -/
def HasArr (s : Sys) (a : Nat) : Prop := 0 < s.held a ∧ IsArr s.heap a

/-- The call is made with handles the client has. (Calls that are refused, and those of `create_from_buffer_offset_and_count` that are undefined, are in Verif/ConstBufferArray.) -/
def CallOk (s : Sys) : Call → Prop
  | .create bs => ∀ b ∈ bs, HasBuf s b
  | .addFront a h => HasArr s a ∧ HasBuf s h
  | .addBack a h => HasArr s a ∧ HasBuf s h
  | .removeFront a => HasArr s a ∧ ∀ l, cellsOf s.heap a = C.ok l → l ≠ []
  | .removeBack a => HasArr s a ∧ ∀ l, cellsOf s.heap a = C.ok l → l ≠ []
  | .fromArrays as => ∀ a ∈ as, HasArr s a
  | .removeEmpty a => HasArr s a
  | .offsetAndCount a start n _ _ _ _ => HasArr s a ∧ 1 ≤ n ∧ ∀ l, cellsOf s.heap a = C.ok l → start + n ≤ l.length

/-- The handle a creating function reads next is still held by the client: the arguments of a call are not released while it runs. -/
def SrcHeld (s : Sys) : Src → Prop
  | .handle b => 0 < s.held b
  | .elem a _ _ => 0 < s.held a
  | .window a _ _ _ _ => 0 < s.held a

/-- What the client may do: use and release what it holds. -/
def Allowed (s : Sys) : Op → Prop
  | .newBuf _ => True
  | .newWindow b _ => HasBuf s b
  | .incRef x => 0 < s.held x
  | .decRef x => 0 < s.held x
  | .start c => CallOk s c
  | .fill x _ => ∃ o it todo rot, s.heap.objs[x]? = some o ∧ o.phase = .building (it :: todo) rot ∧ SrcHeld s it.src
  | .done x => ∃ o rot, s.heap.objs[x]? = some o ∧ o.phase = .building [] rot
  | .createMove bs => ∀ b ∈ bs, IsBuf s.heap b ∧ bs.count b ≤ s.held b
  | .createView original _ _ => HasArr s original
  | .getBuffer a _ => HasArr s a
  | .release x => ∃ o i, s.heap.objs[x]? = some o ∧ o.phase = .dying i

inductive Steps : Sys → Sys → Prop
  | refl (s : Sys) : Steps s s
  | step {s t u : Sys} (op : Op) : Steps s t → Allowed t op → exec t op = C.ok u → Steps s u

def init : Sys := ⟨⟨[], []⟩, fun _ => 0⟩

def Reachable (s : Sys) : Prop := Steps init s

/-- No call is in progress. -/
def Quiet (s : Sys) : Prop := ∀ o ∈ s.heap.objs, o.phase = .live ∨ o.phase = .freed

/-- The buffers a new array is to hold, when `R a` is what the array `a` holds and `E b` says that `b` is empty; with the size when it is a new buffer that is a part. -/
def want (R : Nat → List Nat) (E : Nat → Bool) : Call → List (Nat × Option Nat)
  | .create bs => bs.map (·, none)
  | .addFront a h => (h :: R a).map (·, none)
  | .addBack a h => (R a ++ [h]).map (·, none)
  | .removeFront a => (R a).tail.map (·, none)
  | .removeBack a => (R a).dropLast.map (·, none)
  | .fromArrays as => (as.flatMap R).map (·, none)
  | .removeEmpty a => ((R a).filter fun b => !E b).map (·, none)
  | .offsetAndCount a start n w1 z1 w2 z2 =>
    match ((R a).drop start).take n with
    | [] => []
    | [b] => [(b, if w1 then none else some z1)]
    | b :: c :: l => (b, if w1 then none else some z1) :: ((c :: l).dropLast.map (·, none) ++ [((c :: l).getLast (by simp), if w2 then none else some z2)])

/-- The handle `c` is the buffer asked for, or a new one that is a part of it. -/
def MadeOf (s : Heap) (c : Nat) (p : Nat × Option Nat) : Prop :=
  match p.2 with
  | none => c = p.1
  | some z => ∃ o, s.objs[c]? = some o ∧ o.kind = .buf z (some p.1)

/-- `y` can be reached from `x`: it is `x`, or an element of an array that can be reached, or the array a view that can be reached was made from, or the buffer a part that can be reached belongs to. -/
inductive Below (s : Heap) : Nat → Nat → Prop
  | refl (x : Nat) : Below s x x
  | next {x y z : Nat} {o : Obj} : Below s x y → s.objs[y]? = some o → z ∈ content o.kind → Below s x z

/-- `n` steps of the threads that destroy objects. -/
inductive Releases : Nat → Sys → Sys → Prop
  | refl (s : Sys) : Releases 0 s s
  | step {n : Nat} {s t u : Sys} (x : Nat) : Releases n s t → Allowed t (.release x) → exec t (.release x) = C.ok u → Releases (n + 1) s u

/-- No creating function is in progress. -/
def NoneBuilding (s : Sys) : Prop := ∀ o ∈ s.heap.objs, ∀ todo rot, o.phase ≠ .building todo rot

/-- The steps it would take to destroy everything: for each object one for each reference it still holds, and one to free it. -/
def work (s : Heap) : Nat := (s.objs.map fun o => match o.phase with
  | .freed => 0
  | .dying i => (content o.kind).length - i + 1
  | _ => (content o.kind).length + 1).sum

end CUtil.ArrayLife
