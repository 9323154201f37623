import Verif.Base
/-
Lifetime of CONSTBUFFER_ARRAY objects together with the buffers they hold: /repo/src/constbuffer_array.c on top of the reference counts of
/repo/src/constbuffer.c (those alone: Verif/ConstBufferLife; what the arrays contain, call by call: Verif/ConstBufferArray).

The heap is the list of all objects ever created, buffers and arrays; the address of an object is its position. Every atomic operation on a reference
count is a step of its own: the loops that fill a new array take one reference per step, the loops that release one give one back per step, and anything
other threads do may come in between. An object whose count reached zero is `dying` until the thread that made the last decrement is through with it.
Touching an object that is not `live` is undefined behaviour (except by the thread that fills or destroys it). Counts are natural numbers: they do not overflow.
-/
namespace CUtil.ArrayLife
open CUtil

/-- The objects. -/
inductive Kind
  /-- constbuffer.c:23-65 CONSTBUFFER: its size, and for one made by CONSTBUFFER_CreateFromOffsetAndSize the buffer it is a part of. -/
  | buf (size : Nat) (parent : Option Nat)
  /-- constbuffer_array.c:21-28 with `custom_free` NULL: the handles are in `buffers_memory`. -/
  | arr (cells : List Nat)
  /-- constbuffer_array.c:112-144: the handles are in the block the caller gave. -/
  | moved (cells : List Nat)
  /-- constbuffer_array.c:152-198: `buffers` points to the cell `start` of the block of the array `root`; `custom_free_context` is `original`. -/
  | view (original root start n : Nat)
  deriving DecidableEq, Repr

/-- Where the handle for the next cell of a new array comes from: given by the caller; the cell `i` of an array; a new buffer (or, if `whole`, the same one) made from
the cell `i` of an array. (`b` is what is in that cell; no step depends on it.) -/
inductive Src
  | handle (b : Nat)
  | elem (a i b : Nat)
  | window (a i b : Nat) (whole : Bool) (size : Nat)
  deriving DecidableEq, Repr

/-- The handle goes into the new array, or to the caller. -/
structure Item where
  src : Src
  toClient : Bool
  deriving DecidableEq, Repr

inductive Phase
  /-- being filled by the function that creates it; `rot`: the second handle belongs into the last cell. -/
  | building (todo : List Item) (rot : Bool)
  | live
  /-- the count is zero; the first `i` references it holds have been given back. -/
  | dying (i : Nat)
  | freed
  deriving DecidableEq, Repr

/-- An object. `src` and `goal` are ghosts: what its cells were made from so far, and what they are to be made from: a buffer, and the size if it is to be a part of it. -/
structure Obj where
  kind : Kind
  count : Nat
  phase : Phase
  src : List (Nat × Option Nat)
  goal : List (Nat × Option Nat)
  deriving DecidableEq, Repr

/-- Visible effects of releasing an object. -/
inductive Event
  /-- free of the block given to create_with_move_buffers, constbuffer_array.c:109 -/
  | blockFree (x : Nat)
  /-- REFCOUNT_TYPE_DESTROY, constbuffer_array.c:782, constbuffer.c:375 -/
  | objFree (x : Nat)
  deriving DecidableEq, Repr

structure Heap where
  objs : List Obj
  log : List Event

/-- Access to an object through a handle. -/
def get (s : Heap) (x : Nat) : C Obj :=
  match s.objs[x]? with
  | some o => if o.phase = .live then C.ok o else C.ub
  | none => C.ub

def put (s : Heap) (x : Nat) (o : Obj) : Heap := { s with objs := s.objs.set x o }

/-- A new object, with count 1; its address is the length of the list. -/
def new (s : Heap) (k : Kind) : Heap := { s with objs := s.objs ++ [⟨k, 1, .live, [], []⟩] }

/-- The block with the handles of an array that is not a view; undefined if it is not alive. -/
def block (s : Heap) (x : Nat) : C (List Nat) := do
  let o ← get s x
  match o.kind with
  | .arr cells => C.ok cells
  | .moved cells => C.ok cells
  | _ => C.ub

/-- `buffers[0 .. nBuffers-1]` of an array. -/
def cellsOf (s : Heap) (x : Nat) : C (List Nat) := do
  let o ← get s x
  match o.kind with
  | .arr cells => C.ok cells
  | .moved cells => C.ok cells
  | .view _ root start n => do
    let cells ← block s root
    C.ok ((cells.drop start).take n)
  | .buf _ _ => C.ub

/-- constbuffer.c:321-333 `CONSTBUFFER_IncRef`; constbuffer_array.c:741-753 `constbuffer_array_inc_ref`. -/
def incRef (s : Heap) (x : Nat) : C Heap := do
  let o ← get s x
  pure (put s x { o with count := o.count + 1 })

/-- The decrement of constbuffer.c:355 and constbuffer_array.c:765. -/
def decrement (s : Heap) (x : Nat) : C Heap := do
  let o ← get s x
  if o.count = 0 then C.ub
  else pure (put s x { o with count := o.count - 1, phase := if o.count = 1 then .dying 0 else .live })

/-- The references an object holds: on the buffer it is a part of (constbuffer.c:371), on its elements (constbuffer_array.c:774, constbuffer_array.c:107), on the array it is a view of
(constbuffer_array.c:149). -/
def content : Kind → List Nat
  | .buf _ parent => parent.toList
  | .arr cells => cells
  | .moved cells => cells
  | .view original _ _ _ => [original]

/-- What freeing the memory of an object shows. -/
def freeEvents (x : Nat) : Kind → List Event
  | .moved _ => [.objFree x, .blockFree x]
  | _ => [.objFree x]

/-- constbuffer.c:352-377, constbuffer_array.c:767-783 with :102-110 and :146-150: the next step of the thread that brought the count to zero: one reference is given back, or,
when there is none left, the memory is freed. -/
def release (s : Heap) (x : Nat) : C Heap :=
  match s.objs[x]? with
  | none => C.ub
  | some o =>
    match o.phase with
    | .dying i =>
      match (content o.kind)[i]? with
      | some y => decrement (put s x { o with phase := .dying (i + 1) }) y
      | none => C.ok { objs := s.objs.set x { o with phase := .freed }, log := freeEvents x o.kind ++ s.log }
    | _ => C.ub

/-- constbuffer_array.c:152-198 `constbuffer_array_create_from_buffer_index_and_count`, with the memory there; `none` is NULL. The pointer `buffers` of a view of a view points into the block of
the first array. -/
def createView (s : Heap) (original start n : Nat) : C (Option Nat × Heap) := do
  let cells ← cellsOf s original
  if start > cells.length ∨ n > cells.length - start then C.ok (none, s)
  else do
    let o ← get s original
    let s ← incRef s original
    match o.kind with
    | .view _ root start0 _ => C.ok (some s.objs.length, new s (.view original root (start0 + start) n))
    | _ => C.ok (some s.objs.length, new s (.view original original start n))

/-- The handle for the next cell: read and its count incremented, or a new buffer made (constbuffer.c:231-283, `CONSTBUFFER_CreateFromOffsetAndSize`); `none`: no memory for it. -/
def take (s : Heap) (src : Src) (alloc : Bool) : C (Option Nat × Heap) :=
  match src with
  | .handle b => do
    let s ← incRef s b
    C.ok (some b, s)
  | .elem a i _ => do
    let cells ← cellsOf s a
    let b ← rd cells i
    let s ← incRef s b
    C.ok (some b, s)
  | .window a i _ whole size => do
    let cells ← cellsOf s a
    let b ← rd cells i
    if whole then do
      let s ← incRef s b
      C.ok (some b, s)
    else if alloc = false then C.ok (none, s)
    else do
      let s ← incRef s b
      C.ok (some s.objs.length, new s (.buf size (some b)))

/-- What a cell is made from (ghost). -/
def Src.of : Src → Nat × Option Nat
  | .handle b => (b, none)
  | .elem _ _ b => (b, none)
  | .window _ _ b whole size => (b, if whole then none else some size)

/-- One round of the loop that fills the array `x`; the handle that goes to the caller, if any. When there is no memory for a window the function gives back what it has taken and fails
(constbuffer_array.c:309-312). -/
def fill (s : Heap) (x : Nat) (alloc : Bool) : C (Option Nat × Heap) :=
  match s.objs[x]? with
  | none => C.ub
  | some o =>
    match o.phase, o.kind with
    | .building (it :: todo) rot, .arr cells => do
      let (b, s) ← take s it.src alloc
      match b with
      | none => C.ok (none, put s x { o with count := 0, phase := .dying 0 })
      | some b =>
        if it.toClient then C.ok (some b, put s x { o with phase := .building todo rot })
        else C.ok (none, put s x { o with kind := .arr (cells ++ [b]), phase := .building todo rot, src := o.src ++ [it.src.of] })
    | _, _ => C.ub

/-- constbuffer_array.c:290-306: the second handle made belongs into the last cell. -/
def arrange {α : Type} (rot : Bool) (l : List α) : List α :=
  match rot, l with
  | true, a :: b :: l => a :: (l ++ [b])
  | _, l => l

/-- The function returns the array. -/
def done (s : Heap) (x : Nat) : C Heap :=
  match s.objs[x]? with
  | none => C.ub
  | some o =>
    match o.phase, o.kind with
    | .building [] rot, .arr cells => C.ok (put s x { o with kind := .arr (arrange rot cells), phase := .live, src := arrange rot o.src })
    | _, _ => C.ub

/-- The functions that create an array and fill it. -/
inductive Call
  | create (bs : List Nat)
  | addFront (a h : Nat)
  | addBack (a h : Nat)
  | removeFront (a : Nat)
  | removeBack (a : Nat)
  | fromArrays (as : List Nat)
  | removeEmpty (a : Nat)
  /-- `whole1`, `whole2`: the part of the first and of the last buffer is all of it; `size1`, `size2`: its size. -/
  | offsetAndCount (a start n : Nat) (whole1 : Bool) (size1 : Nat) (whole2 : Bool) (size2 : Nat)

/-- The cells `i`, `i + 1`, ... of `a`, which hold `bs`. -/
def elems (a : Nat) : Nat → List Nat → List Item
  | _, [] => []
  | i, b :: bs => ⟨.elem a i b, false⟩ :: elems a (i + 1) bs

/-- Is it a buffer of size zero. -/
def isEmptyBuf (s : Heap) (b : Nat) : Bool :=
  match s.objs[b]? with
  | some o => match o.kind with
    | .buf 0 _ => true
    | _ => false
  | none => false

/-- The same, leaving out the buffers of size zero. -/
def nonEmptyElems (s : Heap) (a : Nat) : Nat → List Nat → List Item
  | _, [] => []
  | i, b :: bs => if isEmptyBuf s b then nonEmptyElems s a (i + 1) bs else ⟨.elem a i b, false⟩ :: nonEmptyElems s a (i + 1) bs

/-- constbuffer_array.c:399-407 the cells of all the arrays. -/
def allElems (s : Heap) : List Nat → C (List Item)
  | [] => C.ok []
  | a :: as => do
    let cells ← cellsOf s a
    let rest ← allElems s as
    C.ok (elems a 0 cells ++ rest)

/-- What the loops of the functions take, in order: constbuffer_array.c:32-78 `constbuffer_array_create`; :420-476 `add_front`; :541-597 `add_back`; :478-539 `remove_front`, :599-660 `remove_back` (the
first handle taken goes to the caller); :324-418 `create_from_array_array`; :860-938 `remove_empty_buffers` (where some buffer is empty); :200-322 `create_from_buffer_offset_and_count`. -/
def items (s : Heap) : Call → C (List Item × Bool)
  | .create bs => C.ok (bs.map fun b => ⟨.handle b, false⟩, false)
  | .addFront a h => do
    let cells ← cellsOf s a
    C.ok (⟨.handle h, false⟩ :: elems a 0 cells, false)
  | .addBack a h => do
    let cells ← cellsOf s a
    C.ok (elems a 0 cells ++ [⟨.handle h, false⟩], false)
  | .removeFront a => do
    let cells ← cellsOf s a
    let b ← rd cells 0
    C.ok (⟨.elem a 0 b, true⟩ :: elems a 1 (cells.drop 1), false)
  | .removeBack a => do
    let cells ← cellsOf s a
    let b ← rd cells (cells.length - 1)
    C.ok (⟨.elem a (cells.length - 1) b, true⟩ :: elems a 0 cells.dropLast, false)
  | .fromArrays as => do
    let l ← allElems s as
    C.ok (l, false)
  | .removeEmpty a => do
    let cells ← cellsOf s a
    C.ok (nonEmptyElems s a 0 cells, false)
  | .offsetAndCount a start n w1 z1 w2 z2 => do
    let cells ← cellsOf s a
    let b ← rd cells start
    if n = 1 then C.ok ([⟨.window a start b w1 z1, false⟩], false)
    else do
      let e ← rd cells (start + n - 1)
      C.ok (⟨.window a start b w1 z1, false⟩ :: ⟨.window a (start + n - 1) e w2 z2, false⟩ :: elems a (start + 1) ((cells.drop (start + 1)).take (n - 2)), true)

/-- What goes into the new array (ghost). -/
def goalOf (l : List Item) : List (Nat × Option Nat) := (l.filter fun it => !it.toClient).map fun it => it.src.of

/-- A creating function has allocated the array: it is there, with count 1, and nothing in it yet. -/
def start (s : Heap) (c : Call) : C Heap := do
  let (todo, rot) ← items s c
  C.ok { s with objs := s.objs ++ [⟨.arr [], 1, .building todo rot, [], arrange rot (goalOf todo)⟩] }

/-- constbuffer_array.c:688-716 `constbuffer_array_get_buffer`; `none` is NULL. -/
def getBuffer (s : Heap) (a i : Nat) : C (Option Nat × Heap) := do
  let cells ← cellsOf s a
  if i ≥ cells.length then C.ok (none, s)
  else do
    let b ← rd cells i
    let s ← incRef s b
    C.ok (some b, s)

end CUtil.ArrayLife
