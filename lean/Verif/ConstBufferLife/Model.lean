import Verif.ConstBuffer.Model
/-
Lifetime of CONSTBUFFER objects: /repo/src/constbuffer.c (creation, windows, reference counts)
and its THANDLE twin /repo/src/constbuffer_thandle.c.

The heap is the list of all objects ever created; the address of an object is its position.
An object whose count reached zero is `dying` until the thread that made the last decrement
has run the rest of `CONSTBUFFER_DecRef_internal` (`finish`), so that everything other threads
do in between is covered.  Touching an object that is not `live` is undefined behaviour.
The count is a `Nat`: fewer than 2^31 references are assumed.
-/
namespace CUtil.ConstBufferLife
open CUtil

/-- `buffer_type` with the fields specific to it (constbuffer.c:23-65). -/
inductive Kind where
  | copied
  | moved
  | customFree (ctx : Nat)
  | window (original : Nat)
deriving DecidableEq, Repr

inductive Phase where
  | live
  | dying
  | freed
deriving DecidableEq, Repr

/-- The immutable fields of a CONSTBUFFER object.  `alias.buffer` is offset `off` into the memory
of object `root`; `data` is that memory when this object is the root (its own storage, or the
memory handed over by the caller). -/
structure Shape where
  kind : Kind
  root : Nat
  off : Nat
  size : Nat
  data : List UInt8
deriving DecidableEq, Repr

/-- A CONSTBUFFER object. -/
structure Obj extends Shape where
  count : Nat
  phase : Phase
deriving DecidableEq, Repr

/-- Visible effects of releasing an object. -/
inductive Event where
  | memFree (h : Nat)                  -- free(alias.buffer), constbuffer.c:359
  | customFree (h : Nat) (ctx : Nat)   -- custom_free_func(context), constbuffer.c:365
  | objFree (h : Nat)                  -- free(constbufferHandle), constbuffer.c:375
deriving DecidableEq, Repr

structure Heap where
  objs : List Obj
  log : List Event

/-- Access to an object through a handle. -/
def get (s : Heap) (h : Nat) : C Obj :=
  match s.objs[h]? with
  | some o => if o.phase = .live then C.ok o else C.ub
  | none => C.ub

def put (s : Heap) (h : Nat) (o : Obj) : Heap := { s with objs := s.objs.set h o }

/-- How a caller supplies the memory of a new buffer: NULL with a size, or a block of at least
`size` bytes. -/
structure Source where
  block : Option (List UInt8)
  size : Nat

/-- constbuffer.c:71-131 `CONSTBUFFER_Create` (kind `copied`; constbuffer_thandle.c:99-163, the other two :190-269), 152-184
`CONSTBUFFER_CreateWithMoveMemory` (kind `moved`), 186-229 `CONSTBUFFER_CreateWithCustomFree`
(kind `customFree`; the test for a NULL free function is left out): NULL with a nonzero size is
refused; a failed allocation gives NULL; otherwise a new object with count 1. -/
def create (s : Heap) (k : Kind) (src : Source) (alloc : Bool) : C (Option Nat × Heap) :=
  match src.block with
  | none =>
    if src.size ≠ 0 then C.ok (none, s)
    else if alloc = false then C.ok (none, s)
    else
      let h := s.objs.length
      C.ok (some h, { s with objs := s.objs ++ [⟨⟨k, h, 0, 0, []⟩, 1, .live⟩] })
  | some m =>
    if alloc = false then C.ok (none, s)
    else if m.length < src.size then C.ub
    else
      let h := s.objs.length
      C.ok (some h, { s with objs := s.objs ++ [⟨⟨k, h, 0, src.size, m.take src.size⟩, 1, .live⟩] })

/-- constbuffer.c:321-333 `CONSTBUFFER_IncRef`. -/
def incRef (s : Heap) (h : Nat) : C Heap := do
  let o ← get s h
  pure (put s h { o with count := o.count + 1 })

/-- constbuffer.c:231-283 `CONSTBUFFER_CreateFromOffsetAndSize`, constbuffer_thandle.c:317-390; offsets and sizes are
`uint32_t`, the sum wraps. -/
def createWindow (s : Heap) (h : Nat) (offset size : Nat) (alloc : Bool) : C (Option Nat × Heap) := do
  let o ← get s h
  if offset > o.size then C.ok (none, s)
  else if offset > 4294967295 - size then C.ok (none, s)
  else if (offset + size) % 2 ^ 32 > o.size then C.ok (none, s)
  else if offset = 0 ∧ size = o.size then do
    let s ← incRef s h
    C.ok (some h, s)
  else if alloc = false then C.ok (none, s)
  else do
    let s ← incRef s h
    let r := s.objs.length
    C.ok (some r, { s with objs := s.objs ++ [⟨⟨.window h, o.root, o.off + offset, size, []⟩, 1, .live⟩] })

/-- The bytes a caller sees through a handle: `CONSTBUFFER_GetContent` (constbuffer.c:335-350)
and then reading `alias.size` bytes at `alias.buffer`.  The memory must still be owned by a
live root. -/
def content (s : Heap) (h : Nat) : C (List UInt8) := do
  let o ← get s h
  let r ← get s o.root
  if o.off + o.size ≤ r.data.length then C.ok ((r.data.drop o.off).take o.size) else C.ub

/-- constbuffer.c:285-319 `CONSTBUFFER_CreateFromOffsetAndSizeWithCopy`, constbuffer_thandle.c:271-315. -/
def createWindowCopy (s : Heap) (h : Nat) (offset size : Nat) (alloc : Bool) : C (Option Nat × Heap) := do
  let o ← get s h
  if offset > o.size then C.ok (none, s)
  else if offset > 4294967295 - size then C.ok (none, s)
  else if (offset + size) % 2 ^ 32 > o.size then C.ok (none, s)
  else do
    let bytes ← content s h
    create s .copied ⟨some (bytes.drop offset), size⟩ alloc

/-- The atomic decrement at constbuffer.c:355. -/
def decrement (s : Heap) (h : Nat) : C Heap := do
  let o ← get s h
  if o.count = 0 then C.ub
  else pure (put s h { o with count := o.count - 1, phase := if o.count = 1 then .dying else .live })

/-- constbuffer.c:379-390 `CONSTBUFFER_DecRef` up to and including the decrement. -/
def decRef (s : Heap) (h : Nat) : C Heap := decrement s h

/-- constbuffer.c:357-375, constbuffer_thandle.c:68-91: what the thread that brought the count to zero still has to do.  For
a window the recursive call decrements the original; if that reaches zero the original becomes
`dying` in turn and its own `finish` is a later step of the same thread (its order relative to
freeing this object does not matter: no one else can reach this object any more). -/
def finish (s : Heap) (h : Nat) : C Heap :=
  match s.objs[h]? with
  | none => C.ub
  | some o =>
    if o.phase ≠ .dying then C.ub
    else match o.kind with
      | .copied => C.ok { objs := s.objs.set h { o with phase := .freed }, log := .objFree h :: s.log }
      | .moved => C.ok { objs := s.objs.set h { o with phase := .freed }, log := .objFree h :: .memFree h :: s.log }
      | .customFree ctx => C.ok { objs := s.objs.set h { o with phase := .freed }, log := .objFree h :: .customFree h ctx :: s.log }
      | .window p => do
        let s ← decrement s p
        C.ok { objs := s.objs.set h { o with phase := .freed }, log := .objFree h :: s.log }

end CUtil.ConstBufferLife
