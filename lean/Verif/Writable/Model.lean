import Verif.Base
import Verif.Conc
/-
Writable buffers and buffers made from a BUFFER: /repo/src/constbuffer.c:133-150,669-785 and the same functions of
/repo/src/constbuffer_thandle.c (:165-188, :697-807).

The heap: objects 0 … n-1 have been created; each has its storage, the size stored in it, its reference count and the number of times it was
freed.  Touching an object whose count is 0 is undefined behaviour.  A freshly allocated storage holds nothing (`none` cells); reading such a cell is
undefined behaviour.  Counts are natural numbers: fewer than 2^31 references are assumed.
-/
namespace CUtil.Writable
open CUtil Conc

structure Heap where
  n : Nat
  data : Nat → Mem
  size : Nat → Nat
  count : Nat → Nat
  freed : Nat → Nat

/-- The object behind a handle may be touched. -/
def live (h : Heap) (p : Nat) : Bool := decide (0 < h.count p)

/-- A new object with one reference. -/
def add (h : Heap) (m : Mem) (size : Nat) : Heap :=
  { n := h.n + 1, data := upd h.data h.n m, size := upd h.size h.n size, count := upd h.count h.n 1, freed := upd h.freed h.n 0 }

/-- constbuffer.c:669-702 `CONSTBUFFER_CreateWritableHandle`, constbuffer_thandle.c:697-731 `CONSTBUFFER_THANDLE_CreateWritableHandle`. -/
def createWritable (h : Heap) (size : Nat) (alloc : Bool) : Option Nat × Heap :=
  if size = 0 then (none, h)
  else if alloc = false then (none, h)
  else (some h.n, add h (uninit size) size)

/-- constbuffer.c:704-719 `CONSTBUFFER_GetWritableBuffer` (constbuffer_thandle.c:733-753) and then a store of `b` at index `i`. -/
def write (h : Heap) (p i : Nat) (b : UInt8) : C Heap :=
  if live h p = false then C.ub
  else do
    let m ← wr (h.data p) i b
    pure { h with data := upd h.data p m }

/-- constbuffer.c:770-785 `CONSTBUFFER_GetWritableBufferSize` (constbuffer_thandle.c:787-807); `none` is NULL. -/
def getSize (h : Heap) : Option Nat → C Nat
  | none => C.ok 0
  | some p => if live h p then C.ok (h.size p) else C.ub

/-- constbuffer.c:721-736 `CONSTBUFFER_SealWritableHandle`: the very same object (`twin = false`); constbuffer_thandle.c:755-785
`CONSTBUFFER_THANDLE_SealWritableHandle`: a copy (`twin = true`).  `memcpy` copies cells whether or not they were written. -/
def sealW (twin : Bool) (h : Heap) (p : Nat) (alloc : Bool) : C (Option Nat × Heap) :=
  if twin = false then C.ok (some p, h)
  else if live h p = false then C.ub
  else if alloc = false then C.ok (none, h)
  else if (h.data p).length < h.size p then C.ub
  else C.ok (some h.n, add h ((h.data p).take (h.size p)) (h.size p))

/-- constbuffer.c:738-750 `CONSTBUFFER_WritableHandleIncRef`, :321-333 `CONSTBUFFER_IncRef` (THANDLE: an assignment). -/
def incRef (h : Heap) (p : Nat) : C Heap :=
  if live h p = false then C.ub else C.ok { h with count := upd h.count p (h.count p + 1) }

/-- constbuffer.c:752-768 `CONSTBUFFER_WritableHandleDecRef`; :352-390 `CONSTBUFFER_DecRef` of an object of type COPIED (THANDLE: assigning NULL). -/
def decRef (h : Heap) (p : Nat) : C Heap :=
  if live h p = false then C.ub
  else C.ok { h with count := upd h.count p (h.count p - 1), freed := upd h.freed p (h.freed p + (if h.count p = 1 then 1 else 0)) }

/-- Reading byte `i` of the buffer a handle gives access to (constbuffer.c:335-350, constbuffer_thandle.c:392-408). -/
def read (h : Heap) (p i : Nat) : C UInt8 :=
  if live h p = false then C.ub
  else if h.size p ≤ i then C.ub
  else match (h.data p)[i]? with
    | some (some b) => C.ok b
    | _ => C.ub

/-- constbuffer.c:133-150 `CONSTBUFFER_CreateFromBuffer`, constbuffer_thandle.c:165-188 `CONSTBUFFER_THANDLE_CreateFromBuffer`, of a BUFFER holding
`bytes`: the length is converted to `uint32_t`.  The result is the content of the new buffer. -/
def createFromBuffer (buffer : Option (List UInt8)) (alloc : Bool) : C (Option (List UInt8)) :=
  match buffer with
  | none => C.ok none
  | some bytes =>
    let length := bytes.length % 2 ^ 32
    if alloc = false then C.ok none
    else if bytes.length < length then C.ub
    else C.ok (some (bytes.take length))

end CUtil.Writable
