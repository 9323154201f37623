import Verif.ConstBuffer.Model
/-
Model of the sample /repo/tests/constbuffer_serialization_sample/tests/constbuffer_serialization_sample/main.c: buffers serialized one
after the other into an ever-growing array, by giving `CONSTBUFFER_to_buffer` an allocator that
hands out the next bytes of the array.

`size_t` has 64 bits; sums are taken modulo 2^64.  `realloc` may fail at any call; if it does not
fail it returns a block of the requested size that starts with the bytes of the old block (as many
as fit) and whose other cells are uninitialised.  A request of 2^63 bytes or more always fails, as
with every C library (no object is larger than PTRDIFF_MAX).
-/
namespace CUtil.SerialArena
open CUtil CUtil.ConstBuffer

/-- tests/constbuffer_serialization_sample/main.c:14-22 `AWESOME_ALLOC_CONTEXT`.  `buffer` is the block (`[]` = NULL, nothing allocated);
`grown` is not in the program: it counts the calls of `realloc` that succeeded. -/
structure Ctx where
  buffer : Mem
  capacity : Nat
  size : Nat
  n_reallocs : Nat
  grown : Nat
deriving DecidableEq, Repr

/-- tests/constbuffer_serialization_sample/main.c:27: the context is set to zeros. -/
def init : Ctx := ⟨[], 0, 0, 0, 0⟩

/-- tests/constbuffer_serialization_sample/main.c:62 `GROW_BY`. -/
abbrev GROW_BY : Nat := 1000

/-- tests/constbuffer_serialization_sample/main.c:64 `LOCALMAX`. -/
def LOCALMAX (x y : Nat) : Nat := if x < y then y else x

/-- Addition of two `size_t`. -/
def addz (a b : Nat) : Nat := (a + b) % 2 ^ 64

/-- `realloc` (C library): `grant` says whether memory is there. -/
def realloc (old : Mem) (n : Nat) (grant : Bool) : Option Mem :=
  if grant = true ∧ n < 2 ^ 63 then some (old.take n ++ uninit (n - old.length)) else none

/-- tests/constbuffer_serialization_sample/main.c:66-96 `awesome_alloc`.  The pointer returned is an offset into the (new) block,
`buffer + size - size` with the already increased `size`. -/
def awesome_alloc (x : Ctx) (size : Nat) (grant : Bool) : Ctx × Option Nat :=
  if addz x.size size ≤ x.capacity then
    let x' := { x with size := addz x.size size }
    (x', some (x'.size - size))
  else
    match realloc x.buffer (addz x.capacity (LOCALMAX GROW_BY size)) grant with
    | none => (x, none)
    | some temp =>
      let x' := { x with
        n_reallocs := (x.n_reallocs + 1) % 2 ^ 32
        buffer := temp
        capacity := addz x.capacity (LOCALMAX GROW_BY size)
        size := addz x.size size
        grown := x.grown + 1 }
      (x', some (x'.size - size))

/-- tests/constbuffer_serialization_sample/main.c:42-51: one call `CONSTBUFFER_to_buffer(h, awesome_alloc, &awesome_alloc_context,
&serialized_size)` on a handle with content `c`.  The allocator is called only if the size fits
(constbuffer.c:496-506); the block given to `to_buffer` is the part of the array from the returned
offset to the end of the array, and what `to_buffer` leaves there replaces that part.  The result
is the context afterwards and, if the call succeeded, the offset of the serialization and
`*serialized_size`. -/
def serialize (x : Ctx) (c : List UInt8) (grant : Bool) : C (Ctx × Option (Nat × Nat)) :=
  let al := awesome_alloc x (HDR + c.length) grant
  let x' := if U32MAX - 1 - 4 < c.length then x else al.1
  do
    let r ← to_buffer (some c) (fun _ => al.2.map fun o => al.1.buffer.drop o) true
    match r, al.2 with
    | (some m, some n), some o => pure ({ x' with buffer := x'.buffer.take o ++ m }, some (o, n))
    | _, _ => pure (x', none)

/-- tests/constbuffer_serialization_sample/main.c:30-55: the loop over the buffers (the sample creates 1000 of 1 to 1000 bytes; here any
contents in any number; a buffer whose creation fails is not in the list).  Every element says the content and whether memory is there.  The result
is the context at the end and for every element what `serialize` gave. -/
def run (x : Ctx) : List (List UInt8 × Bool) → C (Ctx × List (Option (Nat × Nat)))
  | [] => C.ok (x, [])
  | (c, g) :: rest => do
    let (x, r) ← serialize x c g
    let (x, rs) ← run x rest
    pure (x, r :: rs)

end CUtil.SerialArena
