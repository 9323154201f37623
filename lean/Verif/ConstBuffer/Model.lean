import Verif.MemoryData.Model
/-
Model of the serialization functions of /repo/src/constbuffer.c and
/repo/src/constbuffer_thandle.c.

A buffer handle is `Option (List UInt8)`: `none` is NULL, `some c` a handle whose
`alias.buffer` holds the bytes `c` and whose `alias.size` (a `uint32_t`) is `c.length`; callers
state `c.length < 2 ^ 32`.  A pointer argument that is only tested for NULL is a `Bool`
(`true` = not NULL).  `memcpy` with a NULL source and size 0 is a no-op (as in all C libraries).
-/
namespace CUtil.ConstBuffer
open CUtil.MemoryData

/-- `UINT32_MAX`. -/
abbrev U32MAX : Nat := 4294967295

/-- constbuffer_format.h:9-19: offsets of the three fields. -/
abbrev VERSION_OFFSET : Nat := 0
abbrev SIZE_OFFSET : Nat := 1
abbrev CONTENT_OFFSET : Nat := 5
/-- constbuffer_format.h: `CONSTBUFFER_VERSION_SIZE + CONSTBUFFER_SIZE_SIZE`. -/
abbrev HDR : Nat := 1 + 4
/-- constbuffer_version.h:8 `CONSTBUFFER_VERSION_V1`. -/
abbrev V1 : Nat := 1

/-- constbuffer.c:441-466 `CONSTBUFFER_get_serialization_size`. -/
def get_serialization_size (source : Option (List UInt8)) : Nat :=
  match source with
  | none => 0
  | some c => if c.length > U32MAX - 1 - 4 then 0 else (HDR + c.length) % 2 ^ 32

/-- The three writes shared by constbuffer.c:518-524 and 574-580. -/
def writeAll (m : Mem) (c : List UInt8) : C Mem := do
  let m ← write_u8 m VERSION_OFFSET V1
  let m ← write_u32 m SIZE_OFFSET c.length
  copyTo m CONTENT_OFFSET c

/-- constbuffer.c:474-533 `CONSTBUFFER_to_buffer`.  `alloc n` is what the allocator returns when
asked for `n` bytes.  The result is the returned pointer (with the block it points to) and the
value stored in `*serialized_size`, if any. -/
def to_buffer (source : Option (List UInt8)) (alloc : Nat → Option Mem) (sizeOut : Bool) :
    C (Option Mem × Option Nat) :=
  match source with
  | none => C.ok (none, none)
  | some c =>
    if sizeOut = false then C.ok (none, none)
    else if U32MAX - 1 - 4 < c.length then C.ok (none, none)
    else match alloc (HDR + c.length) with
      | none => C.ok (none, none)
      | some m => do
        let m ← writeAll m c
        pure (some m, some ((HDR + c.length) % 2 ^ 32))

/-- constbuffer.h `CONSTBUFFER_TO_FIXED_SIZE_BUFFER_RESULT`. -/
inductive FixedResult where
  | OK | INVALID_ARG | INSUFFICIENT_BUFFER | ERROR
deriving DecidableEq, Repr

/-- constbuffer.c:535-588 `CONSTBUFFER_to_fixed_size_buffer`.  `destination` is the block at the
destination pointer; the result is the return value, the block afterwards and the value stored
in `*serialized_size`, if any. -/
def to_fixed_size_buffer (source : Option (List UInt8)) (destination : Option Mem) (destination_size : Nat)
    (sizeOut : Bool) : C (FixedResult × Option Mem × Option Nat) :=
  match source, destination with
  | some c, some m =>
    if sizeOut = false then C.ok (.INVALID_ARG, some m, none)
    else if U32MAX - (1 + 4) < c.length then C.ok (.ERROR, some m, none)
    else
      let needed := (HDR + c.length) % 2 ^ 32
      if destination_size < needed then C.ok (.INSUFFICIENT_BUFFER, some m, some needed)
      else do
        let m ← writeAll m c
        pure (.OK, some m, some needed)
  | _, d => C.ok (.INVALID_ARG, d, none)

/-- constbuffer.h `CONSTBUFFER_FROM_BUFFER_RESULT`. -/
inductive FromResult where
  | OK | INVALID_ARG | INVALID_DATA | ERROR
deriving DecidableEq, Repr

/-- What a deserialization call leaves behind: the return value, `*consumed` and `*destination`
(`none` = not written; `some none` = NULL written). -/
structure FromOut where
  result : FromResult
  consumed : Option Nat
  destination : Option (Option (List UInt8))
deriving DecidableEq, Repr

/-- constbuffer.c:71-112 `CONSTBUFFER_Create_Internal` on the memory at offset `o` of a block:
NULL if the allocation fails, otherwise a copy of `size` bytes. -/
def create_internal (m : List UInt8) (o size : Nat) (alloc : Bool) : C (Option (List UInt8)) :=
  if alloc = false then C.ok none
  else do
    let bs ← copyFrom m o size
    pure (some bs)

/-- constbuffer.c:590-667 `CONSTBUFFER_from_buffer`.  The block `source` may be longer than
`size`; reading past it is undefined. -/
def from_buffer (d : Dialect) (source : Option (List UInt8)) (size : Nat) (consumedOut destOut : Bool)
    (alloc : Bool) : C FromOut :=
  match source with
  | none => C.ok ⟨.INVALID_ARG, none, none⟩
  | some m =>
    if consumedOut = false ∨ destOut = false then C.ok ⟨.INVALID_ARG, none, none⟩
    else if size = 0 then C.ok ⟨.INVALID_ARG, none, none⟩
    else do
      let version ← read_u8 m VERSION_OFFSET
      if version ≠ V1 then C.ok ⟨.INVALID_DATA, none, none⟩
      else if size < HDR then C.ok ⟨.INVALID_DATA, none, none⟩
      else do
        let content_size ← read_u32 d m SIZE_OFFSET
        if size - HDR < content_size then C.ok ⟨.INVALID_DATA, none, none⟩
        else do
          let h ← create_internal m CONTENT_OFFSET content_size alloc
          match h with
          | none => C.ok ⟨.ERROR, none, some none⟩
          | some c => C.ok ⟨.OK, some ((HDR + content_size) % 2 ^ 32), some (some c)⟩

/-! ### constbuffer_thandle.c -/

/-- constbuffer_thandle.c:460-494 `CONSTBUFFER_THANDLE_get_serialization_size`
(`CONSTBUFFER_THANDLE_GetContent` of a non-NULL handle does not fail). -/
def th_get_serialization_size (source : Option (List UInt8)) : Nat :=
  match source with
  | none => 0
  | some c => if c.length > U32MAX - 1 - 4 then 0 else (1 + 4 + c.length) % 2 ^ 32

/-- constbuffer_thandle.c:496-567 `CONSTBUFFER_THANDLE_to_buffer`. -/
def th_to_buffer (source : Option (List UInt8)) (alloc : Nat → Option Mem) (sizeOut : Bool) :
    C (Option Mem × Option Nat) :=
  match source with
  | none => C.ok (none, none)
  | some c =>
    if sizeOut = false then C.ok (none, none)
    else if U32MAX - 1 - 4 < c.length then C.ok (none, none)
    else match alloc (1 + 4 + c.length) with
      | none => C.ok (none, none)
      | some m => do
        let m ← write_u8 m VERSION_OFFSET V1
        let m ← write_u32 m SIZE_OFFSET c.length
        let m ← if c.length > 0 then copyTo m CONTENT_OFFSET c else C.ok m
        pure (some m, some ((1 + 4 + c.length) % 2 ^ 32))

/-- constbuffer_thandle.c:569-620 `CONSTBUFFER_THANDLE_to_fixed_size_buffer`. -/
def th_to_fixed_size_buffer (source : Option (List UInt8)) (destination : Option Mem) (destination_size : Nat)
    (sizeOut : Bool) : C (FixedResult × Option Mem × Option Nat) :=
  match source, destination with
  | some c, some m =>
    if sizeOut = false then C.ok (.INVALID_ARG, some m, none)
    else
      let needed := th_get_serialization_size (some c)
      if needed = 0 then C.ok (.ERROR, some m, none)
      else if needed > destination_size then C.ok (.INSUFFICIENT_BUFFER, some m, some needed)
      else do
        let m ← wr m 0 (UInt8.ofNat V1)
        let m ← write_u32 m SIZE_OFFSET c.length
        let m ← copyTo m CONTENT_OFFSET c
        pure (.OK, some m, some needed)
  | _, d => C.ok (.INVALID_ARG, d, none)

/-- constbuffer_thandle.c:622-695 `CONSTBUFFER_THANDLE_from_buffer`: as above, except that a
failed allocation leaves `*destination` alone. -/
def th_from_buffer (d : Dialect) (source : Option (List UInt8)) (size : Nat) (consumedOut destOut : Bool)
    (alloc : Bool) : C FromOut :=
  match source with
  | none => C.ok ⟨.INVALID_ARG, none, none⟩
  | some m =>
    if consumedOut = false ∨ destOut = false ∨ size = 0 then C.ok ⟨.INVALID_ARG, none, none⟩
    else do
      let version ← read_u8 m VERSION_OFFSET
      if version ≠ V1 then C.ok ⟨.INVALID_DATA, none, none⟩
      else if size < HDR then C.ok ⟨.INVALID_DATA, none, none⟩
      else do
        let content_size ← read_u32 d m SIZE_OFFSET
        if size - HDR < content_size then C.ok ⟨.INVALID_DATA, none, none⟩
        else do
          let h ← create_internal m CONTENT_OFFSET content_size alloc
          match h with
          | none => C.ok ⟨.ERROR, none, none⟩
          | some c => C.ok ⟨.OK, some ((HDR + content_size) % 2 ^ 32), some (some c)⟩

end CUtil.ConstBuffer
