import Verif.Base
/-
Model of /repo/src/memory_data.c.

Pointers are a block and an offset into it.  `unsigned char` operands are promoted to
`int` (32 bits); arithmetic on `int`/`int64_t` goes through `sArith`, which is undefined
behaviour on overflow in the ISO C dialect and wraps in the dialect of compilers that
define signed shifts as two's complement (MSVC, GCC and Clang for `<<`).
-/
namespace CUtil

/-- Meaning of signed overflow: ISO C leaves it undefined; the usual compilers wrap. -/
inductive Dialect where
  | iso
  | wrap
deriving DecidableEq, Repr

/-- The result `x` of a signed operation in a type of `bits` bits. -/
def sArith (d : Dialect) (bits : Nat) (x : Int) : C Int :=
  if -(2 ^ (bits - 1)) ≤ x ∧ x < 2 ^ (bits - 1) then C.ok x
  else match d with
    | .iso => C.ub
    | .wrap => C.ok (x.bmod (2 ^ bits))

namespace MemoryData

/-- memory_data.c:12-16 `read_uint8_t`. -/
def read_u8 (m : List UInt8) (o : Nat) : C Nat := do
  let b ← rd m o
  pure b.toNat

/-- memory_data.c:18-25 `read_uint16_t`: `int` arithmetic, converted to `uint16_t`. -/
def read_u16 (d : Dialect) (m : List UInt8) (o : Nat) : C Nat := do
  let s0 ← rd m o
  let s1 ← rd m (o + 1)
  let a ← sArith d 32 (s0.toNat * 2 ^ 8)
  let r ← sArith d 32 (a + s1.toNat)
  pure (r % 2 ^ 16).toNat

/-- The `int` expression of memory_data.c:31-34 and 146-149:
`(s0 << 24) + (s1 << 16) + (s2 << 8) + s3`. -/
def be32 (d : Dialect) (m : List UInt8) (o : Nat) : C Int := do
  let s0 ← rd m o
  let s1 ← rd m (o + 1)
  let s2 ← rd m (o + 2)
  let s3 ← rd m (o + 3)
  let a ← sArith d 32 (s0.toNat * 2 ^ 24)
  let b ← sArith d 32 (s1.toNat * 2 ^ 16)
  let c ← sArith d 32 (s2.toNat * 2 ^ 8)
  let ab ← sArith d 32 (a + b)
  let abc ← sArith d 32 (ab + c)
  sArith d 32 (abc + s3.toNat)

/-- memory_data.c:27-36 `read_uint32_t`. -/
def read_u32 (d : Dialect) (m : List UInt8) (o : Nat) : C Nat := do
  let r ← be32 d m o
  pure (r % 2 ^ 32).toNat

/-- memory_data.c:38-51 `read_uint64_t`: `uint64_t` arithmetic (modulo 2^64, no overflow). -/
def read_u64 (m : List UInt8) (o : Nat) : C Nat := do
  let s0 ← rd m o
  let s1 ← rd m (o + 1)
  let s2 ← rd m (o + 2)
  let s3 ← rd m (o + 3)
  let s4 ← rd m (o + 4)
  let s5 ← rd m (o + 5)
  let s6 ← rd m (o + 6)
  let s7 ← rd m (o + 7)
  pure ((s0.toNat * 2 ^ 56 + s1.toNat * 2 ^ 48 + s2.toNat * 2 ^ 40 + s3.toNat * 2 ^ 32
    + s4.toNat * 2 ^ 24 + s5.toNat * 2 ^ 16 + s6.toNat * 2 ^ 8 + s7.toNat) % 2 ^ 64)

/-- `(value >> k) & 0xFF` for unsigned values. -/
def byteU (v k : Nat) : UInt8 := UInt8.ofNat ((v >>> k) &&& 0xFF)

/-- `(value >> k) & 0xFF` for signed values: arithmetic shift, then the low eight bits of the
two's complement representation. -/
def byteS (v : Int) (k : Nat) : UInt8 := UInt8.ofNat ((v >>> k) % 256).toNat

/-- memory_data.c:53-57 `write_uint8_t`. -/
def write_u8 (m : Mem) (o : Nat) (v : Nat) : C Mem := wr m o (UInt8.ofNat v)

/-- memory_data.c:59-64 `write_uint16_t`. -/
def write_u16 (m : Mem) (o : Nat) (v : Nat) : C Mem := do
  let m ← wr m o (byteU v 8)
  wr m (o + 1) (byteU v 0)

/-- memory_data.c:66-73 `write_uint32_t`. -/
def write_u32 (m : Mem) (o : Nat) (v : Nat) : C Mem := do
  let m ← wr m o (byteU v 24)
  let m ← wr m (o + 1) (byteU v 16)
  let m ← wr m (o + 2) (byteU v 8)
  wr m (o + 3) (byteU v 0)

/-- memory_data.c:75-86 `write_uint64_t`. -/
def write_u64 (m : Mem) (o : Nat) (v : Nat) : C Mem := do
  let m ← wr m o (byteU v 56)
  let m ← wr m (o + 1) (byteU v 48)
  let m ← wr m (o + 2) (byteU v 40)
  let m ← wr m (o + 3) (byteU v 32)
  let m ← wr m (o + 4) (byteU v 24)
  let m ← wr m (o + 5) (byteU v 16)
  let m ← wr m (o + 6) (byteU v 8)
  wr m (o + 7) (byteU v 0)

/-- memory_data.c:88-92 `write_int8_t`. -/
def write_i8 (m : Mem) (o : Nat) (v : Int) : C Mem := wr m o (UInt8.ofNat (v % 256).toNat)

/-- memory_data.c:94-99 `write_int16_t`. -/
def write_i16 (m : Mem) (o : Nat) (v : Int) : C Mem := do
  let m ← wr m o (byteS v 8)
  wr m (o + 1) (byteS v 0)

/-- memory_data.c:101-108 `write_int32_t`. -/
def write_i32 (m : Mem) (o : Nat) (v : Int) : C Mem := do
  let m ← wr m o (byteS v 24)
  let m ← wr m (o + 1) (byteS v 16)
  let m ← wr m (o + 2) (byteS v 8)
  wr m (o + 3) (byteS v 0)

/-- memory_data.c:110-121 `write_int64_t`. -/
def write_i64 (m : Mem) (o : Nat) (v : Int) : C Mem := do
  let m ← wr m o (byteS v 56)
  let m ← wr m (o + 1) (byteS v 48)
  let m ← wr m (o + 2) (byteS v 40)
  let m ← wr m (o + 3) (byteS v 32)
  let m ← wr m (o + 4) (byteS v 24)
  let m ← wr m (o + 5) (byteS v 16)
  let m ← wr m (o + 6) (byteS v 8)
  wr m (o + 7) (byteS v 0)

/-- `memcpy` of initialised bytes to offset `o` of a block. -/
def copyTo (m : Mem) (o : Nat) : List UInt8 → C Mem
  | [] => C.ok m
  | b :: bs => do
    let m ← wr m o b
    copyTo m (o + 1) bs

/-- `memcpy` of `n` bytes from offset `o` of a block. -/
def copyFrom (m : List UInt8) (o : Nat) : Nat → C (List UInt8)
  | 0 => C.ok []
  | n + 1 => do
    let b ← rd m o
    let bs ← copyFrom m (o + 1) n
    pure (b :: bs)

/-- memory_data.c:123-127 `write_uuid_t`.  A UUID_T is its 16 bytes. -/
def write_uuid (m : Mem) (o : Nat) (v : List UInt8) : C Mem := copyTo m o v

/-- memory_data.c:129-133 `read_int8_t`: conversion of 0..255 to `int8_t` (two's complement). -/
def read_i8 (m : List UInt8) (o : Nat) : C Int := do
  let b ← rd m o
  pure ((b.toNat : Int).bmod (2 ^ 8))

/-- memory_data.c:135-141 `read_int16_t`: `int` arithmetic, converted to `int16_t`. -/
def read_i16 (d : Dialect) (m : List UInt8) (o : Nat) : C Int := do
  let s0 ← rd m o
  let s1 ← rd m (o + 1)
  let a ← sArith d 32 (s0.toNat * 2 ^ 8)
  let r ← sArith d 32 (a + s1.toNat)
  pure (r.bmod (2 ^ 16))

/-- memory_data.c:143-151 `read_int32_t`. -/
def read_i32 (d : Dialect) (m : List UInt8) (o : Nat) : C Int := be32 d m o

/-- memory_data.c:153-165 `read_int64_t`: `int64_t` arithmetic. -/
def read_i64 (d : Dialect) (m : List UInt8) (o : Nat) : C Int := do
  let s0 ← rd m o
  let s1 ← rd m (o + 1)
  let s2 ← rd m (o + 2)
  let s3 ← rd m (o + 3)
  let s4 ← rd m (o + 4)
  let s5 ← rd m (o + 5)
  let s6 ← rd m (o + 6)
  let s7 ← rd m (o + 7)
  let r ← sArith d 64 (s0.toNat * 2 ^ 56)
  let r1 ← sArith d 64 (s1.toNat * 2 ^ 48)
  let r ← sArith d 64 (r + r1)
  let r2 ← sArith d 64 (s2.toNat * 2 ^ 40)
  let r ← sArith d 64 (r + r2)
  let r3 ← sArith d 64 (s3.toNat * 2 ^ 32)
  let r ← sArith d 64 (r + r3)
  let r4 ← sArith d 64 (s4.toNat * 2 ^ 24)
  let r ← sArith d 64 (r + r4)
  let r5 ← sArith d 64 (s5.toNat * 2 ^ 16)
  let r ← sArith d 64 (r + r5)
  let r6 ← sArith d 64 (s6.toNat * 2 ^ 8)
  let r ← sArith d 64 (r + r6)
  sArith d 64 (r + s7.toNat)

/-- memory_data.c:167-171 `read_uuid_t`. -/
def read_uuid (m : List UInt8) (o : Nat) : C (List UInt8) := copyFrom m o 16

end MemoryData
end CUtil
