/-
Big-endian byte strings, independent of the model.
-/
namespace CUtil.MemoryData.Spec

/-- The number denoted by bytes, most significant first. -/
def beVal : List UInt8 → Nat
  | [] => 0
  | b :: bs => b.toNat * 256 ^ bs.length + beVal bs

/-- The `n` bytes of `v`, most significant first. -/
def beBytes : Nat → Nat → List UInt8
  | 0, _ => []
  | n + 1, v => UInt8.ofNat (v / 256 ^ n % 256) :: beBytes n v

/-- The signed (two's complement) reading of `n` bytes. -/
def beSigned (bs : List UInt8) : Int :=
  if 2 * beVal bs < 256 ^ bs.length then beVal bs else (beVal bs : Int) - (256 ^ bs.length : Nat)

/-- The `n` bytes of a signed value: those of its residue modulo `256 ^ n`. -/
def beBytesSigned (n : Nat) (v : Int) : List UInt8 := beBytes n (v % 256 ^ n).toNat

end CUtil.MemoryData.Spec
