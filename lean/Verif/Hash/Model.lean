import Verif.Base
/-
Model of /repo/src/hash.cpp. MurmurHash2 is in a dependency that is not in /repo: it is a parameter, a function of the bytes it reads
and of the seed.
-/
namespace CUtil.Hash
open CUtil

/-- `(int)length` where `int` has 32 bits. -/
def toInt (n : Nat) : Int := if n % 2 ^ 32 < 2 ^ 31 then ((n % 2 ^ 32 : Nat) : Int) else ((n % 2 ^ 32 : Nat) : Int) - 2 ^ 32

/-- The contract of `MurmurHash2(key, len, seed)`: it reads `len` bytes at `key`; a negative length or a shorter block is undefined. -/
def murmur (mm : List UInt8 → UInt32 → UInt32) (block : List UInt8) (len : Int) (seed : UInt32) : C UInt32 :=
  if len < 0 then C.ub
  else if block.length < len.toNat then C.ub
  else C.ok (mm (block.take len.toNat) seed)

/-- hash.cpp:12-39 `hash_compute_hash`. `buffer` is the block pointed to (`none`: NULL), `hash` the value pointed to by the last argument before
the call (`none`: NULL). Answers whether 0 is returned, and the value pointed to after the call. -/
def computeHash (mm : List UInt8 → UInt32 → UInt32) (buffer : Option (List UInt8)) (length : Nat) (hash : Option UInt32) : C (Bool × Option UInt32) :=
  match buffer, hash with
  | some block, some _ =>
    if length = 0 then C.ok (false, hash)
    else if length ≥ 2147483647 then C.ok (false, hash)
    else do
      let v ← murmur mm block (toInt length) 0
      C.ok (true, some v)
  | _, _ => C.ok (false, hash)

end CUtil.Hash
