import Verif.Splitter.Model
/-
What splitting should do.
-/
namespace CUtil.Splitter
open CUtil.ConstBufferArray

/-- All the bytes of a list of buffers, in order. -/
def bytesOf (bs : List Buf) : List UInt8 := (contents bs).flatten

/-- `parts` cuts `whole` in pieces of `max` bytes, except that the last may be shorter (but not empty). -/
def IsChunking (max : Nat) (parts : List (List UInt8)) (whole : List UInt8) : Prop :=
  parts.flatten = whole ∧ (∀ p ∈ parts, p ≠ [] ∧ p.length ≤ max) ∧ ∀ p ∈ parts.dropLast, p.length = max

end CUtil.Splitter
