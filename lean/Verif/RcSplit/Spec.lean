import Verif.RcString.Spec
import Verif.RcSplit.Model
/-
What splitting a text at a character means, and who owns the references of an array.
-/
namespace CUtil.RcSplit.Spec
open CUtil RcString

/-- `pieces` is `s` split at every `d`. -/
structure IsSplit (d : UInt8) (s : List UInt8) (pieces : List (List UInt8)) : Prop where
  number : pieces.length = s.count d + 1
  noDelimiter : ∀ t ∈ pieces, d ∉ t
  joined : List.intercalate [d] pieces = s

/-- A heap in which the caller owns a reference to the string `p` with text `s`. -/
structure Owns (h : Heap) (p : Nat) (s : List UInt8) : Prop where
  fresh : ∀ q, h.next ≤ q → h.cell q = none
  obj : ∃ k c, h.cell p = some (.obj ⟨k, c + 1, false⟩) ∧ ∀ b, k = .moved b → ∃ m, h.cell b = some (.raw m)
  text : content h p = C.ok s

end CUtil.RcSplit.Spec
