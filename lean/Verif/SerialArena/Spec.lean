import Verif.ConstBuffer.Spec
/-
What the array holds, independent of the model: the serializations of the accepted contents, one
after the other.
-/
namespace CUtil.SerialArena.Spec

/-- The contents whose serialization succeeded (`none` in the list of results: it failed). -/
def accepted {ρ : Type} : List (List UInt8 × Bool) → List (Option ρ) → List (List UInt8)
  | (c, _) :: rest, some _ :: rs => c :: accepted rest rs
  | _ :: rest, none :: rs => accepted rest rs
  | _, _ => []

/-- The documented format of every content, one after the other. -/
def wire (cs : List (List UInt8)) : List UInt8 := cs.flatMap ConstBuffer.Spec.format

end CUtil.SerialArena.Spec
