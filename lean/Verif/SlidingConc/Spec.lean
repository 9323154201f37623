import Verif.SlidingConc.Model
import Verif.Sliding.Props

/-! What the window stands for. -/
namespace CUtil.SlidingConc.Spec
open CUtil.Sliding

/-- The values added, in the order of the additions. -/
def values (s : Sys) : List Int := s.hist.map Prod.snd

/-- The average of the last `width` values: the sum and by what it is divided; `none` is 0. -/
def average (width : Int) (xs : List Int) : Option (Int × Int) :=
  if xs = [] then none
  else some ((xs.drop (xs.length - width.toNat)).sum, ((min xs.length width.toNat : Nat) : Int))

/-- The values can be added one after the other without an overflow (as in C29). -/
def Good (width : Int) (xs : List Int) : Prop := InRange width.toNat xs ∧ xs.length ≤ 2147483647

/-- The thread is at a statement of add that writes the window. -/
def Writes : Pc → Prop
  | .aSum _ _ | .aStore _ _ | .aCount _ _ | .aSlot _ _ | .aAverage _ _ => True
  | _ => False

/-- The thread is at the statement of get that reads the window. -/
def Reads : Pc → Prop
  | .gRead => True
  | _ => False

/-- The thread waits for the lock. -/
def Waits : Pc → Prop
  | .aLock _ _ | .gLock => True
  | _ => False

end CUtil.SlidingConc.Spec
