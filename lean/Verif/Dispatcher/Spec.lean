import Verif.Dispatcher.Model
/-
What is registered after a history: every registration made and not removed, in the order they were made.
-/
namespace CUtil.Dispatcher
open CUtil.Conc

/-- One event. -/
def apply (L : List (Nat × Nat)) : Ev → List (Nat × Nat)
  | .reg i f => L ++ [(i, f)]
  | .unreg i => L.filter (fun x => decide (x.1 ≠ i))

/-- The registrations in effect, as pairs of registration number and function, oldest first. -/
def registered (hist : List Ev) : List (Nat × Nat) := hist.foldl apply []

/-- Any number of further steps. -/
inductive Steps : Sys → Sys → Prop
  | refl (s) : Steps s s
  | step {s s' s''} : Steps s s' → Step s' s'' → Steps s s''

end CUtil.Dispatcher
