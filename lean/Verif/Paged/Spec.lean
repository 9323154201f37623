import Verif.Paged.Model
/-
What a PAGED_SPARSE_ARRAY is to its user: a partial function from indices to items.
-/
namespace CUtil.Paged.Spec
open CUtil Paged

/-- Which indices are allocated, and what they hold (`some none`: never written). -/
abbrev Slots (α : Type) := Nat → Option (Option α)

def Slots.upd {α : Type} (f : Slots α) (i : Nat) (r : Option (Option α)) : Slots α := fun j => if j = i then r else f j

/-- Calls; `write i v` asks for element `i` and, if it gets one, stores to it. -/
inductive Op (α : Type) where
  | allocate (i : Nat) (a : Bool)
  | release (i : Nat)
  | get (i : Nat)
  | write (i : Nat) (v : α)

inductive Res (α : Type) where
  /-- result of allocate -/
  | alloc (r : AllocResult)
  /-- release: what was in the items passed to the dispose function, one entry for each call -/
  | released (disposed : List (Option α))
  /-- result of get, and what the pointer points to -/
  | got (g : GetResult) (c : Option (Option α))
  | wrote (b : Bool)

/-- The documented effect of a call on an array for `max` elements. -/
inductive Means {α : Type} (max : Nat) (hasDispose : Bool) : Slots α → Op α → Slots α → Res α → Prop where
  | allocated {f i a c} : i < max → f i = none → Means max hasDispose f (.allocate i a) (f.upd i (some c)) (.alloc .ok)
  | allocateOut {f i a} : max ≤ i → Means max hasDispose f (.allocate i a) f (.alloc .invalidArgs)
  | allocateTwice {f i a} : i < max → f i ≠ none → Means max hasDispose f (.allocate i a) f (.alloc .alreadyAllocated)
  | allocateFails {f i a} : i < max → f i = none → Means max hasDispose f (.allocate i a) f (.alloc .error)
  | released {f i c} : f i = some c → Means max hasDispose f (.release i) (f.upd i none) (.released (if hasDispose then [c] else []))
  | releaseNone {f i} : f i = none → Means max hasDispose f (.release i) f (.released [])
  | got {f i c} : f i = some c → Means max hasDispose f (.get i) f (.got .ok (some c))
  | getNone {f i} : i < max → f i = none → Means max hasDispose f (.get i) f (.got .notAllocated none)
  | getOut {f i} : max ≤ i → Means max hasDispose f (.get i) f (.got .invalidArgs none)
  | wrote {f i v} : f i ≠ none → Means max hasDispose f (.write i v) (f.upd i (some (some v))) (.wrote true)
  | writeNone {f i v} : f i = none → Means max hasDispose f (.write i v) f (.wrote false)

inductive Run {α : Type} (max : Nat) (hasDispose : Bool) : Slots α → List (Op α) → Slots α → List (Res α) → Prop where
  | nil {f} : Run max hasDispose f [] f []
  | cons {f op f1 r ops f2 rs} : Means max hasDispose f op f1 r → Run max hasDispose f1 ops f2 rs →
      Run max hasDispose f (op :: ops) f2 (r :: rs)

end CUtil.Paged.Spec
