import Verif.Map.Model
/-
What a MAP is to its user: a list of pairs with distinct keys, in insertion order.
-/
namespace CUtil.Map

abbrev Pairs := List (Str × Str)

/-- The value of a key. -/
def lookup (ps : Pairs) (k : Str) : Option Str := (ps.find? (fun x => x.1 == k)).map (·.2)

/-- Removing a key. -/
def remove (ps : Pairs) (k : Str) : Pairs := ps.filter (fun x => x.1 != k)

/-- Changing the value of a key, in place. -/
def change (ps : Pairs) (k v : Str) : Pairs := ps.map (fun x => if x.1 = k then (k, v) else x)

/-- The array `a` holds exactly the pointers `ids` (possibly followed by cells that are not in use). -/
def Arr (a : Option Cells) (ids : List Nat) : Prop :=
  match a with
  | none => ids = []
  | some l => ids ≠ [] ∧ ∃ stale, l = ids.map (fun p => some (some p)) ++ stale

/-- The map structure `m` over the heap `h` represents the pairs `ps`, and owns the blocks `own` (each of them once). -/
structure Rep (h : Heap) (m : MAP) (ps : Pairs) (own : List Nat) : Prop where
  rep : ∃ kids vids, Arr m.keys kids ∧ Arr m.values vids ∧ own = kids ++ vids ∧
    kids.map (h[·]?) = ps.map (fun x => some (some x.1)) ∧ vids.map (h[·]?) = ps.map (fun x => some (some x.2))
  count : m.count = ps.length
  nodup : own.Nodup
  keys : (ps.map (·.1)).Nodup

/-- Going from heap `h`, where the map owns `own`, to `h'`, where it owns `own'`: blocks of others are untouched, nothing the
map does not own any more stays allocated (no leak), and newly owned blocks are newly allocated ones. -/
structure Step (h : Heap) (own : List Nat) (h' : Heap) (own' : List Nat) : Prop where
  frame : ∀ p, p < h.length → p ∉ own → h'[p]? = h[p]?
  noleak : ∀ p s, h'[p]? = some (some s) → p ∈ own' ∨ (p < h.length ∧ p ∉ own)
  fresh : ∀ p ∈ own', p ∈ own ∨ h.length ≤ p
  grows : h.length ≤ h'.length

end CUtil.Map
