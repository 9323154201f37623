import Verif.SList.Model
/-
What a list is to its user: a sequence of items, each known by its handle.
-/
namespace CUtil.SList

/-- Handle and item. -/
abbrev Seq := List (Nat × Item)

/-- Handle of the first element, `e` if there is none. -/
def first (ns : Seq) (e : Option Nat) : Option Nat :=
  match ns with
  | [] => e
  | x :: _ => some x.1

/-- Handle of the last element. -/
def last (ns : Seq) : Option Nat := ns.getLast?.map (·.1)

/-- The heap holds the items of `ns`, each pointing to the next one and the last one to `e`. -/
def Links (h : Heap) : Seq → Option Nat → Prop
  | [], _ => True
  | x :: ns, e => h x.1 = some ⟨x.2, first ns e⟩ ∧ Links h ns e

/-- The list structure represents the sequence. -/
structure Rep (h : Heap) (l : LIST) (ns : Seq) : Prop where
  head : l.head = first ns none
  tail : l.tail = last ns
  links : Links h ns none
  nodup : (ns.map (·.1)).Nodup

/-- From a heap with the sequence `ns` to one with `ns'`: other addresses are untouched, elements that are gone are freed, and new
elements were free addresses. -/
structure Step (h : Heap) (ns : Seq) (h' : Heap) (ns' : Seq) : Prop where
  frame : ∀ p, p ∉ ns.map (·.1) → p ∉ ns'.map (·.1) → h' p = h p
  freed : ∀ p, p ∈ ns.map (·.1) → p ∉ ns'.map (·.1) → h' p = none
  fresh : ∀ p, p ∉ ns.map (·.1) → p ∈ ns'.map (·.1) → h p = none

/-- An allocator returns addresses that are free. -/
def Proper (alloc : Alloc) : Prop := ∀ h p, alloc h = some p → h p = none

/-- Erasing the element with a handle. -/
def erase (ns : Seq) (p : Nat) : Seq := ns.filter (fun x => x.1 != p)

/-- The first element the match function accepts, asking in order. -/
def findSpec (mf : σ → Nat → Item → Bool × σ) : σ → Seq → Option Nat × σ
  | s, [] => (none, s)
  | s, x :: ns => if (mf s x.1 x.2).1 then (some x.1, (mf s x.1 x.2).2) else findSpec mf (mf s x.1 x.2).2 ns

/-- Asking the condition for each element in order until it says stop: the elements that stay, and its last state. -/
def removeIfSpec (cf : Condition σ) : σ → Seq → Seq × σ
  | s, [] => ([], s)
  | s, x :: ns =>
    let r := cf s x.2
    let rest := if r.2.1 then removeIfSpec cf r.2.2 ns else (ns, r.2.2)
    (if r.1 then rest.1 else x :: rest.1, rest.2)

/-- Calling the action for each element in order until it says stop. -/
def foreachSpec (af : σ → Item → Bool × σ) : σ → Seq → σ
  | s, [] => s
  | s, x :: ns => if (af s x.2).1 then foreachSpec af (af s x.2).2 ns else (af s x.2).2

end CUtil.SList
