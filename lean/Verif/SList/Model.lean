import Verif.Base
/-
Model of /repo/src/singlylinkedlist.c.

The heap maps addresses to list items (`LIST_ITEM_INSTANCE`, lines 15-19); `none` is an address that holds no item (never
allocated or freed).  An allocator is a function of the heap: it fails or picks an address.  Items (`const void*`) are
addresses too, `none` being NULL.
A callback is a function with a state of its own; callbacks do not change the list.
`while` loops take a bound on the number of iterations; running out of it is reported as undefined, and the theorems hold for
every bound larger than the length of the list, so the loops end.
-/
namespace CUtil.SList

abbrev Item := Option Nat

structure Node where
  item : Item
  next : Option Nat
deriving DecidableEq, Repr

abbrev Heap := Nat → Option Node

abbrev Alloc := Heap → Option Nat

/-- singlylinkedlist.c:21-25 `LIST_INSTANCE`. -/
structure LIST where
  head : Option Nat
  tail : Option Nat
deriving DecidableEq, Repr

def upd (h : Heap) (p : Nat) (v : Option Node) : Heap := fun q => if q = p then v else h q

/-- `*p`. -/
def load (h : Heap) (p : Nat) : C Node :=
  match h p with
  | some n => C.ok n
  | none => C.ub

/-- `p->next = v`. -/
def setNext (h : Heap) (p : Nat) (v : Option Nat) : C Heap := do
  let n ← load h p
  pure (upd h p (some ⟨n.item, v⟩))

/-- `free(p)`. -/
def free (h : Heap) (p : Nat) : C Heap := do
  let _ ← load h p
  pure (upd h p none)

/-- singlylinkedlist.c:27-41 `singlylinkedlist_create`. -/
def create (a : Bool) : Option LIST := if a then some ⟨none, none⟩ else none

/-- singlylinkedlist.c:50-55: the loop of `singlylinkedlist_destroy`. -/
def destroyLoop (h : Heap) (head : Option Nat) : Nat → C Heap
  | 0 => C.ub
  | n + 1 =>
    match head with
    | none => C.ok h
    | some p => do
      let node ← load h p
      let h ← free h p
      destroyLoop h node.next n

/-- singlylinkedlist.c:43-60 `singlylinkedlist_destroy`. -/
def destroy (n : Nat) (h : Heap) (list : Option LIST) : C Heap :=
  match list with
  | none => C.ok h
  | some l => destroyLoop h l.head n

/-- singlylinkedlist.c:62-103 `singlylinkedlist_add`. -/
def add (h : Heap) (list : Option LIST) (item : Item) (alloc : Alloc) : C (Heap × Option LIST × Option Nat) :=
  match list, item with
  | some l, some item =>
    match alloc h with
    | none => C.ok (h, some l, none)
    | some p =>
      let h := upd h p (some ⟨some item, none⟩)
      match l.head with
      | none => C.ok (h, some ⟨some p, some p⟩, some p)
      | some _ =>
        match l.tail with
        | none => C.ub
        | some t => do
          let h ← setNext h t (some p)
          pure (h, some ⟨l.head, some p⟩, some p)
  | l, _ => C.ok (h, l, none)

/-- singlylinkedlist.c:375-415 `singlylinkedlist_add_head`. -/
def addHead (h : Heap) (list : Option LIST) (item : Item) (alloc : Alloc) : C (Heap × Option LIST × Option Nat) :=
  match list with
  | none => C.ok (h, none, none)
  | some l =>
    match alloc h with
    | none => C.ok (h, some l, none)
    | some p =>
      match l.head with
      | none => C.ok (upd h p (some ⟨item, none⟩), some ⟨some p, some p⟩, some p)
      | some q => C.ok (upd h p (some ⟨item, some q⟩), some ⟨some p, l.tail⟩, some p)

/-- singlylinkedlist.c:126-133 and 297-304: making the predecessor (or the head) point past the item. -/
def bypass (h : Heap) (l : LIST) (prev next : Option Nat) : C (Heap × LIST) :=
  match prev with
  | some q => do
    let h ← setNext h q next
    pure (h, l)
  | none => C.ok (h, ⟨next, l.tail⟩)

/-- singlylinkedlist.c:126-140 and 297-311: removing the item `cur`. -/
def unlink (h : Heap) (l : LIST) (prev : Option Nat) (cur : Nat) (next : Option Nat) : C (Heap × LIST) := do
  let (h, l) ← bypass h l prev next
  let l : LIST := if some cur = l.tail then ⟨l.head, prev⟩ else l
  let h ← free h cur
  pure (h, l)

/-- singlylinkedlist.c:122-147: the loop of `singlylinkedlist_remove`. -/
def removeLoop (h : Heap) (l : LIST) (item : Nat) (cur prev : Option Nat) : Nat → C (Heap × LIST × Bool)
  | 0 => C.ub
  | n + 1 =>
    match cur with
    | none => C.ok (h, l, false)
    | some c => do
      let node ← load h c
      if c = item then do
        let (h, l) ← unlink h l prev c node.next
        pure (h, l, true)
      else removeLoop h l item node.next (some c) n

/-- singlylinkedlist.c:105-162 `singlylinkedlist_remove`; `true` is success. -/
def remove (n : Nat) (h : Heap) (list : Option LIST) (item : Option Nat) : C (Heap × Option LIST × Bool) :=
  match list, item with
  | some l, some item => do
    let (h, l, ok) ← removeLoop h l item l.head none n
    pure (h, some l, ok)
  | l, _ => C.ok (h, l, false)

/-- singlylinkedlist.c:164-184 `singlylinkedlist_get_head_item`. -/
def getHeadItem (list : Option LIST) : Option Nat :=
  match list with
  | none => none
  | some l => l.head

/-- singlylinkedlist.c:186-204 `singlylinkedlist_get_next_item`. -/
def getNextItem (h : Heap) (item : Option Nat) : C (Option Nat) :=
  match item with
  | none => C.ok none
  | some p => do
    let node ← load h p
    pure node.next

/-- singlylinkedlist.c:206-223 `singlylinkedlist_item_get_value`. -/
def itemGetValue (h : Heap) (item : Option Nat) : C Item :=
  match item with
  | none => C.ok none
  | some p => do
    let node ← load h p
    pure node.item

/-- singlylinkedlist.c:242-254: the loop of `singlylinkedlist_find`; the match function gets the handle (and can read its value). -/
def findLoop (mf : σ → Nat → Item → Bool × σ) (h : Heap) (s : σ) (cur : Option Nat) : Nat → C (Option Nat × σ)
  | 0 => C.ub
  | n + 1 =>
    match cur with
    | none => C.ok (none, s)
    | some c => do
      let node ← load h c
      if (mf s c node.item).1 then C.ok (some c, (mf s c node.item).2)
      else findLoop mf h (mf s c node.item).2 node.next n

/-- singlylinkedlist.c:225-268 `singlylinkedlist_find`. -/
def find (n : Nat) (h : Heap) (list : Option LIST) (mf : Option (σ → Nat → Item → Bool × σ)) (s : σ) : C (Option Nat × σ) :=
  match list, mf with
  | some l, some mf => findLoop mf h s l.head n
  | _, _ => C.ok (none, s)

/-- What a condition function answers: remove?, continue?, and its new state. -/
abbrev Condition (σ : Type) := σ → Item → Bool × Bool × σ

/-- singlylinkedlist.c:287-326: the loop of `singlylinkedlist_remove_if`. -/
def removeIfLoop (cf : Condition σ) (h : Heap) (l : LIST) (s : σ) (cur prev : Option Nat) : Nat → C (Heap × LIST × σ)
  | 0 => C.ub
  | n + 1 =>
    match cur with
    | none => C.ok (h, l, s)
    | some c => do
      let node ← load h c
      let r := cf s node.item
      if r.1 then do
        let (h, l) ← unlink h l prev c node.next
        if r.2.1 then removeIfLoop cf h l r.2.2 node.next prev n else C.ok (h, l, r.2.2)
      else if r.2.1 then removeIfLoop cf h l r.2.2 node.next (some c) n
      else C.ok (h, l, r.2.2)

/-- singlylinkedlist.c:270-334 `singlylinkedlist_remove_if`. -/
def removeIf (n : Nat) (h : Heap) (list : Option LIST) (cf : Option (Condition σ)) (s : σ) : C (Heap × Option LIST × σ × Bool) :=
  match list, cf with
  | some l, some cf => do
    let (h, l, s) ← removeIfLoop cf h l s l.head none n
    pure (h, some l, s, true)
  | l, _ => C.ok (h, l, s, false)

/-- singlylinkedlist.c:352-368: the loop of `singlylinkedlist_foreach`; the action answers "continue?". -/
def foreachLoop (af : σ → Item → Bool × σ) (h : Heap) (s : σ) (cur : Option Nat) : Nat → C σ
  | 0 => C.ub
  | n + 1 =>
    match cur with
    | none => C.ok s
    | some c => do
      let node ← load h c
      if (af s node.item).1 then foreachLoop af h (af s node.item).2 node.next n else C.ok (af s node.item).2

/-- singlylinkedlist.c:336-373 `singlylinkedlist_foreach`. -/
def foreach (n : Nat) (h : Heap) (list : Option LIST) (af : Option (σ → Item → Bool × σ)) (s : σ) : C (σ × Bool) :=
  match list, af with
  | some l, some af => do
    let s ← foreachLoop af h s l.head n
    pure (s, true)
  | _, _ => C.ok (s, false)

end CUtil.SList
