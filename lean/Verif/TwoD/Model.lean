import Verif.Base
/-
TWO_D_ARRAY(T): /repo/inc/c_util/two_d_array_ll.h.

`σ` is `sizeof(T)`.  `malloc_2(n, σ)` (c_pal) gives NULL when `n * σ` does not fit `size_t`; the outcome of an
allocation is otherwise a parameter.  The structure itself belongs to THANDLE (c_pal); its block is `hdr`.
-/
namespace CUtil.TwoD
open CUtil

/-- The allocated blocks and what they hold; addresses are never used twice. -/
structure Heap (α : Type) where
  next : Nat
  blk : Nat → Option (List (Option α))

/-- two_d_array_ll.h:26-33: the structure. -/
structure Arr where
  hdr : Nat
  rows : Nat
  cols : Nat
  rowArrays : List (Option Nat)
deriving DecidableEq, Repr

inductive GetResult where
  | ok | invalidArgs | notAllocated
deriving DecidableEq, Repr

abbrev sizeMax : Nat := 18446744073709551616

def setBlk {α : Type} (b : Nat → Option (List (Option α))) (p : Nat) (v : Option (List (Option α))) : Nat → Option (List (Option α)) :=
  fun q => if q = p then v else b q

def malloc {α : Type} (h : Heap α) (cells : Nat) : Nat × Heap α := (h.next, ⟨h.next + 1, setBlk h.blk h.next (some (uninit cells))⟩)

/-- `free`; of anything but an allocated block it is undefined. -/
def freeBlock {α : Type} (h : Heap α) (p : Nat) : C (Heap α) :=
  match h.blk p with
  | some _ => C.ok ⟨h.next, setBlk h.blk p none⟩
  | none => C.ub

/-- two_d_array_ll.h:109-145 `TWO_D_ARRAY_CREATE`.  The loop of 135-138 sets every row to NULL. -/
def create {α : Type} (h : Heap α) (rowSize colSize : Nat) (a : Bool) : Option Arr × Heap α :=
  if rowSize = 0 ∨ colSize = 0 then (none, h)
  else if a = false then (none, h)
  else
    let (p, h1) := malloc h 0
    (some ⟨p, rowSize, colSize, List.replicate rowSize none⟩, h1)

/-- two_d_array_ll.h:147-183 `TWO_D_ARRAY_FREE_ROW`; 0 is success. -/
def freeRow {α : Type} (h : Heap α) (t : Option Arr) (i : Nat) : C (Nat × Option Arr × Heap α) :=
  match t with
  | none => C.ok (1, none, h)
  | some t =>
    if t.rows ≤ i then C.ok (1, some t, h)
    else do
      let r ← rd t.rowArrays i
      match r with
      | none => C.ok (1, some t, h)
      | some p => do
        let h1 ← freeBlock h p
        C.ok (0, some { t with rowArrays := t.rowArrays.set i none }, h1)

/-- two_d_array_ll.h:186-233 `TWO_D_ARRAY_ALLOCATE_NEW_ROW`; `a`: outcome of `malloc_2`. -/
def allocateNewRow {α : Type} (σ : Nat) (h : Heap α) (t : Option Arr) (i : Nat) (a : Bool) : C (Nat × Option Arr × Heap α) :=
  match t with
  | none => C.ok (1, none, h)
  | some t =>
    if t.rows ≤ i then C.ok (1, some t, h)
    else do
      let r ← rd t.rowArrays i
      match r with
      | some _ => C.ok (1, some t, h)
      | none =>
        if sizeMax ≤ t.cols * σ ∨ a = false then C.ok (1, some t, h)
        else
          let (p, h1) := malloc h t.cols
          C.ok (0, some { t with rowArrays := t.rowArrays.set i (some p) }, h1)

/-- two_d_array_ll.h:235-262 `TWO_D_ARRAY_GET_ROW`; `rowOut`: whether the out argument is not NULL.  The second
component is what is stored there, if anything is. -/
def getRow (t : Option Arr) (i : Nat) (rowOut : Bool) : C (GetResult × Option Nat) :=
  match t with
  | none => C.ok (.invalidArgs, none)
  | some t =>
    if rowOut = false ∨ t.rows ≤ i then C.ok (.invalidArgs, none)
    else do
      let r ← rd t.rowArrays i
      match r with
      | none => C.ok (.notAllocated, none)
      | some p => C.ok (.ok, some p)

/-- two_d_array_ll.h:98-104: the loop of the dispose function from row `i`, `n` iterations. -/
def freeLoop {α : Type} (t : Arr) : Nat → Nat → Heap α → C (Heap α)
  | 0, _, h => C.ok h
  | n + 1, i, h => do
    let r ← rd t.rowArrays i
    match r with
    | none => freeLoop t n (i + 1) h
    | some p => do
      let h1 ← freeBlock h p
      freeLoop t n (i + 1) h1

/-- two_d_array_ll.h:86-107, and the release of the structure by THANDLE. -/
def dispose {α : Type} (h : Heap α) (t : Arr) : C (Heap α) := do
  let h1 ← freeLoop t t.rows 0 h
  freeBlock h1 t.hdr

/-- The user's `row[j] = v`, through a pointer they were given. -/
def write {α : Type} (h : Heap α) (p j : Nat) (v : α) : C (Heap α) :=
  match h.blk p with
  | none => C.ub
  | some m => do
    let m' ← wr m j v
    C.ok ⟨h.next, setBlk h.blk p (some m')⟩

end CUtil.TwoD
