import Verif.Base
/-
TARRAY(T): /repo/inc/c_util/tarray_ll.h.

`σ` is `sizeof(T)`.  `malloc_2(n, σ)` and `realloc_2(p, n, σ)` (c_pal) give NULL when `n * σ` does not fit
`size_t` and otherwise allocate; whether they succeed is a parameter.  The reference counting around the
structure is THANDLE (c_pal), not modelled here: `free` is what it calls when the last reference goes.
-/
namespace CUtil.TArray
open CUtil

/-- Which blocks are allocated; addresses are never used twice. -/
structure Heap where
  next : Nat
  live : Nat → Bool

/-- tarray_ll.h:31-41: the structure, its own block `hdr`, the block `ptr` of `arr` and what that block holds. -/
structure Arr (α : Type) where
  hdr : Nat
  capacity : Nat
  cleanup : Option Nat
  ptr : Nat
  arr : List (Option α)
deriving DecidableEq, Repr

abbrev sizeMax : Nat := 18446744073709551616

/-- `malloc` of a block. -/
def malloc (h : Heap) : Nat × Heap := (h.next, ⟨h.next + 1, fun q => if q = h.next then true else h.live q⟩)

/-- `free` of a block; of anything else it is undefined. -/
def freeBlock (h : Heap) (p : Nat) : C Heap :=
  if h.live p then C.ok ⟨h.next, fun q => if q = p then false else h.live q⟩ else C.ub

/-- tarray_ll.h:104-148 `TARRAY_CREATE_WITH_CAPACITY_AND_CLEANUP` (151-172: the other constructors call it with
no cleanup, and with capacity 1).  `a1`, `a2`: outcomes of the two allocations.  The context of the cleanup is
part of `cleanup`. -/
def create {α : Type} (h : Heap) (σ capacity : Nat) (cleanup : Option Nat) (a1 a2 : Bool) : C (Option (Arr α) × Heap) :=
  if capacity = 0 then C.ok (none, h)
  else if a1 = false then C.ok (none, h)
  else
    let (p, h1) := malloc h
    if sizeMax ≤ capacity * σ ∨ a2 = false then do
      let h2 ← freeBlock h1 p
      C.ok (none, h2)
    else
      let (q, h2) := malloc h1
      C.ok (some ⟨p, capacity, cleanup, q, uninit capacity⟩, h2)

/-- tarray_ll.h:212-215: `do { new_capacity *= 2; } while (new_capacity < capacity)` on `uint32_t`.  More than
`fuel` iterations count as not terminating. -/
def double : Nat → Nat → Nat → C Nat
  | 0, _, _ => C.ub
  | fuel + 1, n, capacity =>
    let n' := n * 2 % 4294967296
    if n' < capacity then double fuel n' capacity else C.ok n'

/-- tarray_ll.h:181-235 `TARRAY_ENSURE_CAPACITY`; `a`: outcome of `realloc_2`.  The result is 0 for success. -/
def ensure {α : Type} (h : Heap) (σ : Nat) (t : Option (Arr α)) (capacity : Nat) (a : Bool) : C (Nat × Option (Arr α) × Heap) :=
  match t with
  | none => C.ok (1, none, h)
  | some t =>
    if capacity ≤ t.capacity then C.ok (0, some t, h)
    else if capacity > 2147483648 then C.ok (1, some t, h)
    else do
      let n ← double 64 t.capacity capacity
      if sizeMax ≤ n * σ ∨ a = false then C.ok (1, some t, h)
      else do
        -- realloc_2: the old block goes, a new one has what fits of its contents
        let h1 ← freeBlock h t.ptr
        let (q, h2) := malloc h1
        C.ok (0, some { t with capacity := n, ptr := q, arr := reallocMem t.arr n }, h2)

/-- tarray_ll.h:83-100 and THANDLE's release of the structure: the cleanup, if any, is called once with the
array still whole (the list of calls is returned), then the elements and the structure are freed. -/
def free {α : Type} (h : Heap) (t : Arr α) : C (List (Nat × List (Option α)) × Heap) := do
  let calls := match t.cleanup with
    | none => []
    | some f => [(f, t.arr)]
  let h1 ← freeBlock h t.ptr
  let h2 ← freeBlock h1 t.hdr
  C.ok (calls, h2)

/-- The user's `tarray->arr[i] = v`. -/
def write {α : Type} (t : Arr α) (i : Nat) (v : α) : C (Arr α) := do
  let m ← wr t.arr i v
  C.ok { t with arr := m }

end CUtil.TArray
