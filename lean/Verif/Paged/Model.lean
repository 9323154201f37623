import Verif.Base
/-
PAGED_SPARSE_ARRAY(T): /repo/inc/c_util/paged_sparse_array_ll.h.

`σ` is `sizeof(T)` and `β` the size of the fixed part of a page (`sizeof(PAGED_SPARSE_ARRAY_PAGE)`: the counter
and padding).  `malloc_flex(β, n, 1)` (c_pal) gives NULL when `β + n` does not fit `size_t`; the outcome of an
allocation is otherwise a parameter.  The structure itself belongs to THANDLE (c_pal).  `size_t` and `uint64_t`
have 64 bits.
-/
namespace CUtil.Paged
open CUtil

abbrev w64 : Nat := 18446744073709551616

/-- paged_sparse_array_ll.h:60-64: a page: its counter, its items and the bitmap that follows them in the same
allocation. -/
structure Page (α : Type) where
  count : Nat
  items : List (Option α)
  bitmap : List Nat
deriving DecidableEq, Repr

/-- The allocated pages; addresses are never used twice. -/
structure Heap (α : Type) where
  next : Nat
  page : Nat → Option (Page α)

/-- paged_sparse_array_ll.h:67-74: the structure. -/
structure Arr where
  maxSize : Nat
  pageSize : Nat
  pageCount : Nat
  dispose : Bool
  pages : List (Option Nat)
deriving DecidableEq, Repr

inductive AllocResult where
  | ok | invalidArgs | alreadyAllocated | error
deriving DecidableEq, Repr

inductive GetResult where
  | ok | invalidArgs | notAllocated
deriving DecidableEq, Repr

def setPage {α : Type} (m : Nat → Option (Page α)) (p : Nat) (v : Option (Page α)) : Nat → Option (Page α) :=
  fun q => if q = p then v else m q

/-- paged_sparse_array_ll.h:123 `BITMAP_SIZE`, on `uint64_t`. -/
def bitmapSize (pageSize : Nat) : Nat := (pageSize + 7) % w64 / 8

/-- paged_sparse_array_ll.h:129-130 `IS_ALLOCATED`. -/
def isAllocated (bm : List Nat) (j : Nat) : C Bool := do
  let b ← rd bm (j / 8)
  C.ok (b &&& (1 <<< (j % 8)) != 0)

/-- paged_sparse_array_ll.h:133-134 `SET_ALLOCATED`. -/
def setAllocated (bm : List Nat) (j : Nat) : C (List Nat) := do
  let b ← rd bm (j / 8)
  C.ok (bm.set (j / 8) (b ||| (1 <<< (j % 8))))

/-- paged_sparse_array_ll.h:137-138 `CLEAR_ALLOCATED`; the complement is taken on bytes. -/
def clearAllocated (bm : List Nat) (j : Nat) : C (List Nat) := do
  let b ← rd bm (j / 8)
  C.ok (bm.set (j / 8) (b &&& (255 ^^^ (1 <<< (j % 8)))))

/-- paged_sparse_array_ll.h:176-221 `PAGED_SPARSE_ARRAY_CREATE`; `a`: outcome of the allocation.
`max_size > UINT64_MAX - (page_size - 1)` and the page count are computed on `uint64_t`; they do not wrap. -/
def create (maxSize pageSize : Nat) (dispose a : Bool) : Option Arr :=
  if maxSize = 0 ∨ pageSize = 0 ∨ maxSize > w64 - 1 - (pageSize - 1) then none
  else
    let pageCount := (maxSize + pageSize - 1) / pageSize
    if a = false then none
    else some ⟨maxSize, pageSize, pageCount, dispose, List.replicate pageCount none⟩

/-- paged_sparse_array_ll.h:231-233: the number of bytes asked for after the fixed part. -/
def requested (σ pageSize : Nat) : Nat := (pageSize * σ % w64 + bitmapSize pageSize) % w64

/-- The number of bytes the items and a bit for each take. -/
def needed (σ pageSize : Nat) : Nat := pageSize * σ + (pageSize + 7) / 8

/-- paged_sparse_array_ll.h:226-246 `PAGED_SPARSE_ARRAY_ALLOCATE_PAGE_INTERNAL`.  The memory after the fixed part
has `requested σ pageSize` bytes; the bitmap is taken to be at `items + page_size` and `memset` writes all of it,
which is undefined if that is not inside the memory. -/
def allocatePage {α : Type} (σ β : Nat) (h : Heap α) (pageSize : Nat) (a : Bool) : C (Option Nat × Heap α) :=
  if w64 ≤ β + requested σ pageSize ∨ a = false then C.ok (none, h)
  else if needed σ pageSize ≤ requested σ pageSize then
    C.ok (some h.next, ⟨h.next + 1, setPage h.page h.next (some ⟨0, uninit pageSize, List.replicate (bitmapSize pageSize) 0⟩)⟩)
  else C.ub

/-- A page that a pointer points to. -/
def getPage {α : Type} (h : Heap α) (p : Nat) : C (Page α) :=
  match h.page p with
  | some x => C.ok x
  | none => C.ub

/-- paged_sparse_array_ll.h:284-302: `ALLOCATE` once the page is there. -/
def allocateIn {α : Type} (h : Heap α) (t : Arr) (p j : Nat) : C (AllocResult × Option (Nat × Nat) × Arr × Heap α) := do
  let pg ← getPage h p
  let b ← isAllocated pg.bitmap j
  if b then C.ok (.alreadyAllocated, none, t, h)
  else do
    let bm ← setAllocated pg.bitmap j
    C.ok (.ok, some (p, j), t, ⟨h.next, setPage h.page p (some { pg with bitmap := bm, count := (pg.count + 1) % w64 })⟩)

/-- paged_sparse_array_ll.h:248-305 `PAGED_SPARSE_ARRAY_ALLOCATE`; `out`: whether the out argument is not NULL.
The pointer stored there is `items + j` of a page `p`: the pair `(p, j)`. -/
def allocate {α : Type} (σ β : Nat) (h : Heap α) (t : Option Arr) (index : Nat) (out a : Bool) :
    C (AllocResult × Option (Nat × Nat) × Option Arr × Heap α) :=
  match t with
  | none => C.ok (.invalidArgs, none, none, h)
  | some t =>
    if out = false then C.ok (.invalidArgs, none, some t, h)
    else if t.maxSize ≤ index then C.ok (.invalidArgs, none, some t, h)
    else do
      let x ← rd t.pages (index / t.pageSize)
      match x with
      | some p => do
        let (r, o, t', h') ← allocateIn h t p (index % t.pageSize)
        C.ok (r, o, some t', h')
      | none => do
        let (y, h1) ← allocatePage σ β h t.pageSize a
        match y with
        | none => C.ok (.error, none, some { t with pages := t.pages.set (index / t.pageSize) none }, h1)
        | some p => do
          let (r, o, t', h') ← allocateIn h1 { t with pages := t.pages.set (index / t.pageSize) (some p) } p (index % t.pageSize)
          C.ok (r, o, some t', h')

/-- paged_sparse_array_ll.h:307-360 `PAGED_SPARSE_ARRAY_RELEASE`; the list is the calls of the dispose function. -/
def release {α : Type} (h : Heap α) (t : Option Arr) (index : Nat) : C (List (Nat × Nat) × Option Arr × Heap α) :=
  match t with
  | none => C.ok ([], none, h)
  | some t =>
    if t.maxSize ≤ index then C.ok ([], some t, h)
    else do
      let x ← rd t.pages (index / t.pageSize)
      match x with
      | none => C.ok ([], some t, h)
      | some p => do
        let pg ← getPage h p
        let j := index % t.pageSize
        let b ← isAllocated pg.bitmap j
        if b = false then C.ok ([], some t, h)
        else do
          let calls := if t.dispose then [(p, j)] else []
          let bm ← clearAllocated pg.bitmap j
          let n := (pg.count + w64 - 1) % w64
          if n = 0 then
            C.ok (calls, some { t with pages := t.pages.set (index / t.pageSize) none }, ⟨h.next, setPage h.page p none⟩)
          else
            C.ok (calls, some t, ⟨h.next, setPage h.page p (some { pg with bitmap := bm, count := n })⟩)

/-- paged_sparse_array_ll.h:362-404 `PAGED_SPARSE_ARRAY_GET`. -/
def get {α : Type} (h : Heap α) (t : Option Arr) (index : Nat) (out : Bool) : C (GetResult × Option (Nat × Nat)) :=
  match t with
  | none => C.ok (.invalidArgs, none)
  | some t =>
    if out = false ∨ t.maxSize ≤ index then C.ok (.invalidArgs, none)
    else do
      let x ← rd t.pages (index / t.pageSize)
      match x with
      | none => C.ok (.notAllocated, none)
      | some p => do
        let pg ← getPage h p
        let b ← isAllocated pg.bitmap (index % t.pageSize)
        if b = false then C.ok (.notAllocated, none)
        else C.ok (.ok, some (p, index % t.pageSize))

/-- paged_sparse_array_ll.h:161-167: the inner loop of dispose, from item `j`, `n` iterations. -/
def disposeItems (bm : List Nat) (p : Nat) : Nat → Nat → C (List (Nat × Nat))
  | 0, _ => C.ok []
  | n + 1, j => do
    let b ← isAllocated bm j
    let rest ← disposeItems bm p n (j + 1)
    C.ok (if b then (p, j) :: rest else rest)

/-- paged_sparse_array_ll.h:153-172: the outer loop of dispose, from page `i`, `n` iterations. -/
def disposePages {α : Type} (t : Arr) : Nat → Nat → Heap α → C (List (Nat × Nat) × Heap α)
  | 0, _, h => C.ok ([], h)
  | n + 1, i, h => do
    let x ← rd t.pages i
    match x with
    | none => disposePages t n (i + 1) h
    | some p => do
      let pg ← getPage h p
      let calls ← if t.dispose then disposeItems pg.bitmap p t.pageSize 0 else C.ok []
      let (rest, h') ← disposePages t n (i + 1) ⟨h.next, setPage h.page p none⟩
      C.ok (calls ++ rest, h')

/-- paged_sparse_array_ll.h:141-174: what happens when the last reference goes. -/
def dispose {α : Type} (h : Heap α) (t : Arr) : C (List (Nat × Nat) × Heap α) := disposePages t t.pageCount 0 h

/-- The user's `*ptr = v` and `*ptr`, through a pointer they were given. -/
def store {α : Type} (h : Heap α) (a : Nat × Nat) (v : α) : C (Heap α) := do
  let pg ← getPage h a.1
  let m ← wr pg.items a.2 v
  C.ok ⟨h.next, setPage h.page a.1 (some { pg with items := m })⟩

end CUtil.Paged
