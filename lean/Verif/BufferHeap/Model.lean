import Verif.Base
import Verif.Conc
/-
Model of /repo/src/buffer.c on a heap: every `malloc`, `realloc` and `free` is there, in the order of the program. Verif/Buffer has the values only;
the theorems about this model say that the memory is right as well.

The heap says which BUFFER structures and which blocks of bytes are allocated. Address 0 is NULL. The allocator hands out an address that was never
handed out before, and `realloc` always moves the block (an address that stays or comes back could only hide an error). A field of a structure that
was not written since `malloc` is `none`; reading it is undefined. Whether an allocation succeeds is a parameter.
-/
namespace CUtil.BufferHeap
open CUtil CUtil.Conc

/-- buffer.c:16-20 `BUFFER`. -/
structure St where
  ptr : Option Nat
  size : Option Nat
deriving DecidableEq, Repr

structure Heap where
  st : Nat → Option St
  mem : Nat → Option Mem
  next : Nat

abbrev SIZE_MAX : Nat := 18446744073709551615

/-- A `const unsigned char*` argument: NULL, memory of the caller that is not on this heap, or `off` bytes into the block at `q`. -/
inductive Src where
  | null
  | ext (m : List UInt8)
  | blk (q off : Nat)
deriving DecidableEq, Repr

/-! ### The C library -/

/-- `malloc(sizeof(BUFFER))`. -/
def mallocS (h : Heap) (a : Bool) : Heap × Nat :=
  if a then (⟨upd h.st h.next (some ⟨none, none⟩), h.mem, h.next + 1⟩, h.next) else (h, 0)

/-- `malloc(n)`. -/
def mallocB (h : Heap) (n : Nat) (a : Bool) : Heap × Nat :=
  if a then (⟨h.st, upd h.mem h.next (some (uninit n)), h.next + 1⟩, h.next) else (h, 0)

/-- `free` of a structure. -/
def freeS (h : Heap) (p : Nat) : C Heap :=
  if p = 0 then C.ok h
  else match h.st p with
    | some _ => C.ok ⟨upd h.st p none, h.mem, h.next⟩
    | none => C.ub

/-- `free` of a block. -/
def freeB (h : Heap) (q : Nat) : C Heap :=
  if q = 0 then C.ok h
  else match h.mem q with
    | some _ => C.ok ⟨h.st, upd h.mem q none, h.next⟩
    | none => C.ub

/-- `realloc(q, n)`, `n` not 0. -/
def reallocB (h : Heap) (q n : Nat) (a : Bool) : C (Heap × Nat) :=
  if q = 0 then C.ok (mallocB h n a)
  else match h.mem q with
    | none => C.ub
    | some m => if a then C.ok (⟨h.st, upd (upd h.mem q none) h.next (some (reallocMem m n)), h.next + 1⟩, h.next) else C.ok (h, 0)

/-- `realloc_flex(q, x, y, 1)` and, with `q` NULL, `malloc_flex(x, y, 1)`: fail when `x + y` does not fit. -/
def reallocFlex (h : Heap) (q x y : Nat) (a : Bool) : C (Heap × Nat) := reallocB h q (x + y) (a && decide (x + y ≤ SIZE_MAX))

/-- `p->buffer`. -/
def getPtr (h : Heap) (p : Nat) : C Nat :=
  match h.st p with
  | some ⟨some q, _⟩ => C.ok q
  | _ => C.ub

/-- `p->size`. -/
def getSize (h : Heap) (p : Nat) : C Nat :=
  match h.st p with
  | some ⟨_, some n⟩ => C.ok n
  | _ => C.ub

/-- `p->buffer = q`. -/
def setPtr (h : Heap) (p q : Nat) : C Heap :=
  match h.st p with
  | some s => C.ok ⟨upd h.st p (some ⟨some q, s.size⟩), h.mem, h.next⟩
  | none => C.ub

/-- `p->size = n`. -/
def setSize (h : Heap) (p n : Nat) : C Heap :=
  match h.st p with
  | some s => C.ok ⟨upd h.st p (some ⟨s.ptr, some n⟩), h.mem, h.next⟩
  | none => C.ub

/-- The memory a source points to. -/
def srcMem (h : Heap) : Src → C Mem
  | .null => C.ub
  | .ext m => C.ok (m.map some)
  | .blk q off =>
    match h.mem q with
    | some m => if off ≤ m.length then C.ok (m.drop off) else C.ub
    | none => C.ub

/-- `memcpy(q + d, source, n)`. Copying nothing from NULL is taken to be allowed (BUFFER_clone of a buffer without memory does it). -/
def copyIn (h : Heap) (q d : Nat) (source : Src) (n : Nat) : C Heap :=
  if n = 0 ∧ source = .null then C.ok h
  else match h.mem q with
    | none => C.ub
    | some dst => do
      let src ← srcMem h source
      let m ← memcpy dst d src 0 n
      C.ok ⟨h.st, upd h.mem q (some m), h.next⟩

/-- The pointer `q + off` as a source. -/
def srcAt (q off : Nat) : Src := if q = 0 then .null else .blk q off

/-! ### buffer.c -/

/-- buffer.c:23-33 `BUFFER_new`. -/
def new (h : Heap) (a : Bool) : C (Heap × Nat) :=
  match mallocS h a with
  | (h, temp) =>
    if temp ≠ 0 then do
      let h ← setPtr h temp 0
      let h ← setSize h temp 0
      pure (h, temp)
    else pure (h, temp)

/-- buffer.c:35-57 `BUFFER_safemalloc`. -/
def safemalloc (h : Heap) (p size : Nat) (a : Bool) : C (Heap × Bool) :=
  let sizetomalloc := if size = 0 then 1 else size
  match mallocB h sizetomalloc a with
  | (h, q) => do
    let h ← setPtr h p q
    let b ← getPtr h p
    if b = 0 then pure (h, false)
    else do
      let h ← setSize h p size
      pure (h, true)

/-- buffer.c:59-95 `BUFFER_create`. -/
def create (h : Heap) (source : Src) (size : Nat) (a1 a2 : Bool) : C (Heap × Nat) :=
  if source = .null then pure (h, 0)
  else match mallocS h a1 with
    | (h, result) =>
      if result = 0 then pure (h, result)
      else do
        let (h, ok) ← safemalloc h result size a2
        if ok = false then do
          let h ← freeS h result
          pure (h, 0)
        else do
          let q ← getPtr h result
          let h ← copyIn h q 0 source size
          pure (h, result)

/-- buffer.c:98-130 `BUFFER_create_with_size`. -/
def create_with_size (h : Heap) (buff_size : Nat) (a1 a2 : Bool) : C (Heap × Nat) :=
  match mallocS h a1 with
  | (h, result) =>
    if result ≠ 0 then
      if buff_size = 0 then do
        let h ← setSize h result 0
        let h ← setPtr h result 0
        pure (h, result)
      else do
        let h ← setSize h result buff_size
        let n ← getSize h result
        match mallocB h n a2 with
        | (h, q) => do
          let h ← setPtr h result q
          if q = 0 then do
            let h ← freeS h result
            pure (h, 0)
          else pure (h, result)
    else pure (h, result)

/-- buffer.c:133-146 `BUFFER_delete`. -/
def delete (h : Heap) (p : Nat) : C Heap :=
  if p ≠ 0 then do
    let q ← getPtr h p
    if q ≠ 0 then do
      let h ← freeB h q
      freeS h p
    else freeS h p
  else pure h

/-- buffer.c:151-200 `BUFFER_build`. -/
def build (h : Heap) (p : Nat) (source : Src) (size : Nat) (a : Bool) : C (Heap × Bool) :=
  if p = 0 then pure (h, false)
  else if size = 0 then do
    let q ← getPtr h p
    let h ← freeB h q
    let h ← setPtr h p 0
    let h ← setSize h p 0
    pure (h, true)
  else if source = .null then pure (h, false)
  else do
    let q ← getPtr h p
    let (h, newBuffer) ← reallocB h q size a
    if newBuffer = 0 then pure (h, false)
    else do
      let h ← setPtr h p newBuffer
      let h ← setSize h p size
      let q ← getPtr h p
      let h ← copyIn h q 0 source size
      pure (h, true)

/-- buffer.c:202-254 `BUFFER_append_build`. -/
def append_build (h : Heap) (p : Nat) (source : Src) (size : Nat) (a : Bool) : C (Heap × Bool) :=
  if p = 0 ∨ source = .null ∨ size = 0 then pure (h, false)
  else do
    let q ← getPtr h p
    if q = 0 then do
      let (h, ok) ← safemalloc h p size a
      if ok = false then pure (h, false)
      else do
        let q ← getPtr h p
        let h ← copyIn h q 0 source size
        pure (h, true)
    else do
      let n ← getSize h p
      let (h, temp) ← reallocFlex h q n size a
      if temp = 0 then pure (h, false)
      else do
        let h ← setPtr h p temp
        let q ← getPtr h p
        let n ← getSize h p
        let h ← copyIn h q n source size
        let h ← setSize h p (n + size)
        pure (h, true)

/-- buffer.c:259-297 `BUFFER_pre_build`. -/
def pre_build (h : Heap) (p size : Nat) (a : Bool) : C (Heap × Bool) :=
  if p = 0 then pure (h, false)
  else if size = 0 then pure (h, false)
  else do
    let q ← getPtr h p
    if q ≠ 0 then pure (h, false)
    else match mallocB h size a with
      | (h, q) => do
        let h ← setPtr h p q
        if q = 0 then pure (h, false)
        else do
          let h ← setSize h p size
          pure (h, true)

/-- buffer.c:300-315 `BUFFER_content`: the pointer given. -/
def content (h : Heap) (p : Nat) (outp : Bool) : C (Option Nat) :=
  if p = 0 ∨ outp = false then pure none
  else do
    let q ← getPtr h p
    pure (some q)

/-- buffer.c:319-343 `BUFFER_unbuild`. -/
def unbuild (h : Heap) (p : Nat) : C (Heap × Bool) :=
  if p = 0 then pure (h, false)
  else do
    let q ← getPtr h p
    if q ≠ 0 then do
      let h ← freeB h q
      let h ← setPtr h p 0
      let h ← setSize h p 0
      pure (h, true)
    else pure (h, true)

/-- buffer.c:346-379 `BUFFER_enlarge`. -/
def enlarge (h : Heap) (p enlargeSize : Nat) (a : Bool) : C (Heap × Bool) :=
  if p = 0 then pure (h, false)
  else if enlargeSize = 0 then pure (h, false)
  else do
    let q ← getPtr h p
    let n ← getSize h p
    let (h, temp) ← reallocFlex h q n enlargeSize a
    if temp = 0 then pure (h, false)
    else do
      let h ← setPtr h p temp
      let n ← getSize h p
      let h ← setSize h p (n + enlargeSize)
      pure (h, true)

/-- buffer.c:381-447 `BUFFER_shrink`. -/
def shrink (h : Heap) (p decreaseSize : Nat) (fromEnd : Bool) (a : Bool) : C (Heap × Bool) :=
  if p = 0 then pure (h, false)
  else if decreaseSize = 0 then pure (h, false)
  else do
    let n ← getSize h p
    if decreaseSize > n then pure (h, false)
    else do
      let alloc_size := n - decreaseSize
      if alloc_size = 0 then do
        let q ← getPtr h p
        let h ← freeB h q
        let h ← setPtr h p 0
        let h ← setSize h p 0
        pure (h, true)
      else match mallocB h alloc_size a with
        | (h, tmp) =>
          if tmp = 0 then pure (h, false)
          else do
            let q ← getPtr h p
            let h ← copyIn h tmp 0 (srcAt q (if fromEnd then 0 else decreaseSize)) alloc_size
            let h ← freeB h q
            let h ← setPtr h p tmp
            let h ← setSize h p alloc_size
            pure (h, true)

/-- buffer.c:450-465 `BUFFER_size`. -/
def size (h : Heap) (p : Nat) (outp : Bool) : C (Option Nat) :=
  if p = 0 ∨ outp = false then pure none
  else do
    let n ← getSize h p
    pure (some n)

/-- buffer.c:468-520 `BUFFER_append`. -/
def append (h : Heap) (p1 p2 : Nat) (a : Bool) : C (Heap × Bool) :=
  if p1 = 0 ∨ p2 = 0 ∨ p1 = p2 then pure (h, false)
  else do
    let q1 ← getPtr h p1
    if q1 = 0 then pure (h, false)
    else do
      let q2 ← getPtr h p2
      if q2 = 0 then pure (h, false)
      else do
        let n2 ← getSize h p2
        if n2 = 0 then pure (h, true)
        else do
          let n1 ← getSize h p1
          let (h, temp) ← reallocFlex h q1 n1 n2 a
          if temp = 0 then pure (h, false)
          else do
            let h ← setPtr h p1 temp
            let q1 ← getPtr h p1
            let n1 ← getSize h p1
            let h ← copyIn h q1 n1 (srcAt q2 0) n2
            let h ← setSize h p1 (n1 + n2)
            pure (h, true)

/-- buffer.c:522-578 `BUFFER_prepend`. -/
def prepend (h : Heap) (p1 p2 : Nat) (a : Bool) : C (Heap × Bool) :=
  if p1 = 0 ∨ p2 = 0 ∨ p1 = p2 then pure (h, false)
  else do
    let q1 ← getPtr h p1
    if q1 = 0 then pure (h, false)
    else do
      let q2 ← getPtr h p2
      if q2 = 0 then pure (h, false)
      else do
        let n2 ← getSize h p2
        if n2 = 0 then pure (h, true)
        else do
          let n1 ← getSize h p1
          let (h, temp) ← reallocFlex h 0 n1 n2 a
          if temp = 0 then pure (h, false)
          else do
            let h ← copyIn h temp 0 (srcAt q2 0) n2
            let h ← copyIn h temp n2 (srcAt q1 0) n1
            let h ← freeB h q1
            let h ← setPtr h p1 temp
            let h ← setSize h p1 (n1 + n2)
            pure (h, true)

/-- buffer.c:593-596: the filling loop, `n` bytes left. -/
def fillLoop (m : Mem) (c : UInt8) (i : Nat) : Nat → C Mem
  | 0 => C.ok m
  | n + 1 => do
    let m ← wr m i c
    fillLoop m c (i + 1) n

/-- buffer.c:580-601 `BUFFER_fill`. -/
def fill (h : Heap) (p : Nat) (fill_char : UInt8) : C (Heap × Bool) :=
  if p = 0 then pure (h, false)
  else do
    let n ← getSize h p
    let q ← getPtr h p
    if n = 0 then pure (h, true)
    else match h.mem q with
      | none => C.ub
      | some m => do
        let m ← fillLoop m fill_char 0 n
        pure (⟨h.st, upd h.mem q (some m), h.next⟩, true)

/-- buffer.c:605-619 `BUFFER_u_char`: the pointer returned. -/
def u_char (h : Heap) (p : Nat) : C Nat :=
  if p = 0 then pure 0
  else do
    let n ← getSize h p
    if n = 0 then pure 0 else getPtr h p

/-- buffer.c:622-636 `BUFFER_length`. -/
def length (h : Heap) (p : Nat) : C Nat :=
  if p = 0 then pure 0 else getSize h p

/-- buffer.c:638-676 `BUFFER_clone`. -/
def clone (h : Heap) (p : Nat) (a1 a2 : Bool) : C (Heap × Nat) :=
  if p = 0 then pure (h, 0)
  else match mallocS h a1 with
    | (h, b) =>
      if b ≠ 0 then do
        let n ← getSize h p
        let (h, ok) ← safemalloc h b n a2
        if ok = false then do
          let h ← freeS h b
          pure (h, 0)
        else do
          let q ← getPtr h b
          let qs ← getPtr h p
          let h ← copyIn h q 0 (srcAt qs 0) n
          let h ← setSize h b n
          pure (h, b)
      else pure (h, 0)

end CUtil.BufferHeap
