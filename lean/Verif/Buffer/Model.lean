import Verif.Base
/-
Model of /repo/src/buffer.c.

A `BUFFER` structure is its `buffer` pointer (`none` is NULL, otherwise the cells of the block it points to) and its
`size` field.  A function that changes a buffer returns the changed structure and whether it returned 0.
Allocation outcomes are parameters; `realloc_flex(p, a, b, 1)` and `malloc_flex` additionally fail when `a + b` exceeds `SIZE_MAX` (2^64 - 1).
-/
namespace CUtil.Buffer

/-- buffer.c:16-20 `BUFFER`. -/
structure BUF where
  buffer : Option Mem
  size : Nat
deriving DecidableEq, Repr

abbrev SIZE_MAX : Nat := 18446744073709551615

/-- A `const unsigned char*` argument: NULL, a pointer to memory of the caller, or a pointer into the block of the very
buffer being changed. -/
inductive Src where
  | null
  | ext (m : List UInt8)
  | own (off : Nat)

/-- buffer.c:23-33 `BUFFER_new`. -/
def new (a : Bool) : Option BUF := if a then some ⟨none, 0⟩ else none

/-- buffer.c:35-57 `BUFFER_safemalloc`. -/
def safemalloc (b : BUF) (size : Nat) (a : Bool) : BUF × Bool :=
  let sizetomalloc := if size = 0 then 1 else size
  if a then (⟨some (uninit sizetomalloc), size⟩, true) else (⟨none, b.size⟩, false)

/-- buffer.c:59-95 `BUFFER_create`; `a1` is the structure, `a2` its memory. -/
def create (source : Option (List UInt8)) (size : Nat) (a1 a2 : Bool) : C (Option BUF) :=
  match source with
  | none => C.ok none
  | some src =>
    if a1 = false then C.ok none
    else match safemalloc ⟨none, 0⟩ size a2 with
      | (_, false) => C.ok none
      | (b, true) => do
        let m ← memcpy (b.buffer.getD []) 0 (src.map some) 0 size
        pure (some ⟨some m, b.size⟩)

/-- buffer.c:98-130 `BUFFER_create_with_size`. -/
def create_with_size (buff_size : Nat) (a1 a2 : Bool) : Option BUF :=
  if a1 then
    if buff_size = 0 then some ⟨none, 0⟩
    else if a2 then some ⟨some (uninit buff_size), buff_size⟩ else none
  else none

/-- buffer.c:151-200 `BUFFER_build`. -/
def build (handle : Option BUF) (source : Src) (size : Nat) (a : Bool) : C (Option BUF × Bool) :=
  match handle with
  | none => C.ok (none, false)
  | some b =>
    if size = 0 then C.ok (some ⟨none, 0⟩, true)
    else match source with
      | .null => C.ok (some b, false)
      | .ext src =>
        if a = false then C.ok (some b, false)
        else do
          let m ← memcpy (reallocMem (b.buffer.getD []) size) 0 (src.map some) 0 size
          pure (some ⟨some m, size⟩, true)
      | .own _ =>
        -- the block the source points into is gone once `realloc` has succeeded
        if a = false then C.ok (some b, false) else C.ub

/-- buffer.c:202-254 `BUFFER_append_build`. -/
def append_build (handle : Option BUF) (source : Src) (size : Nat) (a : Bool) : C (Option BUF × Bool) :=
  match handle with
  | none => C.ok (none, false)
  | some b =>
    match source with
    | .null => C.ok (some b, false)
    | .ext src =>
      if size = 0 then C.ok (some b, false)
      else match b.buffer with
        | none =>
          match safemalloc b size a with
          | (b, false) => C.ok (some b, false)
          | (b, true) => do
            let m ← memcpy (b.buffer.getD []) 0 (src.map some) 0 size
            pure (some ⟨some m, b.size⟩, true)
        | some m =>
          if a = false ∨ b.size + size > SIZE_MAX then C.ok (some b, false)
          else do
            let m ← memcpy (reallocMem m (b.size + size)) b.size (src.map some) 0 size
            pure (some ⟨some m, b.size + size⟩, true)
    | .own _ =>
      if size = 0 then C.ok (some b, false)
      else match b.buffer with
        | none => C.ub
        | some _ => if a = false ∨ b.size + size > SIZE_MAX then C.ok (some b, false) else C.ub

/-- buffer.c:259-297 `BUFFER_pre_build`. -/
def pre_build (handle : Option BUF) (size : Nat) (a : Bool) : Option BUF × Bool :=
  match handle with
  | none => (none, false)
  | some b =>
    if size = 0 then (some b, false)
    else match b.buffer with
      | some _ => (some b, false)
      | none => if a then (some ⟨some (uninit size), size⟩, true) else (some ⟨none, b.size⟩, false)

/-- buffer.c:300-315 `BUFFER_content`: the outer `none` is failure, the inner one a NULL content pointer. -/
def content (handle : Option BUF) (outp : Bool) : Option (Option Mem) :=
  match handle with
  | none => none
  | some b => if outp then some b.buffer else none

/-- buffer.c:319-343 `BUFFER_unbuild`. -/
def unbuild (handle : Option BUF) : Option BUF × Bool :=
  match handle with
  | none => (none, false)
  | some b =>
    match b.buffer with
    | some _ => (some ⟨none, 0⟩, true)
    | none => (some b, true)

/-- buffer.c:346-379 `BUFFER_enlarge` (`realloc` of NULL is `malloc`). -/
def enlarge (handle : Option BUF) (enlargeSize : Nat) (a : Bool) : Option BUF × Bool :=
  match handle with
  | none => (none, false)
  | some b =>
    if enlargeSize = 0 then (some b, false)
    else if a = false ∨ b.size + enlargeSize > SIZE_MAX then (some b, false)
    else (some ⟨some (reallocMem (b.buffer.getD []) (b.size + enlargeSize)), b.size + enlargeSize⟩, true)

/-- buffer.c:381-447 `BUFFER_shrink`. -/
def shrink (handle : Option BUF) (decreaseSize : Nat) (fromEnd : Bool) (a : Bool) : C (Option BUF × Bool) :=
  match handle with
  | none => C.ok (none, false)
  | some b =>
    if decreaseSize = 0 then C.ok (some b, false)
    else if decreaseSize > b.size then C.ok (some b, false)
    else
      let alloc_size := b.size - decreaseSize
      if alloc_size = 0 then C.ok (some ⟨none, 0⟩, true)
      else if a = false then C.ok (some b, false)
      else do
        let m ← memcpy (uninit alloc_size) 0 (b.buffer.getD []) (if fromEnd then 0 else decreaseSize) alloc_size
        pure (some ⟨some m, alloc_size⟩, true)

/-- buffer.c:450-465 `BUFFER_size`. -/
def size (handle : Option BUF) (outp : Bool) : Option Nat :=
  match handle with
  | none => none
  | some b => if outp then some b.size else none

/-- buffer.c:468-520 `BUFFER_append`; `same` is whether the two handles are equal. -/
def append (handle1 handle2 : Option BUF) (same : Bool) (a : Bool) : C (Option BUF × Bool) :=
  match handle1, handle2 with
  | some b1, some b2 =>
    if same then C.ok (some b1, false)
    else match b1.buffer, b2.buffer with
      | some m1, some m2 =>
        if b2.size = 0 then C.ok (some b1, true)
        else if a = false ∨ b1.size + b2.size > SIZE_MAX then C.ok (some b1, false)
        else do
          let m ← memcpy (reallocMem m1 (b1.size + b2.size)) b1.size m2 0 b2.size
          pure (some ⟨some m, b1.size + b2.size⟩, true)
      | _, _ => C.ok (some b1, false)
  | h, _ => C.ok (h, false)

/-- buffer.c:522-578 `BUFFER_prepend`. -/
def prepend (handle1 handle2 : Option BUF) (same : Bool) (a : Bool) : C (Option BUF × Bool) :=
  match handle1, handle2 with
  | some b1, some b2 =>
    if same then C.ok (some b1, false)
    else match b1.buffer, b2.buffer with
      | some m1, some m2 =>
        if b2.size = 0 then C.ok (some b1, true)
        else if a = false ∨ b1.size + b2.size > SIZE_MAX then C.ok (some b1, false)
        else do
          let m ← memcpy (uninit (b1.size + b2.size)) 0 m2 0 b2.size
          let m ← memcpy m b2.size m1 0 b1.size
          pure (some ⟨some m, b1.size + b2.size⟩, true)
      | _, _ => C.ok (some b1, false)
  | h, _ => C.ok (h, false)

/-- buffer.c:593-596: the filling loop, `n` cells left. -/
def fillLoop (m : Mem) (c : UInt8) (i : Nat) : Nat → C Mem
  | 0 => C.ok m
  | n + 1 => do
    let m ← wr m i c
    fillLoop m c (i + 1) n

/-- buffer.c:580-601 `BUFFER_fill`. -/
def fill (handle : Option BUF) (fill_char : UInt8) : C (Option BUF × Bool) :=
  match handle with
  | none => C.ok (none, false)
  | some b =>
    match b.buffer with
    | none => if b.size = 0 then C.ok (some b, true) else C.ub
    | some m => do
      let m ← fillLoop m fill_char 0 b.size
      pure (some ⟨some m, b.size⟩, true)

/-- buffer.c:605-619 `BUFFER_u_char`. -/
def u_char (handle : Option BUF) : Option Mem :=
  match handle with
  | none => none
  | some b => if b.size = 0 then none else b.buffer

/-- buffer.c:622-636 `BUFFER_length`. -/
def length (handle : Option BUF) : Nat :=
  match handle with
  | none => 0
  | some b => b.size

/-- buffer.c:638-676 `BUFFER_clone`. -/
def clone (handle : Option BUF) (a1 a2 : Bool) : C (Option BUF) :=
  match handle with
  | none => C.ok none
  | some s =>
    if a1 = false then C.ok none
    else match safemalloc ⟨none, 0⟩ s.size a2 with
      | (_, false) => C.ok none
      | (b, true) => do
        let m ← memcpy (b.buffer.getD []) 0 (s.buffer.getD []) 0 s.size
        pure (some ⟨some m, s.size⟩)

end CUtil.Buffer
