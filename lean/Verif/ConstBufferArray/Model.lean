import Verif.Base
/-
Model of /repo/src/constbuffer_array.c.

A buffer handle is a `Buf`: an identity and the bytes its `alias` shows (buffers are immutable;
their own life time is modelled in `Verif.ConstBufferLife`).  An existing array is the list of the
handles in `buffers[0 .. nBuffers-1]`; `none` is a NULL array handle.  A new array is returned as the
cells of its `buffers` block, so a cell that was never stored is visible as `none`.

Every function also returns the reference operations it performed on buffers, in order (`Ev`).
Elements of arrays are not NULL (the code does not check and neither do its callers).
`alloc` is whether the allocation succeeds.
-/
namespace CUtil.ConstBufferArray

/-- A `CONSTBUFFER_HANDLE` that is not NULL. -/
structure Buf where
  id : Nat
  bytes : List UInt8
deriving DecidableEq, Repr

/-- `CONSTBUFFER_GetContent(b)->size`. -/
def Buf.size (b : Buf) : Nat := b.bytes.length

/-- One reference operation: `CONSTBUFFER_IncRef`, `CONSTBUFFER_DecRef`, or the creation of a
handle (which starts with one reference owned by the creator). -/
inductive Ev where
  | inc (b : Buf)
  | dec (b : Buf)
  | mk (b : Buf)
deriving DecidableEq, Repr

abbrev Cells := List (Option Buf)

/-- What a function creating an array returns: NULL, a new array with its cells, or the array that was
passed in with its reference count incremented. -/
inductive Out where
  | null
  | fresh (cells : Cells)
  | same
deriving DecidableEq, Repr

abbrev U32MAX : Nat := 4294967295

/-- The copy loop used by every creating function:
`for (i) { CONSTBUFFER_IncRef(src[s+i]); dst[d+i] = src[s+i]; }`, `n` times. -/
def copyRefs (src : List Buf) (s : Nat) (dst : Cells) (d : Nat) : Nat → C (Cells × List Ev)
  | 0 => C.ok (dst, [])
  | n + 1 => do
    let b ← rd src s
    let dst ← wr dst d b
    let (dst, evs) ← copyRefs src (s + 1) dst (d + 1) n
    pure (dst, Ev.inc b :: evs)

/-- constbuffer_array.c:32-78 `constbuffer_array_create`. -/
def create (buffers : Option (List Buf)) (buffer_count : Nat) (alloc : Bool) : C (Out × List Ev) :=
  if buffers = none ∧ buffer_count ≠ 0 then C.ok (.null, [])
  else if alloc = false then C.ok (.null, [])
  else do
    let (cells, evs) ← copyRefs (buffers.getD []) 0 (uninit buffer_count) 0 buffer_count
    pure (.fresh cells, evs)

/-- constbuffer_array.c:80-100 `constbuffer_array_create_empty`. -/
def create_empty (alloc : Bool) : Out × List Ev :=
  if alloc then (.fresh [], []) else (.null, [])

/-- constbuffer_array.c:112-144 `constbuffer_array_create_with_move_buffers`: takes over the caller's block
and the caller's references. -/
def create_with_move_buffers (buffers : Option (List Buf)) (buffer_count : Nat) (alloc : Bool) : C (Out × List Ev) :=
  match buffers with
  | none => C.ok (.null, [])
  | some bs =>
    if alloc = false then C.ok (.null, [])
    else if buffer_count ≤ bs.length then C.ok (.fresh ((bs.take buffer_count).map some), [])
    else C.ub

/-- constbuffer_array.c:152-198 `constbuffer_array_create_from_buffer_index_and_count`: a new array whose
`buffers` pointer points into the original's block (so it takes no reference on the buffers, but one on
the original array, held until the new array is destroyed; constbuffer_array.c:146-150). -/
def create_from_buffer_index_and_count (original : Option (List Buf)) (start_buffer_index buffer_count : Nat)
    (alloc : Bool) : C (Out × List Ev) :=
  match original with
  | none => C.ok (.null, [])
  | some o =>
    if start_buffer_index > o.length ∨ buffer_count > o.length - start_buffer_index then C.ok (.null, [])
    else if alloc = false then C.ok (.null, [])
    else C.ok (.fresh (((o.drop start_buffer_index).take buffer_count).map some), [])

/-- constbuffer.c:231-283 `CONSTBUFFER_CreateFromOffsetAndSize` seen from its caller: NULL, the same
handle with one more reference, or a new handle (`fresh` its identity) over part of the bytes.
`Verif.ConstBufferLife` models what happens inside. -/
def createFromOffsetAndSize (b : Buf) (offset size : Nat) (alloc : Bool) (fresh : Nat) : Option Buf × List Ev :=
  if offset > b.size ∨ offset > U32MAX - size ∨ offset + size > b.size then (none, [])
  else if offset = 0 ∧ size = b.size then (some b, [.inc b])
  else if alloc = false then (none, [])
  else
    let w : Buf := ⟨fresh, (b.bytes.drop offset).take size⟩
    (some w, [.mk w])

/-- The loop of constbuffer_array.c:286-303, from index `i` on (`k` iterations are left). -/
def offsetLoop (o : List Buf) (start count : Nat) (sb eb : Buf) (dst : Cells) (i : Nat) : Nat → C (Cells × List Ev)
  | 0 => C.ok (dst, [])
  | k + 1 => do
    if i = 0 then
      let dst ← wr dst i sb
      offsetLoop o start count sb eb dst (i + 1) k
    else if i = count - 1 then
      let dst ← wr dst i eb
      offsetLoop o start count sb eb dst (i + 1) k
    else
      let b ← rd o (start + i)
      let dst ← wr dst i b
      let (dst, evs) ← offsetLoop o start count sb eb dst (i + 1) k
      pure (dst, .inc b :: evs)

/-- constbuffer_array.c:200-322 `constbuffer_array_create_from_buffer_offset_and_count`.  `alloc` is the
allocation of the array, `alloc1`/`alloc2` those of the (at most) two windows, `f1`/`f2` the identities of
the new windows.  32 bit arithmetic as in the code. -/
def create_from_buffer_offset_and_count (original : Option (List Buf))
    (start_buffer_index buffer_count start_buffer_offset end_buffer_offset : Nat)
    (alloc alloc1 alloc2 : Bool) (f1 f2 : Nat) : C (Out × List Ev) :=
  match original with
  | none => C.ok (.null, [])
  | some o =>
    if start_buffer_index > o.length ∨ buffer_count > o.length - start_buffer_index then C.ok (.null, [])
    else do
      let last_buffer ← rd o ((o.length + 2 ^ 32 - 1) % 2 ^ 32)
      if buffer_count = o.length ∧ start_buffer_offset = 0 ∧ end_buffer_offset = last_buffer.size then
        pure (.same, [])
      else if alloc = false then pure (.null, [])
      else if buffer_count = 1 then
        let b ← rd o start_buffer_index
        match createFromOffsetAndSize b start_buffer_offset end_buffer_offset alloc1 f1 with
        | (none, evs) => pure (.null, evs)
        | (some only_buffer, evs) => do
          let dst ← wr (uninit buffer_count) 0 only_buffer
          pure (.fresh dst, evs)
      else
        let first_buffer ← rd o start_buffer_index
        let start_buffer_size := (first_buffer.size + 2 ^ 32 - start_buffer_offset) % 2 ^ 32
        match createFromOffsetAndSize first_buffer start_buffer_offset start_buffer_size alloc1 f1 with
        | (none, evs) => pure (.null, evs)
        | (some start_buffer, evs1) => do
          let b ← rd o ((start_buffer_index + buffer_count + 2 ^ 32 - 1) % 2 ^ 32)
          match createFromOffsetAndSize b 0 end_buffer_offset alloc2 f2 with
          | (none, evs2) => pure (.null, evs1 ++ evs2 ++ [.dec start_buffer])
          | (some end_buffer, evs2) => do
            let (dst, evs3) ← offsetLoop o start_buffer_index buffer_count start_buffer end_buffer
              (uninit buffer_count) 0 buffer_count
            pure (.fresh dst, evs1 ++ evs2 ++ evs3)

/-- constbuffer_array.c:355-375: the counting loop; `none` when it breaks (a NULL array or an overflow). -/
def totalCount : List (Option (List Buf)) → Nat → Option Nat
  | [], total => some total
  | none :: _, _ => none
  | some a :: rest, total =>
    let total := (total + a.length) % 2 ^ 32
    if total < a.length then none else totalCount rest total

/-- constbuffer_array.c:399-407: the two nested copy loops. -/
def copyArrays : List (Option (List Buf)) → Cells → Nat → C (Cells × List Ev)
  | [], dst, _ => C.ok (dst, [])
  | none :: _, _, _ => C.ub
  | some a :: rest, dst, dest_idx => do
    let (dst, evs) ← copyRefs a 0 dst dest_idx a.length
    let (dst, evs') ← copyArrays rest dst (dest_idx + a.length)
    pure (dst, evs ++ evs')

/-- constbuffer_array.c:324-418 `constbuffer_array_create_from_array_array`.  `buffer_arrays = none` is a NULL
pointer; `buffer_array_count` is the length of the list. -/
def create_from_array_array (buffer_arrays : Option (List (Option (List Buf)))) (buffer_array_count : Nat)
    (alloc : Bool) : C (Out × List Ev) :=
  match buffer_arrays with
  | none => if buffer_array_count ≠ 0 then C.ok (.null, []) else C.ok (create_empty alloc)
  | some arrays =>
    if buffer_array_count = 0 then C.ok (create_empty alloc)
    else if arrays.length < buffer_array_count then C.ub
    else match totalCount (arrays.take buffer_array_count) 0 with
      | none => C.ok (.null, [])
      | some total =>
        if alloc = false then C.ok (.null, [])
        else do
          let (dst, evs) ← copyArrays (arrays.take buffer_array_count) (uninit total) 0
          pure (.fresh dst, evs)

/-- constbuffer_array.c:420-476 `constbuffer_array_add_front`. -/
def add_front (array : Option (List Buf)) (handle : Option Buf) (alloc : Bool) : C (Out × List Ev) :=
  match array, handle with
  | some a, some h =>
    if a.length = U32MAX then C.ok (.null, [])
    else if alloc = false then C.ok (.null, [])
    else do
      let dst ← wr (uninit (a.length + 1)) 0 h
      let (dst, evs) ← copyRefs a 0 dst 1 a.length
      pure (.fresh dst, .inc h :: evs)
  | _, _ => C.ok (.null, [])

/-- constbuffer_array.c:541-597 `constbuffer_array_add_back`. -/
def add_back (array : Option (List Buf)) (handle : Option Buf) (alloc : Bool) : C (Out × List Ev) :=
  match array, handle with
  | some a, some h =>
    if a.length = U32MAX then C.ok (.null, [])
    else if alloc = false then C.ok (.null, [])
    else do
      let (dst, evs) ← copyRefs a 0 (uninit (a.length + 1)) 0 a.length
      let dst ← wr dst a.length h
      pure (.fresh dst, evs ++ [.inc h])
  | _, _ => C.ok (.null, [])

/-- constbuffer_array.c:478-539 `constbuffer_array_remove_front`; the second component is what is stored
in `*constbuffer_handle`, if anything; `outp` is whether that pointer is not NULL. -/
def remove_front (array : Option (List Buf)) (outp alloc : Bool) : C (Out × Option Buf × List Ev) :=
  match array with
  | none => C.ok (.null, none, [])
  | some a =>
    if outp = false then C.ok (.null, none, [])
    else if a.length = 0 then C.ok (.null, none, [])
    else if alloc = false then C.ok (.null, none, [])
    else do
      let b ← rd a 0
      let (dst, evs) ← copyRefs a 1 (uninit (a.length - 1)) 0 (a.length - 1)
      pure (.fresh dst, some b, .inc b :: evs)

/-- constbuffer_array.c:599-660 `constbuffer_array_remove_back`. -/
def remove_back (array : Option (List Buf)) (outp alloc : Bool) : C (Out × Option Buf × List Ev) :=
  match array with
  | none => C.ok (.null, none, [])
  | some a =>
    if outp = false then C.ok (.null, none, [])
    else if a.length = 0 then C.ok (.null, none, [])
    else if alloc = false then C.ok (.null, none, [])
    else do
      let b ← rd a (a.length - 1)
      let (dst, evs) ← copyRefs a 0 (uninit (a.length - 1)) 0 (a.length - 1)
      pure (.fresh dst, some b, .inc b :: evs)

/-- constbuffer_array.c:662-686 `constbuffer_array_get_buffer_count`: `none` is failure. -/
def get_buffer_count (array : Option (List Buf)) (outp : Bool) : Option Nat :=
  match array with
  | none => none
  | some a => if outp then some a.length else none

/-- constbuffer_array.c:688-716 `constbuffer_array_get_buffer`. -/
def get_buffer (array : Option (List Buf)) (buffer_index : Nat) : C (Option Buf × List Ev) :=
  match array with
  | none => C.ok (none, [])
  | some a =>
    if buffer_index ≥ a.length then C.ok (none, [])
    else do
      let b ← rd a buffer_index
      pure (some b, [.inc b])

/-- constbuffer_array.c:718-739 `constbuffer_array_get_buffer_content`: the bytes of the content returned. -/
def get_buffer_content (array : Option (List Buf)) (buffer_index : Nat) : C (Option (List UInt8)) :=
  match array with
  | none => C.ok none
  | some a =>
    if buffer_index ≥ a.length then C.ok none
    else do
      let b ← rd a buffer_index
      pure (some b.bytes)

/-- constbuffer_array.c:805-829: the summing loop; `none` when it breaks on overflow. -/
def sumSizes : List Buf → Nat → Option Nat
  | [], total => some total
  | b :: rest, total =>
    let next := (total + b.size) % 2 ^ 32
    if next < total then none else sumSizes rest next

/-- constbuffer_array.c:787-839 `constbuffer_array_get_all_buffers_size`: `none` is failure (nothing stored). -/
def get_all_buffers_size (array : Option (List Buf)) (outp : Bool) : Option Nat :=
  match array with
  | none => none
  | some a => if outp then sumSizes a 0 else none

/-- constbuffer_array.c:878-887: the counting loop. -/
def countNonEmpty : List Buf → Nat → Nat
  | [], n => n
  | b :: rest, n => countNonEmpty rest (if b.size > 0 then n + 1 else n)

/-- constbuffer_array.c:921-931: the copying loop. -/
def copyNonEmpty : List Buf → Cells → Nat → C (Cells × List Ev)
  | [], dst, _ => C.ok (dst, [])
  | b :: rest, dst, dest_index =>
    if b.size > 0 then do
      let dst ← wr dst dest_index b
      let (dst, evs) ← copyNonEmpty rest dst (dest_index + 1)
      pure (dst, .inc b :: evs)
    else copyNonEmpty rest dst dest_index

/-- constbuffer_array.c:860-938 `constbuffer_array_remove_empty_buffers`. -/
def remove_empty_buffers (array : Option (List Buf)) (alloc : Bool) : C (Out × List Ev) :=
  match array with
  | none => C.ok (.null, [])
  | some a =>
    let n := countNonEmpty a 0
    if n = a.length then C.ok (.same, [])
    else if n = 0 then C.ok (create_empty alloc)
    else if alloc = false then C.ok (.null, [])
    else do
      let (dst, evs) ← copyNonEmpty a (uninit n) 0
      pure (.fresh dst, evs)

/-- `memcmp(l, r, n) == 0`, byte by byte with checked reads. -/
def memEq (l r : List UInt8) (i : Nat) : Nat → C Bool
  | 0 => C.ok true
  | n + 1 => do
    let a ← rd l i
    let b ← rd r i
    if a = b then memEq l r (i + 1) n else pure false

/-- constbuffer.c:393-439 `CONSTBUFFER_HANDLE_contain_same`. -/
def handle_contain_same (left right : Option Buf) : C Bool :=
  match left, right with
  | none, none => C.ok true
  | none, some _ => C.ok false
  | some _, none => C.ok false
  | some l, some r => if l.size ≠ r.size then C.ok false else memEq l.bytes r.bytes 0 l.size

/-- constbuffer_array.c:970-990: the comparing loop. -/
def sameLoop (l r : List Buf) (i : Nat) : Nat → C Bool
  | 0 => C.ok true
  | n + 1 => do
    let a ← rd l i
    let b ← rd r i
    let s ← handle_contain_same (some a) (some b)
    if s = false then pure false else sameLoop l r (i + 1) n

/-- constbuffer_array.c:940-996 `CONSTBUFFER_ARRAY_HANDLE_contain_same`. -/
def array_contain_same (left right : Option (List Buf)) : C Bool :=
  match left, right with
  | none, none => C.ok true
  | none, some _ => C.ok false
  | some _, none => C.ok false
  | some l, some r => if l.length ≠ r.length then C.ok false else sameLoop l r 0 l.length

/-- constbuffer_array.c:755-785 `constbuffer_array_dec_ref` when the count reaches 0, for an array that owns
its references (made by every function above except `create_from_buffer_index_and_count`; for a moved array the
loop is in `move_buffers_free`, constbuffer_array.c:102-110): the buffers released. -/
def destroyRefs (a : List Buf) (i : Nat) : Nat → C (List Ev)
  | 0 => C.ok []
  | n + 1 => do
    let b ← rd a i
    let evs ← destroyRefs a (i + 1) n
    pure (.dec b :: evs)

end CUtil.ConstBufferArray
