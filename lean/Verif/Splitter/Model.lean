import Verif.ConstBufferArray.Spec
import Verif.Batcher.Model
/-
Model of /repo/src/constbuffer_array_splitter.c.

Loops that are not plain counting loops take a fuel argument; running out of fuel is `C.ub`, so the theorems that
show an outcome `C.ok` also show that the fuel given by the callers is enough.
-/
namespace CUtil.Splitter
open CUtil.ConstBufferArray

/-- The reading position of `constbuffer_array_splitter_split`: `current_buffer_index`, `current_buffer_offset` and the
content `current_buffer` points to (`none` is NULL). -/
structure Pos where
  idx : Nat
  off : Nat
  cur : Option (List UInt8)

/-- constbuffer_array_splitter.c:97-101: skips the empty buffers at the start. -/
def skipEmpty (bufs : List Buf) : Nat → Pos → C Pos
  | 0, _ => C.ub
  | fuel + 1, p =>
    match p.cur with
    | none => C.ub
    | some c =>
      if c.length = 0 then do
        let cur ← get_buffer_content (some bufs) (add32 p.idx 1)
        skipEmpty bufs fuel ⟨add32 p.idx 1, p.off, cur⟩
      else C.ok p

/-- constbuffer_array_splitter.c:129-144: moves to the next buffer that has bytes left; `more` is
`remaining_buffer_size - (i + 1) > 0`. -/
def advance (bufs : List Buf) (more : Bool) : Nat → Pos → C Pos
  | 0, _ => C.ub
  | fuel + 1, p =>
    match p.cur with
    | none => C.ok p
    | some c =>
      if p.off ≥ c.length then
        if more then do
          let cur ← get_buffer_content (some bufs) (add32 p.idx 1)
          advance bufs more fuel ⟨add32 p.idx 1, 0, cur⟩
        else advance bufs more fuel ⟨add32 p.idx 1, 0, none⟩
      else C.ok p

/-- constbuffer_array_splitter.c:121-145: copies the bytes `i, i+1, ...` of one split buffer, `k` of them left. -/
def copyBytes (bufs : List Buf) (remaining : Nat) (mem : Mem) (i : Nat) (p : Pos) : Nat → C (Mem × Pos)
  | 0 => C.ok (mem, p)
  | k + 1 =>
    match p.cur with
    | none => C.ub
    | some c => do
      let b ← rd c p.off
      let mem ← wr mem i b
      let p ← advance bufs (decide (sub32 remaining (i + 1) > 0)) (bufs.length + 2) ⟨p.idx, add32 p.off 1, p.cur⟩
      copyBytes bufs remaining mem (i + 1) p k

/-- constbuffer_array_splitter.c:104-175: one split buffer after another; `am j`/`ah j` are the two allocations (memory and
handle) for split buffer `j` and `f j` its identity.  The result is the remaining size, the cells of
`split_buffers`, `current_split_buffer_index` and the reference events. -/
def splitLoop (bufs : List Buf) (max : Nat) (am ah : Nat → Bool) (f : Nat → Nat) :
    Nat → (remaining : Nat) → Cells → (index : Nat) → Pos → C (Nat × Cells × Nat × List Ev)
  | 0, _, _, _, _ => C.ub
  | fuel + 1, remaining, cells, index, p =>
    if remaining > 0 then
      let next := min max remaining
      if am index = false then C.ok (remaining, cells, index, [])
      else do
        let (mem, p) ← copyBytes bufs remaining (uninit next) 0 p next
        let bytes ← Batcher.initialised mem
        let h : Buf := ⟨f index, bytes⟩
        -- the store happens whether or not the handle is NULL; a NULL is never read back
        let cells' ← wr cells index h
        if ah index = false then pure (remaining, cells, index, [])
        else do
          let (r, cs, i, evs) ← splitLoop bufs max am ah f fuel (sub32 remaining next) cells' (index + 1) p
          pure (r, cs, i, .mk h :: evs)
    else C.ok (remaining, cells, index, [])

/-- The handles of a block about to be read completely. -/
def storedAll : Cells → C (List Buf)
  | [] => C.ok []
  | none :: _ => C.ub
  | some b :: r => do
    let bs ← storedAll r
    pure (b :: bs)

/-- `for (i..n) CONSTBUFFER_DecRef(cells[i])`. -/
def decCells (cells : Cells) (i : Nat) : Nat → C (List Ev)
  | 0 => C.ok []
  | n + 1 => do
    let c ← rd cells i
    match c with
    | none => C.ub
    | some b => do
      let evs ← decCells cells (i + 1) n
      pure (.dec b :: evs)

/-- constbuffer_array_splitter.c:17-210 `constbuffer_array_splitter_split`.  `a0` is the allocation of the empty
array, `a1` of the block of handles, `a2` of the resulting array. -/
def split (buffers : Option (List Buf)) (max : Nat) (a0 a1 a2 : Bool) (am ah : Nat → Bool) (f : Nat → Nat) :
    C (Out × List Ev) :=
  match buffers with
  | none => C.ok (.null, [])
  | some bufs =>
    if max = 0 then C.ok (.null, [])
    else if bufs.length = 0 then C.ok (create_empty a0)
    else match get_all_buffers_size (some bufs) true with
      | none => C.ok (.null, [])
      | some total =>
        if total = 0 then C.ok (create_empty a0)
        else
          let count := sub32 (add32 total max) 1 / max
          if a1 = false then C.ok (.null, [])
          else do
            let cur ← get_buffer_content (some bufs) 0
            let p ← skipEmpty bufs (bufs.length + 1) ⟨0, 0, cur⟩
            let (remaining, cells, index, evs) ← splitLoop bufs max am ah f (total + 1) total (uninit count) 0 p
            if remaining > 0 then
              let evs' ← decCells cells 0 index
              pure (.null, evs ++ evs')
            else
              let bs ← storedAll cells
              let (r, evs2) ← create (some bs) count a2
              let evs' ← decCells cells 0 index
              pure (r, evs ++ (evs2 ++ evs'))

/-! ### `constbuffer_array_splitter_split_to_array_of_array` -/

/-- The outcomes of the allocations of call number `k` of `constbuffer_array_create_from_buffer_offset_and_count` and the
identities of the windows it creates. -/
structure Oracle where
  al : Nat → Bool
  a1 : Nat → Bool
  a2 : Nat → Bool
  f1 : Nat → Nat
  f2 : Nat → Nat

/-- Call number `k` of `constbuffer_array_create_from_buffer_offset_and_count`. -/
def sub (bufs : List Buf) (o : Oracle) (k start cnt off e : Nat) : C (Out × List Ev) :=
  create_from_buffer_offset_and_count (some bufs) start cnt off e (o.al k) (o.a1 k) (o.a2 k) (o.f1 k) (o.f2 k)

/-- What `constbuffer_array_dec_ref` does to the buffers of an array nobody else holds (for the original array
only its own reference count changes). -/
def release : Out → List Ev
  | .fresh cells => cells.flatMap (fun c => match c with | some b => [Ev.dec b] | none => [])
  | _ => []

/-- The local variables of the function; `temp` are the cells of `temp->arr`. -/
structure St where
  start : Nat
  off : Nat
  endSize : Nat
  cnt : Nat
  cur : Nat
  index : Nat
  arrays : Nat
  temp : List (Option Out)
  failed : Bool
  i : Nat

/-- constbuffer_array_splitter.c:360-377: `while (++i < buffer_count)` over consecutive empty buffers.  Result:
`i`, `current_buffer_count`, `end_buffer_size`, `has_empty`. -/
def absorb (bufs : List Buf) : Nat → (i cnt endSize : Nat) → (hasEmpty : Bool) → C ((Nat × Nat × Nat × Bool) × List Ev)
  | 0, _, _, _, _ => C.ub
  | fuel + 1, i, cnt, endSize, hasEmpty =>
    let i := add32 i 1
    if i < bufs.length then do
      let (b, e) ← get_buffer (some bufs) i
      match b with
      | none => C.ub
      | some b =>
        if b.size = 0 then do
          let (r, evs) ← absorb bufs fuel i (add32 cnt 1) 0 true
          pure (r, e ++ (.dec b :: evs))
        else pure ((sub32 i 1, cnt, endSize, hasEmpty), e ++ [.dec b])
    else C.ok ((i, cnt, endSize, hasEmpty), [])

/-- constbuffer_array_splitter.c:398-417: cuts whole arrays out of the current buffer.  Result: the state and
`current_buffer_remaining_size`. -/
def innerLoop (bufs : List Buf) (o : Oracle) (max : Nat) : Nat → St → (rem : Nat) → C ((St × Nat) × List Ev)
  | 0, _, _ => C.ub
  | fuel + 1, s, rem =>
    if rem > max then do
      let (arr, evs) ← sub bufs o s.index s.start 1 s.off max
      match arr with
      | .null => pure (({ s with failed := true }, rem), evs)
      | arr => do
        let temp ← wr s.temp s.index arr
        let (r, evs') ← innerLoop bufs o max fuel
          { s with temp := temp, arrays := s.arrays + 1, index := s.index + 1, off := add32 s.off max } (sub32 rem max)
        pure (r, evs ++ evs')
    else C.ok ((s, rem), [])

/-- constbuffer_array_splitter.c:419-450: what is left of the current buffer. -/
def finishBuffer (bufs : List Buf) (o : Oracle) (s : St) (rem : Nat) : C (St × List Ev) :=
  if rem = 0 then C.ok ({ s with start := add32 s.i 1, off := 0, cnt := 0, cur := 0 }, [])
  else if s.i = sub32 bufs.length 1 then do
    let (arr, evs) ← sub bufs o (if s.failed then s.index + 1 else s.index) s.start 1 s.off rem
    match arr with
    | .null => pure ({ s with failed := true }, evs)
    | arr => do
      let temp ← wr s.temp s.index arr
      pure ({ s with temp := temp, arrays := s.arrays + 1 }, evs)
  else C.ok ({ s with cnt := 1, cur := rem }, [])

/-- constbuffer_array_splitter.c:350-452: a buffer that fills the current sub array. -/
def fullCase (bufs : List Buf) (o : Oracle) (max : Nat) (s : St) (b : Buf) : C (St × List Ev) := do
  let s := { s with cnt := add32 s.cnt 1, endSize := sub32 max s.cur }
  let ((i, cnt, endSize, hasEmpty), e1) ←
    if add32 s.cur b.size = max then absorb bufs (bufs.length + 1) s.i s.cnt s.endSize false
    else C.ok ((s.i, s.cnt, s.endSize, false), [])
  let s := { s with i := i, cnt := cnt, endSize := endSize }
  let (arr, e2) ← sub bufs o s.index s.start s.cnt s.off s.endSize
  match arr with
  | .null => pure ({ s with failed := true }, e1 ++ e2)
  | arr => do
    let temp ← wr s.temp s.index arr
    let s := { s with temp := temp, arrays := s.arrays + 1, index := s.index + 1, start := s.i, off := s.endSize }
    let rem := if hasEmpty then 0 else sub32 b.size s.endSize
    let ((s, rem), e3) ← innerLoop bufs o max (rem + 1) s rem
    let (s, e4) ← finishBuffer bufs o s rem
    pure (s, e1 ++ (e2 ++ (e3 ++ e4)))

/-- constbuffer_array_splitter.c:324-349: a buffer that fits in the current sub array. -/
def fitCase (bufs : List Buf) (o : Oracle) (s : St) (b : Buf) : C (St × List Ev) :=
  let s := { s with cnt := add32 s.cnt 1, cur := add32 s.cur b.size, endSize := b.size }
  if s.i = sub32 bufs.length 1 then do
    let (arr, evs) ← sub bufs o s.index s.start s.cnt s.off s.endSize
    match arr with
    | .null => pure ({ s with failed := true }, evs)
    | arr => do
      let temp ← wr s.temp s.index arr
      pure ({ s with temp := temp, arrays := s.arrays + 1 }, evs)
  else C.ok (s, [])

/-- constbuffer_array_splitter.c:324-452: the two cases. -/
def oneBuffer (bufs : List Buf) (o : Oracle) (max : Nat) (s : St) (b : Buf) : C (St × List Ev) :=
  if add32 s.cur b.size < max then fitCase bufs o s b else fullCase bufs o max s b

/-- constbuffer_array_splitter.c:317-458: the loop over the buffers. -/
def outerLoop (bufs : List Buf) (o : Oracle) (max : Nat) : Nat → St → C (St × List Ev)
  | 0, _ => C.ub
  | fuel + 1, s =>
    if s.i < bufs.length then do
      let (b, e) ← get_buffer (some bufs) s.i
      match b with
      | none => C.ub
      | some b => do
        let (s, e1) ← oneBuffer bufs o max s b
        if s.failed then pure (s, e ++ (e1 ++ [.dec b]))
        else do
          let (s, e2) ← outerLoop bufs o max fuel { s with i := add32 s.i 1 }
          pure (s, e ++ (e1 ++ (.dec b :: e2)))
    else C.ok (s, [])

/-- `for (i..n) constbuffer_array_dec_ref(temp->arr[i])`. -/
def releaseArrays (temp : List (Option Out)) (i : Nat) : Nat → C (List Ev)
  | 0 => C.ok []
  | n + 1 => do
    let c ← rd temp i
    match c with
    | none => C.ub
    | some a => do
      let evs ← releaseArrays temp (i + 1) n
      pure (release a ++ evs)

/-- constbuffer_array_splitter.c:212-480 `constbuffer_array_splitter_split_to_array_of_array`.  The result is the cells
of the TARRAY and the count stored through `split_buffer_arrays_count`; `none` is NULL.  `at` is the
allocation of the TARRAY (which also refuses capacity 0, tarray_ll.h:104-148) and `ae` of the empty array. -/
def split_to_array_of_array (buffers : Option (List Buf)) (max : Nat) (outp at_ ae : Bool) (o : Oracle) :
    C (Option (List (Option Out) × Nat) × List Ev) :=
  match buffers with
  | none => C.ok (none, [])
  | some bufs =>
    if max = 0 ∨ outp = false then C.ok (none, [])
    else match get_all_buffers_size (some bufs) true with
      | none => C.ok (none, [])
      | some total =>
        if bufs.length = 0 ∨ total = 0 then
          if at_ = false then C.ok (none, [])
          else match create_empty ae with
            | (.null, evs) => C.ok (none, evs)
            | (arr, evs) => C.ok (some ([some arr], 1), evs)
        else if total ≤ max then
          if at_ = false then C.ok (none, []) else C.ok (some ([some .same], 1), [])
        else
          let capacity := sub32 (add32 total max) 1 / max
          if capacity = 0 ∨ at_ = false then C.ok (none, [])
          else do
            let (s, evs) ← outerLoop bufs o max (bufs.length + 1) ⟨0, 0, 0, 0, 0, 0, 0, uninit capacity, false, 0⟩
            if s.failed then
              let evs' ← releaseArrays s.temp 0 s.arrays
              pure (none, evs ++ evs')
            else pure (some (s.temp, s.arrays), evs)

end CUtil.Splitter
