import Verif.ConstBufferArray.Spec
import Verif.MemoryData.Model
/-
Model of /repo/src/constbuffer_array_batcher_nv.c.

Arrays of buffers that `unbatch` produces can hold NULL handles (see `unbatch_wraps` in Props), so an
array is a `List (Option Buf)` here and the cells of a block of handles are `Option (Option Buf)`: the outer `none` is
a cell that was never stored, the inner `none` a stored NULL.
-/
namespace CUtil.Batcher
open CUtil.MemoryData CUtil.ConstBufferArray

abbrev HCells := List (Option (Option Buf))

/-- Reference events of `CONSTBUFFER_IncRef`/`DecRef` on a handle that may be NULL (then they only log). -/
def incN : Option Buf → List Ev
  | none => []
  | some b => [.inc b]
def decN : Option Buf → List Ev
  | none => []
  | some b => [.dec b]

/-- The bytes of a block that is about to be shown as a buffer; an uninitialised cell is undefined behaviour. -/
def initialised : Mem → C (List UInt8)
  | [] => C.ok []
  | none :: _ => C.ub
  | some b :: m => do
    let r ← initialised m
    pure (b :: r)

/-- `for (j..n) dst[d++] = constbuffer_array_get_buffer(src, s++)` with `uint32_t s`. -/
def getLoop (src : List Buf) (s : Nat) (dst : HCells) (d : Nat) : Nat → C (HCells × Nat × List Ev)
  | 0 => C.ok (dst, s, [])
  | n + 1 => do
    let (b, e) ← get_buffer (some src) s
    let dst ← wr dst d b
    let (dst, s', evs) ← getLoop src ((s + 1) % 2 ^ 32) dst (d + 1) n
    pure (dst, s', e ++ evs)

/-- constbuffer_array.c:32-78 `constbuffer_array_create` on handles that may be NULL, once the argument check
passed and the allocation succeeded. -/
def createLoop (src : HCells) (i : Nat) : Nat → C (List (Option Buf) × List Ev)
  | 0 => C.ok ([], [])
  | n + 1 => do
    let c ← rd src i
    match c with
    | none => C.ub
    | some b => do
      let (r, evs) ← createLoop src (i + 1) n
      pure (b :: r, incN b ++ evs)

/-- `for (i..n) CONSTBUFFER_DecRef(src[i])`. -/
def decLoop (src : HCells) (i : Nat) : Nat → C (List Ev)
  | 0 => C.ok []
  | n + 1 => do
    let c ← rd src i
    match c with
    | none => C.ub
    | some b => do
      let evs ← decLoop src (i + 1) n
      pure (decN b ++ evs)

/-- constbuffer_array_batcher_nv.c:37-49: `none` when some payload is NULL. -/
def allSome : List (Option (List Buf)) → Option (List (List Buf))
  | [] => some []
  | none :: _ => none
  | some p :: ps => (allSome ps).map (p :: ·)

/-- constbuffer_array_batcher_nv.c:67-93: writes the counts in the header; `none` when the loop breaks. -/
def writeCounts : List (List Buf) → Mem → Nat → Nat → C (Mem × Option Nat)
  | [], m, _, total => C.ok (m, some total)
  | p :: ps, m, i, total => do
    let m ← write_u32 m (4 * (i + 1)) p.length
    let total := (total + p.length) % 2 ^ 32
    if total < p.length ∨ total = U32MAX then pure (m, none)
    else writeCounts ps m (i + 1) total

/-- constbuffer_array_batcher_nv.c:122-133: the nested loops copying all handles. -/
def gatherLoop : List (List Buf) → HCells → Nat → C (HCells × Nat × List Ev)
  | [], dst, cur => C.ok (dst, cur, [])
  | p :: ps, dst, cur => do
    let (dst, _, evs) ← getLoop p 0 dst cur p.length
    let (dst, cur, evs') ← gatherLoop ps dst (cur + p.length)
    pure (dst, cur, evs ++ evs')

/-- constbuffer_array_batcher_nv.c:15-169 `constbuffer_array_batcher_nv_batch`.  `a1` header memory, `a2` handle block,
`a3` header handle, `a4` the array; `f` the identity of the new header handle. -/
def batch (payloads : Option (List (Option (List Buf)))) (count : Nat) (a1 a2 a3 a4 : Bool) (f : Nat) :
    C (Option (List (Option Buf)) × List Ev) :=
  match payloads with
  | none => C.ok (none, [])
  | some payloads =>
    if count = 0 ∨ count > U32MAX / 4 - 1 then C.ok (none, [])
    else if payloads.length < count then C.ub
    else match allSome (payloads.take count) with
      | none => C.ok (none, [])
      | some ps =>
        if a1 = false then C.ok (none, [])
        else do
          let m ← write_u32 (uninit (4 * (count + 1))) 0 count
          let (m, total) ← writeCounts ps m 0 0
          match total with
          | none => pure (none, [])
          | some total =>
            if a2 = false then pure (none, [])
            else if a3 = false then pure (none, [])
            else do
              let bytes ← initialised m
              let header : Buf := ⟨f, bytes⟩
              let all ← wr (uninit (total + 1)) 0 (some header)
              let (all, cur, evs) ← gatherLoop ps all 1
              if a4 = false then
                let evs' ← decLoop all 0 cur
                pure (none, .mk header :: (evs ++ evs'))
              else
                let (r, evs2) ← createLoop all 0 (total + 1)
                let evs' ← decLoop all 0 cur
                pure (some r, .mk header :: (evs ++ (evs2 ++ evs')))

/-- `constbuffer_array_dec_ref` on arrays owned by nobody else: every handle is released. -/
def releaseAll (rs : List (List (Option Buf))) : List Ev := rs.flatten.flatMap decN

/-- constbuffer_array_batcher_nv.c:241-306: the loop over the payloads, `k` of them left.  `done` are the arrays
already stored in `result[0..i-1]`; `ap i` and `ac i` are the allocations of iteration `i`. `none` when the loop breaks. -/
def unbatchLoop (d : Dialect) (hdr : List UInt8) (batch : List Buf) (ap ac : Nat → Bool)
    (done : List (List (Option Buf))) (i idx : Nat) : Nat → C (Option (List (List (Option Buf))) × List Ev)
  | 0 => C.ok (some done, [])
  | k + 1 => do
    let buffer_count ← read_u32 d hdr (4 * (i + 1))
    if (idx + buffer_count) % 2 ^ 32 > batch.length then pure (none, releaseAll done)
    else if buffer_count = 0 then
      if ac i = false then pure (none, releaseAll done)
      else unbatchLoop d hdr batch ap ac (done ++ [[]]) (i + 1) idx k
    else if ap i = false then pure (none, releaseAll done)
    else do
      let (cells, idx', e1) ← getLoop batch idx (uninit buffer_count) 0 buffer_count
      if ac i = false then
        let e3 ← decLoop cells 0 buffer_count
        pure (none, e1 ++ (e3 ++ releaseAll done))
      else
        let (r, e2) ← createLoop cells 0 buffer_count
        let e3 ← decLoop cells 0 buffer_count
        let (res, e4) ← unbatchLoop d hdr batch ap ac (done ++ [r]) (i + 1) idx' k
        pure (res, e1 ++ (e2 ++ (e3 ++ e4)))

/-- constbuffer_array_batcher_nv.c:171-327 `constbuffer_array_batcher_nv_unbatch`.  The result is the returned list of
arrays (`none` = NULL), the value stored in `*payload_count` if any, and the reference operations. -/
def unbatch (d : Dialect) (batch : Option (List Buf)) (outp a0 : Bool) (ap ac : Nat → Bool) :
    C (Option (List (List (Option Buf))) × Option Nat × List Ev) :=
  match batch with
  | none => C.ok (none, none, [])
  | some batch =>
    if outp = false then C.ok (none, none, [])
    else if batch.length = 0 then C.ok (none, none, [])
    else do
      let content ← get_buffer_content (some batch) 0
      match content with
      | none => C.ub
      | some hdr =>
        if hdr.length < 4 ∨ hdr.length % 4 ≠ 0 then pure (none, none, [])
        else do
          let batch_payload_count ← read_u32 d hdr 0
          if batch_payload_count = 0 then pure (none, none, [])
          else if hdr.length / 4 - 1 ≠ batch_payload_count then pure (none, none, [])
          else if a0 = false then pure (none, none, [])
          else do
            let (r, evs) ← unbatchLoop d hdr batch ap ac [] 0 1 batch_payload_count
            match r with
            | none => pure (none, none, evs)
            | some rs => pure (some rs, some batch_payload_count, evs)

end CUtil.Batcher
