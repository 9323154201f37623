import Verif.Strings.Model
import Verif.Conc
/-
Model of /repo/src/strings.c on a heap: every `malloc`, `realloc` and `free` is there, in the order of the program. Verif/Strings has the values
only; the theorems about this model say that the memory is right as well.

The heap says which STRING structures and which blocks of characters are allocated. Address 0 is NULL. The allocator hands out an address that was
never handed out before, and `realloc` always moves the block (an address that stays or comes back could only hide an error). Whether an
allocation succeeds is a parameter; it also fails when its size does not fit a size_t.
-/
namespace CUtil.StringHeap
open CUtil CUtil.Conc
open CUtil.Strings (SIZE_MAX allocs slen Fmt)

structure Heap where
  /-- strings.c:20-23 `STRING`: its field `s`, `none` before it is first written. -/
  st : Nat → Option (Option Nat)
  mem : Nat → Option Mem
  next : Nat

/-- A `const char*` argument: NULL, memory of the caller that is not on this heap, or `off` characters into the block at `q`. -/
inductive Src where
  | null
  | ext (m : Mem)
  | blk (q off : Nat)
deriving DecidableEq

/-! ### The C library -/

/-- `malloc(sizeof(STRING))`. -/
def mallocS (h : Heap) (a : Bool) : Heap × Nat :=
  if a then (⟨upd h.st h.next (some none), h.mem, h.next + 1⟩, h.next) else (h, 0)

/-- `malloc(n)`, `malloc_flex(x, y, 1)` with `n = x + y`. -/
def mallocB (h : Heap) (n : Nat) (a : Bool) : Heap × Nat :=
  if allocs a n then (⟨h.st, upd h.mem h.next (some (uninit n)), h.next + 1⟩, h.next) else (h, 0)

/-- `free` of a structure. -/
def freeS (h : Heap) (p : Nat) : C Heap :=
  if p = 0 then C.ok h
  else match h.st p with
    | some _ => C.ok ⟨upd h.st p none, h.mem, h.next⟩
    | none => C.ub

/-- `free` of a block. -/
def freeB (h : Heap) (q : Nat) : C Heap :=
  if q = 0 then C.ok h
  else match h.mem q with
    | some _ => C.ok ⟨h.st, upd h.mem q none, h.next⟩
    | none => C.ub

/-- `realloc(q, n)`, `realloc_flex(q, x, y, 1)` with `n = x + y`; `n` is not 0. -/
def reallocB (h : Heap) (q n : Nat) (a : Bool) : C (Heap × Nat) :=
  if q = 0 then C.ok (mallocB h n a)
  else match h.mem q with
    | none => C.ub
    | some m => if allocs a n then C.ok (⟨h.st, upd (upd h.mem q none) h.next (some (reallocMem m n)), h.next + 1⟩, h.next) else C.ok (h, 0)

/-- `p->s`. -/
def getS (h : Heap) (p : Nat) : C Nat :=
  match h.st p with
  | some (some q) => C.ok q
  | _ => C.ub

/-- `p->s = q`. -/
def setS (h : Heap) (p q : Nat) : C Heap :=
  match h.st p with
  | some _ => C.ok ⟨upd h.st p (some (some q)), h.mem, h.next⟩
  | none => C.ub

/-- The memory a source points to. -/
def srcMem (h : Heap) : Src → C Mem
  | .null => C.ub
  | .ext m => C.ok m
  | .blk q off =>
    match h.mem q with
    | some m => if off ≤ m.length then C.ok (m.drop off) else C.ub
    | none => C.ub

/-- `strlen`. -/
def strlen (h : Heap) (s : Src) : C Nat := do
  let m ← srcMem h s
  slen m

/-- Accesses to the block at `q` only. -/
def onBlock (h : Heap) (q : Nat) (f : Mem → C Mem) : C Heap :=
  match h.mem q with
  | none => C.ub
  | some m => do
    let m ← f m
    C.ok ⟨h.st, upd h.mem q (some m), h.next⟩

/-- `memcpy(q + d, source, n)`; inside one block the two ranges must not overlap. -/
def copyIn (h : Heap) (q d : Nat) (source : Src) (n : Nat) : C Heap :=
  match source with
  | .blk q' off => if q' = q then onBlock h q (fun m => Strings.memcpySame m d off n) else do
      let src ← srcMem h source
      onBlock h q (fun m => memcpy m d src 0 n)
  | _ => do
      let src ← srcMem h source
      onBlock h q (fun m => memcpy m d src 0 n)

/-! ### strings.c -/

/-- strings.c:28-52 `STRING_new`. -/
def new (h : Heap) (a1 a2 : Bool) : C (Heap × Nat) :=
  match mallocS h a1 with
  | (h, result) =>
    if result = 0 then pure (h, result)
    else match mallocB h 1 a2 with
      | (h, q) => do
        let h ← setS h result q
        if q ≠ 0 then do
          let h ← onBlock h q (fun m => wr m 0 0)
          pure (h, result)
        else do
          let h ← freeS h result
          pure (h, 0)

/-- strings.c:55-89 `STRING_clone`. -/
def clone (h : Heap) (handle : Nat) (a1 a2 : Bool) : C (Heap × Nat) :=
  if handle = 0 then pure (h, 0)
  else match mallocS h a1 with
    | (h, result) =>
      if result ≠ 0 then do
        let qs ← getS h handle
        let sourceLen ← strlen h (.blk qs 0)
        match mallocB h (1 + sourceLen) a2 with
        | (h, q) => do
          let h ← setS h result q
          if q = 0 then do
            let h ← freeS h result
            pure (h, 0)
          else do
            let qs ← getS h handle
            let h ← copyIn h q 0 (.blk qs 0) (sourceLen + 1)
            pure (h, result)
      else pure (h, 0)

/-- strings.c:92-129 `STRING_construct`. -/
def construct (h : Heap) (psz : Src) (a1 a2 : Bool) : C (Heap × Nat) :=
  if psz = .null then pure (h, 0)
  else match mallocS h a1 with
    | (h, str) =>
      if str ≠ 0 then do
        let nLen ← strlen h psz
        match mallocB h (1 + nLen) a2 with
        | (h, q) => do
          let h ← setS h str q
          if q ≠ 0 then do
            let h ← copyIn h q 0 psz (nLen + 1)
            pure (h, str)
          else do
            let h ← freeS h str
            pure (h, 0)
      else pure (h, 0)

/-- strings.c:134-207 `STRING_construct_sprintf` (`none` is a NULL format). -/
def construct_sprintf (h : Heap) (format : Option Fmt) (a1 a2 : Bool) : C (Heap × Nat) :=
  match format with
  | none => pure (h, 0)
  | some f =>
    if f.ok1 = false then pure (h, 0)
    else if f.text.length > 0 then
      match mallocS h a1 with
      | (h, result) =>
        if result ≠ 0 then
          match mallocB h (f.text.length + 1) a2 with
          | (h, q) => do
            let h ← setS h result q
            if q ≠ 0 then
              if f.ok2 = false then do
                let q ← getS h result
                let h ← freeB h q
                let h ← freeS h result
                pure (h, 0)
              else do
                let h ← onBlock h q (fun m => memcpy m 0 ((zstr f.text).map some) 0 (f.text.length + 1))
                pure (h, result)
            else do
              let h ← freeS h result
              pure (h, 0)
        else pure (h, result)
    else new h a1 a2

/-- strings.c:213-233 `STRING_new_with_memory`; `memory` is the address of a block of the caller's, or NULL. -/
def new_with_memory (h : Heap) (memory : Nat) (a : Bool) : C (Heap × Nat) :=
  if memory = 0 then pure (h, 0)
  else match mallocS h a with
    | (h, result) =>
      if result ≠ 0 then do
        let h ← setS h result memory
        pure (h, result)
      else pure (h, result)

/-- strings.c:236-263 `STRING_new_quoted`. -/
def new_quoted (h : Heap) (source : Src) (a1 a2 : Bool) : C (Heap × Nat) :=
  if source = .null then pure (h, 0)
  else match mallocS h a1 with
    | (h, result) =>
      if result ≠ 0 then do
        let sourceLength ← strlen h source
        match mallocB h (3 + sourceLength) a2 with
        | (h, q) => do
          let h ← setS h result q
          if q ≠ 0 then do
            let h ← onBlock h q (fun m => wr m 0 34)
            let h ← copyIn h q 1 source sourceLength
            let h ← onBlock h q (fun m => wr m (sourceLength + 1) 34)
            let h ← onBlock h q (fun m => wr m (sourceLength + 2) 0)
            pure (h, result)
          else do
            let h ← freeS h result
            pure (h, 0)
      else pure (h, result)

/-- strings.c:268-409 `STRING_new_JSON`. -/
def new_JSON (h : Heap) (source : Src) (a1 a2 : Bool) : C (Heap × Nat) :=
  if source = .null then pure (h, 0)
  else do
    let src ← srcMem h source
    let s ← cstr src
    let vlen := s.length
    match Strings.jsonCount s (0, 0) with
    | none => pure (h, 0)
    | some (nControlCharacters, nEscapeCharacters) =>
      match mallocS h a1 with
      | (h, result) =>
        if result = 0 then pure (h, result)
        else if vlen > SIZE_MAX - 3 ∨ SIZE_MAX - nEscapeCharacters < vlen + 3 ∨ (SIZE_MAX - (vlen + 3 + nEscapeCharacters)) / 5 < nControlCharacters then do
          let h ← freeS h result
          pure (h, 0)
        else
          match mallocB h (vlen + 5 * nControlCharacters + nEscapeCharacters + 3) a2 with
          | (h, q) => do
            let h ← setS h result q
            if q = 0 then do
              let h ← freeS h result
              pure (h, 0)
            else do
              let h ← onBlock h q (fun m => do
                let st ← Strings.put (m, 0) 34
                let st ← Strings.jsonLoop s st
                let st ← Strings.put st 34
                wr st.1 st.2 0)
              pure (h, result)

/-- strings.c:415-444 `STRING_concat`. -/
def concat (h : Heap) (handle : Nat) (s2 : Src) (a : Bool) : C (Heap × Bool) :=
  if handle = 0 ∨ s2 = .null then pure (h, false)
  else do
    let q ← getS h handle
    let s1Length ← strlen h (.blk q 0)
    let s2Length ← strlen h s2
    let (h, temp) ← reallocB h q (s1Length + (s2Length + 1)) a
    if temp = 0 then pure (h, false)
    else do
      let h ← setS h handle temp
      let q ← getS h handle
      let h ← copyIn h q s1Length s2 (s2Length + 1)
      pure (h, true)

/-- strings.c:450-483 `STRING_concat_with_STRING`. -/
def concat_with_STRING (h : Heap) (s1 s2 : Nat) (a : Bool) : C (Heap × Bool) :=
  if s1 = 0 ∨ s2 = 0 then pure (h, false)
  else do
    let q1 ← getS h s1
    let s1Length ← strlen h (.blk q1 0)
    let q2 ← getS h s2
    let s2Length ← strlen h (.blk q2 0)
    let (h, temp) ← reallocB h q1 (s1Length + (s2Length + 1)) a
    if temp = 0 then pure (h, false)
    else do
      let h ← setS h s1 temp
      let q1 ← getS h s1
      let q2 ← getS h s2
      let h ← copyIn h q1 s1Length (.blk q2 0) (s2Length + 1)
      pure (h, true)

/-- strings.c:489-526 `STRING_copy`. After `realloc`, `s2` cannot point into the new block: the `memmove` is a copy between blocks. -/
def copy (h : Heap) (handle : Nat) (s2 : Src) (a : Bool) : C (Heap × Bool) :=
  if handle = 0 ∨ s2 = .null then pure (h, false)
  else do
    let q ← getS h handle
    if s2 ≠ .blk q 0 then do
      let s2Length ← strlen h s2
      let (h, temp) ← reallocB h q (1 + s2Length) a
      if temp = 0 then pure (h, false)
      else do
        let h ← setS h handle temp
        let q ← getS h handle
        let h ← copyIn h q 0 s2 (s2Length + 1)
        pure (h, true)
    else pure (h, true)

/-- strings.c:532-568 `STRING_copy_n`. -/
def copy_n (h : Heap) (handle : Nat) (s2 : Src) (n : Nat) (a : Bool) : C (Heap × Bool) :=
  if handle = 0 ∨ s2 = .null then pure (h, false)
  else do
    let len ← strlen h s2
    let s2Length := if len > n then n else len
    let q ← getS h handle
    let (h, temp) ← reallocB h q (1 + s2Length) a
    if temp = 0 then pure (h, false)
    else do
      let h ← setS h handle temp
      let q ← getS h handle
      let h ← copyIn h q 0 s2 s2Length
      let h ← onBlock h q (fun m => wr m s2Length 0)
      pure (h, true)

/-- strings.c:573-645 `STRING_sprintf`; arguments that point into the string itself are not modelled. -/
def sprintf (h : Heap) (handle : Nat) (format : Option Fmt) (a : Bool) : C (Heap × Bool) :=
  match format with
  | none => pure (h, false)
  | some f =>
    if handle = 0 then pure (h, false)
    else if f.ok1 = false then pure (h, false)
    else if f.text.length = 0 then pure (h, true)
    else do
      let q ← getS h handle
      let s1Length ← strlen h (.blk q 0)
      let (h, temp) ← reallocB h q (s1Length + (f.text.length + 1)) a
      if temp ≠ 0 then do
        let h ← setS h handle temp
        let q ← getS h handle
        if f.ok2 = false then do
          let h ← onBlock h q (fun m => memcpy m s1Length f.junk 0 (f.text.length + 1))
          let h ← onBlock h q (fun m => wr m s1Length 0)
          pure (h, false)
        else do
          let h ← onBlock h q (fun m => memcpy m s1Length ((zstr f.text).map some) 0 (f.text.length + 1))
          pure (h, true)
      else pure (h, false)

/-- strings.c:651-681 `STRING_quote`. -/
def quote (h : Heap) (handle : Nat) (a : Bool) : C (Heap × Bool) :=
  if handle = 0 then pure (h, false)
  else do
    let q ← getS h handle
    let s1Length ← strlen h (.blk q 0)
    let (h, temp) ← reallocB h q (2 + 1 + s1Length) a
    if temp = 0 then pure (h, false)
    else do
      let h ← setS h handle temp
      let q ← getS h handle
      let h ← onBlock h q (fun m => Strings.memmove m 1 0 s1Length)
      let h ← onBlock h q (fun m => wr m 0 34)
      let h ← onBlock h q (fun m => wr m (s1Length + 1) 34)
      let h ← onBlock h q (fun m => wr m (s1Length + 2) 0)
      pure (h, true)

/-- strings.c:685-711 `STRING_empty`. -/
def empty (h : Heap) (handle : Nat) (a : Bool) : C (Heap × Bool) :=
  if handle = 0 then pure (h, false)
  else do
    let q ← getS h handle
    let (h, temp) ← reallocB h q 1 a
    if temp = 0 then pure (h, false)
    else do
      let h ← setS h handle temp
      let q ← getS h handle
      let h ← onBlock h q (fun m => wr m 0 0)
      pure (h, true)

/-- strings.c:715-725 `STRING_delete`. -/
def delete (h : Heap) (handle : Nat) : C Heap :=
  if handle ≠ 0 then do
    let q ← getS h handle
    let h ← freeB h q
    let h ← setS h handle 0
    freeS h handle
  else pure h

/-- strings.c:728-741 `STRING_c_str`: the pointer returned. -/
def c_str (h : Heap) (handle : Nat) : C Nat :=
  if handle ≠ 0 then getS h handle else pure 0

/-- strings.c:744-754 `STRING_length`. -/
def length (h : Heap) (handle : Nat) : C Nat :=
  if handle ≠ 0 then do
    let q ← getS h handle
    strlen h (.blk q 0)
  else pure 0

/-- strings.c:757-802 `STRING_construct_n`. -/
def construct_n (h : Heap) (psz : Src) (n : Nat) (a1 a2 : Bool) : C (Heap × Nat) :=
  if psz = .null then pure (h, 0)
  else do
    let len ← strlen h psz
    if n > len then pure (h, 0)
    else match mallocS h a1 with
      | (h, str) =>
        if str ≠ 0 then
          match mallocB h (n + 1) a2 with
          | (h, q) => do
            let h ← setS h str q
            if q ≠ 0 then do
              let h ← copyIn h q 0 psz n
              let h ← onBlock h q (fun m => wr m n 0)
              pure (h, str)
            else do
              let h ← freeS h str
              pure (h, 0)
        else pure (h, 0)

/-- strings.c:805-831 `STRING_compare`. -/
def compare (h : Heap) (s1 s2 : Nat) : C Int :=
  if s1 = 0 ∧ s2 = 0 then pure 0
  else if s1 = 0 then pure 1
  else if s2 = 0 then pure (-1)
  else do
    let q1 ← getS h s1
    let q2 ← getS h s2
    let m1 ← srcMem h (.blk q1 0)
    let m2 ← srcMem h (.blk q2 0)
    Strings.strcmp m1 m2

/-- strings.c:833-871 `STRING_from_byte_array`. `memcpy(result->s, NULL, 0)` is taken to be allowed. -/
def from_byte_array (h : Heap) (source : Src) (size : Nat) (a1 a2 : Bool) : C (Heap × Nat) :=
  if source = .null ∧ size > 0 then pure (h, 0)
  else match mallocS h a1 with
    | (h, result) =>
      if result = 0 then pure (h, result)
      else match mallocB h (1 + size) a2 with
        | (h, q) => do
          let h ← setS h result q
          if q = 0 then do
            let h ← freeS h result
            pure (h, 0)
          else do
            let h ← if source = .null then pure h else copyIn h q 0 source size
            let h ← onBlock h q (fun m => wr m size 0)
            pure (h, result)

/-- strings.c:873-904 `STRING_replace`. -/
def replace (h : Heap) (handle : Nat) (target repl : UInt8) : C (Heap × Bool) :=
  if handle = 0 then pure (h, false)
  else if target = repl then pure (h, true)
  else do
    let q ← getS h handle
    let length ← strlen h (.blk q 0)
    let h ← onBlock h q (fun m => Strings.replaceLoop m target repl 0 length)
    pure (h, true)

/-! ### The caller's own blocks, for STRING_new_with_memory -/

/-- The caller allocates a block and writes to it. -/
def userMalloc (h : Heap) (bytes : Mem) (a : Bool) : Heap × Nat :=
  if a then (⟨h.st, upd h.mem h.next (some bytes), h.next + 1⟩, h.next) else (h, 0)

end CUtil.StringHeap
