import Verif.Base
/-
Model of /repo/src/strings.c.

A STRING is the block its `s` field points to (the structure has nothing else).  Functions that change a string return the
block afterwards and whether they returned 0; constructors return `none` for NULL.  Allocation outcomes are parameters, and every
allocation also fails when the request exceeds `SIZE_MAX` (that is what `malloc_flex`/`realloc_flex` add to `malloc`/`realloc`).
-/
namespace CUtil.Strings

abbrev SIZE_MAX : Nat := 18446744073709551615

/-- A `const char*` argument of a function that changes a string: NULL, memory that is not the string's own block, or a
pointer `off` characters into the block of that very string. -/
inductive Src where
  | null
  | ext (m : Mem)
  | own (off : Nat)

/-- `strlen` of a block. -/
def slen (m : Mem) : C Nat := do
  let s ← cstr m
  pure s.length

/-- `memmove(m + d, m + s, n)` inside one block. -/
def memmove (m : Mem) (d s n : Nat) : C Mem :=
  if s + n ≤ m.length ∧ d + n ≤ m.length then
    C.ok (m.take d ++ ((m.drop s).take n ++ m.drop (d + n)))
  else C.ub

/-- `memcpy(m + d, m + s, n)` inside one block: undefined when the two ranges overlap. -/
def memcpySame (m : Mem) (d s n : Nat) : C Mem :=
  if d + n ≤ s ∨ s + n ≤ d then memmove m d s n else C.ub

/-- An allocation of `n` bytes succeeds when the allocator has memory and the size computation did not overflow. -/
def allocs (a : Bool) (n : Nat) : Bool := a && decide (n ≤ SIZE_MAX)

/-- strings.c:28-52 `STRING_new`. -/
def new (a1 a2 : Bool) : C (Option Mem) :=
  if a1 = false then C.ok none
  else if allocs a2 1 = false then C.ok none
  else do
    let m ← wr (uninit 1) 0 0
    pure (some m)

/-- strings.c:55-89 `STRING_clone`. -/
def clone (handle : Option Mem) (a1 a2 : Bool) : C (Option Mem) :=
  match handle with
  | none => C.ok none
  | some source =>
    if a1 = false then C.ok none
    else do
      let sourceLen ← slen source
      if allocs a2 (1 + sourceLen) = false then C.ok none
      else do
        let m ← memcpy (uninit (1 + sourceLen)) 0 source 0 (sourceLen + 1)
        pure (some m)

/-- strings.c:92-129 `STRING_construct`. -/
def construct (psz : Option Mem) (a1 a2 : Bool) : C (Option Mem) :=
  match psz with
  | none => C.ok none
  | some psz =>
    if a1 = false then C.ok none
    else do
      let nLen ← slen psz
      if allocs a2 (1 + nLen) = false then C.ok none
      else do
        let m ← memcpy (uninit (1 + nLen)) 0 psz 0 (nLen + 1)
        pure (some m)

/-- What `vsnprintf` does with a given format and arguments: `text` is the formatted text, `ok1` whether the measuring
call succeeds (its result is otherwise negative), `ok2` whether the formatting call does, `junk` what it leaves in the
destination when it does not. -/
structure Fmt where
  text : List UInt8
  ok1 : Bool
  ok2 : Bool
  junk : Mem

/-- strings.c:134-207 `STRING_construct_sprintf` (`none` is a NULL format). -/
def construct_sprintf (format : Option Fmt) (a1 a2 : Bool) : C (Option Mem) :=
  match format with
  | none => C.ok none
  | some f =>
    if f.ok1 = false then C.ok none
    else if f.text.length > 0 then
      if a1 = false then C.ok none
      else if allocs a2 (f.text.length + 1) = false then C.ok none
      else if f.ok2 = false then C.ok none
      else do
        let m ← memcpy (uninit (f.text.length + 1)) 0 ((zstr f.text).map some) 0 (f.text.length + 1)
        pure (some m)
    else new a1 a2

/-- strings.c:213-233 `STRING_new_with_memory`: the memory becomes the string's block. -/
def new_with_memory (memory : Option Mem) (a : Bool) : Option Mem :=
  match memory with
  | none => none
  | some m => if a then some m else none

/-- strings.c:236-263 `STRING_new_quoted`. -/
def new_quoted (source : Option Mem) (a1 a2 : Bool) : C (Option Mem) :=
  match source with
  | none => C.ok none
  | some source =>
    if a1 = false then C.ok none
    else do
      let sourceLength ← slen source
      if allocs a2 (3 + sourceLength) = false then C.ok none
      else do
        let m ← wr (uninit (3 + sourceLength)) 0 34
        let m ← memcpy m 1 source 0 sourceLength
        let m ← wr m (sourceLength + 1) 34
        let m ← wr m (sourceLength + 2) 0
        pure (some m)

/-- strings.c:18 `hexToASCII`. -/
def hexToASCII : List UInt8 := [48, 49, 50, 51, 52, 53, 54, 55, 56, 57, 65, 66, 67, 68, 69, 70]

/-- strings.c:284-308: the counting loop, over the characters left; `none` when it stops at a character of 128 or more.
The counters are `(nControlCharacters, nEscapeCharacters)`. -/
def jsonCount : List UInt8 → Nat × Nat → Option (Nat × Nat)
  | [], n => some n
  | c :: cs, (nc, ne) =>
    if c.toNat ≥ 128 then none
    else if c.toNat ≤ 0x1F then jsonCount cs (nc + 1, ne)
    else if c = 34 ∨ c = 92 ∨ c = 47 then jsonCount cs (nc, ne + 1)
    else jsonCount cs (nc, ne)

/-- `result->s[pos++] = c`. -/
def put (st : Mem × Nat) (c : UInt8) : C (Mem × Nat) := do
  let m ← wr st.1 st.2 c
  pure (m, st.2 + 1)

/-- strings.c:356-391: the body of the writing loop for the character `c`. -/
def jsonPut (st : Mem × Nat) (c : UInt8) : C (Mem × Nat) :=
  if c.toNat ≤ 0x1F then do
    let st ← put st 92
    let st ← put st 117
    let st ← put st 48
    let st ← put st 48
    let h ← rd hexToASCII ((c.toNat &&& 0xF0) >>> 4)
    let st ← put st h
    let l ← rd hexToASCII (c.toNat &&& 0x0F)
    put st l
  else if c = 34 then do
    let st ← put st 92
    put st 34
  else if c = 92 then do
    let st ← put st 92
    put st 92
  else if c = 47 then do
    let st ← put st 92
    put st 47
  else put st c

/-- strings.c:354-392: the writing loop. -/
def jsonLoop : List UInt8 → Mem × Nat → C (Mem × Nat)
  | [], st => C.ok st
  | c :: cs, st => do
    let st ← jsonPut st c
    jsonLoop cs st

/-- strings.c:268-409 `STRING_new_JSON`. -/
def new_JSON (source : Option Mem) (a1 a2 : Bool) : C (Option Mem) :=
  match source with
  | none => C.ok none
  | some source => do
    let s ← cstr source
    let vlen := s.length
    match jsonCount s (0, 0) with
    | none => C.ok none
    | some (nControlCharacters, nEscapeCharacters) =>
      if a1 = false then C.ok none
      else if vlen > SIZE_MAX - 3 then C.ok none
      else if SIZE_MAX - nEscapeCharacters < vlen + 3 then C.ok none
      else if (SIZE_MAX - (vlen + 3 + nEscapeCharacters)) / 5 < nControlCharacters then C.ok none
      else
        let n := vlen + 5 * nControlCharacters + nEscapeCharacters + 3
        if a2 = false then C.ok none
        else do
          let st ← put (uninit n, 0) 34
          let st ← jsonLoop s st
          let st ← put st 34
          let m ← wr st.1 st.2 0
          pure (some m)

/-- strings.c:415-444 `STRING_concat`. -/
def concat (handle : Option Mem) (s2 : Src) (a : Bool) : C (Option Mem × Bool) :=
  match handle with
  | none => C.ok (none, false)
  | some s1 =>
    match s2 with
    | .null => C.ok (some s1, false)
    | .ext s2 => do
      let s1Length ← slen s1
      let s2Length ← slen s2
      if allocs a (s1Length + (s2Length + 1)) = false then C.ok (some s1, false)
      else do
        let m ← memcpy (reallocMem s1 (s1Length + (s2Length + 1))) s1Length s2 0 (s2Length + 1)
        pure (some m, true)
    | .own off => do
      let s1Length ← slen s1
      let s2Length ← slen (s1.drop off)
      -- once `realloc` has succeeded, `s2` points into the released block
      if allocs a (s1Length + (s2Length + 1)) = false then C.ok (some s1, false) else C.ub

/-- strings.c:450-483 `STRING_concat_with_STRING`; `same` is whether the two handles are equal (then `s2` is ignored). -/
def concat_with_STRING (s1 s2 : Option Mem) (same : Bool) (a : Bool) : C (Option Mem × Bool) :=
  match s1, s2 with
  | some dest, some src =>
    if same then do
      let s1Length ← slen dest
      if allocs a (s1Length + (s1Length + 1)) = false then C.ok (some dest, false)
      else do
        let m ← memcpySame (reallocMem dest (s1Length + (s1Length + 1))) s1Length 0 (s1Length + 1)
        pure (some m, true)
    else do
      let s1Length ← slen dest
      let s2Length ← slen src
      if allocs a (s1Length + (s2Length + 1)) = false then C.ok (some dest, false)
      else do
        let m ← memcpy (reallocMem dest (s1Length + (s2Length + 1))) s1Length src 0 (s2Length + 1)
        pure (some m, true)
  | h, _ => C.ok (h, false)

/-- strings.c:489-526 `STRING_copy`. -/
def copy (handle : Option Mem) (s2 : Src) (a : Bool) : C (Option Mem × Bool) :=
  match handle with
  | none => C.ok (none, false)
  | some s1 =>
    match s2 with
    | .null => C.ok (some s1, false)
    | .ext s2 => do
      let s2Length ← slen s2
      if allocs a (1 + s2Length) = false then C.ok (some s1, false)
      else do
        let m ← memcpy (reallocMem s1 (1 + s2Length)) 0 s2 0 (s2Length + 1)
        pure (some m, true)
    | .own off =>
      if off = 0 then C.ok (some s1, true)
      else do
        let s2Length ← slen (s1.drop off)
        if allocs a (1 + s2Length) = false then C.ok (some s1, false) else C.ub

/-- strings.c:532-568 `STRING_copy_n`. -/
def copy_n (handle : Option Mem) (s2 : Src) (n : Nat) (a : Bool) : C (Option Mem × Bool) :=
  match handle with
  | none => C.ok (none, false)
  | some s1 =>
    match s2 with
    | .null => C.ok (some s1, false)
    | .ext s2 => do
      let len ← slen s2
      let s2Length := if len > n then n else len
      if allocs a (1 + s2Length) = false then C.ok (some s1, false)
      else do
        let m ← memcpy (reallocMem s1 (1 + s2Length)) 0 s2 0 s2Length
        let m ← wr m s2Length 0
        pure (some m, true)
    | .own off => do
      let len ← slen (s1.drop off)
      let s2Length := if len > n then n else len
      if allocs a (1 + s2Length) = false then C.ok (some s1, false) else C.ub

/-- strings.c:573-645 `STRING_sprintf`; arguments that point into the string itself are not modelled.  A failing second
`vsnprintf` leaves some cells `junk` behind the old text. -/
def sprintf (handle : Option Mem) (format : Option Fmt) (a : Bool) : C (Option Mem × Bool) :=
  match handle, format with
  | some s1, some f =>
    if f.ok1 = false then C.ok (some s1, false)
    else if f.text.length = 0 then C.ok (some s1, true)
    else do
      let s1Length ← slen s1
      if allocs a (s1Length + (f.text.length + 1)) = false then C.ok (some s1, false)
      else if f.ok2 = false then do
        let m ← memcpy (reallocMem s1 (s1Length + (f.text.length + 1))) s1Length f.junk 0 (f.text.length + 1)
        let m ← wr m s1Length 0
        pure (some m, false)
      else do
        let m ← memcpy (reallocMem s1 (s1Length + (f.text.length + 1))) s1Length ((zstr f.text).map some) 0 (f.text.length + 1)
        pure (some m, true)
  | h, _ => C.ok (h, false)

/-- strings.c:651-681 `STRING_quote`. -/
def quote (handle : Option Mem) (a : Bool) : C (Option Mem × Bool) :=
  match handle with
  | none => C.ok (none, false)
  | some s1 => do
    let s1Length ← slen s1
    if allocs a (2 + 1 + s1Length) = false then C.ok (some s1, false)
    else do
      let m ← memmove (reallocMem s1 (2 + 1 + s1Length)) 1 0 s1Length
      let m ← wr m 0 34
      let m ← wr m (s1Length + 1) 34
      let m ← wr m (s1Length + 2) 0
      pure (some m, true)

/-- strings.c:685-711 `STRING_empty`. -/
def empty (handle : Option Mem) (a : Bool) : C (Option Mem × Bool) :=
  match handle with
  | none => C.ok (none, false)
  | some s1 =>
    if a = false then C.ok (some s1, false)
    else do
      let m ← wr (reallocMem s1 1) 0 0
      pure (some m, true)

/-- strings.c:728-741 `STRING_c_str`. -/
def c_str (handle : Option Mem) : Option Mem := handle

/-- strings.c:744-754 `STRING_length`. -/
def length (handle : Option Mem) : C Nat :=
  match handle with
  | none => C.ok 0
  | some m => slen m

/-- strings.c:757-802 `STRING_construct_n`. -/
def construct_n (psz : Option Mem) (n : Nat) (a1 a2 : Bool) : C (Option Mem) :=
  match psz with
  | none => C.ok none
  | some psz => do
    let len ← slen psz
    if n > len then C.ok none
    else if a1 = false then C.ok none
    else if allocs a2 (n + 1) = false then C.ok none
    else do
      let m ← memcpy (uninit (n + 1)) 0 psz 0 n
      let m ← wr m n 0
      pure (some m)

/-- The sign of `strcmp` of two blocks (characters compare as `unsigned char`). -/
def strcmp : Mem → Mem → C Int
  | some a :: as, some b :: bs =>
    if a.toNat < b.toNat then C.ok (-1)
    else if b.toNat < a.toNat then C.ok 1
    else if a = 0 then C.ok 0
    else strcmp as bs
  | _, _ => C.ub

/-- strings.c:805-831 `STRING_compare`; `strcmp`'s result is modelled by its sign. -/
def compare (s1 s2 : Option Mem) : C Int :=
  match s1, s2 with
  | none, none => C.ok 0
  | none, some _ => C.ok 1
  | some _, none => C.ok (-1)
  | some m1, some m2 => strcmp m1 m2

/-- strings.c:833-871 `STRING_from_byte_array`. -/
def from_byte_array (source : Option (List UInt8)) (size : Nat) (a1 a2 : Bool) : C (Option Mem) :=
  if source = none ∧ size > 0 then C.ok none
  else if a1 = false then C.ok none
  else if allocs a2 (1 + size) = false then C.ok none
  else do
    let m ← memcpy (uninit (1 + size)) 0 ((source.getD []).map some) 0 size
    let m ← wr m size 0
    pure (some m)

/-- strings.c:892-898: the loop of `STRING_replace` at `index`, `n` characters left. -/
def replaceLoop (m : Mem) (target replace : UInt8) (index : Nat) : Nat → C Mem
  | 0 => C.ok m
  | n + 1 => do
    let c ← rd m index
    match c with
    | none => C.ub
    | some c =>
      if c = target then do
        let m ← wr m index replace
        replaceLoop m target replace (index + 1) n
      else replaceLoop m target replace (index + 1) n

/-- strings.c:873-904 `STRING_replace`. -/
def replace (handle : Option Mem) (target repl : UInt8) : C (Option Mem × Bool) :=
  match handle with
  | none => C.ok (none, false)
  | some m =>
    if target = repl then C.ok (some m, true)
    else do
      let length ← slen m
      let m ← replaceLoop m target repl 0 length
      pure (some m, true)

end CUtil.Strings
