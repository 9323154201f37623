import Verif.Base
/-
Model of /repo/src/azure_base64.c.

`char` values are bytes (`UInt8`); every comparison in the file is against ASCII
constants, so signedness of `char` does not matter.  `unsigned char` operands are
promoted to `int`: intermediate values are `Nat`, and the store back into an
`unsigned char` is `UInt8.ofNat` (reduction modulo 256).  Logging is left out.
-/
namespace CUtil.Base64
open CUtil

/-- azure_base64.c:15 `joinChars` (uint32_t arithmetic). -/
def joinChars (a b c d : Nat) : Nat := (a + (b <<< 8) + (c <<< 16) + (d <<< 24)) % 2 ^ 32

/-- azure_base64.c:14 `splitInt`. -/
def splitInt (intVal bytePos : Nat) : UInt8 := UInt8.ofNat ((intVal >>> (bytePos <<< 3)) &&& 0xFF)

/-- azure_base64.c:17-43 `base64char`. -/
def base64char (val : UInt8) : UInt8 :=
  if val.toNat < 26 then UInt8.ofNat (65 + val.toNat)
  else if val.toNat < 52 then UInt8.ofNat (97 + (val.toNat - 26))
  else if val.toNat < 62 then UInt8.ofNat (48 + (val.toNat - 52))
  else if val.toNat = 62 then 43
  else 47

/-- azure_base64.c:47-52, the table of `base64b16`: "AEIM" "QUYc" "gkos" "w048". -/
def base64b16values : List Nat :=
  [joinChars 65 69 73 77, joinChars 81 85 89 99, joinChars 103 107 111 115, joinChars 119 48 52 56]

/-- azure_base64.c:45-54 `base64b16`. -/
def base64b16 (val : UInt8) : C UInt8 := do
  let w ← rd base64b16values (val.toNat >>> 2)
  pure (splitInt w (val.toNat &&& 3))

/-- azure_base64.c:56-60 `base64b8`: 'A' 'Q' 'g' 'w'.  A shift by 32 or more is undefined. -/
def base64b8 (val : UInt8) : C UInt8 :=
  if val.toNat <<< 3 < 32 then C.ok (splitInt (joinChars 65 81 103 119) val.toNat) else C.ub

/-- azure_base64.c:62-91 `base64toValue`: the returned `int` and the byte stored in `*value`. -/
def base64toValue (c : UInt8) : Int × UInt8 :=
  if 65 ≤ c.toNat ∧ c.toNat ≤ 90 then (0, UInt8.ofNat (c.toNat - 65))
  else if 97 ≤ c.toNat ∧ c.toNat ≤ 122 then (0, UInt8.ofNat (25 + 1 + (c.toNat - 97)))
  else if 48 ≤ c.toNat ∧ c.toNat ≤ 57 then (0, UInt8.ofNat (25 + 1 + 25 + 1 + (c.toNat - 48)))
  else if c.toNat = 43 then (0, 62)
  else if c.toNat = 47 then (0, 63)
  else (-1, 0)

/-- azure_base64.c:93-102 `numberOfBase64Characters`.  The argument is the part of the
memory block from `encodedString[length]` on; reading past the block is undefined. -/
def numberOfBase64Characters : List UInt8 → C Nat
  | [] => C.ub
  | c :: cs =>
    if (base64toValue c).1 ≠ -1 then (· + 1) <$> numberOfBase64Characters cs else C.ok 0

/-- azure_base64.c:106-128 `Base64decode_len`.  `sourceLength - 2` is only evaluated when the
string is non-empty; for a one character string it would wrap around and read out of bounds. -/
def base64decode_len (m : List UInt8) : C Nat := do
  let sourceLength ← strlen m
  if sourceLength = 0 then pure 0
  else do
    let last ← rd m (sourceLength - 1)
    if last = 61 then do
      let last2 ← if sourceLength < 2 then C.ub else rd m (sourceLength - 2)
      let r := sourceLength / 4 * 3
      let r := if last2 = 61 then r - 1 else r
      pure (r - 1)
    else pure (sourceLength / 4 * 3)

/-- The byte stored by azure_base64.c:156, 173, 183. -/
def dec1 (c1 c2 : UInt8) : UInt8 := UInt8.ofNat ((c1.toNat <<< 2) ||| (c2.toNat >>> 4))
/-- The byte stored by azure_base64.c:158, 185. -/
def dec2 (c2 c3 : UInt8) : UInt8 := UInt8.ofNat (((c2.toNat &&& 0x0f) <<< 4) ||| (c3.toNat >>> 2))
/-- The byte stored by azure_base64.c:160. -/
def dec3 (c3 c4 : UInt8) : UInt8 := UInt8.ofNat (((c3.toNat &&& 0x03) <<< 6) ||| c4.toNat)

/-- azure_base64.c:146-165, the loop of `Base64decode`.
State: output block, `numberOfEncodedChars`, `indexOfFirstEncodedChar`, `decodedIndex`. -/
def decodeLoop (m : List UInt8) (dst : Mem) (n idx di : Nat) : C (Mem × Nat × Nat × Nat) :=
  if 4 ≤ n then do
    let c1 := (base64toValue (← rd m idx)).2
    let c2 := (base64toValue (← rd m (idx + 1))).2
    let c3 := (base64toValue (← rd m (idx + 2))).2
    let c4 := (base64toValue (← rd m (idx + 3))).2
    let dst ← wr dst di (dec1 c1 c2)
    let dst ← wr dst (di + 1) (dec2 c2 c3)
    let dst ← wr dst (di + 1 + 1) (dec3 c3 c4)
    decodeLoop m dst (n - 4) (idx + 4) (di + 1 + 1 + 1)
  else pure (dst, n, idx, di)
termination_by n

/-- azure_base64.c:130-187 `Base64decode`. -/
def base64decode (dst : Mem) (m : List UInt8) : C Mem := do
  let n0 ← numberOfBase64Characters m
  let (dst, n, idx, di) ← decodeLoop m dst n0 0 0
  if n = 2 then do
    let c1 := (base64toValue (← rd m idx)).2
    let c2 := (base64toValue (← rd m (idx + 1))).2
    wr dst di (dec1 c1 c2)
  else if n = 3 then do
    let c1 := (base64toValue (← rd m idx)).2
    let c2 := (base64toValue (← rd m (idx + 1))).2
    let c3 := (base64toValue (← rd m (idx + 2))).2
    let dst ← wr dst di (dec1 c1 c2)
    wr dst (di + 1) (dec2 c2 c3)
  else pure dst

/-- azure_base64.c:189-235 `Azure_Base64_Decode`.  The argument is NULL (`none`) or the memory
block the pointer points to.  The result is NULL (`none`) or the cells of the new BUFFER.
`newOk`/`preBuildOk` say whether `BUFFER_new`/`BUFFER_pre_build` obtain memory. -/
def decode (newOk preBuildOk : Bool) (source : Option (List UInt8)) : C (Option Mem) :=
  match source with
  | none => pure none
  | some m => do
    let len ← strlen m
    if len % 4 ≠ 0 then pure none
    else if !newOk then pure none
    else do
      let size ← base64decode_len m
      if size > 0 then
        if !preBuildOk then pure none
        else some <$> base64decode (uninit size) m
      else pure (some [])

/-- azure_base64.c:259-279, the loop of `Base64_Encode_Internal`.
State: output block, `currentPosition`, `destinationPosition`.
(`size - currentPosition` never underflows: the loop only advances while 3 bytes are left.) -/
def encodeLoop (src : List UInt8) (dst : Mem) (cur dp : Nat) : C (Mem × Nat × Nat) :=
  if 3 ≤ src.length - cur then do
    let b0 ← rd src cur
    let b1 ← rd src (cur + 1)
    let b2 ← rd src (cur + 2)
    let c1 := base64char (UInt8.ofNat (b0.toNat >>> 2))
    let c2 := base64char (UInt8.ofNat (((b0.toNat &&& 3) <<< 4) ||| (b1.toNat >>> 4)))
    let c3 := base64char (UInt8.ofNat (((b1.toNat &&& 0x0F) <<< 2) ||| ((b2.toNat >>> 6) &&& 3)))
    let c4 := base64char (UInt8.ofNat (b2.toNat &&& 0x3F))
    let dst ← wr dst dp c1
    let dst ← wr dst (dp + 1) c2
    let dst ← wr dst (dp + 1 + 1) c3
    let dst ← wr dst (dp + 1 + 1 + 1) c4
    encodeLoop src dst (cur + 3) (dp + 1 + 1 + 1 + 1)
  else pure (dst, cur, dp)
termination_by src.length - cur

/-- azure_base64.c:280-304, the tail of `Base64_Encode_Internal`. -/
def encodeTail (src : List UInt8) (dst : Mem) (cur dp : Nat) : C Mem := do
  if src.length - cur = 2 then do
    let b0 ← rd src cur
    let b1 ← rd src (cur + 1)
    let c1 := base64char (UInt8.ofNat (b0.toNat >>> 2))
    let c2 := base64char (UInt8.ofNat (((b0.toNat &&& 0x03) <<< 4) ||| (b1.toNat >>> 4)))
    let c3 ← base64b16 (UInt8.ofNat (b1.toNat &&& 0x0F))
    let dst ← wr dst dp c1
    let dst ← wr dst (dp + 1) c2
    let dst ← wr dst (dp + 1 + 1) c3
    let dst ← wr dst (dp + 1 + 1 + 1) 61
    wr dst (dp + 1 + 1 + 1 + 1) 0
  else if src.length - cur = 1 then do
    let b0 ← rd src cur
    let c1 := base64char (UInt8.ofNat (b0.toNat >>> 2))
    let c2 ← base64b8 (UInt8.ofNat (b0.toNat &&& 0x03))
    let dst ← wr dst dp c1
    let dst ← wr dst (dp + 1) c2
    let dst ← wr dst (dp + 1 + 1) 61
    let dst ← wr dst (dp + 1 + 1 + 1) 61
    wr dst (dp + 1 + 1 + 1 + 1) 0
  else wr dst dp 0

/-- azure_base64.c:244, the member count passed to `malloc_flex(1, _, 4)`. -/
def groups (size : Nat) : Nat := if size = 0 then 0 else (size - 1) / 3 + 1

/-- azure_base64.c:238-314 `Base64_Encode_Internal`.  `malloc_flex` refuses (returns NULL) when
`1 + groups * 4` does not fit in `size_t` (64 bits); otherwise `mallocOk` decides.
`stringOk` is the allocation inside `STRING_new_with_memory`.  The result is the C string
held by the STRING. -/
def encodeInternal (mallocOk stringOk : Bool) (src : List UInt8) : C (Option (List UInt8)) :=
  if !mallocOk ∨ 1 + groups src.length * 4 ≥ 2 ^ 64 then pure none
  else do
    let (dst, cur, dp) ← encodeLoop src (uninit (1 + groups src.length * 4)) 0 0
    let dst ← encodeTail src dst cur dp
    if !stringOk then pure none
    else some <$> cstr dst

/-- azure_base64.c:316-335 `Azure_Base64_Encode_Bytes`.  `none` is a NULL source. -/
def encodeBytes (mallocOk stringOk : Bool) (source : Option (List UInt8)) : C (Option (List UInt8)) :=
  match source with
  | none => pure none
  | some src =>
    if src.length = 0 then pure (if stringOk then some [] else none)
    else encodeInternal mallocOk stringOk src

/-- azure_base64.c:337-369 `Azure_Base64_Encode`.  The argument is NULL or the contents of the
BUFFER (`BUFFER_content` and `BUFFER_size` do not fail on a non-NULL handle). -/
def encode (mallocOk stringOk : Bool) (input : Option (List UInt8)) : C (Option (List UInt8)) :=
  match input with
  | none => pure none
  | some src => encodeInternal mallocOk stringOk src

end CUtil.Base64
