import Verif.Base
/-
Model of /repo/src/uuid_string.c.  Strings are memory blocks of bytes; a pointer is a block
and an offset.  A UUID_T is a block of 16 cells.  `LogError` calls are left out except the
one at line 130, because it prints the input with "%s" and thereby reads it up to a NUL.
-/
namespace CUtil.Uuid
open CUtil

/-- `UUID_FROM_STRING_RESULT` (uuid_string.h). -/
inductive Result where
  | invalidArg
  | invalidData
  | ok
deriving DecidableEq, Repr

/-- uuid_string.c:19-48 `isHexDigit`: `none` is `false`, `some v` is `true` with `*value = v`. -/
def isHexDigit (c : UInt8) : Option UInt8 :=
  if 48 ≤ c.toNat ∧ c.toNat ≤ 57 then some (UInt8.ofNat (c.toNat - 48))
  else if 97 ≤ c.toNat ∧ c.toNat ≤ 102 then some (UInt8.ofNat (0xA + c.toNat - 97))
  else if 65 ≤ c.toNat ∧ c.toNat ≤ 70 then some (UInt8.ofNat (0xA + c.toNat - 65))
  else none

/-- uuid_string.c:50-73 `isHexByte`; the second character is read only if the first is a digit. -/
def isHexByte (s : List UInt8) (o : Nat) : C (Option UInt8) := do
  let c ← rd s o
  match isHexDigit c with
  | none => pure none
  | some high => do
    let c' ← rd s (o + 1)
    match isHexDigit c' with
    | none => pure none
    | some low => pure (some (UInt8.ofNat ((high.toNat <<< 4) + low.toNat)))

/-- uuid_string.c:75-89 `parseHexString`: parses `numbers` bytes at `s + o` into `dst + d`. -/
def parseHexString (s : List UInt8) (o : Nat) : (numbers : Nat) → (dst : Mem) → (d : Nat) → C (Bool × Mem)
  | 0, dst, _ => pure (true, dst)
  | n + 1, dst, d => do
    let r ← isHexByte s o
    match r with
    | none => pure (false, dst)
    | some b => do
      let dst ← wr dst d b
      parseHexString s (o + 2) n dst (d + 1)

/-- One `(uuid_string[o] != '-') || !parseHexString(uuid_string + o + 1, n, uuid->bytes + d)` step
of the condition at uuid_string.c:118-128 (short-circuit evaluation). -/
def dashGroup (s : List UInt8) (o n : Nat) (dst : Mem) (d : Nat) : C (Bool × Mem) := do
  let c ← rd s o
  if c ≠ 45 then pure (false, dst)
  else parseHexString s (o + 1) n dst d

/-- uuid_string.c:118-128: the whole condition, `true` when every part matched. -/
def parse (s : List UInt8) (dst : Mem) : C (Bool × Mem) := do
  let (ok, dst) ← parseHexString s 0 4 dst 0
  if !ok then pure (false, dst) else do
  let (ok, dst) ← dashGroup s 8 2 dst 4
  if !ok then pure (false, dst) else do
  let (ok, dst) ← dashGroup s 13 2 dst 6
  if !ok then pure (false, dst) else do
  let (ok, dst) ← dashGroup s 18 2 dst 8
  if !ok then pure (false, dst) else do
  dashGroup s 23 6 dst 10

/-- uuid_string.c:91-141 `uuid_from_string`; `none` arguments are NULL.  Returns the result code
and the destination afterwards. -/
def uuid_from_string (uuid_string : Option (List UInt8)) (uuid : Option Mem) : C (Result × Option Mem) :=
  match uuid_string, uuid with
  | some s, some dst => do
    let (ok, dst) ← parse s dst
    if !ok then do
      let _ ← strlen s -- line 130, "%s"
      pure (.invalidData, some dst)
    else pure (.ok, some dst)
  | _, u => pure (.invalidArg, u)

/-- A lower case hexadecimal digit, as printed by "%x". -/
def hexChar (n : Nat) : UInt8 := if n < 10 then UInt8.ofNat (48 + n) else UInt8.ofNat (97 + (n - 10))

/-- "%02x". -/
def hex2 (b : UInt8) : List UInt8 := [hexChar (b.toNat / 16), hexChar (b.toNat % 16)]

/-- uuid_string.c:143-158 `uuid_to_string`: `sprintf_char("%" PRI_UUID_T, UUID_T_VALUES(uuid))`.
`PRI_UUID_T` is "%02x%02x%02x%02x-%02x%02x-%02x%02x-%02x%02x-%02x%02x%02x%02x%02x%02x" (c-pal,
assumed).  `allocOk` is the allocation in `sprintf_char`; reads outside the 16 bytes are undefined. -/
def uuid_to_string (allocOk : Bool) (u : List UInt8) : C (Option (List UInt8)) := do
  let b0 ← rd u 0; let b1 ← rd u 1; let b2 ← rd u 2; let b3 ← rd u 3
  let b4 ← rd u 4; let b5 ← rd u 5; let b6 ← rd u 6; let b7 ← rd u 7
  let b8 ← rd u 8; let b9 ← rd u 9; let b10 ← rd u 10; let b11 ← rd u 11
  let b12 ← rd u 12; let b13 ← rd u 13; let b14 ← rd u 14; let b15 ← rd u 15
  if !allocOk then pure none
  else pure (some (hex2 b0 ++ hex2 b1 ++ hex2 b2 ++ hex2 b3 ++ [45] ++ hex2 b4 ++ hex2 b5 ++ [45]
    ++ hex2 b6 ++ hex2 b7 ++ [45] ++ hex2 b8 ++ hex2 b9 ++ [45]
    ++ hex2 b10 ++ hex2 b11 ++ hex2 b12 ++ hex2 b13 ++ hex2 b14 ++ hex2 b15))

end CUtil.Uuid
