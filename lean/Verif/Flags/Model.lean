import Verif.Base
/-
FLAGS_TO_STRING: /repo/inc/c_util/flags_to_string.h.

The macro generates one function from a list of pairs (flag, name); the model has the list as an argument.
`sprintf_char` (c_pal) is printf into a fresh string: of its conversions `%s` and `%#.8x` are used, the latter for
a number that is not zero; whether it succeeds is a parameter.
-/
namespace CUtil.Flags
open CUtil

/-- A hexadecimal digit as printf writes it. -/
def hexDigit (n : Nat) : UInt8 := if n < 10 then UInt8.ofNat (48 + n) else UInt8.ofNat (87 + n)

/-- The last `n` hexadecimal digits of `v`. -/
def hexDigits : Nat → Nat → List UInt8
  | 0, _ => []
  | n + 1, v => hexDigits n (v / 16) ++ [hexDigit (v % 16)]

/-- `%#.8x` of a number below 2^32 that is not zero: `0x` and eight digits. -/
def fmtHex (v : Nat) : List UInt8 := [48, 120] ++ hexDigits 8 v

/-- `" | "`. -/
def sep : List UInt8 := [32, 124, 32]

/-- `"UNKNOWN_FLAG("`. -/
def unknownOpen : List UInt8 := [85, 78, 75, 78, 79, 87, 78, 95, 70, 76, 65, 71, 40]

/-- flags_to_string.h:89-91 `MAKE_SEPARATOR_AND_VALUE` for each pair in turn: what `"%s%s"` prints for it, the
argument and `firstFlag` afterwards. -/
def pairs : List (Nat × List UInt8) → Nat → Bool → List UInt8 × Nat × Bool
  | [], argument, firstFlag => ([], argument, firstFlag)
  | (flag, name) :: rest, argument, firstFlag =>
    -- line 90
    let (separator, firstFlag') :=
      if argument &&& flag = flag then (if firstFlag then ([], false) else (sep, firstFlag)) else ([], firstFlag)
    -- line 91; `~FLAG` on uint32_t
    let (value, argument') :=
      if argument &&& flag = flag then (name, argument &&& (4294967295 ^^^ flag)) else ([], argument)
    let (out, a, f) := pairs rest argument' firstFlag'
    (separator ++ value ++ out, a, f)

/-- flags_to_string.h:23-80 `FLAGS_TO_STRING(X)`; `ok`: outcome of `sprintf_char`. -/
def flagsToString (table : List (Nat × List UInt8)) (argument : Nat) (ok : Bool) : Option (List UInt8) :=
  let (out, argument', firstFlag) := pairs table argument true
  if argument' ≠ 0 then
    let unknownSeparator := if firstFlag then [] else sep
    if ok then some (out ++ unknownSeparator ++ unknownOpen ++ fmtHex argument' ++ [41]) else none
  else
    if ok then some out else none

end CUtil.Flags
