import Verif.Base
/-
filename_append_suffix: /repo/src/filename_helper.c.

A string is the list of its bytes before the terminating zero. `sprintf_char` (c_pal) is printf into a fresh string:
`%s` prints a string, `%.*s` at most so many bytes of it (all of it when the precision is negative, C11 7.21.6.1), and,
as every printf, it fails when the text is longer than INT_MAX. Other failures (no memory) are a parameter.
-/
namespace CUtil.Filename
open CUtil

/-- C `strrchr`: offset of the last occurrence. -/
def strrchr (c : UInt8) : List UInt8 → Option Nat
  | [] => none
  | x :: xs => match strrchr c xs with
    | some i => some (i + 1)
    | none => if x = c then some 0 else none

/-- Printf of `%.*s` with the precision `(int)n`. -/
def precStr (n : Nat) (s : List UInt8) : List UInt8 :=
  if n % 4294967296 < 2147483648 then s.take (n % 4294967296) else s

/-- `sprintf_char` of the text given; `ok`: the memory is there. -/
def sprintf (text : List UInt8) (ok : Bool) : Option (List UInt8) :=
  if ok ∧ text.length ≤ 2147483647 then some text else none

/-- filename_helper.c:13-68 `filename_append_suffix`; `none`: a NULL pointer. -/
def appendSuffix (filename suffix : Option (List UInt8)) (ok : Bool) : Option (List UInt8) :=
  match filename, suffix with
  | some filename, some suffix =>
    match strrchr 46 filename, strrchr 92 filename with
    | none, _ => sprintf (filename ++ suffix) ok
    | some dot, some backslash =>
      if dot < backslash then sprintf (filename ++ suffix) ok
      else sprintf (precStr dot filename ++ suffix ++ filename.drop dot) ok
    | some dot, none => sprintf (precStr dot filename ++ suffix ++ filename.drop dot) ok
  | _, _ => none

end CUtil.Filename
