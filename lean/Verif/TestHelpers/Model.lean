import Verif.Base
import Verif.Uuid.Model
import Verif.Strings.Model

/-
Two test helpers: /repo/test_helpers/src/guid_as_string.c (GUIDs as text) and
/repo/test_helpers/src/rc_string_test_type.c (how asserts and mocks compare, copy and free RC_STRING handles).

real_uuid_* are the functions of uuid_string.c (Verif/Uuid).  uuid_produce and GUID_from_uuid (c_pal) and
umocktypes_*_const_charptr (umock_c) are not in the repository: the first two are given by what they return, the last
are modelled by their documented contract.  Logging is left out.
-/
namespace CUtil.TestHelpers

/-- guid_as_string.c:19-40 `getGuidAsString`.  `produced` is what real_uuid_produce stores (`none`: it fails), `allocOk`
whether real_uuid_to_string gets memory.  The result is NULL or the characters before the terminator. -/
def getGuidAsString (produced : Option (List UInt8)) (allocOk : Bool) : C (Option (List UInt8)) :=
  match produced with
  | none => pure none
  | some u => Uuid.uuid_to_string allocOk u

/-- guid_as_string.c:47-90 `getGuidFromString`.  `convert` is GUID_from_uuid: what it stores for the 16 bytes of a
uuid, `none` when it fails (in which case nothing is said about `*guid`, which the model leaves as it was).
`guid = none` is the NULL pointer.  The answer: 0 or not, and `*guid` afterwards. -/
def getGuidFromString {γ : Type} (convert : Mem → Option γ) (guidAsString : Option (List UInt8)) (guid : Option γ) :
    C (Bool × Option γ) :=
  match guidAsString, guid with
  | some m, some g => do
    let len ← strlen m
    if len ≠ 36 then pure (false, some g)
    else do
      let (r, u) ← Uuid.uuid_from_string (some m) (some (uninit 16))
      if r ≠ .ok then pure (false, some g)
      else match u.bind convert with
        | none => pure (false, some g)
        | some g' => pure (true, some g')
  | _, g => pure (false, g)

/-- A THANDLE(RC_STRING): NULL, or an object whose `string` is NULL or points to a block. -/
abbrev Handle := Option (Option Mem)

/-- rc_string_test_type.c:30-65 `TEST_THANDLE_RC_STRING_Compare`; `strcmp`'s result is modelled by its sign. -/
def compare (left right : Handle) : C Int :=
  match left, right with
  | none, none => pure 0
  | none, some _ => pure (-1)
  | some _, none => pure 1
  | some none, some none => pure 0
  | some none, some (some _) => pure (-1)
  | some (some _), some none => pure 1
  | some (some a), some (some b) => Strings.strcmp a b

/-- umocktypes_are_equal_const_charptr of umock_c (contract) for two strings that are not NULL. -/
def charptrEqual (a b : Mem) : C Int := do
  let r ← Strings.strcmp a b
  pure (if r = 0 then 1 else 0)

/-- rc_string_test_type.c:112-142 `umocktypes_are_equal_THANDLE_RC_STRING`; the outer `none` is a NULL argument.
Two handles that are both NULL are the same pointer; a NULL one and another are not (lines 121-131). -/
def areEqual (left right : Option Handle) : C Int :=
  match left, right with
  | some none, some none => pure 1
  | some none, some (some _) => pure 0
  | some (some _), some none => pure 0
  | some (some (some a)), some (some (some b)) => charptrEqual a b
  | some (some _), some (some _) => pure 0
  | _, _ => pure (-1)

/-- The reference counts of the RC_STRING objects, by handle. -/
abbrev Refs := Nat → Nat

/-- rc_string_test_type.c:144-161 `umocktypes_copy_THANDLE_RC_STRING`.  The outer `none` is a NULL argument, the inner
one the NULL handle.  Taking a reference to an object without one is a use after free.  The answer: success,
`*destination` afterwards (`none` when nothing was stored), the counts. -/
def copy (refs : Refs) (destinationNull : Bool) (source : Option (Option Nat)) : C (Bool × Option (Option Nat) × Refs) :=
  match destinationNull, source with
  | false, some none => pure (true, some none, refs)
  | false, some (some p) =>
    if refs p = 0 then C.ub else pure (true, some (some p), fun q => if q = p then refs q + 1 else refs q)
  | _, _ => pure (false, none, refs)

/-- rc_string_test_type.c:163-169 `umocktypes_free_THANDLE_RC_STRING`: `*value` afterwards and the counts. -/
def free (refs : Refs) (value : Option (Option Nat)) : C (Option (Option Nat) × Refs) :=
  match value with
  | some (some p) =>
    if refs p = 0 then C.ub else pure (some none, fun q => if q = p then refs q - 1 else refs q)
  | v => pure (v, refs)

end CUtil.TestHelpers
