import Verif.Uuid.Spec
import Verif.TestHelpers.Model

/-! What a handle stands for. -/
namespace CUtil.TestHelpers.Spec

/-- NULL, or the text of the RC_STRING. -/
inductive Val where
  | null
  | text (s : List UInt8)
  deriving DecidableEq, Repr

/-- NULL first, the texts in lexicographic order of their bytes. -/
def Less : Val → Val → Prop
  | .null, .text _ => True
  | .text s, .text t => s < t
  | _, _ => False

/-- The handle `h`, NULL or to a string as the rc_string functions make them (never one whose text pointer is NULL:
RcString.refusals), stands for `v`. -/
def Stands (h : Handle) (v : Val) : Prop :=
  match h, v with
  | none, .null => True
  | some (some m), .text s => cstr m = C.ok s
  | _, _ => False

end CUtil.TestHelpers.Spec
