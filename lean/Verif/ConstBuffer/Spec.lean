import Verif.MemoryData.Spec
/-
The wire format of a serialized buffer, independent of the model: one version byte 1, the
content length as four big-endian bytes, the content.
-/
namespace CUtil.ConstBuffer.Spec
open CUtil.MemoryData.Spec (beBytes)

def format (c : List UInt8) : List UInt8 := 1 :: (beBytes 4 c.length ++ c)

/-- `src` starts with the serialization of `c`. -/
def StartsWith (src c : List UInt8) : Prop := ∃ rest, src = format c ++ rest

end CUtil.ConstBuffer.Spec
