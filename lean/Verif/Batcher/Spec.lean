import Verif.Batcher.Model
import Verif.MemoryData.Spec
/-
The batch format: the first buffer holds big endian 32 bit words, first the number of payloads, then the number of
buffers of each payload; the other buffers are those of the payloads one after the other.
-/
namespace CUtil.Batcher
open CUtil.ConstBufferArray CUtil.MemoryData.Spec

/-- The bytes of a header holding these words. -/
def words (ws : List Nat) : List UInt8 := (ws.map (beBytes 4)).flatten

/-- Header of a batch with the given numbers of buffers per payload. -/
def headerBytes (counts : List Nat) : List UInt8 := words (counts.length :: counts)

/-- Cut a list into consecutive pieces of the given lengths; `none` if there are not enough elements. -/
def pieces : List Nat → List Buf → Option (List (List Buf))
  | [], _ => some []
  | c :: cs, bs => if c ≤ bs.length then (pieces cs (bs.drop c)).map (bs.take c :: ·) else none

end CUtil.Batcher
