import Verif.ConstBufferArray.Model
/-
What the functions of constbuffer_array.c are expected to do: an array is a list of buffers, and a call
that succeeds leaves the new array owning exactly one reference on each of its elements.
-/
namespace CUtil.ConstBufferArray

/-- Net number of references on `b` a call has taken. -/
def balance (evs : List Ev) (b : Buf) : Int :=
  ((evs.count (.inc b) + evs.count (.mk b) : Nat) : Int) - (evs.count (.dec b) : Nat)

/-- A call took exactly one reference for each element of `bs`, and gave back everything else. -/
def Takes (evs : List Ev) (bs : List Buf) : Prop := ∀ b, balance evs b = (bs.count b : Nat)

/-- The call succeeded with a new array holding exactly `bs`, one reference taken on each element. -/
def Yields (r : C (Out × List Ev)) (bs : List Buf) : Prop :=
  ∃ evs, r = C.ok (.fresh (bs.map some), evs) ∧ Takes evs bs

/-- The call failed and holds no reference. -/
def FailsClean (r : C (Out × List Ev)) : Prop := ∃ evs, r = C.ok (.null, evs) ∧ Takes evs []

/-- All but the last of a list of byte strings, and the first `n` bytes of the last. -/
def cutLast : List (List UInt8) → Nat → List (List UInt8)
  | [], _ => []
  | [b], n => [b.take n]
  | b :: rest, n => b :: cutLast rest n

/-- The byte strings of a sub range: drop `off` bytes of the first; of the last take `n` bytes (counted from `off` when
it is also the first). -/
def cut : List (List UInt8) → Nat → Nat → List (List UInt8)
  | [], _, _ => []
  | b :: rest, off, n => cutLast (b.drop off :: rest) n

/-- The cut is possible: it lies inside the first and the last buffer. -/
def fits : List Buf → Nat → Nat → Prop
  | [], _, _ => True
  | [b], off, n => off + n ≤ b.size
  | b :: c :: rest, off, n => off ≤ b.size ∧ n ≤ ((c :: rest).getLast (by simp)).size

/-- Total number of bytes. -/
def totalSize (bs : List Buf) : Nat := (bs.map Buf.size).sum

/-- The bytes of each buffer. -/
def contents (bs : List Buf) : List (List UInt8) := bs.map Buf.bytes

end CUtil.ConstBufferArray
