/-
Specification of Base64 (RFC 4648, standard alphabet, with padding), written with plain
arithmetic on numbers and without reference to the model.
-/
namespace CUtil.Base64.Spec

/-- The 64 characters of the alphabet, in order (RFC 4648 table 1):
A-Z, a-z, 0-9, '+', '/'. -/
def alphabet : List UInt8 :=
  [65, 66, 67, 68, 69, 70, 71, 72, 73, 74, 75, 76, 77, 78, 79, 80, 81, 82, 83, 84, 85, 86, 87, 88, 89, 90,
   97, 98, 99, 100, 101, 102, 103, 104, 105, 106, 107, 108, 109, 110, 111, 112, 113, 114, 115, 116, 117, 118, 119, 120, 121, 122,
   48, 49, 50, 51, 52, 53, 54, 55, 56, 57, 43, 47]

/-- '='. -/
def padChar : UInt8 := 61

/-- The character for the low 6 bits of `v`. -/
def sym (v : Nat) : UInt8 :=
  alphabet[v % 64]'(by show v % 64 < 64; exact Nat.mod_lt _ (by decide))

/-- RFC 4648 section 4.  Three bytes form a 24 bit number, written as four base-64 digits.
A final group of one (two) bytes is filled with zero bits to 12 (18) bits, written as two
(three) digits, and padded with '='. -/
def encode : List UInt8 → List UInt8
  | b0 :: b1 :: b2 :: rest =>
    let v := b0.toNat * 65536 + b1.toNat * 256 + b2.toNat
    sym (v / 262144) :: sym (v / 4096) :: sym (v / 64) :: sym v :: encode rest
  | [b0, b1] =>
    let v := (b0.toNat * 256 + b1.toNat) * 4
    [sym (v / 4096), sym (v / 64), sym v, padChar]
  | [b0] =>
    let v := b0.toNat * 16
    [sym (v / 64), sym v, padChar, padChar]
  | [] => []

/-- The 6 bit value of an alphabet character: its position in the alphabet. -/
def val (c : UInt8) : Nat := alphabet.idxOf c

/-- The bytes denoted by a run of alphabet characters: each group of four characters is a
24 bit number, i.e. three bytes; a final group of three (two) characters denotes two (one)
bytes, its low 2 (4) bits being ignored; a single left-over character denotes nothing. -/
def decodeBody : List UInt8 → List UInt8
  | c1 :: c2 :: c3 :: c4 :: rest =>
    let v := val c1 * 262144 + val c2 * 4096 + val c3 * 64 + val c4
    UInt8.ofNat (v / 65536) :: UInt8.ofNat (v / 256 % 256) :: UInt8.ofNat (v % 256) :: decodeBody rest
  | [c1, c2, c3] =>
    let v := val c1 * 4096 + val c2 * 64 + val c3
    [UInt8.ofNat (v / 1024), UInt8.ofNat (v / 4 % 256)]
  | [c1, c2] =>
    let v := val c1 * 64 + val c2
    [UInt8.ofNat (v / 16)]
  | [_] => []
  | [] => []

/-- Number of '=' that text produced by an encoder may end in: counted from the end, at most 2. -/
def padding (s : List UInt8) : Nat := min 2 (s.reverse.takeWhile (· == padChar)).length

/-- The leading characters of `s` that belong to the alphabet. -/
def body (s : List UInt8) : List UInt8 := s.takeWhile (· ∈ alphabet)

/-- Well formed Base64 text: length a multiple of four, alphabet characters only, followed by
at most two '='. -/
def WellFormed (s : List UInt8) : Prop :=
  s.length % 4 = 0 ∧ ∃ t : List UInt8, ∃ k, k ≤ 2 ∧ (∀ c ∈ t, c ∈ alphabet) ∧
    s = t ++ List.replicate k padChar

end CUtil.Base64.Spec
