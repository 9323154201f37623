/-
The textual form of a UUID, as a grammar independent of the parser.
-/
namespace CUtil.Uuid.Spec

/-- `c` is a hexadecimal digit (either case) of value `v`. -/
def HexDigit (c : UInt8) (v : Nat) : Prop :=
  (v < 10 ∧ c.toNat = 48 + v) ∨ (10 ≤ v ∧ v < 16 ∧ c.toNat = 97 + (v - 10)) ∨
  (10 ≤ v ∧ v < 16 ∧ c.toNat = 65 + (v - 10))

/-- `text` spells the bytes `bs`, two hexadecimal digits each, high nibble first. -/
inductive HexText : List UInt8 → List UInt8 → Prop
  | nil : HexText [] []
  | cons {a b : UInt8} {h l : Nat} {text bs : List UInt8} :
      HexDigit a h → HexDigit b l → HexText text bs →
      HexText (a :: b :: text) (UInt8.ofNat (16 * h + l) :: bs)

/-- `s` is the text `hhhhhhhh-hhhh-hhhh-hhhh-hhhhhhhhhhhh` of the 16 bytes `u`. -/
def Denotes (s u : List UInt8) : Prop :=
  ∃ t1 t2 t3 t4 t5 u1 u2 u3 u4 u5 : List UInt8,
    s = t1 ++ [45] ++ t2 ++ [45] ++ t3 ++ [45] ++ t4 ++ [45] ++ t5 ∧
    u = u1 ++ u2 ++ u3 ++ u4 ++ u5 ∧
    u1.length = 4 ∧ u2.length = 2 ∧ u3.length = 2 ∧ u4.length = 2 ∧ u5.length = 6 ∧
    HexText t1 u1 ∧ HexText t2 u2 ∧ HexText t3 u3 ∧ HexText t4 u4 ∧ HexText t5 u5

/-- No upper case letter: every character is a digit, a letter from `a` to `f` or a dash. -/
def Lower (s : List UInt8) : Prop :=
  ∀ c ∈ s, (48 ≤ c.toNat ∧ c.toNat ≤ 57) ∨ (97 ≤ c.toNat ∧ c.toNat ≤ 102) ∨ c = 45

end CUtil.Uuid.Spec
