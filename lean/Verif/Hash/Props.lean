import Verif.Hash.Model
/-
C65: hash_compute_hash.
-/
namespace CUtil.Hash
open CUtil

theorem toInt_of_lt (n : Nat) (h : n < 2147483647) : toInt n = (n : Int) := by
  unfold toInt
  have : n % 2 ^ 32 = n := Nat.mod_eq_of_lt (by omega)
  rw [this, if_pos (by omega)]

/-- C65: it succeeds exactly for a buffer, a place for the result and a length from 1 to INT_MAX - 1, when the block is as long as said; the hash
is then that of exactly `length` bytes, so it depends on nothing else. -/
theorem succeeds (mm : List UInt8 → UInt32 → UInt32) (block : List UInt8) (length : Nat) (old : UInt32) (h1 : 0 < length) (h2 : length < 2147483647)
    (h3 : length ≤ block.length) : computeHash mm (some block) length (some old) = C.ok (true, some (mm (block.take length) 0)) := by
  unfold computeHash murmur
  dsimp only
  rw [if_neg (by omega), if_neg (by omega), toInt_of_lt length h2, if_neg (by omega), if_neg (by simp; omega)]
  simp

/-- C65: in all other cases it fails, whatever the block (it is not read), and the result is not touched. -/
theorem fails (mm : List UInt8 → UInt32 → UInt32) (buffer : Option (List UInt8)) (length : Nat) (hash : Option UInt32)
    (h : buffer = none ∨ hash = none ∨ length = 0 ∨ 2147483647 ≤ length) : computeHash mm buffer length hash = C.ok (false, hash) := by
  unfold computeHash
  rcases h with h | h | h | h
  · subst h; cases hash <;> rfl
  · subst h; cases buffer <;> rfl
  · subst h; cases buffer <;> cases hash <;> rfl
  · cases buffer <;> cases hash <;> try rfl
    dsimp only
    rw [if_neg (by omega), if_pos h]

/-- C65: it reads all of the `length` bytes: it is undefined exactly when there are fewer. -/
theorem undefined_iff (mm : List UInt8 → UInt32 → UInt32) (buffer : Option (List UInt8)) (length : Nat) (hash : Option UInt32) :
    computeHash mm buffer length hash = C.ub ↔
      ∃ block, buffer = some block ∧ hash ≠ none ∧ block.length < length ∧ length < 2147483647 := by
  constructor
  · intro h
    by_cases q : buffer = none ∨ hash = none ∨ length = 0 ∨ 2147483647 ≤ length
    · rw [fails mm buffer length hash q] at h; cases h
    · cases buffer with
      | none => exact absurd (Or.inl rfl) q
      | some block =>
        cases hash with
        | none => exact absurd (Or.inr (Or.inl rfl)) q
        | some old =>
          refine ⟨block, rfl, by simp, ?_, by omega⟩
          apply Decidable.byContradiction
          intro q'
          rw [succeeds mm block length old (by omega) (by omega) (by omega)] at h
          cases h
  · rintro ⟨block, rfl, hh, h1, h2⟩
    cases hash with
    | none => exact absurd rfl hh
    | some old =>
      unfold computeHash murmur
      dsimp only
      rw [if_neg (by omega), if_neg (by omega), toInt_of_lt length h2, if_neg (by omega), if_pos (by simp; omega)]
      rfl

/-- C65: equal bytes have equal hashes, wherever they are and whatever follows them. -/
theorem same_bytes_same_hash (mm : List UInt8 → UInt32 → UInt32) (bytes after1 after2 : List UInt8) (old1 old2 : UInt32) (h1 : bytes ≠ [])
    (h2 : bytes.length < 2147483647) :
    ∃ v, computeHash mm (some (bytes ++ after1)) bytes.length (some old1) = C.ok (true, some v) ∧
      computeHash mm (some (bytes ++ after2)) bytes.length (some old2) = C.ok (true, some v) := by
  have h : 0 < bytes.length := by cases bytes <;> simp at h1 ⊢
  refine ⟨mm bytes 0, ?_, ?_⟩ <;> rw [succeeds _ _ _ _ h h2 (by simp)] <;> simp

example : computeHash (fun l s => s + UInt32.ofNat l.sum.toNat) (some [1, 2, 3, 4]) 3 (some 77) = C.ok (true, some 6) := by decide
example : computeHash (fun l s => s + UInt32.ofNat l.sum.toNat) (some [1, 2, 3, 4]) 0 (some 77) = C.ok (false, some 77) := by decide
example : computeHash (fun l s => s + UInt32.ofNat l.sum.toNat) (some [1, 2, 3, 4]) 5 (some 77) = C.ub := by decide
example : ([1, 2] : List UInt8) ≠ [] ∧ ([1, 2] : List UInt8).length < 2147483647 := by decide

end CUtil.Hash
