import Verif.ConstBuffer.Model
import Verif.ConstBuffer.Spec
import Verif.MemoryData.Props
set_option linter.unusedSimpArgs false
namespace CUtil.ConstBuffer
open CUtil CUtil.MemoryData

theorem format_length (c : List UInt8) : (Spec.format c).length = 5 + c.length := by
  simp [Spec.format, beBytes_length]; omega

/-- Writing the three fields over a block with room for them. -/
theorem writeAll_eq (c : List UInt8) (old post : Mem) (h : old.length = 5 + c.length) :
    writeAll (old ++ post) c = C.ok ((Spec.format c).map some ++ post) := by
  obtain ⟨o1, o2, rfl, h1⟩ : ∃ o1 o2, old = o1 ++ o2 ∧ o1.length = 1 :=
    ⟨old.take 1, old.drop 1, (List.take_append_drop 1 old).symm, by simp; omega⟩
  obtain ⟨o3, o4, rfl, h3⟩ : ∃ o3 o4, o2 = o3 ++ o4 ∧ o3.length = 4 :=
    ⟨o2.take 4, o2.drop 4, (List.take_append_drop 4 o2).symm, by simp at *; omega⟩
  have h4 : o4.length = c.length := by simp at h; omega
  have e1 := (write_unsigned_layout [] o1 (o3 ++ o4 ++ post) V1).1 h1
  have e2 := (write_unsigned_layout [some 1] o3 (o4 ++ post) c.length).2.2.1 h3
  have e3 := copyTo_eq c (some 1 :: (MemoryData.Spec.beBytes 4 c.length).map some) o4 post h4
  unfold writeAll
  have b1 : MemoryData.Spec.beBytes 1 V1 = [1] := by decide
  have q1 : o1 ++ (o3 ++ o4) ++ post = [] ++ o1 ++ (o3 ++ o4 ++ post) := by simp
  rw [q1, VERSION_OFFSET]
  rw [show (0 : Nat) = ([] : Mem).length from rfl, e1, C.ok_bind, b1]
  have q2 : ([] : Mem) ++ List.map some [1] ++ (o3 ++ o4 ++ post) = [some 1] ++ o3 ++ (o4 ++ post) := by simp
  rw [q2, SIZE_OFFSET]
  conv => lhs; arg 1; rw [show (1 : Nat) = [some (1 : UInt8)].length from rfl]
  rw [e2, C.ok_bind]
  have q3 : [some 1] ++ List.map some (MemoryData.Spec.beBytes 4 c.length) ++ (o4 ++ post) =
    (some 1 :: List.map some (MemoryData.Spec.beBytes 4 c.length)) ++ o4 ++ post := by simp
  have q4 : CONTENT_OFFSET = (some 1 :: List.map some (MemoryData.Spec.beBytes 4 c.length)).length := by
    simp [CONTENT_OFFSET, beBytes_length]
  rw [q3, q4, e3]
  simp [Spec.format]


/-- A block of at least five bytes: the first byte, the four size bytes, the rest. -/
theorem split5 (m : List UInt8) (h : 5 ≤ m.length) :
    ∃ v sz t, m = v :: (sz ++ t) ∧ sz.length = 4 := by
  match m, h with
  | v :: r, h =>
    exact ⟨v, r.take 4, r.drop 4, by rw [List.take_append_drop], by simp at *; omega⟩

theorem read_version (v : UInt8) (t : List UInt8) : read_u8 (v :: t) VERSION_OFFSET = C.ok v.toNat := by
  simp [read_u8, VERSION_OFFSET, rd_zero]

theorem read_size (d : Dialect) (v : UInt8) (sz t : List UInt8) (h : sz.length = 4)
    (hd : d = .wrap ∨ 2 * MemoryData.Spec.beVal sz < 256 ^ sz.length) :
    read_u32 d (v :: (sz ++ t)) SIZE_OFFSET = C.ok (MemoryData.Spec.beVal sz) := by
  have := (read_value_partial d [v] sz t hd).1 h
  simpa [SIZE_OFFSET] using this

theorem copy_content (v : UInt8) (sz c rest : List UInt8) (h : sz.length = 4) :
    copyFrom (v :: (sz ++ (c ++ rest))) CONTENT_OFFSET c.length = C.ok c := by
  have := copyFrom_eq c (v :: sz) rest
  simp only [List.length_cons, h, List.cons_append, List.append_assoc] at this
  exact this

theorem beVal_inj (a b : List UInt8) (h : a.length = b.length)
    (e : MemoryData.Spec.beVal a = MemoryData.Spec.beVal b) : a = b := by
  induction a generalizing b with
  | nil => cases b with
    | nil => rfl
    | cons => simp at h
  | cons x a ih =>
    cases b with
    | nil => simp at h
    | cons y b =>
      simp only [List.length_cons, Nat.add_right_cancel_iff] at h
      simp only [MemoryData.Spec.beVal] at e
      have ha := beVal_lt a
      have hb := beVal_lt b
      rw [h] at e ha
      have hx : x.toNat = y.toNat := by
        have h1 : (x.toNat * 256 ^ b.length + MemoryData.Spec.beVal a) / 256 ^ b.length = x.toNat := by
          rw [Nat.mul_comm, Nat.mul_add_div (Nat.pow_pos (by decide)), Nat.div_eq_of_lt ha, Nat.add_zero]
        have h2 : (y.toNat * 256 ^ b.length + MemoryData.Spec.beVal b) / 256 ^ b.length = y.toNat := by
          rw [Nat.mul_comm, Nat.mul_add_div (Nat.pow_pos (by decide)), Nat.div_eq_of_lt hb, Nat.add_zero]
        rw [← h1, ← h2, e]
      rw [u8_ext hx, ih b h (by rw [hx] at e; omega)]

theorem toNat_one (v : UInt8) (h : v.toNat = V1) : v = 1 := u8_ext h

/-- The behaviour of `from_buffer` on a block of at least five bytes starting with version 1. -/
theorem from_buffer_long (d : Dialect) (v : UInt8) (sz t : List UInt8) (size : Nat) (alloc : Bool)
    (h4 : sz.length = 4) (hs5 : 5 ≤ size) (hsz : size ≤ 5 + t.length)
    (hd : d = .wrap ∨ 2 * MemoryData.Spec.beVal sz < 256 ^ sz.length) :
    from_buffer d (some (v :: (sz ++ t))) size true true alloc =
      if v.toNat ≠ V1 then C.ok ⟨.INVALID_DATA, none, none⟩
      else if size - HDR < MemoryData.Spec.beVal sz then C.ok ⟨.INVALID_DATA, none, none⟩
      else if alloc = false then C.ok ⟨.ERROR, none, some none⟩
      else C.ok ⟨.OK, some ((HDR + MemoryData.Spec.beVal sz) % 2 ^ 32),
        some (some (t.take (MemoryData.Spec.beVal sz)))⟩ := by
  simp only [from_buffer]
  rw [if_neg (by simp), if_neg (by omega), read_version, C.ok_bind]
  by_cases hv : v.toNat ≠ V1
  · rw [if_pos hv, if_pos hv]
  rw [if_neg hv, if_neg hv, if_neg (by simp only [HDR]; omega), read_size d v sz t h4 hd, C.ok_bind]
  by_cases hc : size - HDR < MemoryData.Spec.beVal sz
  · rw [if_pos hc, if_pos hc]
  rw [if_neg hc, if_neg hc]
  unfold create_internal
  cases alloc with
  | false => simp
  | true =>
    simp only [Bool.true_eq_false, if_false]
    have ht : (t.take (MemoryData.Spec.beVal sz)).length = MemoryData.Spec.beVal sz := by
      simp only [HDR] at hc; simp; omega
    have := copy_content v sz (t.take (MemoryData.Spec.beVal sz)) (t.drop (MemoryData.Spec.beVal sz)) h4
    rw [List.take_append_drop, ht] at this
    rw [this]
    simp

theorem from_buffer_short (d : Dialect) (m : List UInt8) (size : Nat) (alloc : Bool)
    (h0 : size ≠ 0) (h5 : size < 5) (hm : size ≤ m.length) :
    from_buffer d (some m) size true true alloc = C.ok ⟨.INVALID_DATA, none, none⟩ := by
  cases m with
  | nil => simp at hm; omega
  | cons v t =>
    simp only [from_buffer]
    rw [if_neg (by simp), if_neg (by omega), read_version, C.ok_bind]
    by_cases hv : v.toNat ≠ V1
    · rw [if_pos hv]
    · rw [if_neg hv, if_pos (by simp only [HDR]; omega)]

theorem format_beVal (c : List UInt8) (h : c.length < 2 ^ 32) :
    MemoryData.Spec.beVal (MemoryData.Spec.beBytes 4 c.length) = c.length :=
  beVal_beBytes 4 c.length (by simpa using h)

end CUtil.ConstBuffer
