import Verif.MemoryData.Model
import Verif.MemoryData.Spec
/- Helper lemmas for memory_data. -/
set_option linter.unusedSimpArgs false
namespace CUtil.MemoryData
open CUtil

theorem wr_at (p : Mem) (x : Option UInt8) (t : Mem) (n : Nat) (v : UInt8) (h : n = p.length) :
    wr (p ++ x :: t) n v = C.ok ((p ++ [some v]) ++ t) := by
  subst h
  unfold wr
  rw [if_pos (by simp)]
  simp [List.set_append_right]

theorem rd_at (p : List UInt8) (x : UInt8) (t : List UInt8) (n : Nat) (h : n = p.length) :
    rd (p ++ x :: t) n = C.ok x := by subst h; exact rd_append_at p x t

theorem copyTo_eq (bs : List UInt8) : ∀ (p q t : Mem), q.length = bs.length →
    copyTo (p ++ q ++ t) p.length bs = C.ok (p ++ bs.map some ++ t) := by
  induction bs with
  | nil => intro p q t h; simp at h; subst h; simp [copyTo]
  | cons b bs ih =>
    intro p q t h
    cases q with
    | nil => simp at h
    | cons x q =>
      simp only [copyTo, List.append_assoc, List.cons_append]
      rw [wr_at p x (q ++ t) _ _ rfl]
      simp only [C.ok_bind]
      have := ih (p ++ [some b]) q t (by simpa using h)
      simp only [List.append_assoc, List.length_append, List.length_cons, List.length_nil, Nat.zero_add] at this ⊢
      rw [this]; simp

theorem copyTo_ub (bs : List UInt8) : ∀ (m : Mem) (o : Nat), m.length < o + bs.length → bs ≠ [] →
    copyTo m o bs = C.ub := by
  induction bs with
  | nil => intro m o h hn; exact absurd rfl hn
  | cons b bs ih =>
    intro m o h _
    simp only [copyTo]
    by_cases ho : o < m.length
    · rw [wr, if_pos ho]
      simp only [C.ok_bind]
      apply ih
      · simp at h ⊢; omega
      · rintro rfl; simp at h; omega
    · rw [wr, if_neg ho]; rfl

theorem copyFrom_eq (bs : List UInt8) : ∀ (p t : List UInt8),
    copyFrom (p ++ bs ++ t) p.length bs.length = C.ok bs := by
  induction bs with
  | nil => intro p t; rfl
  | cons b bs ih =>
    intro p t
    simp only [List.length_cons, copyFrom, List.append_assoc, List.cons_append]
    rw [rd_at p b _ _ rfl]
    have := ih (p ++ [b]) t
    simp only [List.append_assoc, List.length_append, List.length_cons, List.length_nil, Nat.zero_add, List.cons_append, List.nil_append] at this
    simp only [C.ok_bind]
    rw [this]; rfl

theorem byteU_eq (v k : Nat) : byteU v k = UInt8.ofNat (v / 2 ^ k % 256) := by
  unfold byteU; rw [and_255, Nat.shiftRight_eq_div_pow]

theorem write_u8_copy (m : Mem) (o v : Nat) : write_u8 m o v = copyTo m o (Spec.beBytes 1 v) := by
  unfold write_u8
  simp only [Spec.beBytes, copyTo, Nat.pow_zero, Nat.div_one]
  have : UInt8.ofNat (v % 256) = UInt8.ofNat v := by apply u8_ext; simp
  rw [this]
  cases h : wr m o (UInt8.ofNat v) <;> simp

theorem bind_ok_self {α : Type u} (x : C α) : (x >>= fun a => C.ok a) = x := by cases x <;> rfl

theorem write_u16_copy (m : Mem) (o v : Nat) : write_u16 m o v = copyTo m o (Spec.beBytes 2 v) := by
  unfold write_u16
  simp only [Spec.beBytes, copyTo, byteU_eq, Nat.reducePow, bind_ok_self]

theorem write_u32_copy (m : Mem) (o v : Nat) : write_u32 m o v = copyTo m o (Spec.beBytes 4 v) := by
  unfold write_u32
  simp only [Spec.beBytes, copyTo, byteU_eq, Nat.reducePow, bind_ok_self, Nat.add_assoc, Nat.reduceAdd]

theorem write_u64_copy (m : Mem) (o v : Nat) : write_u64 m o v = copyTo m o (Spec.beBytes 8 v) := by
  unfold write_u64
  simp only [Spec.beBytes, copyTo, byteU_eq, Nat.reducePow, bind_ok_self, Nat.add_assoc, Nat.reduceAdd]

theorem shift_mod (K N c v : Int) (hK : 0 < K) (hN : N = K * 256 * c) :
    v / K % 256 = v % N / K % 256 := by
  have e : v = v % N + K * (256 * (c * (v / N))) := by
    have h1 := Int.emod_add_mul_ediv v N
    have h2 : N * (v / N) = K * (256 * (c * (v / N))) := by rw [hN]; simp only [Int.mul_assoc]
    omega
  have e2 : v / K = v % N / K + 256 * (c * (v / N)) := by
    conv => lhs; rw [e]
    exact Int.add_mul_ediv_left _ _ (by omega)
  rw [e2, Int.add_mul_emod_self_left]

theorem byteS_eq (v : Int) (k K N c : Nat) (hk : 2 ^ k = K) (hK : 0 < K) (hN : N = K * 256 * c) (hN0 : 0 < N) :
    byteS v k = UInt8.ofNat ((v % (N : Int)).toNat / K % 256) := by
  unfold byteS
  congr 1
  have hz : 0 ≤ v % (N : Int) := Int.emod_nonneg _ (by omega)
  rw [Int.shiftRight_eq_div_pow, hk, shift_mod K N c v (by omega) (by subst hN; rfl)]
  generalize v % (N : Int) = r at *
  obtain ⟨r', rfl⟩ := Int.eq_ofNat_of_zero_le hz
  rfl

theorem write_i8_copy (m : Mem) (o : Nat) (v : Int) : write_i8 m o v = copyTo m o (Spec.beBytesSigned 1 v) := by
  unfold write_i8 Spec.beBytesSigned
  simp only [Spec.beBytes, copyTo, bind_ok_self, Nat.pow_zero, Nat.div_one, Int.pow_one]
  congr 2
  have := Int.emod_lt_of_pos v (show (0:Int) < 256 by decide)
  have := Int.emod_nonneg v (show (256:Int) ≠ 0 by decide)
  omega

theorem write_i16_copy (m : Mem) (o : Nat) (v : Int) : write_i16 m o v = copyTo m o (Spec.beBytesSigned 2 v) := by
  unfold write_i16 Spec.beBytesSigned
  have h : ((256 : Int) ^ 2) = ((65536 : Nat) : Int) := by decide
  rw [h]
  simp only [Spec.beBytes, copyTo, bind_ok_self, Nat.reducePow]
  rw [byteS_eq v 8 256 65536 1 rfl (by decide) rfl (by decide), byteS_eq v 0 1 65536 256 rfl (by decide) rfl (by decide)]

theorem write_i32_copy (m : Mem) (o : Nat) (v : Int) : write_i32 m o v = copyTo m o (Spec.beBytesSigned 4 v) := by
  unfold write_i32 Spec.beBytesSigned
  have h : ((256 : Int) ^ 4) = ((4294967296 : Nat) : Int) := by decide
  rw [h]
  simp only [Spec.beBytes, copyTo, bind_ok_self, Nat.add_assoc, Nat.reduceAdd, Nat.reducePow]
  rw [byteS_eq v 24 16777216 4294967296 1 rfl (by decide) rfl (by decide), byteS_eq v 16 65536 4294967296 256 rfl (by decide) rfl (by decide),
    byteS_eq v 8 256 4294967296 65536 rfl (by decide) rfl (by decide), byteS_eq v 0 1 4294967296 16777216 rfl (by decide) rfl (by decide)]

theorem write_i64_copy (m : Mem) (o : Nat) (v : Int) : write_i64 m o v = copyTo m o (Spec.beBytesSigned 8 v) := by
  unfold write_i64 Spec.beBytesSigned
  have h : ((256 : Int) ^ 8) = ((18446744073709551616 : Nat) : Int) := by decide
  rw [h]
  simp only [Spec.beBytes, copyTo, bind_ok_self, Nat.add_assoc, Nat.reduceAdd, Nat.reducePow]
  rw [byteS_eq v 56 72057594037927936 18446744073709551616 1 rfl (by decide) rfl (by decide), byteS_eq v 48 281474976710656 18446744073709551616 256 rfl (by decide) rfl (by decide),
    byteS_eq v 40 1099511627776 18446744073709551616 65536 rfl (by decide) rfl (by decide), byteS_eq v 32 4294967296 18446744073709551616 16777216 rfl (by decide) rfl (by decide),
    byteS_eq v 24 16777216 18446744073709551616 4294967296 rfl (by decide) rfl (by decide), byteS_eq v 16 65536 18446744073709551616 1099511627776 rfl (by decide) rfl (by decide),
    byteS_eq v 8 256 18446744073709551616 281474976710656 rfl (by decide) rfl (by decide), byteS_eq v 0 1 18446744073709551616 72057594037927936 rfl (by decide) rfl (by decide)]

/-! ### Readers -/

/-- Every reader only looks at the bytes it is given. -/
theorem rd_k (p bs t : List UInt8) (k : Nat) (h : k < bs.length) : rd (p ++ bs ++ t) (p.length + k) = C.ok bs[k] := by
  rw [List.append_assoc, rd_append_off, rd_append_left t h, rd_lt _ _ h]

theorem rd_k0 (p bs t : List UInt8) (h : 0 < bs.length) : rd (p ++ bs ++ t) p.length = C.ok bs[0] := rd_k p bs t 0 h

theorem sArith_in {d bits} {x : Int} (h : -(2 ^ (bits - 1)) ≤ x ∧ x < 2 ^ (bits - 1)) : sArith d bits x = C.ok x := by
  unfold sArith; rw [if_pos h]

theorem four (bs : List UInt8) (h : bs.length = 4) : ∃ a b c d, bs = [a, b, c, d] := by
  match bs, h with
  | [a, b, c, d], _ => exact ⟨a, b, c, d, rfl⟩

theorem eight (bs : List UInt8) (h : bs.length = 8) : ∃ a b c d e f g i, bs = [a, b, c, d, e, f, g, i] := by
  match bs, h with
  | [a, b, c, d, e, f, g, i], _ => exact ⟨a, b, c, d, e, f, g, i, rfl⟩

theorem two (bs : List UInt8) (h : bs.length = 2) : ∃ a b, bs = [a, b] := by
  match bs, h with
  | [a, b], _ => exact ⟨a, b, rfl⟩

theorem one (bs : List UInt8) (h : bs.length = 1) : ∃ a, bs = [a] := by
  match bs, h with
  | [a], _ => exact ⟨a, rfl⟩

theorem beVal4 (a b c d : UInt8) : Spec.beVal [a, b, c, d] =
    a.toNat * 16777216 + b.toNat * 65536 + c.toNat * 256 + d.toNat := by
  simp only [Spec.beVal, List.length_cons, List.length_nil, Nat.reduceAdd, Nat.reducePow]; omega

theorem beVal2 (a b : UInt8) : Spec.beVal [a, b] = a.toNat * 256 + b.toNat := by
  simp only [Spec.beVal, List.length_cons, List.length_nil, Nat.reduceAdd, Nat.reducePow]; omega

theorem beVal1 (a : UInt8) : Spec.beVal [a] = a.toNat := by
  simp only [Spec.beVal, List.length_nil, Nat.reducePow]; omega

theorem beVal8 (a b c d e f g i : UInt8) : Spec.beVal [a, b, c, d, e, f, g, i] =
    a.toNat * 72057594037927936 + b.toNat * 281474976710656 + c.toNat * 1099511627776 + d.toNat * 4294967296
    + e.toNat * 16777216 + f.toNat * 65536 + g.toNat * 256 + i.toNat := by
  simp only [Spec.beVal, List.length_cons, List.length_nil, Nat.reduceAdd, Nat.reducePow]; omega

theorem sArith32 {d} {x : Int} (h1 : -2147483648 ≤ x) (h2 : x < 2147483648) : sArith d 32 x = C.ok x := by
  apply sArith_in
  simp only [Nat.reduceSub, Int.reducePow, Int.reduceNeg]
  exact ⟨h1, h2⟩

theorem sArith32_iso {x : Int} (h : 2147483648 ≤ x) : sArith .iso 32 x = C.ub := by
  unfold sArith
  rw [if_neg]
  simp only [Nat.reduceSub, Int.reducePow, Int.reduceNeg]
  omega

theorem sArith32_wrap {x : Int} (h : 2147483648 ≤ x) (h2 : x < 4294967296) :
    sArith .wrap 32 x = C.ok (x - 4294967296) := by
  unfold sArith
  rw [if_neg (by simp only [Nat.reduceSub, Int.reducePow, Int.reduceNeg]; omega)]
  refine congrArg C.ok ?_
  simp only [Int.bmod, Nat.reducePow, Int.cast_ofNat_Int]
  split <;> omega

/-- the raw `int` expression, reads resolved -/
theorem be32_eq (dl : Dialect) (p t : List UInt8) (a b c d : UInt8) :
    be32 dl (p ++ [a, b, c, d] ++ t) p.length =
      if a.toNat < 128 then C.ok (Spec.beVal [a, b, c, d] : Int)
      else match dl with
        | .iso => C.ub
        | .wrap => C.ok ((Spec.beVal [a, b, c, d] : Int) - 4294967296) := by
  have ha := uint8_lt a; have hb := uint8_lt b; have hc := uint8_lt c; have hd := uint8_lt d
  unfold be32
  rw [rd_k0 _ _ _ (by simp), rd_k _ _ _ 1 (by simp), rd_k _ _ _ 2 (by simp), rd_k _ _ _ 3 (by simp)]
  simp only [C.ok_bind, List.getElem_cons_zero, List.getElem_cons_succ, Int.reducePow]
  rw [beVal4]
  split
  · rw [sArith32 (by omega) (by omega), sArith32 (by omega) (by omega), sArith32 (by omega) (by omega)]
    simp only [C.ok_bind]
    rw [sArith32 (by omega) (by omega)]
    simp only [C.ok_bind]
    rw [sArith32 (by omega) (by omega)]
    simp only [C.ok_bind]
    rw [sArith32 (by omega) (by omega)]
    exact congrArg C.ok (by omega)
  · cases dl with
    | iso => rw [sArith32_iso (by omega)]; rfl
    | wrap =>
      rw [sArith32_wrap (by omega) (by omega)]
      simp only [C.ok_bind]
      rw [sArith32 (by omega) (by omega), sArith32 (by omega) (by omega)]
      simp only [C.ok_bind]
      rw [sArith32 (by omega) (by omega)]
      simp only [C.ok_bind]
      rw [sArith32 (by omega) (by omega)]
      simp only [C.ok_bind]
      rw [sArith32 (by omega) (by omega)]
      exact congrArg C.ok (by omega)

theorem sArith64 {d} {x : Int} (h1 : -9223372036854775808 ≤ x) (h2 : x < 9223372036854775808) :
    sArith d 64 x = C.ok x := by
  apply sArith_in
  simp only [Nat.reduceSub, Int.reducePow, Int.reduceNeg]
  exact ⟨h1, h2⟩

theorem sArith64_iso {x : Int} (h : 9223372036854775808 ≤ x) : sArith .iso 64 x = C.ub := by
  unfold sArith
  rw [if_neg]
  simp only [Nat.reduceSub, Int.reducePow, Int.reduceNeg]
  omega

theorem sArith64_wrap {x : Int} (h : 9223372036854775808 ≤ x) (h2 : x < 18446744073709551616) :
    sArith .wrap 64 x = C.ok (x - 18446744073709551616) := by
  unfold sArith
  rw [if_neg (by simp only [Nat.reduceSub, Int.reducePow, Int.reduceNeg]; omega)]
  refine congrArg C.ok ?_
  simp only [Int.bmod, Nat.reducePow, Int.cast_ofNat_Int]
  split <;> omega

theorem read_i64_eq (dl : Dialect) (p t : List UInt8) (a b c d e f g i : UInt8) :
    read_i64 dl (p ++ [a, b, c, d, e, f, g, i] ++ t) p.length =
      if a.toNat < 128 then C.ok (Spec.beVal [a, b, c, d, e, f, g, i] : Int)
      else match dl with
        | .iso => C.ub
        | .wrap => C.ok ((Spec.beVal [a, b, c, d, e, f, g, i] : Int) - 18446744073709551616) := by
  have ha := uint8_lt a; have hb := uint8_lt b; have hc := uint8_lt c; have hd := uint8_lt d
  have he := uint8_lt e; have hf := uint8_lt f; have hg := uint8_lt g; have hi := uint8_lt i
  unfold read_i64
  rw [rd_k0 _ _ _ (by simp), rd_k _ _ _ 1 (by simp), rd_k _ _ _ 2 (by simp), rd_k _ _ _ 3 (by simp),
    rd_k _ _ _ 4 (by simp), rd_k _ _ _ 5 (by simp), rd_k _ _ _ 6 (by simp), rd_k _ _ _ 7 (by simp)]
  simp only [C.ok_bind, List.getElem_cons_zero, List.getElem_cons_succ, Int.reducePow]
  rw [beVal8]
  split
  · rw [sArith64 (by omega) (by omega)]
    simp only [C.ok_bind]
    iterate 6
      rw [sArith64 (by omega) (by omega)]
      simp only [C.ok_bind]
      rw [sArith64 (by omega) (by omega)]
      simp only [C.ok_bind]
    rw [sArith64 (by omega) (by omega)]
    exact congrArg C.ok (by omega)
  · cases dl with
    | iso => rw [sArith64_iso (by omega)]; simp only [C.ub_bind]
    | wrap =>
      rw [sArith64_wrap (by omega) (by omega)]
      simp only [C.ok_bind]
      iterate 6
        rw [sArith64 (by omega) (by omega)]
        simp only [C.ok_bind]
        rw [sArith64 (by omega) (by omega)]
        simp only [C.ok_bind]
      rw [sArith64 (by omega) (by omega)]
      exact congrArg C.ok (by omega)

theorem read_u64_eq (p t : List UInt8) (a b c d e f g i : UInt8) :
    read_u64 (p ++ [a, b, c, d, e, f, g, i] ++ t) p.length = C.ok (Spec.beVal [a, b, c, d, e, f, g, i]) := by
  have ha := uint8_lt a; have hb := uint8_lt b; have hc := uint8_lt c; have hd := uint8_lt d
  have he := uint8_lt e; have hf := uint8_lt f; have hg := uint8_lt g; have hi := uint8_lt i
  unfold read_u64
  rw [rd_k0 _ _ _ (by simp), rd_k _ _ _ 1 (by simp), rd_k _ _ _ 2 (by simp), rd_k _ _ _ 3 (by simp),
    rd_k _ _ _ 4 (by simp), rd_k _ _ _ 5 (by simp), rd_k _ _ _ 6 (by simp), rd_k _ _ _ 7 (by simp)]
  simp only [C.ok_bind, C.pure_eq, List.getElem_cons_zero, List.getElem_cons_succ, Nat.reducePow]
  rw [beVal8]
  exact congrArg C.ok (by omega)

theorem int16_eq (dl : Dialect) (a b : UInt8) (k : Int → C β) :
    (sArith dl 32 (a.toNat * 2 ^ 8) >>= fun x => sArith dl 32 (x + b.toNat) >>= k) = k (Spec.beVal [a, b] : Int) := by
  have ha := uint8_lt a; have hb := uint8_lt b
  simp only [Int.reducePow]
  rw [sArith32 (by omega) (by omega)]
  simp only [C.ok_bind]
  rw [sArith32 (by omega) (by omega)]
  simp only [C.ok_bind]
  rw [beVal2]
  exact congrArg k (by omega)

theorem read_u16_eq (dl : Dialect) (p t : List UInt8) (a b : UInt8) :
    read_u16 dl (p ++ [a, b] ++ t) p.length = C.ok (Spec.beVal [a, b]) := by
  have ha := uint8_lt a; have hb := uint8_lt b
  unfold read_u16
  rw [rd_k0 _ _ _ (by simp), rd_k _ _ _ 1 (by simp)]
  simp only [C.ok_bind, C.pure_eq, List.getElem_cons_zero, List.getElem_cons_succ]
  rw [int16_eq, beVal2]
  simp only [Int.reducePow]
  exact congrArg C.ok (by omega)

theorem beSigned_eq (bs : List UInt8) (n v : Nat) (h : 256 ^ bs.length = n) (hv : Spec.beVal bs = v) :
    Spec.beSigned bs = if 2 * v < n then (v : Int) else v - n := by
  subst h; subst hv; rfl

theorem bmod16 (x : Nat) (h : x < 65536) : (x : Int).bmod (2 ^ 16) = if 2 * x < 65536 then (x : Int) else x - (65536 : Nat) := by
  simp only [Int.bmod, Nat.reducePow, Int.cast_ofNat_Int]
  by_cases h : 2 * x < 65536
  · rw [if_pos h, if_pos (by omega)]; omega
  · rw [if_neg h, if_neg (by omega)]; omega

theorem bmod8 (x : Nat) (h : x < 256) : (x : Int).bmod (2 ^ 8) = if 2 * x < 256 then (x : Int) else x - (256 : Nat) := by
  simp only [Int.bmod, Nat.reducePow, Int.cast_ofNat_Int]
  by_cases h : 2 * x < 256
  · rw [if_pos h, if_pos (by omega)]; omega
  · rw [if_neg h, if_neg (by omega)]; omega

theorem read_i16_eq (dl : Dialect) (p t : List UInt8) (a b : UInt8) :
    read_i16 dl (p ++ [a, b] ++ t) p.length = C.ok (Spec.beSigned [a, b]) := by
  have ha := uint8_lt a; have hb := uint8_lt b
  unfold read_i16
  rw [rd_k0 _ _ _ (by simp), rd_k _ _ _ 1 (by simp)]
  simp only [C.ok_bind, C.pure_eq, List.getElem_cons_zero, List.getElem_cons_succ]
  rw [int16_eq, beVal2, beSigned_eq [a, b] 65536 _ (by simp) (beVal2 a b), bmod16 _ (by omega)]

theorem read_i8_eq (p t : List UInt8) (a : UInt8) :
    read_i8 (p ++ [a] ++ t) p.length = C.ok (Spec.beSigned [a]) := by
  have ha := uint8_lt a
  unfold read_i8
  rw [rd_k0 _ _ _ (by simp)]
  simp only [C.ok_bind, C.pure_eq, List.getElem_cons_zero]
  rw [beSigned_eq [a] 256 _ (by simp) (beVal1 a), bmod8 _ (by omega)]

theorem beBytes_length (n v : Nat) : (Spec.beBytes n v).length = n := by
  induction n with
  | zero => rfl
  | succ n ih => simp [Spec.beBytes, ih]

theorem beVal_lt (bs : List UInt8) : Spec.beVal bs < 256 ^ bs.length := by
  induction bs with
  | nil => simp [Spec.beVal]
  | cons b bs ih =>
    have hb := uint8_lt b
    simp only [Spec.beVal, List.length_cons, Nat.pow_succ]
    calc b.toNat * 256 ^ bs.length + Spec.beVal bs
        < b.toNat * 256 ^ bs.length + 256 ^ bs.length := by omega
      _ = (b.toNat + 1) * 256 ^ bs.length := by rw [Nat.add_mul, Nat.one_mul]
      _ ≤ 256 * 256 ^ bs.length := Nat.mul_le_mul_right _ (by omega)
      _ = 256 ^ bs.length * 256 := Nat.mul_comm _ _

theorem beVal_beBytes_mod (n v : Nat) : Spec.beVal (Spec.beBytes n v) = v % 256 ^ n := by
  induction n with
  | zero => simp [Spec.beBytes, Spec.beVal, Nat.mod_one]
  | succ n ih =>
    simp only [Spec.beBytes, Spec.beVal, beBytes_length, ih]
    rw [toNat_ofNat_u8 _ (Nat.mod_lt _ (by decide))]
    rw [Nat.pow_succ, Nat.mod_mul]
    rw [Nat.mul_comm, Nat.add_comm]

theorem beVal_beBytes (n v : Nat) (h : v < 256 ^ n) : Spec.beVal (Spec.beBytes n v) = v := by
  rw [beVal_beBytes_mod, Nat.mod_eq_of_lt h]

end CUtil.MemoryData
