import Verif.MemoryData.Lemmas
/-
Properties of memory_data.c.  C05 big-endian layout and round trip, C06 no undefined
behaviour in the readers (false of the code for 32 bit and signed 64 bit values under ISO C).
-/
namespace CUtil.MemoryData
open CUtil

/-- C05 (writers, unsigned): with room for the value, exactly its bytes are replaced, by the
big-endian representation; without room the write is out of bounds. -/
theorem write_unsigned_layout (pre old post : Mem) (v : Nat) :
    (old.length = 1 → write_u8 (pre ++ old ++ post) pre.length v = C.ok (pre ++ (Spec.beBytes 1 v).map some ++ post)) ∧
    (old.length = 2 → write_u16 (pre ++ old ++ post) pre.length v = C.ok (pre ++ (Spec.beBytes 2 v).map some ++ post)) ∧
    (old.length = 4 → write_u32 (pre ++ old ++ post) pre.length v = C.ok (pre ++ (Spec.beBytes 4 v).map some ++ post)) ∧
    (old.length = 8 → write_u64 (pre ++ old ++ post) pre.length v = C.ok (pre ++ (Spec.beBytes 8 v).map some ++ post)) := by
  refine ⟨fun h => ?_, fun h => ?_, fun h => ?_, fun h => ?_⟩
  · rw [write_u8_copy]; exact copyTo_eq _ _ _ _ (by rw [beBytes_length, h])
  · rw [write_u16_copy]; exact copyTo_eq _ _ _ _ (by rw [beBytes_length, h])
  · rw [write_u32_copy]; exact copyTo_eq _ _ _ _ (by rw [beBytes_length, h])
  · rw [write_u64_copy]; exact copyTo_eq _ _ _ _ (by rw [beBytes_length, h])

/-- C05 (writers, signed). -/
theorem write_signed_layout (pre old post : Mem) (v : Int) :
    (old.length = 1 → write_i8 (pre ++ old ++ post) pre.length v = C.ok (pre ++ (Spec.beBytesSigned 1 v).map some ++ post)) ∧
    (old.length = 2 → write_i16 (pre ++ old ++ post) pre.length v = C.ok (pre ++ (Spec.beBytesSigned 2 v).map some ++ post)) ∧
    (old.length = 4 → write_i32 (pre ++ old ++ post) pre.length v = C.ok (pre ++ (Spec.beBytesSigned 4 v).map some ++ post)) ∧
    (old.length = 8 → write_i64 (pre ++ old ++ post) pre.length v = C.ok (pre ++ (Spec.beBytesSigned 8 v).map some ++ post)) := by
  have l : ∀ n, (Spec.beBytesSigned n v).length = n := fun n => beBytes_length n _
  refine ⟨fun h => ?_, fun h => ?_, fun h => ?_, fun h => ?_⟩
  · rw [write_i8_copy]; exact copyTo_eq _ _ _ _ (by rw [l, h])
  · rw [write_i16_copy]; exact copyTo_eq _ _ _ _ (by rw [l, h])
  · rw [write_i32_copy]; exact copyTo_eq _ _ _ _ (by rw [l, h])
  · rw [write_i64_copy]; exact copyTo_eq _ _ _ _ (by rw [l, h])

example : write_u32 [some 9, none, none, none, none, some 7] 1 0x01020384 =
    C.ok [some 9, some 1, some 2, some 3, some 0x84, some 7] := by decide +kernel
example : write_i16 [none, none] 0 (-2) = C.ok [some 0xff, some 0xfe] := by decide +kernel

/-- C06: the readers that are free of undefined behaviour for every content, in both dialects,
and what they return. -/
theorem read_defined (d : Dialect) (pre bs post : List UInt8) :
    (bs.length = 1 → read_u8 (pre ++ bs ++ post) pre.length = C.ok (Spec.beVal bs)) ∧
    (bs.length = 2 → read_u16 d (pre ++ bs ++ post) pre.length = C.ok (Spec.beVal bs)) ∧
    (bs.length = 8 → read_u64 (pre ++ bs ++ post) pre.length = C.ok (Spec.beVal bs)) ∧
    (bs.length = 1 → read_i8 (pre ++ bs ++ post) pre.length = C.ok (Spec.beSigned bs)) ∧
    (bs.length = 2 → read_i16 d (pre ++ bs ++ post) pre.length = C.ok (Spec.beSigned bs)) ∧
    (bs.length = 16 → read_uuid (pre ++ bs ++ post) pre.length = C.ok bs) := by
  refine ⟨fun h => ?_, fun h => ?_, fun h => ?_, fun h => ?_, fun h => ?_, fun h => ?_⟩
  · obtain ⟨a, rfl⟩ := one bs h
    unfold read_u8
    rw [rd_k0 _ _ _ (by simp), beVal1]; simp
  · obtain ⟨a, b, rfl⟩ := two bs h; exact read_u16_eq d _ _ _ _
  · obtain ⟨a, b, c, e, f, g, i, j, rfl⟩ := eight bs h; exact read_u64_eq _ _ _ _ _ _ _ _ _ _
  · obtain ⟨a, rfl⟩ := one bs h; exact read_i8_eq _ _ _
  · obtain ⟨a, b, rfl⟩ := two bs h; exact read_i16_eq d _ _ _ _
  · unfold read_uuid; rw [← h]; exact copyFrom_eq bs pre post

/-- C06: exact behaviour of the 32 bit and signed 64 bit readers under ISO C: they are defined
iff the top bit of the first byte is clear. -/
theorem read_iso_iff (pre bs post : List UInt8) :
    (bs.length = 4 → (C.Defined (read_u32 .iso (pre ++ bs ++ post) pre.length) ↔ 2 * Spec.beVal bs < 256 ^ 4)) ∧
    (bs.length = 4 → (C.Defined (read_i32 .iso (pre ++ bs ++ post) pre.length) ↔ 2 * Spec.beVal bs < 256 ^ 4)) ∧
    (bs.length = 8 → (C.Defined (read_i64 .iso (pre ++ bs ++ post) pre.length) ↔ 2 * Spec.beVal bs < 256 ^ 8)) := by
  refine ⟨fun h => ?_, fun h => ?_, fun h => ?_⟩
  · obtain ⟨a, b, c, d, rfl⟩ := four bs h
    have hb := uint8_lt b; have hc := uint8_lt c; have hd := uint8_lt d
    rw [read_u32, be32_eq, beVal4]
    by_cases h : a.toNat < 128
    · rw [if_pos h]; simp only [C.ok_bind, C.pure_eq, C.defined_ok, true_iff]; omega
    · rw [if_neg h]; simp only [C.ub_bind, C.not_defined_ub, false_iff]; omega
  · obtain ⟨a, b, c, d, rfl⟩ := four bs h
    have hb := uint8_lt b; have hc := uint8_lt c; have hd := uint8_lt d
    rw [read_i32, be32_eq, beVal4]
    by_cases h : a.toNat < 128
    · rw [if_pos h]; simp only [C.defined_ok, true_iff]; omega
    · rw [if_neg h]; simp only [C.not_defined_ub, false_iff]; omega
  · obtain ⟨a, b, c, d, e, f, g, i, rfl⟩ := eight bs h
    have hb := uint8_lt b; have hc := uint8_lt c; have hd := uint8_lt d
    have he := uint8_lt e; have hf := uint8_lt f; have hg := uint8_lt g; have hi := uint8_lt i
    rw [read_i64_eq, beVal8]
    by_cases h : a.toNat < 128
    · rw [if_pos h]; simp only [C.defined_ok, true_iff]; omega
    · rw [if_neg h]; simp only [C.not_defined_ub, false_iff]; omega

/-- C06 is false of the code under ISO C: reading four bytes `80 00 00 00` shifts 128 into the
sign bit of an `int`; likewise for `int32_t` and `int64_t`. -/
theorem read_undefined_behaviour :
    read_u32 .iso [0x80, 0, 0, 0] 0 = C.ub ∧ read_i32 .iso [0xff, 0xff, 0xff, 0xff] 0 = C.ub ∧
    read_i64 .iso [0xff, 0, 0, 0, 0, 0, 0, 0] 0 = C.ub := by decide +kernel

/-- C06, the part that holds: with wrapping shifts (the dialect of the compilers the project
supports) the remaining readers are defined for all contents and return the big-endian value;
and they do so under ISO C when the top bit is clear.  Missing: ISO C with the top bit set,
where `read_iso_iff` shows undefined behaviour. -/
theorem read_value_partial (d : Dialect) (pre bs post : List UInt8)
    (hd : d = .wrap ∨ 2 * Spec.beVal bs < 256 ^ bs.length) :
    (bs.length = 4 → read_u32 d (pre ++ bs ++ post) pre.length = C.ok (Spec.beVal bs)) ∧
    (bs.length = 4 → read_i32 d (pre ++ bs ++ post) pre.length = C.ok (Spec.beSigned bs)) ∧
    (bs.length = 8 → read_i64 d (pre ++ bs ++ post) pre.length = C.ok (Spec.beSigned bs)) := by
  refine ⟨fun h => ?_, fun h => ?_, fun h => ?_⟩
  · obtain ⟨x, y, z, w, rfl⟩ := four bs h
    have hx := uint8_lt x; have hy := uint8_lt y; have hz := uint8_lt z; have hw := uint8_lt w
    rw [read_u32, be32_eq]
    rw [beVal4] at hd ⊢
    simp only [List.length_cons, List.length_nil, Nat.reduceAdd, Nat.reducePow] at hd
    by_cases h : x.toNat < 128
    · rw [if_pos h]; simp only [C.ok_bind, C.pure_eq, Int.reducePow]; exact congrArg C.ok (by omega)
    · rw [if_neg h]
      rcases hd with rfl | hd
      · simp only [C.ok_bind, C.pure_eq, Int.reducePow]; exact congrArg C.ok (by omega)
      · omega
  · obtain ⟨x, y, z, w, rfl⟩ := four bs h
    have hx := uint8_lt x; have hy := uint8_lt y; have hz := uint8_lt z; have hw := uint8_lt w
    rw [read_i32, be32_eq, beSigned_eq [x, y, z, w] 4294967296 _ (by simp) (beVal4 x y z w)]
    rw [beVal4] at hd ⊢
    simp only [List.length_cons, List.length_nil, Nat.reduceAdd, Nat.reducePow] at hd
    by_cases h : x.toNat < 128
    · rw [if_pos h, if_pos (by omega)]
    · rw [if_neg h, if_neg (by omega)]
      rcases hd with rfl | hd
      · rfl
      · omega
  · obtain ⟨a, b, c, e, f, g, i, j, rfl⟩ := eight bs h
    have ha := uint8_lt a; have hb := uint8_lt b; have hc := uint8_lt c; have he := uint8_lt e
    have hf := uint8_lt f; have hg := uint8_lt g; have hi := uint8_lt i; have hj := uint8_lt j
    rw [read_i64_eq, beSigned_eq [a, b, c, e, f, g, i, j] 18446744073709551616 _ (by simp) (beVal8 a b c e f g i j)]
    rw [beVal8] at hd ⊢
    simp only [List.length_cons, List.length_nil, Nat.reduceAdd, Nat.reducePow] at hd
    by_cases h : a.toNat < 128
    · rw [if_pos h, if_pos (by omega)]
    · rw [if_neg h, if_neg (by omega)]
      rcases hd with rfl | hd
      · rfl
      · omega

example : Dialect.wrap = .wrap ∨ 2 * Spec.beVal [0xff, 0, 0, 1] < 256 ^ 4 := Or.inl rfl
example : Dialect.iso = .wrap ∨ 2 * Spec.beVal [0x7f, 0, 0, 1] < 256 ^ [0x7f, 0, 0, (1 : UInt8)].length :=
  Or.inr (by decide)

/-- C05: the byte strings written denote the value again: unsigned values in range, and signed
values in range.  With `write_*_layout` and `read_*` this is the round trip. -/
theorem bytes_roundtrip (n : Nat) (v : Nat) (h : v < 256 ^ n) : Spec.beVal (Spec.beBytes n v) = v :=
  beVal_beBytes n v h

theorem bytes_roundtrip_signed (n : Nat) (v : Int) (h1 : -(256 ^ n : Int) ≤ 2 * v) (h2 : 2 * v < 256 ^ n) :
    Spec.beSigned (Spec.beBytesSigned n v) = v := by
  unfold Spec.beSigned Spec.beBytesSigned
  have hp : (0 : Int) < 256 ^ n := Int.pow_pos (by decide)
  have hm := Int.emod_nonneg v (show (256 ^ n : Int) ≠ 0 by omega)
  have hm2 := Int.emod_lt_of_pos v hp
  have hc : ((256 ^ n : Nat) : Int) = (256 : Int) ^ n := by simp
  rw [beVal_beBytes _ _ (by omega), beBytes_length]
  by_cases h0 : 0 ≤ v
  · rw [Int.emod_eq_of_lt h0 (by omega)]
    rw [if_pos (by omega)]; omega
  · have : v % 256 ^ n = v + 256 ^ n := by
      rw [← Int.add_emod_right v]
      exact Int.emod_eq_of_lt (by omega) (by omega)
    rw [this, if_neg (by omega)]; omega

/-- C05: round trip of `write_uint32_t` then `read_uint32_t`, anywhere in memory. -/
theorem u32_roundtrip (pre post : List UInt8) (old : Mem) (v : Nat) (h4 : old.length = 4) (hv : v < 2 ^ 32) :
    ∃ m, write_u32 (pre.map some ++ old ++ post.map some) pre.length v = C.ok (m.map some) ∧
      read_u32 .wrap m pre.length = C.ok v ∧
      (read_u32 .iso m pre.length = C.ok v ↔ v < 2 ^ 31) := by
  have hw := (write_unsigned_layout (pre.map some) old (post.map some) v).2.2.1 h4
  have hl := beBytes_length 4 v
  have hb := beVal_beBytes 4 v (by simpa using hv)
  refine ⟨pre ++ Spec.beBytes 4 v ++ post, by simpa using hw, ?_, ?_⟩
  · have := (read_value_partial .wrap pre (Spec.beBytes 4 v) post (Or.inl rfl)).1 hl
    rw [this, hb]
  · constructor
    · intro h
      have := ((read_iso_iff pre (Spec.beBytes 4 v) post).1 hl).1 ⟨v, h⟩
      rw [hb] at this
      simp only [Nat.reducePow] at this ⊢; omega
    · intro h
      have := (read_value_partial .iso pre (Spec.beBytes 4 v) post (Or.inr (by
        rw [hb, hl]; simp only [Nat.reducePow] at h ⊢; omega))).1 hl
      rw [this, hb]

/-- C05: round trip of `write_uint64_t` then `read_uint64_t` for all 64 bit values. -/
theorem u64_roundtrip (pre post : List UInt8) (old : Mem) (v : Nat) (h8 : old.length = 8) (hv : v < 2 ^ 64) :
    ∃ m, write_u64 (pre.map some ++ old ++ post.map some) pre.length v = C.ok (m.map some) ∧
      read_u64 m pre.length = C.ok v := by
  have hw := (write_unsigned_layout (pre.map some) old (post.map some) v).2.2.2 h8
  have hl := beBytes_length 8 v
  have hb := beVal_beBytes 8 v (by simpa using hv)
  refine ⟨pre ++ Spec.beBytes 8 v ++ post, by simpa using hw, ?_⟩
  rw [(read_defined .iso pre (Spec.beBytes 8 v) post).2.2.1 hl, hb]

/-- C05: round trip of 8 and 16 bit values, unsigned. -/
theorem u8_u16_roundtrip (d : Dialect) (pre post : List UInt8) (old : Mem) (v : Nat) :
    (old.length = 1 → v < 2 ^ 8 → ∃ m, write_u8 (pre.map some ++ old ++ post.map some) pre.length v = C.ok (m.map some) ∧
      read_u8 m pre.length = C.ok v) ∧
    (old.length = 2 → v < 2 ^ 16 → ∃ m, write_u16 (pre.map some ++ old ++ post.map some) pre.length v = C.ok (m.map some) ∧
      read_u16 d m pre.length = C.ok v) := by
  constructor
  · intro h hv
    have hw := (write_unsigned_layout (pre.map some) old (post.map some) v).1 h
    have hl := beBytes_length 1 v
    have hb := beVal_beBytes 1 v (by simpa using hv)
    refine ⟨pre ++ Spec.beBytes 1 v ++ post, by simpa using hw, ?_⟩
    rw [(read_defined d pre (Spec.beBytes 1 v) post).1 hl, hb]
  · intro h hv
    have hw := (write_unsigned_layout (pre.map some) old (post.map some) v).2.1 h
    have hl := beBytes_length 2 v
    have hb := beVal_beBytes 2 v (by simpa using hv)
    refine ⟨pre ++ Spec.beBytes 2 v ++ post, by simpa using hw, ?_⟩
    rw [(read_defined d pre (Spec.beBytes 2 v) post).2.1 hl, hb]

/-- C05: round trip of signed values of every width.  The 32 and 64 bit readers are used in the
wrapping dialect (under ISO C negative values are undefined behaviour, see `read_iso_iff`). -/
theorem signed_roundtrip (d : Dialect) (pre post : List UInt8) (old : Mem) (v : Int) :
    (old.length = 1 → -128 ≤ v → v < 128 →
      ∃ m, write_i8 (pre.map some ++ old ++ post.map some) pre.length v = C.ok (m.map some) ∧ read_i8 m pre.length = C.ok v) ∧
    (old.length = 2 → -32768 ≤ v → v < 32768 →
      ∃ m, write_i16 (pre.map some ++ old ++ post.map some) pre.length v = C.ok (m.map some) ∧ read_i16 d m pre.length = C.ok v) ∧
    (old.length = 4 → -2147483648 ≤ v → v < 2147483648 →
      ∃ m, write_i32 (pre.map some ++ old ++ post.map some) pre.length v = C.ok (m.map some) ∧ read_i32 .wrap m pre.length = C.ok v) ∧
    (old.length = 8 → -9223372036854775808 ≤ v → v < 9223372036854775808 →
      ∃ m, write_i64 (pre.map some ++ old ++ post.map some) pre.length v = C.ok (m.map some) ∧ read_i64 .wrap m pre.length = C.ok v) := by
  have l : ∀ n, (Spec.beBytesSigned n v).length = n := fun n => beBytes_length n _
  have hw := write_signed_layout (pre.map some) old (post.map some) v
  refine ⟨fun h h1 h2 => ?_, fun h h1 h2 => ?_, fun h h1 h2 => ?_, fun h h1 h2 => ?_⟩
  · refine ⟨pre ++ Spec.beBytesSigned 1 v ++ post, by simpa using hw.1 h, ?_⟩
    rw [(read_defined d pre _ post).2.2.2.1 (l 1),
      bytes_roundtrip_signed 1 v (by simp only [Int.reducePow]; omega) (by simp only [Int.reducePow]; omega)]
  · refine ⟨pre ++ Spec.beBytesSigned 2 v ++ post, by simpa using hw.2.1 h, ?_⟩
    rw [(read_defined d pre _ post).2.2.2.2.1 (l 2),
      bytes_roundtrip_signed 2 v (by simp only [Int.reducePow]; omega) (by simp only [Int.reducePow]; omega)]
  · refine ⟨pre ++ Spec.beBytesSigned 4 v ++ post, by simpa using hw.2.2.1 h, ?_⟩
    rw [(read_value_partial .wrap pre _ post (Or.inl rfl)).2.1 (l 4),
      bytes_roundtrip_signed 4 v (by simp only [Int.reducePow]; omega) (by simp only [Int.reducePow]; omega)]
  · refine ⟨pre ++ Spec.beBytesSigned 8 v ++ post, by simpa using hw.2.2.2 h, ?_⟩
    rw [(read_value_partial .wrap pre _ post (Or.inl rfl)).2.2 (l 8),
      bytes_roundtrip_signed 8 v (by simp only [Int.reducePow]; omega) (by simp only [Int.reducePow]; omega)]

/-- C05: UUIDs are copied verbatim and read back. -/
theorem uuid_roundtrip (pre post u : List UInt8) (old : Mem) (h : old.length = 16) (hu : u.length = 16) :
    ∃ m, write_uuid (pre.map some ++ old ++ post.map some) pre.length u = C.ok (m.map some) ∧
      read_uuid m pre.length = C.ok u := by
  refine ⟨pre ++ u ++ post, ?_, (read_defined .iso pre u post).2.2.2.2.2 hu⟩
  have := copyTo_eq u (pre.map some) old (post.map some) (by omega)
  simpa [write_uuid] using this

/-- C05: a write that does not fit is out of bounds (so a caller must provide the room). -/
theorem write_out_of_bounds (m : Mem) (o v : Nat) :
    (m.length < o + 1 → write_u8 m o v = C.ub) ∧ (m.length < o + 2 → write_u16 m o v = C.ub) ∧
    (m.length < o + 4 → write_u32 m o v = C.ub) ∧ (m.length < o + 8 → write_u64 m o v = C.ub) := by
  refine ⟨fun h => ?_, fun h => ?_, fun h => ?_, fun h => ?_⟩
  · rw [write_u8_copy]; exact copyTo_ub _ _ _ (by rw [beBytes_length]; omega) (by simp [Spec.beBytes])
  · rw [write_u16_copy]; exact copyTo_ub _ _ _ (by rw [beBytes_length]; omega) (by simp [Spec.beBytes])
  · rw [write_u32_copy]; exact copyTo_ub _ _ _ (by rw [beBytes_length]; omega) (by simp [Spec.beBytes])
  · rw [write_u64_copy]; exact copyTo_ub _ _ _ (by rw [beBytes_length]; omega) (by simp [Spec.beBytes])

end CUtil.MemoryData
