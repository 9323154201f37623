import Verif.Uuid.Lemmas
/-
Properties of uuid_string.c.  C07 round trip, C08 accepted language and memory safety.
-/
namespace CUtil.Uuid
open CUtil MemoryData

/-- C08 (completeness): any block that starts with the text of `u` (nothing is required of what
follows, not even a NUL) is accepted and the destination becomes `u`. -/
theorem from_string_accepts (s u t : List UInt8) (dst : Mem) (hd : dst.length = 16) (h : Spec.Denotes s u) :
    uuid_from_string (some (s ++ t)) (some dst) = C.ok (.ok, some (u.map some)) := by
  obtain ⟨t1, t2, t3, t4, t5, u1, u2, u3, u4, u5, rfl, rfl, l1, l2, l3, l4, l5, e1, e2, e3, e4, e5⟩ := h
  have k1 := hexText_length e1; have k2 := hexText_length e2; have k3 := hexText_length e3
  have k4 := hexText_length e4
  have hp : parse (t1 ++ [45] ++ t2 ++ [45] ++ t3 ++ [45] ++ t4 ++ [45] ++ t5 ++ t) dst
      = C.ok (true, (u1 ++ u2 ++ u3 ++ u4 ++ u5).map some) := by
    have hcopy := copy_parts dst hd u1 u2 u3 u4 u5 l1 l2 l3 l4 l5
    simp only [C.bind_eq_ok] at hcopy
    obtain ⟨m1, c1, m2, c2, m3, c3, m4, c4, c5⟩ := hcopy
    unfold parse
    have p1 := parse_hex t1 u1 e1 [] ([45] ++ t2 ++ [45] ++ t3 ++ [45] ++ t4 ++ [45] ++ t5 ++ t) dst 0 0 rfl
    rw [c1, l1] at p1
    have p2 := dashGroup_hex t2 u2 e2 t1 ([45] ++ t3 ++ [45] ++ t4 ++ [45] ++ t5 ++ t) m1 4 8 2 (by omega) l2.symm
    rw [c2] at p2
    have p3 := dashGroup_hex t3 u3 e3 (t1 ++ [45] ++ t2) ([45] ++ t4 ++ [45] ++ t5 ++ t) m2 6 13 2
      (by simp; omega) l3.symm
    rw [c3] at p3
    have p4 := dashGroup_hex t4 u4 e4 (t1 ++ [45] ++ t2 ++ [45] ++ t3) ([45] ++ t5 ++ t) m3 8 18 2
      (by simp; omega) l4.symm
    rw [c4] at p4
    have p5 := dashGroup_hex t5 u5 e5 (t1 ++ [45] ++ t2 ++ [45] ++ t3 ++ [45] ++ t4) t m4 10 23 6
      (by simp; omega) l5.symm
    rw [c5] at p5
    simp only [List.append_assoc, List.nil_append] at p1 p2 p3 p4 p5 ⊢
    rw [p1]; simp only [C.ok_bind, Bool.not_true, Bool.false_eq_true, if_false]
    rw [p2]; simp only [C.ok_bind, Bool.not_true, Bool.false_eq_true, if_false]
    rw [p3]; simp only [C.ok_bind, Bool.not_true, Bool.false_eq_true, if_false]
    rw [p4]; simp only [C.ok_bind, Bool.not_true, Bool.false_eq_true, if_false]
    rw [p5]; simp only [C.ok_bind]
  unfold uuid_from_string
  simp only
  rw [hp]
  simp

/-- C08 (soundness): success means the block starts with the text of a UUID and the destination
holds exactly that UUID. -/
theorem from_string_sound (m : List UInt8) (dst : Mem) (hd : dst.length = 16) (out : Option Mem)
    (h : uuid_from_string (some m) (some dst) = C.ok (.ok, out)) :
    ∃ s u t, m = s ++ t ∧ Spec.Denotes s u ∧ out = some (u.map some) := by
  unfold uuid_from_string at h
  simp only [C.bind_eq_ok] at h
  obtain ⟨⟨ok, dst'⟩, hp, h⟩ := h
  cases ok with
  | false =>
    simp only [Bool.not_false, if_true, C.bind_eq_ok] at h
    obtain ⟨_, _, h⟩ := h
    simp at h
  | true =>
    simp only [Bool.not_true, Bool.false_eq_true, if_false, C.pure_eq, C.ok.injEq, Prod.mk.injEq, true_and] at h
    subst h
    unfold parse at hp
    rw [C.bind_eq_ok] at hp
    obtain ⟨⟨ok, d1⟩, g1, hp⟩ := hp
    cases ok with
    | false => simp at hp
    | true =>
    simp only [Bool.not_true, Bool.false_eq_true, if_false] at hp
    rw [C.bind_eq_ok] at hp
    obtain ⟨⟨ok, d2⟩, g2, hp⟩ := hp
    cases ok with
    | false => simp at hp
    | true =>
    simp only [Bool.not_true, Bool.false_eq_true, if_false] at hp
    rw [C.bind_eq_ok] at hp
    obtain ⟨⟨ok, d3⟩, g3, hp⟩ := hp
    cases ok with
    | false => simp at hp
    | true =>
    simp only [Bool.not_true, Bool.false_eq_true, if_false] at hp
    rw [C.bind_eq_ok] at hp
    obtain ⟨⟨ok, d4⟩, g4, hp⟩ := hp
    cases ok with
    | false => simp at hp
    | true =>
    simp only [Bool.not_true, Bool.false_eq_true, if_false] at hp
    obtain ⟨t1, u1, e1, l1, m1, c1⟩ := parse_hex_inv _ _ _ _ _ _ g1
    obtain ⟨t2, u2, e2, l2, m2, c2⟩ := dashGroup_inv _ _ _ _ _ _ g2
    obtain ⟨t3, u3, e3, l3, m3, c3⟩ := dashGroup_inv _ _ _ _ _ _ g3
    obtain ⟨t4, u4, e4, l4, m4, c4⟩ := dashGroup_inv _ _ _ _ _ _ g4
    obtain ⟨t5, u5, e5, l5, m5, c5⟩ := dashGroup_inv _ _ _ _ _ _ hp
    refine ⟨_, u1 ++ u2 ++ u3 ++ u4 ++ u5, m.drop 36, ?_,
      ⟨t1, t2, t3, t4, t5, u1, u2, u3, u4, u5, rfl, rfl, l1, l2, l3, l4, l5, e1, e2, e3, e4, e5⟩, ?_⟩
    · simp only [List.drop_zero, Nat.zero_add, Nat.reduceMul, Nat.reduceAdd] at m1 m2 m3 m4 m5
      rw [m5] at m4; rw [m4] at m3; rw [m3] at m2; rw [m2] at m1
      simpa only [List.append_assoc] using m1
    · have hcopy := copy_parts dst hd u1 u2 u3 u4 u5 l1 l2 l3 l4 l5
      rw [c1] at hcopy; simp only [C.ok_bind] at hcopy
      rw [c2] at hcopy; simp only [C.ok_bind] at hcopy
      rw [c3] at hcopy; simp only [C.ok_bind] at hcopy
      rw [c4] at hcopy; simp only [C.ok_bind] at hcopy
      rw [c5] at hcopy
      simpa using hcopy

/-- C08 (safety): on every NUL terminated string the parser neither reads past the terminator nor
writes outside the UUID, and the answer is OK or INVALID_DATA. -/
theorem from_string_safe (s t : List UInt8) (dst : Mem) (hd : dst.length = 16) :
    ∃ r dst', uuid_from_string (some (s ++ 0 :: t)) (some dst) = C.ok (r, some dst') ∧
      dst'.length = 16 ∧ (r = .ok ∨ r = .invalidData) := by
  obtain ⟨ok, dst', hp, hl⟩ := parse_defined (s ++ 0 :: t) dst (by simp) hd
  unfold uuid_from_string
  simp only
  rw [hp]; simp only [C.ok_bind]
  cases ok with
  | true => exact ⟨.ok, dst', rfl, hl, Or.inl rfl⟩
  | false =>
    obtain ⟨n, hn⟩ := strlen_of_mem (s ++ 0 :: t) (by simp)
    simp only [Bool.not_false, if_true, hn, C.ok_bind]
    exact ⟨.invalidData, dst', rfl, hl, Or.inr rfl⟩

/-- C08: exact accepted language on NUL terminated strings. -/
theorem from_string_ok_iff (s t : List UInt8) (dst : Mem) (hd : dst.length = 16) (u : List UInt8) :
    uuid_from_string (some (s ++ 0 :: t)) (some dst) = C.ok (.ok, some (u.map some)) ↔
      ∃ a b, s ++ 0 :: t = a ++ b ∧ Spec.Denotes a u := by
  constructor
  · intro h
    obtain ⟨a, u', b, e, hden, hout⟩ := from_string_sound _ _ hd _ h
    have : u = u' := by
      injection hout with hout
      exact (List.map_inj_right (fun _ _ h => Option.some.inj h)).mp hout
    subst this
    exact ⟨a, b, e, hden⟩
  · rintro ⟨a, b, e, hden⟩
    rw [e]; exact from_string_accepts a u b dst hd hden

/-- C08: NULL arguments. -/
theorem from_string_null (m : Option (List UInt8)) (u : Option Mem) (h : m = none ∨ u = none) :
    uuid_from_string m u = C.ok (.invalidArg, u) := by
  rcases h with rfl | rfl
  · rfl
  · cases m <;> rfl

/-- The comment at uuid_string.c:91 says the input is "not necessarily null terminated".  That does
not hold for malformed input: the error message of line 130 prints the input with "%s" and reads on
past the end of an unterminated block. -/
theorem from_string_unterminated_overread (dst : Mem) :
    uuid_from_string (some [120]) (some dst) = C.ub := by
  unfold uuid_from_string parse parseHexString isHexByte
  simp [rd_zero, show isHexDigit 120 = none by decide, strlen]

/-- C58, the exact criterion: the call reads outside the block it is given exactly when the block has
no NUL and does not start with the text of a UUID. -/
theorem from_string_ub_iff (m : List UInt8) (dst : Mem) (hd : dst.length = 16) :
    uuid_from_string (some m) (some dst) = C.ub ↔
      (0 : UInt8) ∉ m ∧ ¬ ∃ s u t, m = s ++ t ∧ Spec.Denotes s u := by
  constructor
  · intro h
    refine ⟨fun h0 => ?_, ?_⟩
    · obtain ⟨s, t, rfl⟩ := List.append_of_mem h0
      obtain ⟨r, d, e, _⟩ := from_string_safe s t dst hd
      rw [e] at h; cases h
    · rintro ⟨s, u, t, rfl, hden⟩
      rw [from_string_accepts s u t dst hd hden] at h; cases h
  · rintro ⟨h0, hn⟩
    cases hc : uuid_from_string (some m) (some dst) with
    | ub => rfl
    | ok r =>
      exfalso
      obtain ⟨res, out⟩ := r
      have hok : res = .ok := by
        unfold uuid_from_string at hc
        simp only [C.bind_eq_ok] at hc
        obtain ⟨⟨ok, d⟩, _, hc⟩ := hc
        cases ok with
        | true =>
          simp only [Bool.not_true, Bool.false_eq_true, if_false, C.pure_eq, C.ok.injEq, Prod.mk.injEq] at hc
          exact hc.1.symm
        | false =>
          simp only [Bool.not_false, if_true, C.bind_eq_ok] at hc
          obtain ⟨n, hs, _⟩ := hc
          rw [strlen_ub m h0] at hs; cases hs
      subst hok
      obtain ⟨s, u, t, e, hden, _⟩ := from_string_sound m dst hd out hc
      exact hn ⟨s, u, t, e, hden⟩

/-- C58, the part that holds: with a NUL anywhere in the block, or the text of a UUID at its start,
nothing outside the block is read.  Missing for the full claim: unterminated malformed text
(`from_string_unterminated_overread`). -/
theorem from_string_inside_partial (m : List UInt8) (dst : Mem) (hd : dst.length = 16)
    (h : (0 : UInt8) ∈ m ∨ ∃ s u t, m = s ++ t ∧ Spec.Denotes s u) :
    C.Defined (uuid_from_string (some m) (some dst)) := by
  cases hc : uuid_from_string (some m) (some dst) with
  | ok r => exact ⟨r, rfl⟩
  | ub =>
    obtain ⟨h0, hn⟩ := (from_string_ub_iff m dst hd).1 hc
    rcases h with h | h
    · exact absurd h h0
    · exact absurd h hn

example : (0 : UInt8) ∈ ([120, 0, 7] : List UInt8) ∧ (uninit 16 : Mem).length = 16 := by decide

/-- C08: only the characters before the terminator matter. -/
theorem from_string_text_only (s t t' : List UInt8) (dst : Mem) (hd : dst.length = 16) (u : List UInt8) :
    uuid_from_string (some (s ++ 0 :: t)) (some dst) = C.ok (.ok, some (u.map some)) ↔
      uuid_from_string (some (s ++ 0 :: t')) (some dst) = C.ok (.ok, some (u.map some)) := by
  have key : ∀ t : List UInt8, (∃ a b, s ++ 0 :: t = a ++ b ∧ Spec.Denotes a u) → ∃ b, ∃ a, s = a ++ b ∧ Spec.Denotes a u := by
    rintro t ⟨a, b, e, hden⟩
    have h0 := denotes_no_nul hden
    rcases List.append_eq_append_iff.1 e with ⟨c, ha, hb⟩ | ⟨c, hs, hb⟩
    · cases c with
      | nil => exact ⟨[], a, by simpa using ha.symm, hden⟩
      | cons x xs =>
        injection hb with hx
        subst hx
        exact absurd (by rw [ha]; simp) h0
    · exact ⟨c, a, hs, hden⟩
  have back : ∀ t : List UInt8, (∃ b, ∃ a, s = a ++ b ∧ Spec.Denotes a u) → ∃ a b, s ++ 0 :: t = a ++ b ∧ Spec.Denotes a u := by
    rintro t ⟨b, a, rfl, hden⟩
    exact ⟨a, b ++ 0 :: t, by simp, hden⟩
  rw [from_string_ok_iff s t dst hd u, from_string_ok_iff s t' dst hd u]
  exact ⟨fun h => back _ (key _ h), fun h => back _ (key _ h)⟩

/-- A block that is not NUL terminated: "8c9f1e63-3f22-4afd-bc7d-8d1b20f968d6" is accepted. -/
example : uuid_from_string (some "8C9F1E63-3F22-4AFD-bc7d-8d1b20f968d6".toUTF8.toList) (some (uninit 16)) =
    C.ok (.ok, some ([0x8c, 0x9f, 0x1e, 0x63, 0x3f, 0x22, 0x4a, 0xfd, 0xbc, 0x7d, 0x8d, 0x1b, 0x20, 0xf9, 0x68, 0xd6].map some)) := by
  decide +kernel

theorem hexDigit_hexChar (n : Nat) (h : n < 16) : Spec.HexDigit (hexChar n) n := by
  unfold Spec.HexDigit hexChar
  split
  · rw [toNat_ofNat_u8 _ (by omega)]; omega
  · rw [toNat_ofNat_u8 _ (by omega)]; omega

theorem hexText_hex2 (b : UInt8) {t bs : List UInt8} (h : Spec.HexText t bs) : Spec.HexText (hex2 b ++ t) (b :: bs) := by
  have hb := uint8_lt b
  have := Spec.HexText.cons (hexDigit_hexChar (b.toNat / 16) (by omega)) (hexDigit_hexChar (b.toNat % 16) (by omega)) h
  rw [show 16 * (b.toNat / 16) + b.toNat % 16 = b.toNat by omega, ofNat_toNat_u8] at this
  exact this

/-- C07 (printing): every UUID prints as its text, in lower case, without undefined behaviour, or NULL
when the allocation fails. -/
theorem to_string_denotes (allocOk : Bool) (u : List UInt8) (hu : u.length = 16) :
    ∃ r, uuid_to_string allocOk u = C.ok r ∧ (allocOk = false → r = none) ∧
      (allocOk = true → ∃ s, r = some s ∧ Spec.Denotes s u ∧ Spec.Lower s ∧ (0 : UInt8) ∉ s ∧ s.length = 36) := by
  match u, hu with
  | [b0, b1, b2, b3, b4, b5, b6, b7, b8, b9, b10, b11, b12, b13, b14, b15], _ =>
    unfold uuid_to_string
    simp only [rd, List.getElem?_cons_zero, List.getElem?_cons_succ, C.ok_bind, C.pure_eq]
    cases allocOk with
    | false => exact ⟨none, rfl, fun _ => rfl, by simp⟩
    | true =>
      refine ⟨_, rfl, by simp, fun _ => ⟨_, rfl, ?_, ?_, ?_, by simp [hex2]⟩⟩
      · refine ⟨hex2 b0 ++ (hex2 b1 ++ (hex2 b2 ++ (hex2 b3 ++ []))), hex2 b4 ++ (hex2 b5 ++ []),
          hex2 b6 ++ (hex2 b7 ++ []), hex2 b8 ++ (hex2 b9 ++ []),
          hex2 b10 ++ (hex2 b11 ++ (hex2 b12 ++ (hex2 b13 ++ (hex2 b14 ++ (hex2 b15 ++ []))))),
          [b0, b1, b2, b3], [b4, b5], [b6, b7], [b8, b9], [b10, b11, b12, b13, b14, b15], by simp, by simp,
          rfl, rfl, rfl, rfl, rfl, ?_, ?_, ?_, ?_, ?_⟩
        · exact hexText_hex2 _ (hexText_hex2 _ (hexText_hex2 _ (hexText_hex2 _ .nil)))
        · exact hexText_hex2 _ (hexText_hex2 _ .nil)
        · exact hexText_hex2 _ (hexText_hex2 _ .nil)
        · exact hexText_hex2 _ (hexText_hex2 _ .nil)
        · exact hexText_hex2 _ (hexText_hex2 _ (hexText_hex2 _ (hexText_hex2 _ (hexText_hex2 _ (hexText_hex2 _ .nil)))))
      · have hc : ∀ n, n < 16 → (48 ≤ (hexChar n).toNat ∧ (hexChar n).toNat ≤ 57) ∨ (97 ≤ (hexChar n).toNat ∧ (hexChar n).toNat ≤ 102)
            ∨ hexChar n = 45 := by
          have : ∀ i : Fin 16, (48 ≤ (hexChar i.val).toNat ∧ (hexChar i.val).toNat ≤ 57) ∨
            (97 ≤ (hexChar i.val).toNat ∧ (hexChar i.val).toNat ≤ 102) ∨ hexChar i.val = 45 := by decide +kernel
          exact fun n h => this ⟨n, h⟩
        have h1 : ∀ b : UInt8, ∀ c ∈ hex2 b, (48 ≤ c.toNat ∧ c.toNat ≤ 57) ∨ (97 ≤ c.toNat ∧ c.toNat ≤ 102) ∨ c = 45 := by
          intro b c hb
          have hlt := uint8_lt b
          simp only [hex2, List.mem_cons, List.not_mem_nil, or_false] at hb
          rcases hb with rfl | rfl
          · exact hc _ (by omega)
          · exact hc _ (by omega)
        intro c hm
        simp only [List.mem_append, List.mem_singleton, or_assoc] at hm
        rcases hm with h | h | h | h | h | h | h | h | h | h | h | h | h | h | h | h | h | h | h | h
        all_goals first | exact h1 _ _ h | exact .inr (.inr h)
      · have hc : ∀ n, n < 16 → hexChar n ≠ 0 := by
          have : ∀ i : Fin 16, hexChar i.val ≠ 0 := by decide +kernel
          exact fun n h => this ⟨n, h⟩
        have h1 : ∀ b : UInt8, (0 : UInt8) ∉ hex2 b := by
          intro b
          have hb := uint8_lt b
          simp only [hex2, List.mem_cons, List.not_mem_nil, or_false, not_or]
          exact ⟨(hc _ (by omega)).symm, (hc _ (by omega)).symm⟩
        simp [h1]

/-- C07: parsing the printed form gives back the UUID. -/
theorem uuid_roundtrip (u s : List UInt8) (hu : u.length = 16) (allocOk : Bool)
    (h : uuid_to_string allocOk u = C.ok (some s)) (dst : Mem) (hd : dst.length = 16) :
    uuid_from_string (some (zstr s)) (some dst) = C.ok (.ok, some (u.map some)) := by
  obtain ⟨r, hr, h0, h1⟩ := to_string_denotes allocOk u hu
  rw [hr] at h
  injection h with h
  cases allocOk with
  | false => rw [h0 rfl] at h; cases h
  | true =>
    obtain ⟨s', hs', hden, -⟩ := h1 rfl
    rw [hs'] at h
    injection h with h
    subst h
    exact from_string_accepts _ u [0] dst hd hden

example : ∃ s, uuid_to_string true [0x8c, 0x9f, 0x1e, 0x63, 0x3f, 0x22, 0x4a, 0xfd, 0xbc, 0x7d, 0x8d, 0x1b, 0x20, 0xf9, 0x68, 0xd6]
    = C.ok (some s) := ⟨"8c9f1e63-3f22-4afd-bc7d-8d1b20f968d6".toUTF8.toList, by decide +kernel⟩

end CUtil.Uuid
