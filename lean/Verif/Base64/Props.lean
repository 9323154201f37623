import Verif.Base64.Lemmas
/-
Properties of azure_base64.c.  C01 round trip, C02 format, C03 safety of the decoder,
C04 no uninitialised bytes (false of the code; proved for well formed text).
-/
namespace CUtil.Base64
open CUtil

/-- C02: when memory is available the encoder returns exactly the RFC 4648 text. -/
theorem encode_eq_rfc4648 (b : List UInt8) (hsize : 1 + (b.length + 2) / 3 * 4 < 2 ^ 64) :
    encode true true (some b) = C.ok (some (Spec.encode b)) ∧
    encodeBytes true true (some b) = C.ok (some (Spec.encode b)) := by
  have h := encodeInternal_ok b (by rw [groups_eq]; exact hsize)
  refine ⟨h, ?_⟩
  unfold encodeBytes
  cases b with
  | nil => rfl
  | cons x xs => simpa using h

example : 1 + (([1, 2, 3, 4] : List UInt8).length + 2) / 3 * 4 < 2 ^ 64 := by decide
/-- RFC 4648 test vector: "foobar" encodes to "Zm9vYmFy", "fooba" to "Zm9vYmE=". -/
example : Spec.encode [0x66, 0x6f, 0x6f, 0x62, 0x61, 0x72] = "Zm9vYmFy".toUTF8.toList ∧
    Spec.encode [0x66, 0x6f, 0x6f, 0x62, 0x61] = "Zm9vYmE=".toUTF8.toList ∧
    Spec.encode [0x66, 0x6f, 0x6f, 0x62] = "Zm9vYg==".toUTF8.toList := by decide +kernel

/-- C02: in every case (any allocation outcome, NULL input included) the encoder has no
undefined behaviour, and anything it returns is the RFC 4648 text of its input. -/
theorem encode_safe (mallocOk stringOk : Bool) (input : Option (List UInt8)) :
    (∃ r, encode mallocOk stringOk input = C.ok r ∧ ∀ s, r = some s → ∃ b, input = some b ∧ s = Spec.encode b) ∧
    (∃ r, encodeBytes mallocOk stringOk input = C.ok r ∧ ∀ s, r = some s → ∃ b, input = some b ∧ s = Spec.encode b) := by
  have key : ∀ b, ∃ r, encodeInternal mallocOk stringOk b = C.ok r ∧ ∀ s, r = some s → s = Spec.encode b := by
    intro b
    by_cases h : !mallocOk ∨ 1 + groups b.length * 4 ≥ 2 ^ 64
    · refine ⟨none, by unfold encodeInternal; rw [if_pos h]; rfl, by simp⟩
    · have hm : mallocOk = true := by
        cases mallocOk with
        | true => rfl
        | false => exact absurd (Or.inl rfl) h
      subst hm
      have hok := encodeInternal_ok b (by simp at h; omega)
      cases stringOk with
      | true => exact ⟨_, hok, by simp⟩
      | false =>
        refine ⟨none, ?_, by simp⟩
        unfold encodeInternal at hok ⊢
        rw [if_neg h] at hok ⊢
        rw [C.bind_eq_ok] at hok
        obtain ⟨x, hx, hok⟩ := hok
        rw [C.bind_eq_ok] at hok
        obtain ⟨y, hy, hok⟩ := hok
        rw [hx]; simp only [C.ok_bind]; rw [hy]; rfl
  cases input with
  | none => exact ⟨⟨none, rfl, by simp⟩, ⟨none, rfl, by simp⟩⟩
  | some b =>
    obtain ⟨r, hr, hs⟩ := key b
    refine ⟨⟨r, hr, fun s h => ⟨b, rfl, hs s h⟩⟩, ?_⟩
    unfold encodeBytes
    cases b with
    | nil => cases stringOk <;> exact ⟨_, rfl, by simp [Spec.encode]⟩
    | cons x xs => simpa using ⟨r, hr, fun s h => hs s h⟩

/-- C02: shape of the text: length `4 * ceil(n/3)`, alphabet characters followed by at most two '='. -/
theorem encode_format (b : List UInt8) :
    (Spec.encode b).length = 4 * ((b.length + 2) / 3) ∧ Spec.WellFormed (Spec.encode b) := by
  obtain ⟨t, k, hk, ht, he, -⟩ := encode_shape b
  refine ⟨encode_length b, by rw [encode_length]; omega, t, k, hk, ht, he⟩

/-- C01: decoding what the encoder returned gives back the original bytes, all initialised. -/
theorem decode_encode (b s : List UInt8) (mallocOk stringOk : Bool)
    (h : encode mallocOk stringOk (some b) = C.ok (some s) ∨
         encodeBytes mallocOk stringOk (some b) = C.ok (some s)) :
    decode true true (some (zstr s)) = C.ok (some (b.map some)) := by
  have hs : s = Spec.encode b := by
    obtain ⟨⟨r, hr, h1⟩, ⟨r', hr', h2⟩⟩ := encode_safe mallocOk stringOk (some b)
    rcases h with h | h
    · rw [hr] at h
      obtain ⟨b', hb, he⟩ := h1 s (by injection h)
      injection hb with hb; rw [hb]; exact he
    · rw [hr'] at h
      obtain ⟨b', hb, he⟩ := h2 s (by injection h)
      injection hb with hb; rw [hb]; exact he
  subst hs
  obtain ⟨t, k, hk, ht, he, hd⟩ := encode_shape b
  have hl := encode_length b
  rw [zstr, decode_spec _ [] (encode_no_nul b) (by omega)]
  rw [he, body_wf t k ht, padding_wf t k hk ht, hd]
  have h1 := decodeBody_length t
  rw [hd] at h1
  have h2 : (t ++ List.replicate k Spec.padChar).length = t.length + k := by simp
  rw [he, h2] at hl
  rw [h2, show (t.length + k) / 4 * 3 - k - b.length = 0 by omega]
  simp [uninit]

/-- The hypothesis of `decode_encode` is met: two input bytes, text "/wE=". -/
example : encodeBytes true true (some [0xff, 1]) = C.ok (some [47, 119, 69, 61]) := by decide +kernel

/-- C03: for every C string in memory (whatever follows its terminator) and every allocation
outcome the decoder stays inside the string and inside its output buffer. -/
theorem decode_safe (newOk preBuildOk : Bool) (s t : List UInt8) (h0 : (0 : UInt8) ∉ s) :
    C.Defined (decode newOk preBuildOk (some (s ++ 0 :: t))) := by
  by_cases h4 : s.length % 4 = 0
  · have h := decode_spec s t h0 h4
    unfold decode at h ⊢
    simp only [strlen_zstr s t h0, C.ok_bind, C.pure_eq, decode_len_spec s t h0 h4] at h ⊢
    rw [if_neg (by omega)] at h ⊢
    cases newOk with
    | false => exact ⟨none, rfl⟩
    | true =>
      rw [if_neg (by simp)] at h ⊢
      split
      · cases preBuildOk with
        | false => exact ⟨none, rfl⟩
        | true => rename_i hc; rw [if_pos hc] at h; exact ⟨_, h⟩
      · exact ⟨_, rfl⟩
  · unfold decode
    simp only [strlen_zstr s t h0, C.ok_bind, C.pure_eq]
    rw [if_pos h4]
    exact ⟨none, rfl⟩

/-- C03: NULL and lengths that are not a multiple of four are rejected. -/
theorem decode_rejects (newOk preBuildOk : Bool) (s t : List UInt8) (h0 : (0 : UInt8) ∉ s)
    (h4 : s.length % 4 ≠ 0) :
    decode newOk preBuildOk none = C.ok none ∧ decode newOk preBuildOk (some (s ++ 0 :: t)) = C.ok none := by
  refine ⟨rfl, ?_⟩
  unfold decode
  simp only [strlen_zstr s t h0, C.ok_bind, C.pure_eq]
  rw [if_pos h4]

example : (0 : UInt8) ∉ ([65, 66, 67] : List UInt8) ∧ ([65, 66, 67] : List UInt8).length % 4 ≠ 0 := by decide

/-- C03: when memory for the BUFFER or for its contents cannot be obtained the result is NULL, also
for well-formed input.  (An empty result needs no contents: only `BUFFER_new` counts then.) -/
theorem decode_no_memory (newOk preBuildOk : Bool) (s t : List UInt8) (h0 : (0 : UInt8) ∉ s)
    (hm : newOk = false ∨ (preBuildOk = false ∧ 0 < s.length / 4 * 3 - Spec.padding s)) :
    decode newOk preBuildOk (some (s ++ 0 :: t)) = C.ok none := by
  by_cases h4 : s.length % 4 = 0
  · unfold decode
    simp only [strlen_zstr s t h0, C.ok_bind, C.pure_eq, decode_len_spec s t h0 h4]
    rw [if_neg (by omega)]
    cases newOk with
    | false => rfl
    | true =>
      rcases hm with hm | ⟨rfl, hs⟩
      · cases hm
      · rw [if_neg (by simp), if_pos (by omega)]; rfl
  · exact (decode_rejects newOk preBuildOk s t h0 h4).2

example : (0 : UInt8) ∉ ([65, 66, 67, 68] : List UInt8) ∧
    0 < ([65, 66, 67, 68] : List UInt8).length / 4 * 3 - Spec.padding [65, 66, 67, 68] := by decide

/-- C03: what is returned otherwise: a buffer of `3 * len / 4` bytes less the padding, holding the
bytes of the leading alphabet characters and, after them, cells the decoder never wrote. -/
theorem decode_result (s t : List UInt8) (h0 : (0 : UInt8) ∉ s) (h4 : s.length % 4 = 0) :
    ∃ buf, decode true true (some (s ++ 0 :: t)) = C.ok (some buf) ∧
      buf.length = s.length / 4 * 3 - Spec.padding s ∧
      buf = (Spec.decodeBody (Spec.body s)).map some ++
        List.replicate (buf.length - (Spec.body s).length * 3 / 4) none := by
  have hb := body_length_le s
  have hdl := decodeBody_length (Spec.body s)
  have hp : Spec.padding s ≤ 2 := by unfold Spec.padding; omega
  refine ⟨_, decode_spec s t h0 h4, ?_, ?_⟩
  · simp; omega
  · rw [← hdl]
    simp only [uninit, List.length_append, List.length_map, List.length_replicate]
    congr 2
    omega

/-- C04 is false of the code: the four character string "A===" is accepted and yields a one byte
buffer whose only byte was never written. -/
theorem decode_exposes_uninitialised :
    decode true true (some (zstr [65, 61, 61, 61])) = C.ok (some [none]) := by decide +kernel

/-- C04, second witness: a non-alphabet character in the middle ("AA*A") leaves two of three bytes unwritten. -/
theorem decode_exposes_uninitialised_inner :
    decode true true (some (zstr [65, 65, 42, 65])) = C.ok (some [some 0, none, none]) := by decide +kernel

/-- C04, the part that holds: on well formed Base64 text every byte of the result was written,
and the result is the denoted byte string.  Missing: malformed text of acceptable length, for
which the two witnesses above show the property fails. -/
theorem decode_initialised_partial (s t : List UInt8) (h : Spec.WellFormed s) :
    decode true true (some (s ++ 0 :: t)) = C.ok (some ((Spec.decodeBody (Spec.body s)).map some)) := by
  obtain ⟨h4, u, k, hk, hu, rfl⟩ := h
  have h0 : (0 : UInt8) ∉ u ++ List.replicate k Spec.padChar := by
    rw [List.mem_append]
    rintro (h | h)
    · exact zero_not_mem (hu _ h)
    · have := List.eq_of_mem_replicate h; exact absurd this (by decide)
  rw [decode_spec _ t h0 h4, body_wf u k hu, padding_wf u k hk hu]
  have h1 := decodeBody_length u
  have h2 : (u ++ List.replicate k Spec.padChar).length = u.length + k := by simp
  rw [h2] at h4
  rw [h2, show (u.length + k) / 4 * 3 - k - (Spec.decodeBody u).length = 0 by omega]
  simp [uninit]

example : Spec.WellFormed [90, 109, 57, 118, 89, 103, 61, 61] :=
  ⟨by decide, [90, 109, 57, 118, 89, 103], 2, by decide, by decide, by decide⟩

/-- C04, exact criterion: some byte of the result is uninitialised precisely when the leading
alphabet characters denote fewer bytes than the buffer has. -/
theorem decode_uninitialised_iff (s t : List UInt8) (h0 : (0 : UInt8) ∉ s) (h4 : s.length % 4 = 0) :
    (∃ buf, decode true true (some (s ++ 0 :: t)) = C.ok (some buf) ∧ none ∈ buf) ↔
      (Spec.body s).length * 3 / 4 < s.length / 4 * 3 - Spec.padding s := by
  rw [decode_spec s t h0 h4]
  have hdl := decodeBody_length (Spec.body s)
  constructor
  · rintro ⟨buf, hb, hn⟩
    injection hb with hb; injection hb with hb
    subst hb
    rw [List.mem_append] at hn
    rcases hn with hn | hn
    · simp at hn
    · have := List.length_pos_of_mem hn
      simp at this; omega
  · intro h
    refine ⟨_, rfl, ?_⟩
    rw [List.mem_append]
    right
    simp [uninit]; omega

end CUtil.Base64
