import Verif.ConstBuffer.Lemmas
set_option linter.unusedSimpArgs false
/-
Properties of CONSTBUFFER serialization.  C09: what is written is the documented format and
reading it back gives the content.  C10: deserializing arbitrary bytes is safe and strict.
`d` is the dialect of signed shifts of `read_uint32_t` (see MemoryData): with `.wrap` there is
no condition on the content; under ISO C sizes of 2^31 and more are undefined behaviour.
-/
namespace CUtil.ConstBuffer
open CUtil CUtil.MemoryData

/-- C09: with an allocator that honours the request, `to_buffer` returns the documented format
of the content at the start of the block and reports its size; contents whose serialization
would not fit in 32 bits are refused without asking for memory. -/
theorem to_buffer_format (c : List UInt8) (alloc : Nat → Option Mem)
    (hal : ∀ n m, alloc n = some m → n ≤ m.length) :
    (c.length + 5 ≤ 2 ^ 32 - 1 → ∀ m, alloc (5 + c.length) = some m →
      to_buffer (some c) alloc true =
        C.ok (some ((Spec.format c).map some ++ m.drop (5 + c.length)), some (5 + c.length))) ∧
    (c.length + 5 ≤ 2 ^ 32 - 1 → alloc (5 + c.length) = none → to_buffer (some c) alloc true = C.ok (none, none)) ∧
    (¬ c.length + 5 ≤ 2 ^ 32 - 1 → to_buffer (some c) alloc true = C.ok (none, none)) := by
  simp only [Nat.reducePow]
  refine ⟨fun hc m hm => ?_, fun hc hm => ?_, fun hc => ?_⟩
  · simp only [to_buffer]
    rw [if_neg (by simp), if_neg (by simp only [U32MAX]; omega)]
    rw [show HDR + c.length = 5 + c.length from rfl, hm]
    have hl := hal _ _ hm
    have := writeAll_eq c (m.take (5 + c.length)) (m.drop (5 + c.length)) (by simp; omega)
    rw [List.take_append_drop] at this
    simp only [this, C.ok_bind, C.pure_eq]
    rw [Nat.mod_eq_of_lt (by simp only [Nat.reducePow]; omega)]
  · simp only [to_buffer]
    rw [if_neg (by simp), if_neg (by simp only [U32MAX]; omega)]
    rw [show HDR + c.length = 5 + c.length from rfl, hm]
  · simp only [to_buffer]
    rw [if_neg (by simp), if_pos (by simp only [U32MAX]; omega)]

example : to_buffer (some [7, 8]) (fun n => some (uninit n)) true =
    C.ok (some [some 1, some 0, some 0, some 0, some 2, some 7, some 8], some 7) := by decide +kernel

/-- C09: the announced size is the length of the documented format, or 0 when it does not fit. -/
theorem serialization_size_eq (c : List UInt8) :
    get_serialization_size (some c) =
      if (Spec.format c).length ≤ 2 ^ 32 - 1 then (Spec.format c).length else 0 := by
  rw [format_length]
  simp only [get_serialization_size]
  by_cases h : 5 + c.length ≤ 2 ^ 32 - 1
  · rw [if_pos h, if_neg (by simp only [Nat.reducePow, U32MAX] at *; omega),
      Nat.mod_eq_of_lt (by simp only [HDR, Nat.reducePow] at *; omega)]
  · rw [if_neg h, if_pos (by simp only [Nat.reducePow, U32MAX] at *; omega)]

/-- C09: serializing into a fixed block of `dsize` bytes: exactly the first `5 + length` bytes
change, nothing is written if the block is too small, and the needed size is reported in both
cases. -/
theorem to_fixed_size_buffer_format (c : List UInt8) (m : Mem) (dsize : Nat) (hd : dsize ≤ m.length)
    (hc : c.length + 5 ≤ 2 ^ 32 - 1) :
    to_fixed_size_buffer (some c) (some m) dsize true =
      if dsize < 5 + c.length then C.ok (.INSUFFICIENT_BUFFER, some m, some (5 + c.length))
      else C.ok (.OK, some ((Spec.format c).map some ++ m.drop (5 + c.length)), some (5 + c.length)) := by
  simp only [Nat.reducePow] at hc
  simp only [to_fixed_size_buffer]
  rw [if_neg (by simp), if_neg (by simp only [U32MAX]; omega)]
  rw [show HDR + c.length = 5 + c.length from rfl, Nat.mod_eq_of_lt (by simp only [Nat.reducePow]; omega)]
  by_cases h : dsize < 5 + c.length
  · rw [if_pos h, if_pos h]
  · rw [if_neg h, if_neg h]
    have := writeAll_eq c (m.take (5 + c.length)) (m.drop (5 + c.length)) (by simp; omega)
    rw [List.take_append_drop] at this
    simp only [this, C.ok_bind, C.pure_eq]

example : to_fixed_size_buffer (some [7]) (some [none, none, none, none, none, none, some 9]) 6 true =
    C.ok (.OK, some [some 1, some 0, some 0, some 0, some 1, some 7, some 9], some 6) := by decide +kernel
example : to_fixed_size_buffer (some [7]) (some [none]) 1 true = C.ok (.INSUFFICIENT_BUFFER, some [none], some 6) := by
  decide +kernel

/-- C09: content whose serialization does not fit in 32 bits is refused and the destination is
left alone. -/
theorem to_fixed_size_buffer_too_big (c : List UInt8) (m : Mem) (dsize : Nat) (hc : 2 ^ 32 - 1 < c.length + 5) :
    to_fixed_size_buffer (some c) (some m) dsize true = C.ok (.ERROR, some m, none) := by
  simp only [Nat.reducePow] at hc
  simp only [to_fixed_size_buffer]
  rw [if_neg (by simp), if_pos (by simp only [U32MAX]; omega)]

/-- C09: round trip.  Reading back the serialization of `c`, followed by anything, gives `c` and
consumes exactly the serialized bytes. -/
theorem serialization_roundtrip (d : Dialect) (c rest : List UInt8)
    (hc : c.length + 5 ≤ 2 ^ 32 - 1) (hd : d = .wrap ∨ c.length < 2 ^ 31) :
    from_buffer d (some (Spec.format c ++ rest)) (5 + c.length + rest.length) true true true =
      C.ok ⟨.OK, some (5 + c.length), some (some c)⟩ := by
  simp only [Nat.reducePow] at hc hd
  have hb := format_beVal c (by simp only [Nat.reducePow]; omega)
  have hl := beBytes_length 4 c.length
  have := from_buffer_long d 1 (MemoryData.Spec.beBytes 4 c.length) (c ++ rest) (5 + c.length + rest.length) true hl
    (by omega) (by simp; omega) (by rcases hd with h | h; exact Or.inl h; right; rw [hb, hl]; simp only [Nat.reducePow]; omega)
  rw [hb, if_neg (by decide), if_neg (by simp only [HDR]; omega), if_neg (by simp)] at this
  simp only [Spec.format, List.cons_append, List.append_assoc]
  rw [this, Nat.mod_eq_of_lt (by simp only [HDR, Nat.reducePow]; omega), List.take_left]

example : from_buffer .wrap (some (Spec.format [3, 4] ++ [9])) 8 true true true =
    C.ok ⟨.OK, some 7, some (some [3, 4])⟩ := by decide +kernel

/-- C10: for every block of at least `size` bytes, deserialization has no undefined behaviour
and never depends on bytes beyond `size`.  Missing: ISO C with a size field of 2^31 or more, where
`from_buffer_iso_undefined` shows undefined behaviour. -/
theorem from_buffer_safe_partial (m : List UInt8) (size : Nat) (co de alloc : Bool) (hm : size ≤ m.length) :
    C.Defined (from_buffer .wrap (some m) size co de alloc) ∧
    from_buffer .wrap (some m) size co de alloc = from_buffer .wrap (some (m.take size)) size co de alloc := by
  by_cases hco : co = false ∨ de = false
  · simp only [from_buffer]; rw [if_pos hco, if_pos hco]; simp
  rw [not_or, Bool.not_eq_false, Bool.not_eq_false] at hco
  obtain ⟨rfl, rfl⟩ := hco
  by_cases h0 : size = 0
  · subst h0; simp [from_buffer]
  by_cases h5 : size < 5
  · rw [from_buffer_short _ _ _ _ h0 h5 hm, from_buffer_short _ _ _ _ h0 h5 (by simp; omega)]; simp
  obtain ⟨v, sz, t, rfl, h4⟩ := split5 m (by omega)
  have ht : (v :: (sz ++ t)).take size = v :: (sz ++ t.take (size - 5)) := by
    obtain ⟨k, rfl⟩ : ∃ k, size = k + 1 := ⟨size - 1, by omega⟩
    rw [List.take_succ_cons, List.take_append, h4, List.take_of_length_le (by omega),
      show k - 4 = k + 1 - 5 by omega]
  simp only [List.length_cons, List.length_append, h4] at hm
  rw [ht, from_buffer_long _ _ _ _ _ _ h4 (by omega) (by omega) (Or.inl rfl),
    from_buffer_long _ _ _ _ _ _ h4 (by omega) (by simp; omega) (Or.inl rfl)]
  by_cases hv : v.toNat ≠ V1
  · rw [if_pos hv, if_pos hv]; simp
  rw [if_neg hv, if_neg hv]
  by_cases hc : size - HDR < MemoryData.Spec.beVal sz
  · rw [if_pos hc, if_pos hc]; simp
  rw [if_neg hc, if_neg hc]
  have : List.take (MemoryData.Spec.beVal sz) (List.take (size - 5) t) = List.take (MemoryData.Spec.beVal sz) t := by
    rw [List.take_take, Nat.min_eq_left (by simp only [HDR] at hc; omega)]
  rw [this]
  cases alloc <;> simp

/-- C10: deserialization succeeds exactly on the documented format: it returns `c` and `n` iff
the first `size` bytes start with the serialization of `c` and `n` is its length. -/
theorem from_buffer_ok_iff (m : List UInt8) (size : Nat) (hm : size ≤ m.length) (hs : size < 2 ^ 32)
    (c : List UInt8) (n : Nat) :
    from_buffer .wrap (some m) size true true true = C.ok ⟨.OK, some n, some (some c)⟩ ↔
      Spec.StartsWith (m.take size) c ∧ n = (Spec.format c).length := by
  simp only [Nat.reducePow] at hs
  constructor
  · intro h
    rw [(from_buffer_safe_partial m size true true true hm).2] at h
    by_cases h0 : size = 0
    · subst h0; simp [from_buffer] at h
    by_cases h5 : size < 5
    · rw [from_buffer_short _ _ _ _ h0 h5 (by simp; omega)] at h; simp at h
    obtain ⟨v, sz, t, e, h4⟩ := split5 (m.take size) (by simp; omega)
    have hlen : size = 5 + t.length := by
      have := congrArg List.length e; simp [h4] at this; omega
    rw [e, from_buffer_long _ _ _ _ _ _ h4 (by omega) (by omega) (Or.inl rfl)] at h
    by_cases hv : v.toNat ≠ V1
    · rw [if_pos hv] at h; simp at h
    rw [if_neg hv] at h
    by_cases hc : size - HDR < MemoryData.Spec.beVal sz
    · rw [if_pos hc] at h; simp at h
    rw [if_neg hc, if_neg (by simp)] at h
    simp only [HDR] at hc
    simp only [C.ok.injEq, FromOut.mk.injEq, Option.some.injEq, true_and] at h
    obtain ⟨h1, h2⟩ := h
    rw [Nat.mod_eq_of_lt (by simp only [HDR, Nat.reducePow]; omega)] at h1
    have hcl : c.length = MemoryData.Spec.beVal sz := by rw [← h2]; simp; omega
    refine ⟨⟨t.drop (MemoryData.Spec.beVal sz), ?_⟩, ?_⟩
    · rw [e, Spec.format, toNat_one v (by simpa using hv), hcl]
      have : MemoryData.Spec.beBytes 4 (MemoryData.Spec.beVal sz) = sz := by
        apply beVal_inj
        · rw [beBytes_length, h4]
        · rw [beVal_beBytes _ _ (by have := beVal_lt sz; rw [h4] at this; exact this)]
      rw [this, ← h2]
      simp [List.take_append_drop]
    · rw [format_length, ← h1, hcl]
  · rintro ⟨⟨rest, e⟩, rfl⟩
    rw [(from_buffer_safe_partial m size true true true hm).2, e, format_length]
    have hl : size = 5 + c.length + rest.length := by
      have := congrArg List.length e; simp [format_length] at this; omega
    rw [hl]
    exact serialization_roundtrip .wrap c rest (by simp only [Nat.reducePow]; omega) (Or.inl rfl)

/-- C10: everything else is rejected with INVALID_DATA and no output is touched; a failed
allocation is reported as ERROR. -/
theorem from_buffer_outcomes (m : List UInt8) (size : Nat) (hm : size ≤ m.length) (hs : size < 2 ^ 32)
    (h0 : size ≠ 0) (alloc : Bool) :
    (∀ c, Spec.StartsWith (m.take size) c → from_buffer .wrap (some m) size true true alloc =
        if alloc then C.ok ⟨.OK, some (Spec.format c).length, some (some c)⟩ else C.ok ⟨.ERROR, none, some none⟩) ∧
    (¬ (∃ c, Spec.StartsWith (m.take size) c) →
      from_buffer .wrap (some m) size true true alloc = C.ok ⟨.INVALID_DATA, none, none⟩) := by
  by_cases h5 : size < 5
  · constructor
    · rintro c ⟨rest, e⟩
      have := congrArg List.length e; simp [format_length] at this; omega
    · intro _; exact from_buffer_short _ _ _ _ h0 h5 hm
  obtain ⟨v, sz, t, rfl, h4⟩ := split5 m (by omega)
  simp only [List.length_cons, List.length_append, h4] at hm
  have hiff := from_buffer_ok_iff (v :: (sz ++ t)) size (by simp [h4]; omega) hs
  have hl := fun al => from_buffer_long .wrap v sz t size al h4 (by omega) (by omega) (Or.inl rfl)
  by_cases hv : v.toNat ≠ V1
  · rw [hl, if_pos hv]
    constructor
    · intro c hc
      have := (hiff c _).2 ⟨hc, rfl⟩
      rw [hl, if_pos hv] at this; simp at this
    · simp
  by_cases hc : size - HDR < MemoryData.Spec.beVal sz
  · rw [hl, if_neg hv, if_pos hc]
    constructor
    · intro c hc'
      have := (hiff c _).2 ⟨hc', rfl⟩
      rw [hl, if_neg hv, if_pos hc] at this; simp at this
    · simp
  rw [hl, if_neg hv, if_neg hc]
  constructor
  · intro c hc'
    cases alloc
    · rw [if_pos rfl, if_neg (by simp)]
    · have := (hiff c _).2 ⟨hc', rfl⟩
      rw [hl, if_neg hv, if_neg hc] at this
      rw [this, if_pos rfl]
  · intro hn
    exfalso
    have := hl true
    rw [if_neg hv, if_neg hc, if_neg (by simp)] at this
    exact hn ⟨_, ((hiff _ _).1 this).1⟩

example : from_buffer .wrap (some [1, 0xff, 0xff, 0xff, 0xff, 7]) 6 true true true =
    C.ok ⟨.INVALID_DATA, none, none⟩ := by decide +kernel
example : Spec.StartsWith ([1, 0, 0, 0, 1, 7, 9].take 7) [7] := ⟨[9], by decide⟩

/-- C10 under ISO C: the signed shift in `read_uint32_t` makes a size field of 2^31 or more
undefined behaviour, so an untrusted sender can trigger it. -/
theorem from_buffer_iso_undefined :
    from_buffer .iso (some [1, 0x80, 0, 0, 0]) 5 true true true = C.ub := by decide +kernel

/-- C10: NULL arguments are rejected without touching anything. -/
theorem from_buffer_invalid_args (d : Dialect) (m : Option (List UInt8)) (size : Nat) (co de alloc : Bool)
    (h : m = none ∨ co = false ∨ de = false ∨ size = 0) :
    from_buffer d m size co de alloc = C.ok ⟨.INVALID_ARG, none, none⟩ := by
  cases m with
  | none => rfl
  | some m =>
    simp only [from_buffer]
    by_cases hc : co = false ∨ de = false
    · rw [if_pos hc]
    · rw [if_neg hc, if_pos]
      rcases h with h | h | h | h
      · cases h
      · exact absurd (Or.inl h) hc
      · exact absurd (Or.inr h) hc
      · exact h

/-- C09: the writers refuse NULL arguments: nothing is returned, nothing is written, and the size of nothing is 0. -/
theorem writers_invalid_args (c : Option (List UInt8)) (alloc : Nat → Option Mem) (so : Bool) (dest : Option Mem) (ds : Nat) :
    (c = none → get_serialization_size c = 0) ∧
    (c = none ∨ so = false → to_buffer c alloc so = C.ok (none, none)) ∧
    (c = none ∨ dest = none ∨ so = false → to_fixed_size_buffer c dest ds so = C.ok (.INVALID_ARG, dest, none)) := by
  refine ⟨?_, ?_, ?_⟩
  · rintro rfl; rfl
  · rintro (rfl | rfl)
    · rfl
    · cases c <;> simp [to_buffer]
  · rintro (rfl | rfl | rfl)
    · rfl
    · cases c <;> rfl
    · cases c <;> cases dest <;> simp [to_fixed_size_buffer]

/-- C10: the THANDLE flavour without memory: the same, except that `*destination` is left alone when the copy cannot be allocated. -/
theorem thandle_from_buffer_no_memory (d : Dialect) (src : Option (List UInt8)) (size : Nat) (co de : Bool) :
    th_from_buffer d src size co de false =
      (from_buffer d src size co de false >>= fun o => C.ok (if o.result = .ERROR then { o with destination := none } else o)) ∧
    ∀ o, from_buffer d src size co de false = C.ok o → o.result ≠ .OK := by
  cases src with
  | none => exact ⟨rfl, by rintro o h; cases h; simp⟩
  | some m =>
    simp only [th_from_buffer, from_buffer]
    by_cases h : co = false ∨ de = false
    · rw [if_pos h, if_pos (by rcases h with h | h <;> simp [h])]
      exact ⟨rfl, by rintro o h; cases h; simp⟩
    · rw [if_neg h]
      by_cases h0 : size = 0
      · rw [if_pos h0, if_pos (by simp [h0])]
        exact ⟨rfl, by rintro o h; cases h; simp⟩
      · rw [if_neg h0, if_neg (by rw [not_or] at h; simp [h, h0])]
        cases hv : read_u8 m VERSION_OFFSET with
        | ub => exact ⟨rfl, by rintro o h; cases h⟩
        | ok v =>
          simp only [C.ok_bind]
          by_cases h1 : v ≠ V1
          · rw [if_pos h1, if_pos h1]; exact ⟨rfl, by rintro o h; cases h; simp⟩
          rw [if_neg h1, if_neg h1]
          by_cases h2 : size < HDR
          · rw [if_pos h2, if_pos h2]; exact ⟨rfl, by rintro o h; cases h; simp⟩
          rw [if_neg h2, if_neg h2]
          cases read_u32 d m SIZE_OFFSET with
          | ub => exact ⟨rfl, by rintro o h; cases h⟩
          | ok k =>
            simp only [C.ok_bind]
            by_cases h3 : size - HDR < k
            · rw [if_pos h3, if_pos h3]; exact ⟨rfl, by rintro o h; cases h; simp⟩
            rw [if_neg h3, if_neg h3]
            exact ⟨rfl, by rintro o h; cases h; simp⟩

example : from_buffer .wrap (some [1, 0, 0, 0, 1, 7]) 6 true true false = C.ok ⟨.ERROR, none, some none⟩ ∧
    th_from_buffer .wrap (some [1, 0, 0, 0, 1, 7]) 6 true true false = C.ok ⟨.ERROR, none, none⟩ := by decide +kernel

/-- C09/C10: the THANDLE flavour computes the same results (constbuffer_thandle.c). -/
theorem thandle_same (c : Option (List UInt8)) (alloc : Nat → Option Mem) (so : Bool) (dest : Option Mem) (ds : Nat)
    (d : Dialect) (src : Option (List UInt8)) (size : Nat) (co de : Bool) :
    th_get_serialization_size c = get_serialization_size c ∧
    th_to_buffer c alloc so = to_buffer c alloc so ∧
    th_to_fixed_size_buffer c dest ds so = to_fixed_size_buffer c dest ds so ∧
    th_from_buffer d src size co de true = from_buffer d src size co de true := by
  refine ⟨rfl, ?_, ?_, ?_⟩
  · cases c with
    | none => rfl
    | some c =>
      simp only [th_to_buffer, to_buffer]
      rw [show 1 + 4 + c.length = HDR + c.length from rfl]
      congr 3
      funext m
      simp only [writeAll, bind_assoc]
      cases hc : c with
      | nil => simp [copyTo]
      | cons x xs => simp only [List.length_cons, Nat.zero_lt_succ, gt_iff_lt, if_true]
  · cases c with
    | none => rfl
    | some c =>
      cases dest with
      | none => rfl
      | some m =>
        cases so with
        | false => simp [th_to_fixed_size_buffer, to_fixed_size_buffer]
        | true =>
        have hsz : th_get_serialization_size (some c) =
            if c.length > U32MAX - 1 - 4 then 0 else (1 + 4 + c.length) % 2 ^ 32 := rfl
        simp only [th_to_fixed_size_buffer, to_fixed_size_buffer]
        generalize th_get_serialization_size (some c) = n at hsz ⊢
        rw [if_neg (show ¬ (true = false) by simp), if_neg (show ¬ (true = false) by simp)]
        by_cases h : U32MAX - (1 + 4) < c.length
        · rw [if_pos (by simp only [U32MAX] at h ⊢; omega)] at hsz
          rw [if_pos h, if_pos hsz]
        · have hlt : 1 + 4 + c.length < 2 ^ 32 := by simp only [U32MAX, Nat.reducePow] at h ⊢; omega
          rw [if_neg (by simp only [U32MAX] at h ⊢; omega), Nat.mod_eq_of_lt hlt] at hsz
          rw [if_neg h, if_neg (by omega)]
          rw [show HDR + c.length = 1 + 4 + c.length from rfl, Nat.mod_eq_of_lt hlt, ← hsz]
          by_cases h2 : ds < n
          · rw [if_pos h2, if_pos h2]
          · rw [if_neg h2, if_neg h2]
            simp only [writeAll, bind_assoc, write_u8, VERSION_OFFSET]
  · cases src with
    | none => rfl
    | some m =>
      simp only [th_from_buffer, from_buffer]
      by_cases h : co = false ∨ de = false
      · rw [if_pos h, if_pos (by rcases h with h | h <;> simp [h])]
      · rw [if_neg h]
        by_cases h0 : size = 0
        · rw [if_pos h0, if_pos (by simp [h0])]
        · rw [if_neg h0, if_neg (by rw [not_or] at h; simp [h, h0])]
          cases hv : read_u8 m VERSION_OFFSET with
          | ub => rfl
          | ok v =>
            simp only [C.ok_bind]
            by_cases h1 : v ≠ V1
            · rw [if_pos h1, if_pos h1]
            rw [if_neg h1, if_neg h1]
            by_cases h2 : size < HDR
            · rw [if_pos h2, if_pos h2]
            rw [if_neg h2, if_neg h2]
            cases read_u32 d m SIZE_OFFSET with
            | ub => rfl
            | ok k =>
              simp only [C.ok_bind]
              by_cases h3 : size - HDR < k
              · rw [if_pos h3, if_pos h3]
              rw [if_neg h3, if_neg h3]
              unfold create_internal
              rw [if_neg (by simp)]
              cases copyFrom m CONTENT_OFFSET k <;> rfl

end CUtil.ConstBuffer
