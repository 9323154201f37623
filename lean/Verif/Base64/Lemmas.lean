import Verif.Base64.Model
import Verif.Base64.Spec
/- Helper lemmas for Base64. -/
set_option linter.unusedSimpArgs false
namespace CUtil.Base64
open CUtil

theorem forall_u8 {P : UInt8 → Prop} (h : ∀ i : Fin 256, P (UInt8.ofNat i.val)) (c : UInt8) : P c := by
  have := h ⟨c.toNat, c.toNat_lt⟩
  simpa using this

theorem toValue_mem (c : UInt8) : (base64toValue c).1 ≠ -1 ↔ c ∈ Spec.alphabet := by
  revert c; apply forall_u8; decide +kernel

theorem toValue_val (c : UInt8) : c ∈ Spec.alphabet → (base64toValue c).2.toNat = Spec.val c := by
  revert c; apply forall_u8; decide +kernel

theorem val_lt (c : UInt8) : c ∈ Spec.alphabet → Spec.val c < 64 := by
  revert c; apply forall_u8; decide +kernel

theorem base64char_lt (v : Nat) (h : v < 64) : base64char (UInt8.ofNat v) = Spec.sym v := by
  have : ∀ i : Fin 64, base64char (UInt8.ofNat i.val) = Spec.sym i.val := by decide +kernel
  exact this ⟨v, h⟩

theorem base64b16_lt (v : Nat) (h : v < 16) : base64b16 (UInt8.ofNat v) = C.ok (Spec.sym (4 * v)) := by
  have : ∀ i : Fin 16, base64b16 (UInt8.ofNat i.val) = C.ok (Spec.sym (4 * i.val)) := by decide +kernel
  exact this ⟨v, h⟩

theorem base64b8_lt (v : Nat) (h : v < 4) : base64b8 (UInt8.ofNat v) = C.ok (Spec.sym (16 * v)) := by
  have : ∀ i : Fin 4, base64b8 (UInt8.ofNat i.val) = C.ok (Spec.sym (16 * i.val)) := by decide +kernel
  exact this ⟨v, h⟩

theorem sym_mem (v : Nat) : Spec.sym v ∈ Spec.alphabet := by
  unfold Spec.sym; exact List.getElem_mem _

theorem val_sym (v : Nat) : Spec.val (Spec.sym v) = v % 64 := by
  have : ∀ i : Fin 64, Spec.val (Spec.sym i.val) = i.val := by decide +kernel
  have h := this ⟨v % 64, Nat.mod_lt _ (by decide)⟩
  simpa [Spec.sym] using h

theorem sym_congr {a b : Nat} (h : a % 64 = b % 64) : Spec.sym a = Spec.sym b := by
  unfold Spec.sym; simp [h]

theorem ofNat_congr {a b : Nat} (h : a % 256 = b % 256) : UInt8.ofNat a = UInt8.ofNat b := by
  apply u8_ext; simpa using h

theorem sym_ne_zero (v : Nat) : Spec.sym v ≠ 0 := by
  intro h
  have := sym_mem v
  rw [h] at this
  revert this; decide

theorem pad_not_mem : Spec.padChar ∉ Spec.alphabet := by decide
theorem zero_not_mem : (0 : UInt8) ∉ Spec.alphabet := by decide

/-! ### Encoder -/

section
variable (b0 b1 b2 : UInt8)

theorem e1 : base64char (UInt8.ofNat (b0.toNat >>> 2)) = Spec.sym (b0.toNat / 4) := by
  have := uint8_lt b0
  rw [Nat.shiftRight_eq_div_pow, base64char_lt _ (by omega)]
theorem e2 : base64char (UInt8.ofNat (((b0.toNat &&& 3) <<< 4) ||| (b1.toNat >>> 4)))
    = Spec.sym (b0.toNat % 4 * 16 + b1.toNat / 16) := by
  have := uint8_lt b0; have := uint8_lt b1
  rw [and_3, Nat.shiftRight_eq_div_pow, shl_or _ _ _ (by omega), base64char_lt _ (by omega)]
theorem e3 : base64char (UInt8.ofNat (((b1.toNat &&& 0x0F) <<< 2) ||| ((b2.toNat >>> 6) &&& 3)))
    = Spec.sym (b1.toNat % 16 * 4 + b2.toNat / 64) := by
  have := uint8_lt b1; have := uint8_lt b2
  rw [and_15, and_3, Nat.shiftRight_eq_div_pow, shl_or _ _ _ (by omega), base64char_lt _ (by omega)]
  apply sym_congr; omega
theorem e4 : base64char (UInt8.ofNat (b2.toNat &&& 0x3F)) = Spec.sym (b2.toNat % 64) := by
  rw [and_63, base64char_lt _ (by omega)]
end

/-- loop and tail of the encoder together -/
def encodeRun (src : List UInt8) (dst : Mem) (cur dp : Nat) : C Mem := do
  let (dst, cur, dp) ← encodeLoop src dst cur dp
  encodeTail src dst cur dp

/-- `wr_next` with the index given up to equality -/
theorem wr_next' {α : Type u} (p : List α) (k n : Nat) (v : α) (h : n = p.length) :
    wr (p.map some ++ uninit (k + 1)) n v = C.ok ((p ++ [v]).map some ++ uninit k) := by
  subst h; exact wr_next p k v

theorem rd_off {α : Type u} (p t : List α) (n k : Nat) (h : n = p.length + k) :
    rd (p ++ t) n = rd t k := by subst h; exact rd_append_off p t k

theorem rd_off0 {α : Type u} (p t : List α) : rd (p ++ t) p.length = rd t 0 :=
  rd_off p t _ 0 rfl

theorem encodeRun_spec (s : List UInt8) : ∀ (p w : List UInt8) (k : Nat),
    encodeRun (p ++ s) (w.map some ++ uninit ((Spec.encode s).length + 1 + k)) p.length w.length =
      C.ok ((w ++ Spec.encode s ++ [0]).map some ++ uninit k) := by
  induction s using Spec.encode.induct with
  | case1 b0 b1 b2 rest ih =>
    intro p w k
    unfold encodeRun
    rw [encodeLoop]
    rw [if_pos (by simp)]
    rw [rd_off0 p, rd_off p _ _ 1 rfl, rd_off p _ _ 2 rfl]
    simp only [rd_zero, rd_one, rd_two, rd_three, C.ok_bind, e1, e2, e3, e4]
    have hl : (Spec.encode (b0 :: b1 :: b2 :: rest)).length + 1 + k
        = ((Spec.encode rest).length + 1 + k) + 1 + 1 + 1 + 1 := by
      simp [Spec.encode]; omega
    rw [hl, wr_next' _ _ _ _ rfl]
    simp only [C.ok_bind]
    rw [wr_next' _ _ _ _ (by simp)]
    simp only [C.ok_bind]
    rw [wr_next' _ _ _ _ (by simp)]
    simp only [C.ok_bind]
    rw [wr_next' _ _ _ _ (by simp)]
    simp only [C.ok_bind]
    have := ih (p ++ [b0, b1, b2]) (w ++ [Spec.sym (b0.toNat / 4)] ++ [Spec.sym (b0.toNat % 4 * 16 + b1.toNat / 16)]
      ++ [Spec.sym (b1.toNat % 16 * 4 + b2.toNat / 64)] ++ [Spec.sym (b2.toNat % 64)]) k
    unfold encodeRun at this
    simp only [List.length_append, List.length_cons, List.length_nil, List.append_assoc, List.cons_append, List.nil_append] at this ⊢
    simp only [Nat.add_assoc, Nat.reduceAdd, Nat.zero_add] at this ⊢
    rw [this]
    have h0 := uint8_lt b0; have h1 := uint8_lt b1; have h2 := uint8_lt b2
    simp only [Spec.encode, List.cons_append]
    rw [sym_congr (a := b0.toNat / 4) (b := (b0.toNat * 65536 + b1.toNat * 256 + b2.toNat) / 262144) (by omega),
      sym_congr (a := b0.toNat % 4 * 16 + b1.toNat / 16) (b := (b0.toNat * 65536 + b1.toNat * 256 + b2.toNat) / 4096) (by omega),
      sym_congr (a := b1.toNat % 16 * 4 + b2.toNat / 64) (b := (b0.toNat * 65536 + b1.toNat * 256 + b2.toNat) / 64) (by omega),
      sym_congr (a := b2.toNat % 64) (b := b0.toNat * 65536 + b1.toNat * 256 + b2.toNat) (by omega)]
  | case2 b0 b1 =>
    intro p w k
    unfold encodeRun
    rw [encodeLoop, if_neg (by simp)]
    simp only [C.pure_eq, C.ok_bind, encodeTail]
    rw [if_pos (by simp)]
    rw [rd_off0 p, rd_off p _ _ 1 rfl]
    have h0 := uint8_lt b0; have h1 := uint8_lt b1
    simp only [rd_zero, rd_one, rd_two, rd_three, C.ok_bind, e1, e2]
    rw [and_15, base64b16_lt _ (by omega)]
    simp only [C.ok_bind, Spec.encode, List.length_cons, List.length_nil]
    rw [show 0 + 1 + 1 + 1 + 1 + 1 + k = k + 1 + 1 + 1 + 1 + 1 by omega]
    rw [wr_next' _ _ _ _ rfl]; simp only [C.ok_bind]
    rw [wr_next' _ _ _ _ (by simp)]; simp only [C.ok_bind]
    rw [wr_next' _ _ _ _ (by simp)]; simp only [C.ok_bind]
    rw [wr_next' _ _ _ _ (by simp)]; simp only [C.ok_bind]
    rw [wr_next' _ _ _ _ (by simp)]
    rw [sym_congr (a := b0.toNat / 4) (b := (b0.toNat * 256 + b1.toNat) * 4 / 4096) (by omega),
      sym_congr (a := b0.toNat % 4 * 16 + b1.toNat / 16) (b := (b0.toNat * 256 + b1.toNat) * 4 / 64) (by omega),
      sym_congr (a := 4 * (b1.toNat % 16)) (b := (b0.toNat * 256 + b1.toNat) * 4) (by omega)]
    simp [Spec.padChar]
  | case3 b0 =>
    intro p w k
    unfold encodeRun
    rw [encodeLoop, if_neg (by simp)]
    simp only [C.pure_eq, C.ok_bind, encodeTail]
    rw [if_neg (by simp), if_pos (by simp)]
    rw [rd_off0 p]
    have h0 := uint8_lt b0
    simp only [rd_zero, C.ok_bind, e1]
    rw [and_3, base64b8_lt _ (by omega)]
    simp only [C.ok_bind, Spec.encode, List.length_cons, List.length_nil]
    rw [show 0 + 1 + 1 + 1 + 1 + 1 + k = k + 1 + 1 + 1 + 1 + 1 by omega]
    rw [wr_next' _ _ _ _ rfl]; simp only [C.ok_bind]
    rw [wr_next' _ _ _ _ (by simp)]; simp only [C.ok_bind]
    rw [wr_next' _ _ _ _ (by simp)]; simp only [C.ok_bind]
    rw [wr_next' _ _ _ _ (by simp)]; simp only [C.ok_bind]
    rw [wr_next' _ _ _ _ (by simp)]
    rw [sym_congr (a := b0.toNat / 4) (b := b0.toNat * 16 / 64) (by omega),
      sym_congr (a := 16 * (b0.toNat % 4)) (b := b0.toNat * 16) (by omega)]
    simp [Spec.padChar]
  | case4 =>
    intro p w k
    unfold encodeRun
    rw [encodeLoop, if_neg (by simp)]
    simp only [C.pure_eq, C.ok_bind, encodeTail]
    rw [if_neg (by simp), if_neg (by simp)]
    simp only [Spec.encode, List.length_nil]
    rw [show 0 + 1 + k = k + 1 by omega, wr_next' _ _ _ _ rfl]
    simp

theorem encode_length (s : List UInt8) : (Spec.encode s).length = 4 * ((s.length + 2) / 3) := by
  induction s using Spec.encode.induct with
  | case1 b0 b1 b2 rest ih => simp only [Spec.encode, List.length_cons, ih]; omega
  | case2 => simp [Spec.encode]
  | case3 => simp [Spec.encode]
  | case4 => simp [Spec.encode]

theorem groups_eq (n : Nat) : groups n = (n + 2) / 3 := by
  unfold groups; split <;> omega

theorem encode_no_nul (s : List UInt8) : (0 : UInt8) ∉ Spec.encode s := by
  induction s using Spec.encode.induct with
  | case1 b0 b1 b2 rest ih => simp [Spec.encode, (sym_ne_zero _).symm, ih]
  | case2 => simp [Spec.encode, (sym_ne_zero _).symm, Spec.padChar]
  | case3 => simp [Spec.encode, (sym_ne_zero _).symm, Spec.padChar]
  | case4 => simp [Spec.encode]

theorem encodeInternal_ok (src : List UInt8) (h : 1 + groups src.length * 4 < 2 ^ 64) :
    encodeInternal true true src = C.ok (some (Spec.encode src)) := by
  unfold encodeInternal
  rw [if_neg (by simp; omega)]
  have := encodeRun_spec src [] [] 0
  unfold encodeRun at this
  have hl : 1 + groups src.length * 4 = (Spec.encode src).length + 1 + 0 := by
    rw [encode_length, groups_eq]; omega
  rw [hl]
  simp only [List.nil_append, List.map_nil, List.length_nil] at this
  cases hx : encodeLoop src (uninit ((Spec.encode src).length + 1 + 0)) 0 0 with
  | ub => rw [hx] at this; simp at this
  | ok r =>
    obtain ⟨d, c, dp⟩ := r
    rw [hx] at this
    simp only [C.ok_bind] at this ⊢
    rw [this]
    have := cstr_zstr (Spec.encode src) [] (encode_no_nul src)
    simp [uninit] at this ⊢
    rw [this]; simp

/-! ### Decoder -/

theorem numberOf_spec (s t : List UInt8) (c : UInt8) (hs : ∀ x ∈ s, x ∈ Spec.alphabet)
    (hc : c ∉ Spec.alphabet) : numberOfBase64Characters (s ++ c :: t) = C.ok s.length := by
  induction s with
  | nil =>
    simp only [List.nil_append, numberOfBase64Characters, List.length_nil]
    rw [if_neg]
    intro h; exact hc ((toValue_mem c).1 h)
  | cons x xs ih =>
    simp only [List.cons_append, numberOfBase64Characters]
    rw [if_pos ((toValue_mem x).2 (hs x (by simp))), ih (fun y hy => hs y (by simp [hy]))]
    simp

theorem dec1_eq (c1 c2 : UInt8) (h1 : c1 ∈ Spec.alphabet) (h2 : c2 ∈ Spec.alphabet) :
    dec1 (base64toValue c1).2 (base64toValue c2).2 = UInt8.ofNat (Spec.val c1 * 4 + Spec.val c2 / 16) := by
  unfold dec1
  rw [toValue_val _ h1, toValue_val _ h2]
  have := val_lt _ h1; have := val_lt _ h2
  rw [Nat.shiftRight_eq_div_pow, shl_or _ _ _ (by omega)]

theorem dec2_eq (c2 c3 : UInt8) (h2 : c2 ∈ Spec.alphabet) (h3 : c3 ∈ Spec.alphabet) :
    dec2 (base64toValue c2).2 (base64toValue c3).2 = UInt8.ofNat (Spec.val c2 % 16 * 16 + Spec.val c3 / 4) := by
  unfold dec2
  rw [toValue_val _ h2, toValue_val _ h3]
  have := val_lt _ h2; have := val_lt _ h3
  rw [and_15, Nat.shiftRight_eq_div_pow, shl_or _ _ _ (by omega)]

theorem dec3_eq (c3 c4 : UInt8) (h3 : c3 ∈ Spec.alphabet) (h4 : c4 ∈ Spec.alphabet) :
    dec3 (base64toValue c3).2 (base64toValue c4).2 = UInt8.ofNat (Spec.val c3 % 4 * 64 + Spec.val c4) := by
  unfold dec3
  rw [toValue_val _ h3, toValue_val _ h4]
  have := val_lt _ h3; have := val_lt _ h4
  rw [and_3, shl_or _ _ _ (by omega)]

/-- what `base64decode` does after counting the characters -/
def decodeRun (m : List UInt8) (dst : Mem) (n idx di : Nat) : C Mem := do
  let (dst, n, idx, di) ← decodeLoop m dst n idx di
  if n = 2 then do
    let c1 := (base64toValue (← rd m idx)).2
    let c2 := (base64toValue (← rd m (idx + 1))).2
    wr dst di (dec1 c1 c2)
  else if n = 3 then do
    let c1 := (base64toValue (← rd m idx)).2
    let c2 := (base64toValue (← rd m (idx + 1))).2
    let c3 := (base64toValue (← rd m (idx + 2))).2
    let dst ← wr dst di (dec1 c1 c2)
    wr dst (di + 1) (dec2 c2 c3)
  else pure dst

theorem base64decode_run (dst : Mem) (m : List UInt8) :
    base64decode dst m = (numberOfBase64Characters m >>= fun n => decodeRun m dst n 0 0) := rfl

theorem decodeRun_spec (s : List UInt8) : ∀ (p t w : List UInt8) (k : Nat),
    (∀ x ∈ s, x ∈ Spec.alphabet) →
    decodeRun (p ++ (s ++ t)) (w.map some ++ uninit ((Spec.decodeBody s).length + k)) s.length p.length w.length =
      C.ok ((w ++ Spec.decodeBody s).map some ++ uninit k) := by
  induction s using Spec.decodeBody.induct with
  | case1 c1 c2 c3 c4 rest ih =>
    intro p t w k hs
    have m1 := hs c1 (by simp); have m2 := hs c2 (by simp)
    have m3 := hs c3 (by simp); have m4 := hs c4 (by simp)
    have v1 := val_lt _ m1; have v2 := val_lt _ m2; have v3 := val_lt _ m3; have v4 := val_lt _ m4
    unfold decodeRun
    rw [decodeLoop, if_pos (by simp)]
    rw [rd_off0 p, rd_off p _ _ 1 rfl, rd_off p _ _ 2 rfl, rd_off p _ _ 3 rfl]
    simp only [List.cons_append, rd_zero, rd_one, rd_two, rd_three, C.ok_bind,
      dec1_eq _ _ m1 m2, dec2_eq _ _ m2 m3, dec3_eq _ _ m3 m4]
    have hl : (Spec.decodeBody (c1 :: c2 :: c3 :: c4 :: rest)).length + k
        = ((Spec.decodeBody rest).length + k) + 1 + 1 + 1 := by
      simp [Spec.decodeBody]; omega
    rw [hl, wr_next' _ _ _ _ rfl]; simp only [C.ok_bind]
    rw [wr_next' _ _ _ _ (by simp)]; simp only [C.ok_bind]
    rw [wr_next' _ _ _ _ (by simp)]; simp only [C.ok_bind]
    have := ih (p ++ [c1, c2, c3, c4]) t (w ++ [UInt8.ofNat (Spec.val c1 * 4 + Spec.val c2 / 16)]
      ++ [UInt8.ofNat (Spec.val c2 % 16 * 16 + Spec.val c3 / 4)] ++ [UInt8.ofNat (Spec.val c3 % 4 * 64 + Spec.val c4)])
      k (fun x hx => hs x (by simp [hx]))
    unfold decodeRun at this
    simp only [List.length_append, List.length_cons, List.length_nil, List.append_assoc, List.cons_append, List.nil_append] at this ⊢
    rw [show rest.length + 1 + 1 + 1 + 1 - 4 = rest.length by omega]
    simp only [Nat.add_assoc, Nat.reduceAdd, Nat.zero_add] at this ⊢
    rw [this]
    simp only [Spec.decodeBody]
    rw [ofNat_congr (a := Spec.val c1 * 4 + Spec.val c2 / 16) (b := (Spec.val c1 * 262144 + Spec.val c2 * 4096 + Spec.val c3 * 64 + Spec.val c4) / 65536) (by omega),
      ofNat_congr (a := Spec.val c2 % 16 * 16 + Spec.val c3 / 4) (b := (Spec.val c1 * 262144 + Spec.val c2 * 4096 + Spec.val c3 * 64 + Spec.val c4) / 256 % 256) (by omega),
      ofNat_congr (a := Spec.val c3 % 4 * 64 + Spec.val c4) (b := (Spec.val c1 * 262144 + Spec.val c2 * 4096 + Spec.val c3 * 64 + Spec.val c4) % 256) (by omega)]
  | case2 c1 c2 c3 =>
    intro p t w k hs
    have m1 := hs c1 (by simp); have m2 := hs c2 (by simp); have m3 := hs c3 (by simp)
    have v1 := val_lt _ m1; have v2 := val_lt _ m2; have v3 := val_lt _ m3
    unfold decodeRun
    rw [decodeLoop, if_neg (by simp)]
    simp only [C.pure_eq, C.ok_bind]
    rw [if_neg (by simp), if_pos (by simp)]
    rw [rd_off0 p, rd_off p _ _ 1 rfl, rd_off p _ _ 2 rfl]
    simp only [List.cons_append, rd_zero, rd_one, rd_two, rd_three, C.ok_bind,
      dec1_eq _ _ m1 m2, dec2_eq _ _ m2 m3, Spec.decodeBody, List.length_cons, List.length_nil]
    rw [show 0 + 1 + 1 + k = k + 1 + 1 by omega, wr_next' _ _ _ _ rfl]; simp only [C.ok_bind]
    rw [wr_next' _ _ _ _ (by simp)]
    rw [ofNat_congr (a := Spec.val c1 * 4 + Spec.val c2 / 16) (b := (Spec.val c1 * 4096 + Spec.val c2 * 64 + Spec.val c3) / 1024) (by omega),
      ofNat_congr (a := Spec.val c2 % 16 * 16 + Spec.val c3 / 4) (b := (Spec.val c1 * 4096 + Spec.val c2 * 64 + Spec.val c3) / 4 % 256) (by omega)]
    simp
  | case3 c1 c2 =>
    intro p t w k hs
    have m1 := hs c1 (by simp); have m2 := hs c2 (by simp)
    have v1 := val_lt _ m1; have v2 := val_lt _ m2
    unfold decodeRun
    rw [decodeLoop, if_neg (by simp)]
    simp only [C.pure_eq, C.ok_bind]
    rw [if_pos (by simp)]
    rw [rd_off0 p, rd_off p _ _ 1 rfl]
    simp only [List.cons_append, rd_zero, rd_one, rd_two, rd_three, C.ok_bind,
      dec1_eq _ _ m1 m2, Spec.decodeBody, List.length_cons, List.length_nil]
    rw [show 0 + 1 + k = k + 1 by omega, wr_next' _ _ _ _ rfl]
    rw [ofNat_congr (a := Spec.val c1 * 4 + Spec.val c2 / 16) (b := (Spec.val c1 * 64 + Spec.val c2) / 16) (by omega)]
  | case4 c =>
    intro p t w k hs
    unfold decodeRun
    rw [decodeLoop, if_neg (by simp)]
    simp [Spec.decodeBody]
  | case5 =>
    intro p t w k hs
    unfold decodeRun
    rw [decodeLoop, if_neg (by simp)]
    simp [Spec.decodeBody]

theorem decodeBody_length (s : List UInt8) : (Spec.decodeBody s).length = s.length * 3 / 4 := by
  induction s using Spec.decodeBody.induct with
  | case1 _ _ _ _ _ ih => simp only [Spec.decodeBody, List.length_cons, ih]; omega
  | case2 => simp [Spec.decodeBody]
  | case3 => simp [Spec.decodeBody]
  | case4 => simp [Spec.decodeBody]
  | case5 => simp [Spec.decodeBody]

theorem takeWhile_pad (s : List UInt8) : ∃ t k, s = t ++ List.replicate k Spec.padChar ∧
    (s.reverse.takeWhile (· == Spec.padChar)).length = k ∧ (∀ l, t.getLast? = some l → l ≠ Spec.padChar) := by
  refine ⟨(s.reverse.dropWhile (· == Spec.padChar)).reverse, (s.reverse.takeWhile (· == Spec.padChar)).length, ?_, rfl, ?_⟩
  · have h1 : s.reverse.takeWhile (· == Spec.padChar) = List.replicate (s.reverse.takeWhile (· == Spec.padChar)).length Spec.padChar := by
      apply List.eq_replicate_of_mem
      intro b hb
      have := mem_takeWhile_imp hb
      simpa using this
    have h2 := List.takeWhile_append_dropWhile (p := (· == Spec.padChar)) (l := s.reverse)
    have h3 : s = (s.reverse.takeWhile (· == Spec.padChar) ++ s.reverse.dropWhile (· == Spec.padChar)).reverse := by
      rw [h2]; simp
    rw [List.reverse_append] at h3
    rw [h1] at h3
    rw [List.reverse_replicate] at h3
    exact h3
  · intro l hl
    rw [List.getLast?_reverse] at hl
    have := List.head?_dropWhile_not (· == Spec.padChar) s.reverse
    rw [hl] at this
    simpa using this

theorem body_length_le (s : List UInt8) : (Spec.body s).length ≤ s.length - Spec.padding s := by
  obtain ⟨t, k, hs, hk, -⟩ := takeWhile_pad s
  unfold Spec.padding
  rw [hk]
  have : (Spec.body s).length ≤ t.length := by
    unfold Spec.body
    rw [hs, List.takeWhile_append]
    split
    · rename_i h
      cases k with
      | zero => simp
      | succ k =>
        rw [List.replicate_succ, List.takeWhile_cons_of_neg (by simp [pad_not_mem])]
        simp
    · exact (List.takeWhile_prefix _).length_le
  have hl : s.length = t.length + k := by rw [hs]; simp
  omega

theorem body_split (s : List UInt8) (t : List UInt8) : ∃ c u, s ++ 0 :: t = Spec.body s ++ c :: u ∧ c ∉ Spec.alphabet := by
  have h := List.takeWhile_append_dropWhile (p := (· ∈ Spec.alphabet)) (l := s)
  cases hd : s.dropWhile (· ∈ Spec.alphabet) with
  | nil =>
    rw [hd, List.append_nil] at h
    exact ⟨0, t, by unfold Spec.body; rw [h], zero_not_mem⟩
  | cons c u =>
    refine ⟨c, u ++ 0 :: t, ?_, ?_⟩
    · unfold Spec.body
      rw [hd] at h
      have h' := congrArg (· ++ 0 :: t) h
      simp only [List.append_assoc, List.cons_append] at h'
      exact h'.symm
    · have := List.head?_dropWhile_not (· ∈ Spec.alphabet) s
      rw [hd] at this
      simpa using this

theorem body_mem (s : List UInt8) : ∀ x ∈ Spec.body s, x ∈ Spec.alphabet := by
  intro x hx
  have := mem_takeWhile_imp hx
  simpa using this

theorem padding_two (u : List UInt8) (a b : UInt8) : Spec.padding (u ++ [a, b]) =
    if b = 61 then (if a = 61 then 2 else 1) else 0 := by
  unfold Spec.padding
  simp only [List.reverse_append, List.reverse_cons, List.reverse_nil, List.nil_append, List.cons_append]
  by_cases hb : b = 61
  · by_cases ha : a = 61
    · subst hb; subst ha; simp [Spec.padChar]
    · subst hb; simp [Spec.padChar, ha]
  · simp [Spec.padChar, hb]

theorem split_two (s : List UInt8) (h : 2 ≤ s.length) : ∃ u a b, s = u ++ [a, b] := by
  rcases List.eq_nil_or_concat s with rfl | ⟨s1, b, rfl⟩
  · simp at h
  rcases List.eq_nil_or_concat s1 with rfl | ⟨u, a, rfl⟩
  · simp at h
  exact ⟨u, a, b, by simp⟩

theorem decode_len_spec (s t : List UInt8) (h0 : (0 : UInt8) ∉ s) (h4 : s.length % 4 = 0) :
    base64decode_len (s ++ 0 :: t) = C.ok (s.length / 4 * 3 - Spec.padding s) := by
  unfold base64decode_len
  rw [strlen_zstr s t h0]
  simp only [C.ok_bind, C.pure_eq]
  split
  · rename_i h
    have : s = [] := List.length_eq_zero_iff.mp h
    subst this; rfl
  · rename_i h
    obtain ⟨u, a, b, rfl⟩ := split_two s (by omega)
    rw [padding_two]
    have hl : (u ++ [a, b]).length = u.length + 2 := by simp
    have r1 : rd (u ++ [a, b] ++ 0 :: t) ((u ++ [a, b]).length - 1) = C.ok b := by
      rw [List.append_assoc, rd_off u _ _ 1 (by omega)]; rfl
    have r2 : rd (u ++ [a, b] ++ 0 :: t) ((u ++ [a, b]).length - 2) = C.ok a := by
      rw [List.append_assoc, rd_off u _ _ 0 (by omega)]; rfl
    rw [r1]
    simp only [C.ok_bind]
    by_cases hb : b = 61
    · rw [if_pos hb, if_pos hb, if_neg (by omega), r2]
      simp only [C.ok_bind]
      by_cases ha : a = 61
      · simp only [if_pos ha]; congr 1
      · simp only [if_neg ha]
    · rw [if_neg hb, if_neg hb]; rfl

/-- Complete description of the decoder on C strings whose length is a multiple of four. -/
theorem decode_spec (s t : List UInt8) (h0 : (0 : UInt8) ∉ s) (h4 : s.length % 4 = 0) :
    decode true true (some (s ++ 0 :: t)) =
      C.ok (some ((Spec.decodeBody (Spec.body s)).map some ++
        uninit (s.length / 4 * 3 - Spec.padding s - (Spec.decodeBody (Spec.body s)).length))) := by
  unfold decode
  simp only [strlen_zstr s t h0, C.ok_bind, C.pure_eq, decode_len_spec s t h0 h4]
  rw [if_neg (by omega), if_neg (by simp)]
  have hb := body_length_le s
  have hdl := decodeBody_length (Spec.body s)
  have hp : Spec.padding s ≤ 2 := by unfold Spec.padding; omega
  split
  · rw [if_neg (by simp), base64decode_run]
    obtain ⟨c, u, hsplit, hc⟩ := body_split s t
    rw [hsplit, numberOf_spec _ _ _ (body_mem s) hc]
    simp only [C.ok_bind]
    have := decodeRun_spec (Spec.body s) [] (c :: u) []
      (s.length / 4 * 3 - Spec.padding s - (Spec.decodeBody (Spec.body s)).length) (body_mem s)
    simp only [List.nil_append, List.length_nil, List.map_nil] at this
    have hle : (Spec.decodeBody (Spec.body s)).length + (s.length / 4 * 3 - Spec.padding s - (Spec.decodeBody (Spec.body s)).length)
        = s.length / 4 * 3 - Spec.padding s := by omega
    rw [hle] at this
    rw [this]; simp
  · have : s.length = 0 := by omega
    have : s = [] := List.length_eq_zero_iff.mp this
    subst this; rfl

theorem encode_shape (s : List UInt8) : ∃ t k, k ≤ 2 ∧ (∀ c ∈ t, c ∈ Spec.alphabet) ∧
    Spec.encode s = t ++ List.replicate k Spec.padChar ∧ Spec.decodeBody t = s := by
  induction s using Spec.encode.induct with
  | case1 b0 b1 b2 rest ih =>
    obtain ⟨t, k, hk, ht, he, hd⟩ := ih
    refine ⟨_ :: _ :: _ :: _ :: t, k, hk, ?_, by simp only [Spec.encode, he]; rfl, ?_⟩
    · simp only [List.mem_cons]
      rintro c (rfl | rfl | rfl | rfl | h)
      · exact sym_mem _
      · exact sym_mem _
      · exact sym_mem _
      · exact sym_mem _
      · exact ht c h
    · have h0 := uint8_lt b0; have h1 := uint8_lt b1; have h2 := uint8_lt b2
      simp only [Spec.decodeBody, val_sym, hd]
      congr 1
      · apply u8_ext; rw [toNat_ofNat_u8 _ (by omega)]; omega
      congr 1
      · apply u8_ext; rw [toNat_ofNat_u8 _ (by omega)]; omega
      congr 1
      · apply u8_ext; rw [toNat_ofNat_u8 _ (by omega)]; omega
  | case2 b0 b1 =>
    have h0 := uint8_lt b0; have h1 := uint8_lt b1
    refine ⟨[_, _, _], 1, by omega, ?_, by simp only [Spec.encode]; rfl, ?_⟩
    · simp [sym_mem]
    · simp only [Spec.decodeBody, val_sym]
      congr 1
      · apply u8_ext; rw [toNat_ofNat_u8 _ (by omega)]; omega
      congr 1
      · apply u8_ext; rw [toNat_ofNat_u8 _ (by omega)]; omega
  | case3 b0 =>
    have h0 := uint8_lt b0
    refine ⟨[_, _], 2, by omega, ?_, by simp only [Spec.encode]; rfl, ?_⟩
    · simp [sym_mem]
    · simp only [Spec.decodeBody, val_sym]
      congr 1
      · apply u8_ext; rw [toNat_ofNat_u8 _ (by omega)]; omega
  | case4 => exact ⟨[], 0, by omega, by simp, by simp [Spec.encode], rfl⟩

theorem body_wf (t : List UInt8) (k : Nat) (ht : ∀ c ∈ t, c ∈ Spec.alphabet) :
    Spec.body (t ++ List.replicate k Spec.padChar) = t := by
  unfold Spec.body
  rw [List.takeWhile_append]
  have : t.takeWhile (· ∈ Spec.alphabet) = t := by
    apply takeWhile_eq_self; simpa using ht
  rw [if_pos (by rw [this])]
  cases k with
  | zero => simp
  | succ k => rw [List.replicate_succ, List.takeWhile_cons_of_neg (by simp [pad_not_mem])]; simp

theorem padding_wf (t : List UInt8) (k : Nat) (hk : k ≤ 2) (ht : ∀ c ∈ t, c ∈ Spec.alphabet) :
    Spec.padding (t ++ List.replicate k Spec.padChar) = k := by
  unfold Spec.padding
  rw [List.reverse_append, List.reverse_replicate, List.takeWhile_append]
  have h1 : (List.replicate k Spec.padChar).takeWhile (· == Spec.padChar) = List.replicate k Spec.padChar := by
    apply takeWhile_eq_self; intro x hx; simp [List.eq_of_mem_replicate hx]
  rw [h1, if_pos rfl]
  have h2 : t.reverse.takeWhile (· == Spec.padChar) = [] := by
    cases hr : t.reverse with
    | nil => rfl
    | cons a l =>
      have : a ∈ t := by rw [← List.mem_reverse, hr]; simp
      rw [List.takeWhile_cons_of_neg]
      intro h
      have : a = Spec.padChar := by simpa using h
      subst this
      exact pad_not_mem (ht _ ‹_›)
  rw [h2]; simp; omega

end CUtil.Base64
