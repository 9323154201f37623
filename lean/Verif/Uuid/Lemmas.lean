import Verif.Uuid.Model
import Verif.Uuid.Spec
import Verif.MemoryData.Lemmas
/- Helper lemmas for uuid_string. -/
set_option linter.unusedSimpArgs false
namespace CUtil.Uuid
open CUtil MemoryData

theorem isHexDigit_some (c v : UInt8) : isHexDigit c = some v ↔ Spec.HexDigit c v.toNat := by
  have hc := uint8_lt c; have hv := uint8_lt v
  unfold isHexDigit Spec.HexDigit
  split
  · rw [Option.some.injEq, ← UInt8.toNat_inj, toNat_ofNat_u8 _ (by omega)]; omega
  · split
    · rw [Option.some.injEq, ← UInt8.toNat_inj, toNat_ofNat_u8 _ (by omega)]; omega
    · split
      · rw [Option.some.injEq, ← UInt8.toNat_inj, toNat_ofNat_u8 _ (by omega)]; omega
      · simp only [reduceCtorEq, false_iff]; omega

theorem hexDigit_lt {c : UInt8} {v : Nat} (h : Spec.HexDigit c v) : v < 16 := by
  unfold Spec.HexDigit at h; omega

theorem isHexDigit_of {c : UInt8} {v : Nat} (h : Spec.HexDigit c v) : isHexDigit c = some (UInt8.ofNat v) := by
  have := hexDigit_lt h
  rw [isHexDigit_some, toNat_ofNat_u8 _ (by omega)]; exact h

theorem isHexDigit_zero : isHexDigit 0 = none := by decide

theorem combine (h l : Nat) (hh : h < 16) (hl : l < 16) :
    UInt8.ofNat ((UInt8.ofNat h).toNat <<< 4 + (UInt8.ofNat l).toNat) = UInt8.ofNat (16 * h + l) := by
  rw [toNat_ofNat_u8 _ (by omega), toNat_ofNat_u8 _ (by omega), Nat.shiftLeft_eq]
  congr 1; omega

/-- forward direction: text that matches is parsed -/
theorem parse_hex (hx bs : List UInt8) (h : Spec.HexText hx bs) : ∀ (p t : List UInt8) (dst : Mem) (d o : Nat),
    o = p.length →
    parseHexString (p ++ hx ++ t) o bs.length dst d = (copyTo dst d bs >>= fun m => C.ok (true, m)) := by
  induction h with
  | nil => intro p t dst d o ho; simp [parseHexString, copyTo]
  | @cons a b hi lo text bs ha hb _ ih =>
    intro p t dst d o ho
    subst ho
    have hhi := hexDigit_lt ha; have hlo := hexDigit_lt hb
    simp only [List.length_cons, parseHexString]
    have h1 : isHexByte (p ++ a :: b :: text ++ t) p.length = C.ok (some (UInt8.ofNat (16 * hi + lo))) := by
      unfold isHexByte
      rw [rd_k0 _ _ _ (by simp), rd_k _ _ _ 1 (by simp)]
      simp only [C.ok_bind, List.getElem_cons_zero, List.getElem_cons_succ, isHexDigit_of ha, isHexDigit_of hb, C.pure_eq]
      rw [combine _ _ hhi hlo]
    rw [h1]
    simp only [C.ok_bind, copyTo]
    cases hw : wr dst d (UInt8.ofNat (16 * hi + lo)) with
    | ub => simp
    | ok m =>
      simp only [C.ok_bind]
      have := ih (p ++ [a, b]) t m (d + 1) (p.length + 2) (by simp)
      simp only [List.append_assoc, List.cons_append, List.nil_append] at this ⊢
      exact this

/-- backward direction: success means the text matched -/
theorem parse_hex_inv (m : List UInt8) (n : Nat) : ∀ (o : Nat) (dst dst' : Mem) (d : Nat),
    parseHexString m o n dst d = C.ok (true, dst') →
    ∃ hx bs, Spec.HexText hx bs ∧ bs.length = n ∧ m.drop o = hx ++ m.drop (o + 2 * n) ∧ copyTo dst d bs = C.ok dst' := by
  induction n with
  | zero =>
    intro o dst dst' d h
    simp only [parseHexString, C.pure_eq, C.ok.injEq, Prod.mk.injEq, true_and] at h
    exact ⟨[], [], .nil, rfl, by simp, by simp [copyTo, h]⟩
  | succ n ih =>
    intro o dst dst' d h
    simp only [parseHexString, C.bind_eq_ok] at h
    obtain ⟨r, hr, h⟩ := h
    cases r with
    | none => simp at h
    | some b =>
      simp only [C.bind_eq_ok] at h
      obtain ⟨m', hw, h⟩ := h
      obtain ⟨hx, bs, hh, hl, hd, hc⟩ := ih _ _ _ _ h
      unfold isHexByte at hr
      rw [C.bind_eq_ok] at hr
      obtain ⟨c, hc0, hr⟩ := hr
      cases hd0 : isHexDigit c with
      | none => rw [hd0] at hr; simp at hr
      | some hi =>
        rw [hd0] at hr
        simp only [C.bind_eq_ok] at hr
        obtain ⟨c', hc1, hr⟩ := hr
        cases hd1 : isHexDigit c' with
        | none => rw [hd1] at hr; simp at hr
        | some lo =>
          rw [hd1] at hr
          simp only [C.pure_eq, C.ok.injEq, Option.some.injEq] at hr
          rw [isHexDigit_some] at hd0 hd1
          have := hexDigit_lt hd0; have := hexDigit_lt hd1
          have hb : b = UInt8.ofNat (16 * hi.toNat + lo.toNat) := by
            rw [← hr, ← combine _ _ ‹hi.toNat < 16› ‹_›]; simp
          rw [rd_eq_ok] at hc0 hc1
          refine ⟨c :: c' :: hx, b :: bs, ?_, by simp [hl], ?_, ?_⟩
          · rw [hb]; exact .cons hd0 hd1 hh
          · obtain ⟨l0, e0⟩ := List.getElem?_eq_some_iff.mp hc0
            obtain ⟨l1, e1⟩ := List.getElem?_eq_some_iff.mp hc1
            rw [List.drop_eq_getElem_cons l0, e0, List.drop_eq_getElem_cons l1, e1]
            simp only [List.cons_append]
            rw [show o + 1 + 1 = o + 2 from rfl, hd, show o + 2 + 2 * n = o + 2 * (n + 1) by omega]
          · simp only [copyTo, hw, C.ok_bind, hc]

theorem hexText_length {hx bs : List UInt8} (h : Spec.HexText hx bs) : hx.length = 2 * bs.length := by
  induction h with
  | nil => rfl
  | cons _ _ _ ih => simp [ih]; omega

/-- with a NUL ahead the parser does not run off the block -/
theorem rd_of_zero (m : List UInt8) (o : Nat) (h : (0 : UInt8) ∈ m.drop o) :
    ∃ c, rd m o = C.ok c ∧ (c ≠ 0 → (0 : UInt8) ∈ m.drop (o + 1)) := by
  have hl : o < m.length := by
    have := List.length_pos_of_mem h; simp at this; omega
  refine ⟨m[o], rd_lt m o hl, ?_⟩
  intro hc
  rw [List.drop_eq_getElem_cons hl, List.mem_cons] at h
  rcases h with h | h
  · exact absurd h.symm hc
  · exact h

theorem wr_room (m : Mem) (d : Nat) (v : UInt8) (h : d < m.length) : ∃ m', wr m d v = C.ok m' ∧ m'.length = m.length := by
  exact ⟨_, if_pos h, by simp⟩

theorem parse_hex_defined (m : List UInt8) (n : Nat) : ∀ (o : Nat) (dst : Mem) (d : Nat),
    (0 : UInt8) ∈ m.drop o → d + n ≤ dst.length →
    ∃ ok dst', parseHexString m o n dst d = C.ok (ok, dst') ∧ dst'.length = dst.length ∧
      (ok = true → (0 : UInt8) ∈ m.drop (o + 2 * n)) := by
  induction n with
  | zero => intro o dst d h _; exact ⟨true, dst, rfl, rfl, fun _ => by simpa using h⟩
  | succ n ih =>
    intro o dst d h hr
    simp only [parseHexString]
    obtain ⟨c, hc, hz⟩ := rd_of_zero m o h
    unfold isHexByte
    rw [hc]
    simp only [C.ok_bind]
    cases hd : isHexDigit c with
    | none => exact ⟨false, dst, by simp, rfl, by simp⟩
    | some hi =>
      have hcz : c ≠ 0 := by rintro rfl; rw [isHexDigit_zero] at hd; cases hd
      obtain ⟨c', hc', hz'⟩ := rd_of_zero m (o + 1) (hz hcz)
      simp only [hc', C.ok_bind]
      cases hd' : isHexDigit c' with
      | none => exact ⟨false, dst, by simp, rfl, by simp⟩
      | some lo =>
        have hcz' : c' ≠ 0 := by rintro rfl; rw [isHexDigit_zero] at hd'; cases hd'
        simp only [C.pure_eq, C.ok_bind]
        obtain ⟨dst1, hw, hl⟩ := wr_room dst d (UInt8.ofNat (hi.toNat <<< 4 + lo.toNat)) (by omega)
        rw [hw]
        simp only [C.ok_bind]
        obtain ⟨ok, dst', h1, h2, h3⟩ := ih (o + 2) dst1 (d + 1) (hz' hcz') (by omega)
        refine ⟨ok, dst', h1, by omega, fun hk => ?_⟩
        have := h3 hk
        rwa [show o + 2 + 2 * n = o + 2 * (n + 1) by omega] at this

theorem dashGroup_defined (m : List UInt8) (o n : Nat) (dst : Mem) (d : Nat)
    (h : (0 : UInt8) ∈ m.drop o) (hr : d + n ≤ dst.length) :
    ∃ ok dst', dashGroup m o n dst d = C.ok (ok, dst') ∧ dst'.length = dst.length ∧
      (ok = true → (0 : UInt8) ∈ m.drop (o + 1 + 2 * n)) := by
  obtain ⟨c, hc, hz⟩ := rd_of_zero m o h
  unfold dashGroup
  rw [hc]
  simp only [C.ok_bind]
  by_cases hd : c = 45
  · subst hd
    rw [if_neg (by simp)]
    exact parse_hex_defined m n (o + 1) dst d (hz (by decide)) hr
  · rw [if_pos hd]
    exact ⟨false, dst, rfl, rfl, by simp⟩

theorem dashGroup_inv (m : List UInt8) (o n : Nat) (dst dst' : Mem) (d : Nat)
    (h : dashGroup m o n dst d = C.ok (true, dst')) :
    ∃ hx bs, Spec.HexText hx bs ∧ bs.length = n ∧ m.drop o = [45] ++ (hx ++ m.drop (o + 1 + 2 * n)) ∧
      copyTo dst d bs = C.ok dst' := by
  unfold dashGroup at h
  rw [C.bind_eq_ok] at h
  obtain ⟨c, hc, h⟩ := h
  by_cases hd : c = 45
  · subst hd
    rw [if_neg (by simp)] at h
    obtain ⟨hx, bs, h1, h2, h3, h4⟩ := parse_hex_inv _ _ _ _ _ _ h
    refine ⟨hx, bs, h1, h2, ?_, h4⟩
    rw [rd_eq_ok] at hc
    obtain ⟨l0, e0⟩ := List.getElem?_eq_some_iff.mp hc
    rw [List.drop_eq_getElem_cons l0, e0, h3]; rfl
  · rw [if_pos hd] at h; simp at h

theorem dashGroup_hex (hx bs : List UInt8) (h : Spec.HexText hx bs) (p t : List UInt8) (dst : Mem) (d o n : Nat)
    (ho : o = p.length) (hn : n = bs.length) :
    dashGroup (p ++ [45] ++ hx ++ t) o n dst d = (copyTo dst d bs >>= fun m => C.ok (true, m)) := by
  subst ho; subst hn
  unfold dashGroup
  have h1 : rd (p ++ [45] ++ hx ++ t) p.length = C.ok 45 := by
    rw [List.append_assoc, rd_k0 _ _ _ (by simp)]; rfl
  rw [h1]
  simp only [C.ok_bind]
  rw [if_neg (by simp)]
  exact parse_hex hx bs h (p ++ [45]) t dst d (p.length + 1) (by simp)

theorem parse_defined (m : List UInt8) (dst : Mem) (h0 : (0 : UInt8) ∈ m) (hd : dst.length = 16) :
    ∃ ok dst', parse m dst = C.ok (ok, dst') ∧ dst'.length = 16 := by
  unfold parse
  obtain ⟨ok, d1, e, l, z⟩ := parse_hex_defined m 4 0 dst 0 (by simpa using h0) (by omega)
  rw [e]; simp only [C.ok_bind]
  cases ok with
  | false => exact ⟨false, d1, rfl, by omega⟩
  | true =>
  have z := z rfl
  obtain ⟨ok, d2, e, l2, z⟩ := dashGroup_defined m 8 2 d1 4 z (by omega)
  simp only [Bool.not_true, Bool.false_eq_true, if_false]
  rw [e]; simp only [C.ok_bind]
  cases ok with
  | false => exact ⟨false, d2, rfl, by omega⟩
  | true =>
  have z := z rfl
  obtain ⟨ok, d3, e, l3, z⟩ := dashGroup_defined m 13 2 d2 6 z (by omega)
  simp only [Bool.not_true, Bool.false_eq_true, if_false]
  rw [e]; simp only [C.ok_bind]
  cases ok with
  | false => exact ⟨false, d3, rfl, by omega⟩
  | true =>
  have z := z rfl
  obtain ⟨ok, d4, e, l4, z⟩ := dashGroup_defined m 18 2 d3 8 z (by omega)
  simp only [Bool.not_true, Bool.false_eq_true, if_false]
  rw [e]; simp only [C.ok_bind]
  cases ok with
  | false => exact ⟨false, d4, rfl, by omega⟩
  | true =>
  have z := z rfl
  obtain ⟨ok, d5, e, l5, z⟩ := dashGroup_defined m 23 6 d4 10 z (by omega)
  simp only [Bool.not_true, Bool.false_eq_true, if_false]
  exact ⟨ok, d5, e, by omega⟩

/-- copying the five parts one after the other fills the 16 cells -/
theorem copy_parts (dst : Mem) (hd : dst.length = 16) (u1 u2 u3 u4 u5 : List UInt8)
    (h1 : u1.length = 4) (h2 : u2.length = 2) (h3 : u3.length = 2) (h4 : u4.length = 2) (h5 : u5.length = 6) :
    (do let m ← copyTo dst 0 u1
        let m ← copyTo m 4 u2
        let m ← copyTo m 6 u3
        let m ← copyTo m 8 u4
        copyTo m 10 u5) = C.ok ((u1 ++ u2 ++ u3 ++ u4 ++ u5).map some) := by
  have split : dst = [] ++ dst.take 4 ++ dst.drop 4 := by simp
  rw [split]
  have s1 := copyTo_eq u1 [] (dst.take 4) (dst.drop 4) (by simp; omega)
  simp only [List.length_nil] at s1
  rw [s1]; simp only [C.ok_bind]
  generalize hr : dst.drop 4 = r
  have lr : r.length = 12 := by rw [← hr]; simp; omega
  have : ∀ (p : List UInt8) (u : List UInt8) (r : Mem) (k : Nat), k = p.length → u.length ≤ r.length →
      copyTo (p.map some ++ r) k u = C.ok ((p ++ u).map some ++ r.drop u.length) := by
    intro p u r k hk hu
    have := copyTo_eq u (p.map some) (r.take u.length) (r.drop u.length) (by simp; omega)
    rw [List.append_assoc, List.take_append_drop] at this
    rw [hk]
    simpa using this
  simp only [List.nil_append]
  rw [this u1 u2 r 4 h1.symm (by omega)]; simp only [C.ok_bind]
  rw [this (u1 ++ u2) u3 _ 6 (by simp; omega) (by simp; omega)]; simp only [C.ok_bind]
  rw [this (u1 ++ u2 ++ u3) u4 _ 8 (by simp; omega) (by simp; omega)]; simp only [C.ok_bind]
  rw [this (u1 ++ u2 ++ u3 ++ u4) u5 _ 10 (by simp; omega) (by simp; omega)]
  refine congrArg C.ok ?_
  have : r.length ≤ u2.length + (u3.length + (u4.length + u5.length)) := by omega
  simp [List.drop_drop, List.drop_eq_nil_of_le, this, Nat.add_assoc]

theorem strlen_ub (m : List UInt8) (h : (0 : UInt8) ∉ m) : strlen m = C.ub := by
  induction m with
  | nil => rfl
  | cons c cs ih =>
    simp only [List.mem_cons, not_or] at h
    simp only [strlen]
    rw [if_neg (fun e => h.1 e.symm), ih h.2]
    rfl

theorem hexText_no_nul {t bs : List UInt8} (h : Spec.HexText t bs) : (0 : UInt8) ∉ t := by
  induction h with
  | nil => simp
  | cons ha hb _ ih =>
    simp only [List.mem_cons, not_or]
    refine ⟨?_, ?_, ih⟩
    · rintro rfl
      rcases ha with h | h | h <;> simp at h <;> omega
    · rintro rfl
      rcases hb with h | h | h <;> simp at h <;> omega

theorem denotes_no_nul {s u : List UInt8} (h : Spec.Denotes s u) : (0 : UInt8) ∉ s := by
  obtain ⟨t1, t2, t3, t4, t5, u1, u2, u3, u4, u5, rfl, _, _, _, _, _, _, h1, h2, h3, h4, h5⟩ := h
  simp [hexText_no_nul h1, hexText_no_nul h2, hexText_no_nul h3, hexText_no_nul h4, hexText_no_nul h5]

end CUtil.Uuid
