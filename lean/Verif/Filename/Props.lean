import Verif.Filename.Model
set_option linter.unusedSimpArgs false
set_option linter.unusedVariables false
/-
C54: filename_append_suffix.
-/
namespace CUtil.Filename
open CUtil

/-! ### Specification -/

/-- The name is `stem.ext` where the extension is the one of the last path component. -/
def HasExt (filename stem ext : List UInt8) : Prop :=
  filename = stem ++ [46] ++ ext ∧ (46 : UInt8) ∉ ext ∧ (92 : UInt8) ∉ ext

/-- The documented name. -/
inductive Means (filename suffix : List UInt8) : List UInt8 → Prop where
  | before {stem ext} : HasExt filename stem ext → Means filename suffix (stem ++ suffix ++ [46] ++ ext)
  | atEnd : (∀ stem ext, ¬ HasExt filename stem ext) → Means filename suffix (filename ++ suffix)

/-! ### Lemmas -/

theorem strrchr_none {c : UInt8} : ∀ {s : List UInt8}, strrchr c s = none → c ∉ s := by
  intro s
  induction s with
  | nil => simp
  | cons x xs ih =>
    unfold strrchr
    cases h : strrchr c xs with
    | some i => simp
    | none =>
      dsimp only
      split
      · simp
      · rename_i hx
        intro _ hm
        rw [List.mem_cons] at hm
        rcases hm with rfl | hm
        · exact hx rfl
        · exact ih h hm

theorem strrchr_some {c : UInt8} : ∀ {s : List UInt8} {i : Nat}, strrchr c s = some i →
    i < s.length ∧ s = s.take i ++ [c] ++ s.drop (i + 1) ∧ c ∉ s.drop (i + 1) := by
  intro s
  induction s with
  | nil => simp [strrchr]
  | cons x xs ih =>
    intro i
    unfold strrchr
    cases h : strrchr c xs with
    | some j =>
      intro e
      simp only [Option.some.injEq] at e
      subst e
      obtain ⟨h1, h2, h3⟩ := ih h
      refine ⟨by simp only [List.length_cons]; omega, ?_, by simpa using h3⟩
      simp only [List.take_succ_cons, List.drop_succ_cons, List.cons_append]
      rw [← h2]
    | none =>
      dsimp only
      split
      · rename_i hx
        intro e
        simp only [Option.some.injEq] at e
        subst e
        exact ⟨by simp, by simp [hx], by simpa using strrchr_none h⟩
      · simp

theorem strrchr_append {c : UInt8} (a : List UInt8) {b : List UInt8} (h : c ∉ b) : strrchr c (a ++ [c] ++ b) = some a.length := by
  induction a with
  | nil =>
    have : strrchr c b = none := by
      cases hb : strrchr c b with
      | none => rfl
      | some i =>
        obtain ⟨_, h2, _⟩ := strrchr_some hb
        exact absurd (by rw [h2]; simp : c ∈ b) h
    simp [strrchr, this]
  | cons x xs ih => simp only [List.cons_append, strrchr, ih, List.length_cons]

theorem strrchr_absent {c : UInt8} {s : List UInt8} (h : c ∉ s) : strrchr c s = none := by
  cases hs : strrchr c s with
  | none => rfl
  | some i =>
    obtain ⟨_, h2, _⟩ := strrchr_some hs
    exact absurd (by rw [h2]; simp : c ∈ s) h

theorem precStr_take {n : Nat} (h : n < 2147483648) (s : List UInt8) : precStr n s = s.take n := by
  unfold precStr
  rw [Nat.mod_eq_of_lt (by omega), if_pos h]

theorem strrchr_dot_ext {filename : List UInt8} {dot : Nat} (hd : strrchr 46 filename = some dot)
    (hb : ∀ b, strrchr 92 filename = some b → ¬ dot < b) :
    HasExt filename (filename.take dot) (filename.drop (dot + 1)) := by
  obtain ⟨h1, h2, h3⟩ := strrchr_some hd
  refine ⟨h2, h3, ?_⟩
  intro hm
  cases hs : strrchr 92 filename with
  | none =>
    have := strrchr_none hs
    exact this (List.mem_of_mem_drop hm)
  | some b =>
    obtain ⟨g1, g2, g3⟩ := strrchr_some hs
    have hlt := hb b hs
    -- b ≤ dot, so the rest after dot has no backslash
    have hne : dot + 1 ≥ b + 1 := by omega
    have : filename.drop (dot + 1) = (filename.drop (b + 1)).drop (dot - b) := by rw [List.drop_drop]; congr 1; omega
    rw [this] at hm
    exact g3 (List.mem_of_mem_drop hm)

theorem hasExt_dot {filename stem ext : List UInt8} (h : HasExt filename stem ext) :
    strrchr 46 filename = some stem.length ∧ ∀ b, strrchr 92 filename = some b → b < stem.length := by
  obtain ⟨rfl, h2, h3⟩ := h
  refine ⟨strrchr_append _ h2, ?_⟩
  intro b hb
  obtain ⟨g1, g2, g3⟩ := strrchr_some hb
  apply Classical.byContradiction
  intro hlt
  have hget : (stem ++ [46] ++ ext)[b]? = some (92 : UInt8) := by
    rw [g2]
    have hl : (List.take b (stem ++ [46] ++ ext)).length = b := by rw [List.length_take]; omega
    rw [List.append_assoc, List.getElem?_append_right (by omega), hl]
    simp
  rw [List.append_assoc, List.getElem?_append_right (by omega)] at hget
  by_cases he : b = stem.length
  · subst he; simp at hget
  · rw [List.singleton_append, List.getElem?_cons, if_neg (by omega)] at hget
    exact h3 (List.mem_of_getElem? hget)

/-! ### Property -/

/-- C54: the name returned is the documented one, for every name shorter than 4 GiB; NULL only for want of memory or
when the text would be longer than INT_MAX. -/
theorem append_suffix_partial (filename suffix : List UInt8) (ok : Bool) (hlen : filename.length < 4294967296) :
    (∀ r, appendSuffix (some filename) (some suffix) ok = some r → Means filename suffix r) ∧
    (ok = true → filename.length + suffix.length ≤ 2147483647 → appendSuffix (some filename) (some suffix) ok ≠ none) := by
  have hsp : ∀ text r, sprintf text ok = some r → r = text ∧ text.length ≤ 2147483647 := by
    intro text r h
    unfold sprintf at h
    split at h
    · rename_i hc; simp only [Option.some.injEq] at h; exact ⟨h.symm, hc.2⟩
    · cases h
  have hnn : ∀ text : List UInt8, ok = true → text.length ≤ 2147483647 → sprintf text ok ≠ none := by
    intro text h1 h2
    unfold sprintf
    rw [if_pos ⟨h1, h2⟩]; simp
  have hend : (∀ stem ext, ¬ HasExt filename stem ext) → (∀ r, sprintf (filename ++ suffix) ok = some r → Means filename suffix r) := by
    intro h r hr
    rw [(hsp _ _ hr).1]
    exact .atEnd h
  have hbef : ∀ dot, strrchr 46 filename = some dot → (∀ b, strrchr 92 filename = some b → ¬ dot < b) →
      (∀ r, sprintf (precStr dot filename ++ suffix ++ filename.drop dot) ok = some r → Means filename suffix r) ∧
      (ok = true → filename.length + suffix.length ≤ 2147483647 → sprintf (precStr dot filename ++ suffix ++ filename.drop dot) ok ≠ none) := by
    intro dot hd hb
    have hx := strrchr_dot_ext hd hb
    have hd' : filename.drop dot = [46] ++ filename.drop (dot + 1) := by
      obtain ⟨h1, h2, _⟩ := strrchr_some hd
      have := congrArg (List.drop dot) h2
      rw [this, List.append_assoc, List.drop_append_of_le_length (by rw [List.length_take]; omega)]
      rw [List.drop_eq_nil_of_le (by rw [List.length_take]; omega)]; simp
    obtain ⟨h1, _, _⟩ := strrchr_some hd
    by_cases hsmall : dot < 2147483648
    · rw [precStr_take hsmall]
      constructor
      · intro r hr
        rw [(hsp _ _ hr).1, hd']
        have := Means.before (suffix := suffix) hx
        simpa using this
      · intro ho hl
        apply hnn _ ho
        simp only [List.length_append, List.length_take, List.length_drop]
        omega
    · have hp : precStr dot filename = filename := by
        unfold precStr
        rw [Nat.mod_eq_of_lt (by omega), if_neg hsmall]
      rw [hp]
      constructor
      · intro r hr
        have := (hsp _ _ hr).2
        simp only [List.length_append] at this
        omega
      · intro _ hl
        omega
  unfold appendSuffix
  dsimp only
  cases hd : strrchr 46 filename with
  | none =>
    refine ⟨hend ?_, ?_⟩
    · intro stem ext hx
      have := (hasExt_dot hx).1
      rw [hd] at this; cases this
    · intro ho hl; exact hnn _ ho (by rw [List.length_append]; omega)
  | some dot =>
    cases hb : strrchr 92 filename with
    | none => exact hbef dot hd (by rw [hb]; simp)
    | some b =>
      dsimp only
      by_cases hlt : dot < b
      · rw [if_pos hlt]
        refine ⟨hend ?_, ?_⟩
        · intro stem ext hx
          obtain ⟨e1, e2⟩ := hasExt_dot hx
          rw [hd] at e1
          have := e2 b hb
          simp only [Option.some.injEq] at e1
          omega
        · intro ho hl; exact hnn _ ho (by rw [List.length_append]; omega)
      · rw [if_neg hlt]
        exact hbef dot hd (by rw [hb]; intro c hc; simp only [Option.some.injEq] at hc; omega)

/-- The documented name is unique. -/
theorem means_unique {filename suffix r s : List UInt8} (h1 : Means filename suffix r) (h2 : Means filename suffix s) : r = s := by
  cases h1 with
  | atEnd h => cases h2 with
    | atEnd _ => rfl
    | before hx => exact absurd hx (h _ _)
  | before hx => cases h2 with
    | atEnd h => exact absurd hx (h _ _)
    | before hy =>
      rename_i st1 ex1 st2 ex2
      have e1 := (hasExt_dot hx).1
      have e2 := (hasExt_dot hy).1
      rw [e1] at e2
      simp only [Option.some.injEq] at e2
      have e3 := hx.1.symm.trans hy.1
      rw [List.append_assoc, List.append_assoc] at e3
      obtain ⟨e4, e5⟩ := List.append_inj e3 e2
      simp only [List.singleton_append, List.cons.injEq, true_and] at e5
      rw [e4, e5]

/-- NULL arguments are refused. -/
theorem append_suffix_null (s : Option (List UInt8)) (ok : Bool) :
    appendSuffix none s ok = none ∧ appendSuffix s none ok = none := by
  cases s <;> simp [appendSuffix]

/-- Finding: the precision is an int, so with the dot more than 4 GiB into the name the name is cut: of the stem only the
first `length % 2^32` bytes are left (five, if it has 2^32 + 5). -/
theorem huge_name_cut {stem ext suffix : List UInt8} (hb : (92 : UInt8) ∉ stem ++ [46] ++ ext) (hd : (46 : UInt8) ∉ ext)
    (hn : stem.length % 4294967296 + suffix.length + 1 + ext.length < 2147483648) :
    appendSuffix (some (stem ++ [46] ++ ext)) (some suffix) true = some (stem.take (stem.length % 4294967296) ++ suffix ++ [46] ++ ext) := by
  have hp : precStr stem.length (stem ++ [46] ++ ext) = stem.take (stem.length % 4294967296) := by
    unfold precStr
    rw [if_pos (by omega), List.append_assoc, List.take_append_of_le_length (Nat.mod_le _ _)]
  have hdr : (stem ++ [46] ++ ext).drop stem.length = [46] ++ ext := by rw [List.append_assoc, List.drop_left']; rfl
  unfold appendSuffix
  simp only [strrchr_append stem hd, strrchr_absent hb]
  rw [hp, hdr]
  unfold sprintf
  rw [if_pos ⟨rfl, by
    have := List.length_take_le (stem.length % 4294967296) stem
    simp only [List.length_append, List.length_cons, List.length_nil]; omega⟩]
  simp

/-- ... which is not the documented name. -/
theorem huge_name_wrong {stem ext suffix : List UInt8} (hb : (92 : UInt8) ∉ stem ++ [46] ++ ext) (hd : (46 : UInt8) ∉ ext)
    (hn : stem.length % 4294967296 + suffix.length + 1 + ext.length < 2147483648) (hbig : 4294967296 ≤ stem.length) :
    ∃ r, appendSuffix (some (stem ++ [46] ++ ext)) (some suffix) true = some r ∧ ¬ Means (stem ++ [46] ++ ext) suffix r := by
  refine ⟨_, huge_name_cut hb hd hn, ?_⟩
  intro hm
  have hx : HasExt (stem ++ [46] ++ ext) stem ext := ⟨rfl, hd, fun h => hb (by simp [h])⟩
  have e := congrArg List.length (means_unique hm (.before hx))
  have := List.length_take_le (stem.length % 4294967296) stem
  have := Nat.mod_lt stem.length (show 4294967296 > 0 by decide)
  simp only [List.length_append, List.length_cons, List.length_nil] at e
  omega

/-- Such names exist. -/
example : ∃ stem : List UInt8, stem.length % 4294967296 + 100 < 2147483648 ∧ 4294967296 ≤ stem.length ∧ (92 : UInt8) ∉ stem ++ [46] ++ [116] := by
  have : ∃ n : Nat, n % 4294967296 + 100 < 2147483648 ∧ 4294967296 ≤ n := ⟨4294967301, by decide, by decide⟩
  obtain ⟨n, h1, h2⟩ := this
  refine ⟨List.replicate n 97, by rw [List.length_replicate]; exact h1, by rw [List.length_replicate]; exact h2, ?_⟩
  intro hm
  rw [List.mem_append, List.mem_append, List.mem_replicate] at hm
  rcases hm with (⟨_, hm⟩ | hm) | hm
  · revert hm; decide
  · revert hm; decide
  · revert hm; decide

/-- Only `\` separates path components: `/a.b/c` is taken to have the extension `b/c`. -/
example : appendSuffix (some "/a.b/c".toUTF8.toList) (some "_1".toUTF8.toList) true = some "/a_1.b/c".toUTF8.toList := by decide +kernel

/-! ### Witnesses -/

example : appendSuffix (some "d.x\\file.txt".toUTF8.toList) (some "_1".toUTF8.toList) true = some "d.x\\file_1.txt".toUTF8.toList := by decide +kernel
example : appendSuffix (some "d.x\\file".toUTF8.toList) (some "_1".toUTF8.toList) true = some "d.x\\file_1".toUTF8.toList := by decide +kernel
example : HasExt "d.x\\file.txt".toUTF8.toList "d.x\\file".toUTF8.toList "txt".toUTF8.toList := by
  refine ⟨by decide +kernel, by decide +kernel, by decide +kernel⟩

end CUtil.Filename
