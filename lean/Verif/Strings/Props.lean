import Verif.Strings.Lemmas
set_option linter.unusedSimpArgs false
set_option linter.unusedVariables false
/-
Properties C21 (STRING) and C22 (STRING_new_JSON).
-/
namespace CUtil.Strings

/-- C21, one call: on a string that denotes `s`, every call with valid arguments is defined (no access outside a block), leaves a
NUL terminated string inside its block, and has exactly the documented outcome; when it fails the string is untouched. -/
theorem call_outcome (c : Call) (o : Op) (b : Mem) (s : List UInt8) (a : Bool) (hs : cstr b = C.ok s) (hc : c.Is o) :
    ∃ b' f, c.exec b a = C.ok (some b', f) ∧ cstr b' = C.ok (outcome o s a).1 ∧ f = (outcome o s a).2 ∧
      (f = false → b' = b) := by
  cases c <;> cases o <;> simp only [Call.Is] at hc
  · exact good_concat b _ s _ a hs hc
  · exact good_concat_with_STRING b _ s _ a hs hc
  · exact good_copy b _ s _ a hs hc
  · obtain ⟨h1, rfl⟩ := hc; exact good_copy_n b _ s _ _ a hs h1
  · subst hc; exact good_sprintf b s _ a hs
  · exact good_quote b s a hs
  · exact good_empty b s a hs
  · obtain ⟨rfl, rfl⟩ := hc; exact good_replace b s _ _ a hs

/-- C21, histories: any sequence of valid calls with any allocation outcomes leaves exactly the documented text, and the documented
return values. -/
theorem history_outcome (cs : List (Call × Op × Bool)) : ∀ (b : Mem) (s : List UInt8), cstr b = C.ok s →
    (∀ x ∈ cs, x.1.Is x.2.1) →
    ∃ b' fs, execAll (cs.map fun x => (x.1, x.2.2)) b = C.ok (b', fs) ∧
      cstr b' = C.ok (outcomes (cs.map (·.2)) s).1 ∧ fs = (outcomes (cs.map (·.2)) s).2 := by
  induction cs with
  | nil => intro b s hs h; exact ⟨b, [], rfl, hs, rfl⟩
  | cons x cs ih =>
    intro b s hs h
    obtain ⟨c, o, a⟩ := x
    obtain ⟨b1, f, e1, e2, e3, -⟩ := call_outcome c o b s a hs (h _ List.mem_cons_self)
    obtain ⟨b2, fs, g1, g2, g3⟩ := ih b1 _ e2 (fun x hx => h x (List.mem_cons_of_mem _ hx))
    refine ⟨b2, f :: fs, ?_, ?_, ?_⟩
    · simp only [List.map_cons, execAll, e1, g1, C.ok_bind]; rfl
    · simp only [List.map_cons, outcomes]; exact g2
    · simp only [List.map_cons, outcomes]; rw [← g3, ← e3]

/-- C21: `STRING_sprintf` when `vsnprintf` fails: it fails and the text is what it was. -/
theorem sprintf_failure (b : Mem) (s text : List UInt8) (ok1 ok2 a : Bool) (junk : Mem) (hs : cstr b = C.ok s)
    (hj : junk.length = text.length + 1) (hf : ok1 = false ∨ (ok2 = false ∧ text ≠ [])) :
    ∃ b', sprintf (some b) (some ⟨text, ok1, ok2, junk⟩) a = C.ok (some b', false) ∧ cstr b' = C.ok s := by
  simp only [sprintf]
  cases ok1 with
  | false => exact ⟨b, rfl, hs⟩
  | true =>
    obtain ⟨rfl, h0⟩ : ok2 = false ∧ text ≠ [] := by simpa using hf
    rw [if_neg (by simp), if_neg (by simpa using h0), slen_of hs, C.ok_bind]
    by_cases hf : allocs a (s.length + (text.length + 1)) = false
    · rw [if_pos hf]; exact ⟨b, rfl, hs⟩
    · rw [if_neg hf, if_pos rfl]
      obtain ⟨h1, h2, h3, -⟩ := take_cstr hs
      rw [append_copy _ _ _ _ (by omega) (by omega), h2, List.take_of_length_le (by omega), C.ok_bind]
      match junk, hj with
      | x :: junk, _ =>
        rw [wr_at_end _ _ _ _ _ (by simp), C.ok_bind]
        exact ⟨_, rfl, cstr_zstr _ _ (cstr_iff.mp hs).1⟩

/-- C21: the constructors from text. -/
theorem construct_spec (m : Mem) (s : List UInt8) (a1 a2 : Bool) (hs : cstr m = C.ok s) :
    ∃ r, construct (some m) a1 a2 = C.ok r ∧ clone (some m) a1 a2 = C.ok r ∧
      (r = none ↔ ¬ (a1 = true ∧ a2 = true ∧ s.length + 1 ≤ SIZE_MAX)) ∧ ∀ b, r = some b → cstr b = C.ok s := by
  simp only [construct, clone, slen_of hs, C.ok_bind]
  cases a1 with
  | false => exact ⟨none, rfl, rfl, by simp, by simp⟩
  | true =>
    rw [if_neg (by simp)]
    by_cases hf : allocs a2 (1 + s.length) = false
    · rw [if_pos hf]
      refine ⟨none, rfl, rfl, ?_, by simp⟩
      simp only [true_iff]
      rintro ⟨-, h1, h2⟩
      rcases allocs_false.mp hf with h | h
      · rw [h1] at h; cases h
      · omega
    · rw [if_neg hf]
      obtain ⟨g1, g2, g3, -⟩ := take_cstr hs
      rw [block_copy _ _ _ (by simp; omega) g3, g1]
      refine ⟨_, rfl, rfl, ?_, fun b hb => ?_⟩
      · simp only [C.ok.injEq, Option.some.injEq, reduceCtorEq, false_iff, Classical.not_not]
        have := mt allocs_false.mpr hf
        cases a2 with
        | false => simp at this
        | true => simp at this; exact ⟨by simp, by simp, by omega⟩
      · cases hb
        exact cstr_zstr _ _ (cstr_iff.mp hs).1

/-- C21: `STRING_construct_n`: the first `n` characters, refused when there are fewer. -/
theorem construct_n_spec (m : Mem) (s : List UInt8) (n : Nat) (a1 a2 : Bool) (hs : cstr m = C.ok s) :
    ∃ r, construct_n (some m) n a1 a2 = C.ok r ∧
      (r = none ↔ ¬ (n ≤ s.length ∧ a1 = true ∧ a2 = true ∧ n + 1 ≤ SIZE_MAX)) ∧ ∀ b, r = some b → cstr b = C.ok (s.take n) := by
  simp only [construct_n, slen_of hs, C.ok_bind]
  by_cases hn : n > s.length
  · rw [if_pos hn]
    exact ⟨none, rfl, by simp; intro h; omega, by simp⟩
  · rw [if_neg hn]
    cases a1 with
    | false => exact ⟨none, rfl, by simp, by simp⟩
    | true =>
      rw [if_neg (by simp)]
      by_cases hf : allocs a2 (n + 1) = false
      · rw [if_pos hf]
        refine ⟨none, rfl, ?_, by simp⟩
        simp only [true_iff]
        rintro ⟨-, -, h1, h2⟩
        rcases allocs_false.mp hf with h | h
        · rw [h1] at h; cases h
        · omega
      · rw [if_neg hf]
        obtain ⟨g1, g2, g3, g4⟩ := take_cstr hs
        have hc := copy_then_nul (uninit (n + 1)) m n (by simp) (by omega)
        rw [C.bind_eq_ok] at hc
        obtain ⟨m1, e1, e2⟩ := hc
        rw [e1, C.ok_bind, e2, C.ok_bind, g4 n (by omega)]
        refine ⟨_, rfl, ?_, fun b hb => ?_⟩
        · simp only [reduceCtorEq, false_iff, Classical.not_not]
          have := mt allocs_false.mpr hf
          cases a2 with
          | false => simp at this
          | true => simp at this; exact ⟨by omega, by simp, by simp, by omega⟩
        · cases hb
          exact cstr_zstr _ _ (not_mem_take n (cstr_iff.mp hs).1)

/-- C21: `STRING_from_byte_array` keeps the bytes up to the first NUL (and a NULL source is accepted only with size 0). -/
theorem from_byte_array_spec (bs : List UInt8) (n : Nat) (a1 a2 : Bool) (hn : n ≤ bs.length) :
    (∃ r, from_byte_array (some bs) n a1 a2 = C.ok r ∧
      (r = none ↔ ¬ (a1 = true ∧ a2 = true ∧ n + 1 ≤ SIZE_MAX)) ∧ ∀ b, r = some b → cstr b = C.ok (upToNul (bs.take n))) ∧
    (0 < n → from_byte_array none n a1 a2 = C.ok none) ∧
    from_byte_array none 0 true true = C.ok (some [some 0]) := by
  refine ⟨?_, ?_, rfl⟩
  · simp only [from_byte_array]
    rw [if_neg (by simp)]
    cases a1 with
    | false => exact ⟨none, rfl, by simp, by simp⟩
    | true =>
      rw [if_neg (by simp)]
      by_cases hf : allocs a2 (1 + n) = false
      · rw [if_pos hf]
        refine ⟨none, rfl, ?_, by simp⟩
        simp only [true_iff]
        rintro ⟨-, h1, h2⟩
        rcases allocs_false.mp hf with h | h
        · rw [h1] at h; cases h
        · omega
      · rw [if_neg hf]
        have hc := copy_then_nul (uninit (1 + n)) (bs.map some) n (by simp; omega) (by simpa using hn)
        rw [C.bind_eq_ok] at hc
        obtain ⟨m1, e1, e2⟩ := hc
        rw [Option.getD_some, e1, C.ok_bind, e2, C.ok_bind, ← List.map_take]
        refine ⟨_, rfl, ?_, fun b hb => ?_⟩
        · simp only [reduceCtorEq, false_iff, Classical.not_not]
          have := mt allocs_false.mpr hf
          cases a2 with
          | false => simp at this
          | true => simp at this; exact ⟨by simp, by simp, by omega⟩
        · cases hb
          exact cstr_upToNul _ _
  · intro h
    simp [from_byte_array, h]

/-- C21: `STRING_new`, `STRING_new_with_memory`, `STRING_new_quoted` and `STRING_construct_sprintf`. -/
theorem new_spec (a1 a2 : Bool) :
    ∃ r, new a1 a2 = C.ok r ∧ (r = none ↔ ¬ (a1 = true ∧ a2 = true)) ∧ ∀ b, r = some b → cstr b = C.ok [] := by
  cases a1 with
  | false => exact ⟨none, rfl, by simp, by simp⟩
  | true =>
    cases a2 with
    | false => exact ⟨none, rfl, by simp, by simp⟩
    | true => exact ⟨some [some 0], rfl, by simp, fun b hb => by cases hb; rfl⟩

theorem new_with_memory_spec (m : Mem) (s : List UInt8) (a : Bool) (hs : cstr m = C.ok s) :
    (∀ b, new_with_memory (some m) a = some b → cstr b = C.ok s) ∧ (new_with_memory (some m) a = none ↔ a = false) := by
  cases a
  · exact ⟨by simp [new_with_memory], by simp [new_with_memory]⟩
  · refine ⟨?_, by simp [new_with_memory]⟩
    intro b hb
    simp [new_with_memory] at hb
    subst hb; exact hs

theorem new_quoted_spec (m : Mem) (s : List UInt8) (a1 a2 : Bool) (hs : cstr m = C.ok s) :
    ∃ r, new_quoted (some m) a1 a2 = C.ok r ∧ (r = none ↔ ¬ (a1 = true ∧ a2 = true ∧ s.length + 3 ≤ SIZE_MAX)) ∧
      ∀ b, r = some b → cstr b = C.ok (34 :: (s ++ [34])) := by
  simp only [new_quoted, slen_of hs, C.ok_bind]
  cases a1 with
  | false => exact ⟨none, rfl, by simp, by simp⟩
  | true =>
    rw [if_neg (by simp)]
    by_cases hf : allocs a2 (3 + s.length) = false
    · rw [if_pos hf]
      refine ⟨none, rfl, ?_, by simp⟩
      simp only [true_iff]
      rintro ⟨-, h1, h2⟩
      rcases allocs_false.mp hf with h | h
      · rw [h1] at h; cases h
      · omega
    · rw [if_neg hf]
      obtain ⟨g1, g2, g3, -⟩ := take_cstr hs
      have e0 : wr (uninit (3 + s.length)) 0 34 = C.ok ([some (34 : UInt8)] ++ uninit (s.length + 2)) := by
        rw [show 3 + s.length = (s.length + 2) + 1 by omega]
        simp [wr, uninit, List.replicate_succ]
      have e1 : memcpy ([some (34 : UInt8)] ++ uninit (s.length + 2)) 1 m 0 s.length =
          C.ok (([some 34] ++ s.map some) ++ none :: [none]) := by
        unfold memcpy
        rw [if_pos (by simp; omega), List.drop_zero, g2]
        have : (1 + s.length) = s.length + 1 := by omega
        simp [uninit, this]
      have e2 : wr (([some 34] ++ s.map some) ++ none :: [none]) (s.length + 1) 34 =
          C.ok (([some 34] ++ s.map some) ++ some 34 :: [none]) := wr_at_end _ _ _ _ _ (by simp)
      have e3 : wr (([some 34] ++ s.map some) ++ some 34 :: [none]) (s.length + 2) 0 =
          C.ok ((([some 34] ++ s.map some) ++ [some 34]) ++ some 0 :: []) := by
        have : ([some 34] ++ s.map some) ++ some 34 :: [none] = (([some 34] ++ s.map some) ++ [some 34]) ++ none :: [] := by simp
        rw [this]
        exact wr_at_end _ _ _ _ _ (by simp)
      rw [e0, C.ok_bind, e1, C.ok_bind, e2, C.ok_bind, e3, C.ok_bind]
      refine ⟨_, rfl, ?_, fun b hb => ?_⟩
      · simp only [reduceCtorEq, false_iff, Classical.not_not]
        have := mt allocs_false.mpr hf
        cases a2 with
        | false => simp at this
        | true => simp at this; exact ⟨by simp, by simp, by omega⟩
      · cases hb
        have : (([some 34] ++ s.map some) ++ [some 34]) ++ [some 0] = (34 :: (s ++ [34])).map some ++ some 0 :: [] := by simp
        rw [this]
        refine cstr_zstr _ _ ?_
        have := (cstr_iff.mp hs).1
        simp [this]

theorem construct_sprintf_spec (text : List UInt8) (ok1 ok2 a1 a2 : Bool) (junk : Mem) :
    ∃ r, construct_sprintf (some ⟨text, ok1, ok2, junk⟩) a1 a2 = C.ok r ∧
      (r = none ↔ ¬ (ok1 = true ∧ (text = [] ∨ ok2 = true) ∧ a1 = true ∧ a2 = true ∧ text.length + 1 ≤ SIZE_MAX)) ∧
      ∀ b, r = some b → cstr b = C.ok (upToNul text) := by
  simp only [construct_sprintf]
  cases ok1 with
  | false => exact ⟨none, rfl, by simp, by simp⟩
  | true =>
    rw [if_neg (by simp)]
    cases text with
    | nil =>
      rw [if_neg (by simp)]
      obtain ⟨r, h1, h2, h3⟩ := new_spec a1 a2
      exact ⟨r, h1, by rw [h2]; simp, h3⟩
    | cons c text =>
      rw [if_pos (by simp)]
      cases a1 with
      | false => exact ⟨none, rfl, by simp, by simp⟩
      | true =>
        rw [if_neg (by simp)]
        by_cases hf : allocs a2 ((c :: text).length + 1) = false
        · rw [if_pos hf]
          refine ⟨none, rfl, ?_, by simp⟩
          simp only [true_iff]
          rintro ⟨-, -, -, h1, h2⟩
          rcases allocs_false.mp hf with h | h
          · rw [h1] at h; cases h
          · omega
        · rw [if_neg hf]
          cases ok2 with
          | false => exact ⟨none, rfl, by simp, by simp⟩
          | true =>
            rw [if_neg (by simp), block_copy _ _ _ (by simp) (by simp [zstr]), List.take_of_length_le (by simp [zstr])]
            refine ⟨_, rfl, ?_, fun b hb => ?_⟩
            · simp only [C.ok.injEq, reduceCtorEq, false_iff, Classical.not_not]
              have := mt allocs_false.mpr hf
              cases a2 with
              | false => simp at this
              | true =>
                simp at this
                refine ⟨by simp, by simp, by simp, by simp, ?_⟩
                simp only [List.length_cons]
                omega
            · cases hb
              have : (zstr (c :: text)).map some = (c :: text).map some ++ some 0 :: [] := by simp [zstr]
              rw [this]
              exact cstr_upToNul _ _

/-- C21: the readers.  `STRING_c_str` gives the block itself, so `cstr` of it is the text. -/
theorem length_spec (b : Mem) (s : List UInt8) (hs : cstr b = C.ok s) :
    length (some b) = C.ok s.length ∧ c_str (some b) = some b ∧ length none = C.ok 0 ∧ c_str none = none :=
  ⟨slen_of hs, rfl, rfl, rfl⟩

theorem strcmp_spec (s t : List UInt8) : ∀ (p q : Mem), (0 : UInt8) ∉ s → (0 : UInt8) ∉ t →
    ∃ r, strcmp (s.map some ++ some 0 :: p) (t.map some ++ some 0 :: q) = C.ok r ∧ (r = 0 ↔ s = t) ∧ (r < 0 ↔ s < t) ∧ (0 < r ↔ t < s) := by
  induction s generalizing t with
  | nil =>
    intro p q _ ht
    cases t with
    | nil => exact ⟨0, rfl, by simp, by simp, by simp⟩
    | cons d t =>
      have hd : d ≠ 0 := fun e => ht (by simp [e])
      have hd' : (0 : UInt8).toNat < d.toNat := by
        have : d.toNat ≠ 0 := fun e => hd (u8_ext (by simpa using e))
        show 0 < _
        omega
      refine ⟨-1, ?_, by simp, by simp, by simp⟩
      simp only [List.map_cons, List.map_nil, List.nil_append, List.cons_append, strcmp]
      rw [if_pos hd']
  | cons c s ih =>
    intro p q hs ht
    have hc : c ≠ 0 := fun e => hs (by simp [e])
    have hc' : (0 : UInt8).toNat < c.toNat := by
      have : c.toNat ≠ 0 := fun e => hc (u8_ext (by simpa using e))
      show 0 < _
      omega
    cases t with
    | nil =>
      refine ⟨1, ?_, by simp, by simp, by simp⟩
      simp only [List.map_cons, List.map_nil, List.nil_append, List.cons_append, strcmp]
      rw [if_neg (by omega), if_pos hc']
    | cons d t =>
      simp only [List.map_cons, List.cons_append, strcmp]
      by_cases h1 : c.toNat < d.toNat
      · rw [if_pos h1]
        have hlt : c < d := h1
        have hne : c ≠ d := by rintro rfl; omega
        have hng : ¬ d < c := by intro h; have : d.toNat < c.toNat := h; omega
        refine ⟨-1, rfl, by simp [hne], ?_, ?_⟩
        · simp [List.cons_lt_cons_iff, hlt]
        · simp [List.cons_lt_cons_iff, hng, hne.symm]
      · rw [if_neg h1]
        by_cases h2 : d.toNat < c.toNat
        · rw [if_pos h2]
          have hlt : d < c := h2
          have hne : c ≠ d := by rintro rfl; omega
          have hng : ¬ c < d := by intro h; have : c.toNat < d.toNat := h; omega
          refine ⟨1, rfl, by simp [hne], ?_, ?_⟩
          · simp [List.cons_lt_cons_iff, hng, hne]
          · simp [List.cons_lt_cons_iff, hlt]
        · rw [if_neg h2, if_neg hc]
          have he : c = d := u8_ext (by omega)
          subst he
          obtain ⟨r, e1, e2, e3, e4⟩ := ih t p q (fun h => hs (by simp [h])) (fun h => ht (by simp [h]))
          have hirr : ¬ c < c := by intro h; have : c.toNat < c.toNat := h; omega
          refine ⟨r, e1, by simp [e2], ?_, ?_⟩
          · simp [List.cons_lt_cons_iff, hirr, e3]
          · simp [List.cons_lt_cons_iff, hirr, e4]

/-- C21: `STRING_compare` is lexicographic order (NULL after everything else). -/
theorem compare_spec (b1 b2 : Mem) (s t : List UInt8) (hs : cstr b1 = C.ok s) (ht : cstr b2 = C.ok t) :
    (∃ r, compare (some b1) (some b2) = C.ok r ∧ (r = 0 ↔ s = t) ∧ (r < 0 ↔ s < t) ∧ (0 < r ↔ t < s)) ∧
    compare none none = C.ok 0 ∧ compare none (some b1) = C.ok 1 ∧ compare (some b1) none = C.ok (-1) := by
  refine ⟨?_, rfl, rfl, rfl⟩
  obtain ⟨hs0, p, rfl⟩ := cstr_iff.mp hs
  obtain ⟨ht0, q, rfl⟩ := cstr_iff.mp ht
  exact strcmp_spec s t p q hs0 ht0

/-- NULL arguments are refused and change nothing. -/
theorem refusals (b : Mem) (h : Option Mem) (src : Src) (f : Option Fmt) (n : Nat) (a1 a2 e : Bool) (c d : UInt8) :
    clone none a1 a2 = C.ok none ∧ construct none a1 a2 = C.ok none ∧ construct_sprintf none a1 a2 = C.ok none ∧
    new_with_memory none a1 = none ∧ new_quoted none a1 a2 = C.ok none ∧ new_JSON none a1 a2 = C.ok none ∧
    construct_n none n a1 a2 = C.ok none ∧
    concat none src a1 = C.ok (none, false) ∧ concat (some b) .null a1 = C.ok (some b, false) ∧
    concat_with_STRING none h e a1 = C.ok (none, false) ∧ concat_with_STRING (some b) none e a1 = C.ok (some b, false) ∧
    copy none src a1 = C.ok (none, false) ∧ copy (some b) .null a1 = C.ok (some b, false) ∧
    copy_n none src n a1 = C.ok (none, false) ∧ copy_n (some b) .null n a1 = C.ok (some b, false) ∧
    sprintf none f a1 = C.ok (none, false) ∧ sprintf (some b) none a1 = C.ok (some b, false) ∧
    quote none a1 = C.ok (none, false) ∧ empty none a1 = C.ok (none, false) ∧ replace none c d = C.ok (none, false) :=
  ⟨rfl, rfl, rfl, rfl, rfl, rfl, rfl, rfl, rfl, rfl, rfl, rfl, rfl, rfl, rfl, rfl, rfl, rfl, rfl, rfl⟩

/-- C21: copying a string onto itself is a no-op. -/
theorem copy_self (b : Mem) (a : Bool) : copy (some b) (.own 0) a = C.ok (some b, true) := rfl

/-- Finding: concatenating a STRING with itself (`STRING_concat_with_STRING(s, s)`) is undefined whenever memory is available: the
`memcpy` source includes the terminator that the copy overwrites. -/
theorem concat_self_ub (b : Mem) (s : List UInt8) (hs : cstr b = C.ok s) (h : 2 * s.length + 1 ≤ SIZE_MAX) :
    concat_with_STRING (some b) (some b) true true = C.ub := by
  simp only [concat_with_STRING, slen_of hs, C.ok_bind]
  rw [if_pos trivial, if_neg (by simp [allocs]; omega)]
  unfold memcpySame
  rw [if_neg (by omega)]
  rfl

/-- Finding: passing (part of) the string's own characters to `STRING_concat` or `STRING_copy_n` reads released memory. -/
theorem own_text_ub (b : Mem) (s t : List UInt8) (off n : Nat) (hs : cstr b = C.ok s) (ht : cstr (b.drop off) = C.ok t)
    (h : s.length + t.length + 1 ≤ SIZE_MAX) :
    concat (some b) (.own off) true = C.ub ∧ copy_n (some b) (.own off) n true = C.ub := by
  constructor
  · simp only [concat, slen_of hs, slen_of ht, C.ok_bind]
    rw [if_neg (by simp [allocs]; omega)]
  · simp only [copy_n, slen_of ht, C.ok_bind]
    rw [if_neg]
    simp [allocs]
    split <;> omega

theorem zero_not_mem_esc_n : ∀ n : Nat, n < 256 → n ≠ 0 → (0 : UInt8) ∉ esc (UInt8.ofNat n) := by decide +kernel

theorem zero_not_mem_jsonText (s : List UInt8) (h : (0 : UInt8) ∉ s) : (0 : UInt8) ∉ jsonText s := by
  intro hm
  simp only [jsonText, List.mem_cons, List.mem_append, List.mem_flatMap, List.not_mem_nil, or_false] at hm
  rcases hm with h0 | ⟨c, hc, h1⟩ | h0
  · exact absurd h0 (by decide)
  · have := zero_not_mem_esc_n c.toNat (uint8_lt c) (by
      intro e
      have : c = 0 := u8_ext (by simpa using e)
      subst this; exact h hc)
    rw [ofNat_toNat_u8] at this
    exact this h1
  · exact absurd h0 (by decide)

/-- C22: `STRING_new_JSON` of a text succeeds exactly when every character is below 128, memory is available and the result is
representable; it then fills its block completely and exactly with the documented JSON text. -/
theorem new_JSON_spec (m : Mem) (s : List UInt8) (a1 a2 : Bool) (hs : cstr m = C.ok s) :
    ∃ r, new_JSON (some m) a1 a2 = C.ok r ∧
      (r = none ↔ ¬ ((∀ c ∈ s, c.toNat < 128) ∧ a1 = true ∧ a2 = true ∧ (jsonText s).length + 1 ≤ SIZE_MAX)) ∧
      ∀ b, r = some b → b = (zstr (jsonText s)).map some ∧ cstr b = C.ok (jsonText s) := by
  have hs0 := (cstr_iff.mp hs).1
  by_cases hc : ∀ c ∈ s, c.toNat < 128
  · by_cases hok : a1 = true ∧ a2 = true ∧ (jsonText s).length + 1 ≤ SIZE_MAX
    · obtain ⟨rfl, rfl, h3⟩ := hok
      refine ⟨_, new_JSON_ok m s hs hc h3, ?_, ?_⟩
      · simp only [reduceCtorEq, false_iff, Classical.not_not]; exact ⟨hc, by simp, by simp, h3⟩
      · intro b hb
        cases hb
        refine ⟨rfl, ?_⟩
        have : (zstr (jsonText s)).map some = (jsonText s).map some ++ some 0 :: [] := by simp [zstr]
        rw [this]
        exact cstr_zstr _ _ (zero_not_mem_jsonText s hs0)
    · refine ⟨none, ?_, by simp only [true_iff]; exact fun h => hok h.2, by simp⟩
      simp only [new_JSON, hs, C.ok_bind, jsonCount_ok s 0 0 hc]
      have hlen := esc_length s
      have hl : (jsonText s).length = s.length + 5 * ctl s + bsl s + 2 := by
        simp only [jsonText, List.length_cons, List.length_append, List.length_nil]; omega
      rw [hl] at hok
      rw [Nat.zero_add, Nat.zero_add]
      split
      · rfl
      · rename_i h1
        split
        · rfl
        · split
          · rfl
          · split
            · rfl
            · split
              · rfl
              · rename_i h2 h3 h4 h5
                exfalso
                apply hok
                refine ⟨by simpa using h1, by simpa using h5, by omega⟩
  · refine ⟨none, ?_, by simp only [true_iff]; exact fun h => hc h.1, by simp⟩
    simp only [new_JSON, hs, C.ok_bind]
    rw [jsonCount_bad]
    simp only [Classical.not_forall] at hc
    obtain ⟨c, h1, h2⟩ := hc
    exact ⟨c, h1, by omega⟩

/-- C22: the produced text is one JSON string literal, and decodes to the argument. -/
theorem json_decodes (s : List UInt8) (hc : ∀ c ∈ s, c.toNat < 128) : jsonString (jsonText s) = some (s, []) := by
  unfold jsonText
  simp only [jsonString]
  exact jsonBody_flatMap s [] hc

/- Concrete cases: `"a\"b"` and a control character. -/
example : cstr [some 97, some 34, some 10, some 0] = C.ok [97, 34, 10] := rfl
example : new_JSON (some [some 97, some 34, some 10, some 0]) true true =
    C.ok (some ([34, 97, 92, 34, 92, 117, 48, 48, 48, 65, 34, 0].map some)) := by decide +kernel
example : new_JSON (some [some 200, some 0]) true true = C.ok none := by decide +kernel
example : execAll [(.concat [some 98, some 0], true), (.quote, true), (.copy_n [some 99, some 100, some 0] 1, false),
    (.replace 97 98, true)] [some 97, some 0] = C.ok ([34, 98, 98, 34, 0].map some, [true, true, false, true]) := by decide +kernel
example : (Call.concat [some 98, some 0]).Is (.concat [98]) := rfl
example : cstr ([some 97, some 98, some 0].drop 1) = C.ok [98] := rfl

end CUtil.Strings
