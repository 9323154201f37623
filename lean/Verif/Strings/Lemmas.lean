import Verif.Strings.Spec
set_option linter.unusedSimpArgs false
set_option linter.unusedVariables false
/-
Helper lemmas for C21 and C22.
-/
namespace CUtil.Strings

theorem cstr_iff {m : Mem} {s : List UInt8} :
    cstr m = C.ok s ↔ (0 : UInt8) ∉ s ∧ ∃ t, m = s.map some ++ some 0 :: t := by
  constructor
  · intro h
    induction m generalizing s with
    | nil => simp [cstr] at h
    | cons x m ih =>
      cases x with
      | none => simp [cstr] at h
      | some c =>
        simp only [cstr] at h
        by_cases hc : c = 0
        · rw [if_pos hc] at h
          cases h
          subst hc
          exact ⟨by simp, m, rfl⟩
        · rw [if_neg hc] at h
          cases hm : cstr m with
          | ub => rw [hm] at h; simp at h
          | ok s' =>
            rw [hm] at h
            simp only [C.map_ok, C.ok.injEq] at h
            subst h
            obtain ⟨h1, t, h2⟩ := ih hm
            refine ⟨?_, t, by rw [h2]; rfl⟩
            simp only [List.mem_cons, not_or]
            exact ⟨fun e => hc e.symm, h1⟩
  · rintro ⟨h, t, rfl⟩
    exact cstr_zstr s t h

theorem slen_of {m : Mem} {s : List UInt8} (h : cstr m = C.ok s) : slen m = C.ok s.length := by
  unfold slen; rw [h]; rfl

theorem upToNul_eq (s : List UInt8) (h : (0 : UInt8) ∉ s) : upToNul s = s := by
  unfold upToNul
  exact takeWhile_eq_self (fun a ha => by
    simp only [ne_eq, decide_not, Bool.not_eq_eq_eq_not, Bool.not_true, decide_eq_false_iff_not]
    intro e; subst e; exact h ha)

theorem cstr_upToNul (s : List UInt8) (t : Mem) : cstr (s.map some ++ some 0 :: t) = C.ok (upToNul s) := by
  induction s with
  | nil => rfl
  | cons c s ih =>
    simp only [List.map_cons, List.cons_append, cstr]
    by_cases hc : c = 0
    · subst hc; rw [if_pos rfl]; rfl
    · rw [if_neg hc, ih]
      simp only [C.map_ok, upToNul]
      rw [List.takeWhile_cons_of_pos (by simp [hc])]

theorem cstr_append_upToNul (s u : List UInt8) (t : Mem) (h : (0 : UInt8) ∉ s) :
    cstr (s.map some ++ (u.map some ++ some 0 :: t)) = C.ok (s ++ upToNul u) := by
  rw [← List.append_assoc, ← List.map_append, cstr_upToNul]
  congr 1
  unfold upToNul
  rw [List.takeWhile_append_of_pos]
  intro a ha
  simp only [ne_eq, decide_not, Bool.not_eq_eq_eq_not, Bool.not_true, decide_eq_false_iff_not]
  intro e; subst e; exact h ha

/-- Copying `k` cells behind the first `n` cells kept by a reallocation to exactly `n + k`. -/
theorem append_copy (m : Mem) (src : Mem) (n k : Nat) (hm : n ≤ m.length) (hk : k ≤ src.length) :
    memcpy (reallocMem m (n + k)) n src 0 k = C.ok (m.take n ++ src.take k) := by
  unfold memcpy reallocMem
  have hl : (m.take (n + k) ++ uninit (n + k - m.length)).length = n + k := by simp; omega
  rw [if_pos (by rw [hl]; omega)]
  congr 1
  rw [List.take_append_of_le_length (by simp; omega), List.take_take, Nat.min_eq_left (by omega),
    List.drop_of_length_le (Nat.le_of_eq hl)]
  simp

theorem block_copy (m : Mem) (src : Mem) (k : Nat) (hm : m.length = k) (hk : k ≤ src.length) :
    memcpy m 0 src 0 k = C.ok (src.take k) := by
  unfold memcpy
  rw [if_pos (by omega)]
  simp [← hm]

/-- Copying `k` cells to the start of a block with one cell more, then a NUL in the last cell. -/
theorem copy_then_nul (m : Mem) (src : Mem) (k : Nat) (hm : m.length = k + 1) (hk : k ≤ src.length) :
    (memcpy m 0 src 0 k >>= fun m => wr m k 0) = C.ok (src.take k ++ [some 0]) := by
  have h1 : memcpy m 0 src 0 k = C.ok (src.take k ++ m.drop k) := by
    unfold memcpy
    rw [if_pos (by omega)]
    simp
  have h2 : (m.drop k).length = 1 := by simp; omega
  rw [h1, C.ok_bind]
  match m.drop k, h2 with
  | [x], _ =>
    unfold wr
    have hl : (src.take k).length = k := by simp; omega
    rw [if_pos (by simp; omega), List.set_append_right _ _ (by omega)]
    simp [hl]

theorem realloc_length (m : Mem) (n : Nat) : (reallocMem m n).length = n := by
  unfold reallocMem; simp; omega

theorem take_cstr {m : Mem} {s : List UInt8} (h : cstr m = C.ok s) :
    m.take (s.length + 1) = s.map some ++ [some 0] ∧ m.take s.length = s.map some ∧ s.length + 1 ≤ m.length ∧
    (∀ n ≤ s.length, m.take n = (s.take n).map some) := by
  obtain ⟨-, t, rfl⟩ := cstr_iff.mp h
  refine ⟨?_, ?_, by simp, ?_⟩
  · have : s.map some ++ some 0 :: t = (s.map some ++ [some 0]) ++ t := by simp
    rw [this]
    exact List.take_left' (by simp)
  · exact List.take_left' (by simp)
  · intro n hn
    rw [List.take_append_of_le_length (by simpa using hn), List.map_take]

theorem allocs_false {a : Bool} {n : Nat} : allocs a n = false ↔ a = false ∨ SIZE_MAX < n := by
  unfold allocs
  cases a <;> simp

theorem outcome_fail {o : Op} {s : List UInt8} {a : Bool} {n : Nat} (h : needs o s = n) (h0 : n ≠ 0) (hf : allocs a n = false) :
    outcome o s a = (s, false) := by
  unfold outcome
  rw [if_pos ⟨by omega, by rw [h]; exact allocs_false.mp hf⟩]

theorem outcome_ok {o : Op} {s : List UInt8} {a : Bool} {n : Nat} (h : needs o s = n) (hf : ¬ allocs a n = false) :
    outcome o s a = (effect o s, true) := by
  unfold outcome
  rw [if_neg]
  rintro ⟨-, h2⟩
  rw [h] at h2
  exact hf (allocs_false.mpr h2)

/-- What is claimed of one executed call. -/
def Good (r : C (Option Mem × Bool)) (b : Mem) (out : List UInt8 × Bool) : Prop :=
  ∃ b' f, r = C.ok (some b', f) ∧ cstr b' = C.ok out.1 ∧ f = out.2 ∧ (f = false → b' = b)

theorem good_concat (b m : Mem) (s t : List UInt8) (a : Bool) (hs : cstr b = C.ok s) (ht : cstr m = C.ok t) :
    Good (concat (some b) (.ext m) a) b (outcome (.concat t) s a) := by
  simp only [concat, slen_of hs, slen_of ht, C.ok_bind]
  have hn : needs (.concat t) s = s.length + (t.length + 1) := by simp only [needs]; omega
  by_cases hf : allocs a (s.length + (t.length + 1)) = false
  · rw [if_pos hf, outcome_fail hn (by omega) hf]
    exact ⟨_, _, rfl, hs, rfl, fun _ => rfl⟩
  · rw [if_neg hf, outcome_ok hn hf]
    obtain ⟨h1, h2, h3, -⟩ := take_cstr hs
    obtain ⟨g1, g2, g3, -⟩ := take_cstr ht
    rw [append_copy _ _ _ _ (by omega) g3, h2, g1]
    refine ⟨_, _, rfl, ?_, rfl, by simp⟩
    have hs0 := (cstr_iff.mp hs).1
    have ht0 := (cstr_iff.mp ht).1
    rw [cstr_append_upToNul _ _ _ hs0, upToNul_eq _ ht0]
    rfl

theorem good_concat_with_STRING (b m : Mem) (s t : List UInt8) (a : Bool) (hs : cstr b = C.ok s) (ht : cstr m = C.ok t) :
    Good (concat_with_STRING (some b) (some m) false a) b (outcome (.concat t) s a) := by
  have := good_concat b m s t a hs ht
  simp only [concat] at this
  simpa only [concat_with_STRING, Bool.false_eq_true, if_false] using this

theorem good_copy (b m : Mem) (s t : List UInt8) (a : Bool) (hs : cstr b = C.ok s) (ht : cstr m = C.ok t) :
    Good (copy (some b) (.ext m) a) b (outcome (.copy t) s a) := by
  simp only [copy, slen_of ht, C.ok_bind]
  have hn : needs (.copy t) s = 1 + t.length := by simp only [needs]; omega
  by_cases hf : allocs a (1 + t.length) = false
  · rw [if_pos hf, outcome_fail hn (by omega) hf]
    exact ⟨_, _, rfl, hs, rfl, fun _ => rfl⟩
  · rw [if_neg hf, outcome_ok hn hf]
    obtain ⟨g1, g2, g3, -⟩ := take_cstr ht
    rw [Nat.add_comm 1, block_copy _ _ _ (realloc_length _ _) g3, g1]
    refine ⟨_, _, rfl, ?_, rfl, by simp⟩
    rw [cstr_upToNul, upToNul_eq _ (cstr_iff.mp ht).1]
    rfl

theorem not_mem_take {t : List UInt8} (n : Nat) (h : (0 : UInt8) ∉ t) : (0 : UInt8) ∉ t.take n :=
  fun hm => h (List.mem_of_mem_take hm)

theorem good_copy_n (b m : Mem) (s t : List UInt8) (n : Nat) (a : Bool) (hs : cstr b = C.ok s) (ht : cstr m = C.ok t) :
    Good (copy_n (some b) (.ext m) n a) b (outcome (.copy_n t n) s a) := by
  simp only [copy_n, slen_of ht, C.ok_bind]
  have hk : (if t.length > n then n else t.length) = (t.take n).length := by
    rw [List.length_take]; split <;> omega
  rw [hk]
  have hn : needs (.copy_n t n) s = 1 + (t.take n).length := by simp only [needs]; omega
  by_cases hf : allocs a (1 + (t.take n).length) = false
  · rw [if_pos hf, outcome_fail hn (by omega) hf]
    exact ⟨_, _, rfl, hs, rfl, fun _ => rfl⟩
  · rw [if_neg hf, outcome_ok hn hf]
    obtain ⟨g1, g2, g3, g4⟩ := take_cstr ht
    have hle : (t.take n).length ≤ t.length := by rw [List.length_take]; omega
    have hc := copy_then_nul (reallocMem b (1 + (t.take n).length)) m (t.take n).length (by rw [realloc_length]; omega)
      (by omega)
    rw [g4 _ hle] at hc
    have ht0 := not_mem_take n (cstr_iff.mp ht).1
    have htt : t.take (t.take n).length = t.take n := by
      rw [List.length_take]
      by_cases h : n ≤ t.length
      · rw [Nat.min_eq_left h]
      · rw [Nat.min_eq_right (by omega), List.take_of_length_le (by omega), List.take_of_length_le (by omega)]
    rw [htt] at hc
    rw [C.bind_eq_ok] at hc
    obtain ⟨m1, e1, e2⟩ := hc
    rw [e1, C.ok_bind, e2, C.ok_bind]
    refine ⟨_, _, rfl, ?_, rfl, by simp⟩
    rw [cstr_upToNul, upToNul_eq _ ht0]
    rfl

theorem good_sprintf (b : Mem) (s text : List UInt8) (a : Bool) (hs : cstr b = C.ok s) :
    Good (sprintf (some b) (some ⟨text, true, true, []⟩) a) b (outcome (.sprintf text) s a) := by
  simp only [sprintf, slen_of hs, C.ok_bind]
  rw [if_neg (by simp)]
  cases text with
  | nil =>
    rw [if_pos List.length_nil]
    refine ⟨_, _, rfl, ?_, rfl, by simp⟩
    rw [hs]; simp [outcome, needs, effect, upToNul]
  | cons c text =>
    rw [if_neg (by simp)]
    have hn : needs (.sprintf (c :: text)) s = s.length + ((c :: text).length + 1) := by
      simp only [needs, List.length_cons]; omega
    by_cases hf : allocs a (s.length + ((c :: text).length + 1)) = false
    · rw [if_pos hf, outcome_fail hn (by omega) hf]
      exact ⟨_, _, rfl, hs, rfl, fun _ => rfl⟩
    · rw [if_neg hf, if_neg (by simp), outcome_ok hn hf]
      obtain ⟨h1, h2, h3, -⟩ := take_cstr hs
      rw [append_copy _ _ _ _ (by omega) (by simp [zstr]), h2, List.take_of_length_le (by simp [zstr])]
      refine ⟨_, _, rfl, ?_, rfl, by simp⟩
      have hs0 := (cstr_iff.mp hs).1
      have : (zstr (c :: text)).map some = (c :: text).map some ++ [some 0] := by simp [zstr]
      rw [this, cstr_append_upToNul _ _ _ hs0]
      rfl

theorem good_empty (b : Mem) (s : List UInt8) (a : Bool) (hs : cstr b = C.ok s) :
    Good (empty (some b) a) b (outcome .empty s a) := by
  simp only [empty]
  cases a with
  | false =>
    rw [if_pos rfl, outcome_fail (n := 1) rfl (by omega) rfl]
    exact ⟨_, _, rfl, hs, rfl, fun _ => rfl⟩
  | true =>
    rw [if_neg (by simp), outcome_ok (n := 1) rfl (by decide)]
    obtain ⟨h1, h2, h3, -⟩ := take_cstr hs
    match b, h3 with
    | x :: b, _ =>
      refine ⟨[some 0], true, ?_, rfl, rfl, by simp⟩
      simp [reallocMem, uninit, wr]

theorem wr_at_end (p : Mem) (x : Option UInt8) (q : Mem) (v : UInt8) (i : Nat) (hi : i = p.length) :
    wr (p ++ x :: q) i v = C.ok (p ++ some v :: q) := by
  subst hi
  unfold wr
  rw [if_pos (by simp), List.set_append_right _ _ (by simp)]
  simp

theorem good_quote (b : Mem) (s : List UInt8) (a : Bool) (hs : cstr b = C.ok s) :
    Good (quote (some b) a) b (outcome .quote s a) := by
  simp only [quote, slen_of hs, C.ok_bind]
  have hn : needs .quote s = 2 + 1 + s.length := by simp only [needs]; omega
  by_cases hf : allocs a (2 + 1 + s.length) = false
  · rw [if_pos hf, outcome_fail hn (by omega) hf]
    exact ⟨_, _, rfl, hs, rfl, fun _ => rfl⟩
  · rw [if_neg hf, outcome_ok hn hf]
    obtain ⟨hs0, t, rfl⟩ := cstr_iff.mp hs
    generalize hr : reallocMem (s.map some ++ some 0 :: t) (2 + 1 + s.length) = r
    have hrl : r.length = s.length + 3 := by rw [← hr, realloc_length]; omega
    have hrt : r.take s.length = s.map some := by
      rw [← hr]; unfold reallocMem
      rw [List.take_append_of_le_length (by simp; omega), List.take_take, Nat.min_eq_left (by omega)]
      exact List.take_left' (by simp)
    have h1 : memmove r 1 0 s.length = C.ok (r.take 1 ++ (s.map some ++ r.drop (1 + s.length))) := by
      unfold memmove
      rw [if_pos (by omega), List.drop_zero, hrt]
    rw [h1, C.ok_bind]
    have hr1 : (r.take 1).length = 1 := by simp; omega
    have hr2 : (r.drop (1 + s.length)).length = 2 := by simp; omega
    match r.take 1, hr1, r.drop (1 + s.length), hr2 with
    | [x], _, [y, z], _ =>
      have e0 : wr ([x] ++ (s.map some ++ [y, z])) 0 34 = C.ok ([some 34] ++ (s.map some ++ [y, z])) := by
        simp [wr]
      have e1 : wr ([some 34] ++ (s.map some ++ [y, z])) (s.length + 1) 34 =
          C.ok (([some 34] ++ s.map some) ++ some 34 :: [z]) := by
        rw [← List.append_assoc]
        exact wr_at_end _ _ _ _ _ (by simp)
      have e2 : wr (([some 34] ++ s.map some) ++ some 34 :: [z]) (s.length + 2) 0 =
          C.ok ((([some 34] ++ s.map some) ++ [some 34]) ++ some 0 :: []) := by
        have : ([some 34] ++ s.map some) ++ some 34 :: [z] = (([some 34] ++ s.map some) ++ [some 34]) ++ z :: [] := by simp
        rw [this]
        exact wr_at_end _ _ _ _ _ (by simp)
      rw [e0, C.ok_bind, e1, C.ok_bind, e2, C.ok_bind]
      refine ⟨_, _, rfl, ?_, rfl, by simp⟩
      have : (([some 34] ++ s.map some) ++ [some 34]) ++ [some 0] = (34 :: (s ++ [34])).map some ++ some 0 :: [] := by simp
      rw [this, cstr_upToNul, upToNul_eq]
      · rfl
      · simp [hs0]

theorem replaceLoop_eq (c d : UInt8) (s : List UInt8) : ∀ (p q : Mem) (i : Nat), i = p.length →
    replaceLoop (p ++ (s.map some ++ q)) c d i s.length =
      C.ok (p ++ ((s.map fun x => if x = c then d else x).map some ++ q)) := by
  induction s with
  | nil => intro p q i _; simp [replaceLoop]
  | cons x s ih =>
    intro p q i hi
    simp only [List.length_cons, replaceLoop, List.map_cons, List.cons_append]
    rw [hi, rd_append_at, C.ok_bind]
    dsimp only
    by_cases hx : x = c
    · rw [if_pos hx, if_pos hx, wr_at_end _ _ _ _ _ rfl, C.ok_bind]
      have := ih (p ++ [some d]) q (p.length + 1) (by simp)
      simp only [List.append_assoc, List.singleton_append] at this
      exact this
    · rw [if_neg hx, if_neg hx]
      have := ih (p ++ [some x]) q (p.length + 1) (by simp)
      simp only [List.append_assoc, List.singleton_append] at this
      exact this

theorem good_replace (b : Mem) (s : List UInt8) (c d : UInt8) (a : Bool) (hs : cstr b = C.ok s) :
    Good (replace (some b) c d) b (outcome (.replace c d) s a) := by
  have ho : outcome (.replace c d) s a = (upToNul (s.map fun x => if x = c then d else x), true) := by
    simp [outcome, needs, effect]
  rw [ho]
  simp only [replace]
  have hs0 := (cstr_iff.mp hs).1
  by_cases h : c = d
  · rw [if_pos h]
    refine ⟨_, _, rfl, ?_, rfl, by simp⟩
    subst h
    have : (s.map fun x => if x = c then c else x) = s := by
      rw [List.map_congr_left (g := id)]
      · simp
      · intro x _; simp only [id]; split
        · rename_i e; exact e.symm
        · rfl
    rw [hs]; simp only [this, upToNul_eq _ hs0]
  · rw [if_neg h, slen_of hs, C.ok_bind]
    obtain ⟨-, t, rfl⟩ := cstr_iff.mp hs
    have := replaceLoop_eq c d s [] (some 0 :: t) 0 rfl
    simp only [List.nil_append] at this
    rw [this, C.ok_bind]
    refine ⟨_, _, rfl, ?_, rfl, by simp⟩
    rw [cstr_upToNul]

/-! ### JSON -/

/-- Characters written as `\u00xx`. -/
def ctl (s : List UInt8) : Nat := s.countP (fun c => decide (c.toNat ≤ 31))
/-- Characters written with a backslash in front. -/
def bsl (s : List UInt8) : Nat := s.countP (fun c => decide (c = 34 ∨ c = 92 ∨ c = 47))

theorem jsonCount_ok (s : List UInt8) : ∀ nc ne, (∀ c ∈ s, c.toNat < 128) →
    jsonCount s (nc, ne) = some (nc + ctl s, ne + bsl s) := by
  induction s with
  | nil => intro nc ne _; rfl
  | cons c s ih =>
    intro nc ne h
    have hc := h c (by simp)
    have hs : ∀ c ∈ s, c.toNat < 128 := fun x hx => h x (by simp [hx])
    simp only [jsonCount]
    rw [if_neg (by omega)]
    simp only [ctl, bsl, List.countP_cons] at ih ⊢
    by_cases h1 : c.toNat ≤ 0x1F
    · rw [if_pos h1, ih _ _ hs]
      have h2 : ¬ (c = 34 ∨ c = 92 ∨ c = 47) := by
        rintro (e | e | e) <;> · subst e; revert h1; decide
      simp only [h1, h2, decide_true, decide_false, if_true]
      simp only [Bool.false_eq_true, if_false, Nat.add_zero]
      congr 2; omega
    · rw [if_neg h1]
      by_cases h2 : c = 34 ∨ c = 92 ∨ c = 47
      · rw [if_pos h2, ih _ _ hs]
        simp only [h1, h2, decide_true, decide_false, if_true]
        simp only [Bool.false_eq_true, if_false, Nat.add_zero]
        congr 2; omega
      · rw [if_neg h2, ih _ _ hs]
        simp [h1, h2]

theorem jsonCount_bad (s : List UInt8) : ∀ n, (∃ c ∈ s, 128 ≤ c.toNat) → jsonCount s n = none := by
  induction s with
  | nil => rintro n ⟨c, h, -⟩; cases h
  | cons c s ih =>
    rintro ⟨nc, ne⟩ ⟨x, hx, h⟩
    simp only [jsonCount]
    by_cases hc : c.toNat ≥ 128
    · rw [if_pos hc]
    · rw [if_neg hc]
      have hs : ∃ c ∈ s, 128 ≤ c.toNat := by
        rcases List.mem_cons.mp hx with e | e
        · subst e; exact absurd h hc
        · exact ⟨x, e, h⟩
      split
      · exact ih _ hs
      · split <;> exact ih _ hs

theorem esc_length (s : List UInt8) : (s.flatMap esc).length = s.length + 5 * ctl s + bsl s := by
  induction s with
  | nil => rfl
  | cons c s ih =>
    simp only [List.flatMap_cons, List.length_append, ih, ctl, bsl, List.countP_cons, List.length_cons]
    unfold esc
    by_cases h1 : c.toNat ≤ 31
    · have h2 : ¬ (c = 34 ∨ c = 92 ∨ c = 47) := by
        rintro (e | e | e) <;> · subst e; revert h1; decide
      simp only [h1, h2, if_true, decide_true, decide_false, List.length_cons, List.length_nil]
      simp only [Bool.false_eq_true, if_false]
      omega
    · by_cases h2 : c = 34 ∨ c = 92 ∨ c = 47
      · simp only [h1, h2, if_true, decide_true, decide_false, List.length_cons, List.length_nil, if_false, Bool.false_eq_true]
        omega
      · simp only [h1, h2, if_true, decide_true, decide_false, List.length_cons, List.length_nil, if_false, Bool.false_eq_true]
        omega

theorem put_next (p : List UInt8) (k : Nat) (v : UInt8) :
    put (p.map some ++ uninit (k + 1), p.length) v = C.ok ((p ++ [v]).map some ++ uninit k, (p ++ [v]).length) := by
  unfold put
  rw [wr_next]
  simp

theorem hex_hi_n : ∀ n : Nat, n < 32 →
    rd hexToASCII ((n &&& 0xF0) >>> 4) = C.ok (if n < 16 then (48 : UInt8) else 49) := by
  decide +kernel

theorem hex_hi (c : UInt8) (h : c.toNat ≤ 31) :
    rd hexToASCII ((c.toNat &&& 0xF0) >>> 4) = C.ok (if c.toNat < 16 then (48 : UInt8) else 49) :=
  hex_hi_n _ (by omega)

theorem hex_lo_n : ∀ n : Nat, n < 256 →
    rd hexToASCII (n &&& 0x0F) =
      C.ok (if n % 16 < 10 then UInt8.ofNat (48 + n % 16) else UInt8.ofNat (55 + n % 16)) := by
  decide +kernel

theorem hex_lo (c : UInt8) :
    rd hexToASCII (c.toNat &&& 0x0F) =
      C.ok (if c.toNat % 16 < 10 then UInt8.ofNat (48 + c.toNat % 16) else UInt8.ofNat (55 + c.toNat % 16)) :=
  hex_lo_n _ (uint8_lt c)

theorem jsonPut_eq (p : List UInt8) (c : UInt8) (k : Nat) :
    jsonPut (p.map some ++ uninit (k + (esc c).length), p.length) c =
      C.ok ((p ++ esc c).map some ++ uninit k, (p ++ esc c).length) := by
  unfold jsonPut esc
  by_cases h1 : c.toNat ≤ 31
  · simp only [if_pos h1, List.length_cons, List.length_nil]
    rw [hex_hi c h1, hex_lo c]
    generalize (if c.toNat < 16 then (48 : UInt8) else 49) = h
    generalize (if c.toNat % 16 < 10 then UInt8.ofNat (48 + c.toNat % 16) else UInt8.ofNat (55 + c.toNat % 16)) = l
    rw [show k + (0 + 1 + 1 + 1 + 1 + 1 + 1) = (((((k + 1) + 1) + 1) + 1) + 1) + 1 from rfl]
    simp only [put_next, C.ok_bind, List.append_assoc, List.cons_append, List.nil_append]
  · simp only [if_neg h1]
    by_cases h34 : c = 34
    · subst h34
      simp only [if_true, true_or, List.length_cons, List.length_nil]
      rw [show k + (0 + 1 + 1) = (k + 1) + 1 from rfl]
      simp only [put_next, C.ok_bind, List.append_assoc, List.cons_append, List.nil_append]
    · by_cases h92 : c = 92
      · subst h92
        simp only [if_neg h34, if_true, true_or, or_true, List.length_cons, List.length_nil]
        rw [show k + (0 + 1 + 1) = (k + 1) + 1 from rfl]
        simp only [put_next, C.ok_bind, List.append_assoc, List.cons_append, List.nil_append]
      · by_cases h47 : c = 47
        · subst h47
          simp only [if_neg h34, if_neg h92, if_true, true_or, or_true, List.length_cons, List.length_nil]
          rw [show k + (0 + 1 + 1) = (k + 1) + 1 from rfl]
          simp only [put_next, C.ok_bind, List.append_assoc, List.cons_append, List.nil_append]
        · simp only [h34, h92, h47, or_self, if_false, List.length_cons, List.length_nil]
          exact put_next p k c

theorem jsonLoop_eq (s : List UInt8) : ∀ (p : List UInt8) (k : Nat),
    jsonLoop s (p.map some ++ uninit (k + (s.flatMap esc).length), p.length) =
      C.ok ((p ++ s.flatMap esc).map some ++ uninit k, (p ++ s.flatMap esc).length) := by
  induction s with
  | nil => intro p k; simp [jsonLoop]
  | cons c s ih =>
    intro p k
    simp only [jsonLoop, List.flatMap_cons, List.length_append]
    rw [show k + ((esc c).length + (s.flatMap esc).length) = (k + (s.flatMap esc).length) + (esc c).length by omega]
    rw [jsonPut_eq, C.ok_bind, ih, List.append_assoc]
    simp

theorem hexVal_esc_n : ∀ n : Nat, n < 32 →
    hexVal (if n < 16 then (48 : UInt8) else 49) = some (n / 16) ∧
    hexVal (if n % 16 < 10 then UInt8.ofNat (48 + n % 16) else UInt8.ofNat (55 + n % 16)) = some (n % 16) := by
  decide +kernel

theorem hexVal_esc (c : UInt8) (h : c.toNat ≤ 31) :
    hexVal (if c.toNat < 16 then (48 : UInt8) else 49) = some (c.toNat / 16) ∧
    hexVal (if c.toNat % 16 < 10 then UInt8.ofNat (48 + c.toNat % 16) else UInt8.ofNat (55 + c.toNat % 16)) = some (c.toNat % 16) :=
  hexVal_esc_n _ (by omega)

theorem jsonBody_esc (c : UInt8) (r : List UInt8) (hc : c.toNat < 128) :
    jsonBody (esc c ++ r) = (jsonBody r).map fun x => (c :: x.1, x.2) := by
  unfold esc
  by_cases h1 : c.toNat ≤ 31
  · rw [if_pos h1]
    obtain ⟨e1, e2⟩ := hexVal_esc c h1
    simp only [List.cons_append, List.nil_append]
    rw [jsonBody.eq_def]
    dsimp only
    rw [if_neg (by decide), if_pos rfl]
    rw [if_pos rfl, e1, e2]
    have h48 : hexVal 48 = some 0 := by decide
    rw [h48]
    dsimp only
    have : ((0 * 16 + 0) * 16 + c.toNat / 16) * 16 + c.toNat % 16 = c.toNat := by omega
    rw [this, if_pos hc, ofNat_toNat_u8]
  · rw [if_neg h1]
    by_cases h2 : c = 34 ∨ c = 92 ∨ c = 47
    · rw [if_pos h2]
      simp only [List.cons_append, List.nil_append]
      rw [jsonBody.eq_def]
      dsimp only
      rw [if_neg (by decide), if_pos rfl]
      rcases h2 with e | e | e <;> · subst e; rfl
    · rw [if_neg h2]
      simp only [not_or] at h2
      simp only [List.cons_append, List.nil_append]
      rw [jsonBody.eq_def]
      dsimp only
      rw [if_neg h2.1, if_neg h2.2.1, if_pos ⟨by omega, hc⟩]

theorem jsonBody_flatMap (s : List UInt8) (r : List UInt8) (hc : ∀ c ∈ s, c.toNat < 128) :
    jsonBody (s.flatMap esc ++ 34 :: r) = some (s, r) := by
  induction s with
  | nil => rw [List.flatMap_nil, List.nil_append, jsonBody.eq_def]; rfl
  | cons c s ih =>
    rw [List.flatMap_cons, List.append_assoc, jsonBody_esc _ _ (hc c (by simp)), ih (fun x hx => hc x (by simp [hx]))]
    rfl

theorem new_JSON_ok (m : Mem) (s : List UInt8) (hs : cstr m = C.ok s) (hc : ∀ c ∈ s, c.toNat < 128)
    (hl : (jsonText s).length + 1 ≤ SIZE_MAX) :
    new_JSON (some m) true true = C.ok (some ((zstr (jsonText s)).map some)) := by
  have hlen := esc_length s
  simp only [jsonText, List.length_cons, List.length_append, List.length_nil] at hl
  simp only [new_JSON, hs, C.ok_bind]
  rw [jsonCount_ok s 0 0 hc]
  dsimp only
  rw [Nat.zero_add, Nat.zero_add]
  rw [if_neg (by simp), if_neg (by omega), if_neg (by omega), if_neg (by omega), if_neg (by simp)]
  have hn : s.length + 5 * ctl s + bsl s + 3 = ((1 + 1) + (s.flatMap esc).length) + 1 := by omega
  rw [hn]
  have e0 := put_next [] ((1 + 1) + (s.flatMap esc).length) 34
  simp only [List.map_nil, List.nil_append, List.length_nil] at e0
  rw [e0, C.ok_bind, jsonLoop_eq, C.ok_bind, put_next, C.ok_bind]
  have e1 := wr_next ([34] ++ s.flatMap esc ++ [34]) 0 0
  dsimp only
  rw [e1]
  simp [uninit, zstr, jsonText]

end CUtil.Strings
