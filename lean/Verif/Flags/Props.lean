import Verif.Flags.Model
set_option linter.unusedSimpArgs false
set_option linter.unusedVariables false
/-
C51: FLAGS_TO_STRING.
-/
namespace CUtil.Flags
open CUtil

/-! ### Specification -/

/-- All bits of the flag are set in the argument. -/
def IsSet (argument flag : Nat) : Prop := ∀ i, flag.testBit i = true → argument.testBit i = true

/-- Pairwise disjoint flags, none of them zero, all of 32 bits. -/
structure Good (table : List (Nat × List UInt8)) : Prop where
  nonzero : ∀ e ∈ table, e.1 ≠ 0
  small : ∀ e ∈ table, e.1 < 4294967296
  disjoint : table.Pairwise (fun a b => ∀ i, ¬ (a.1.testBit i = true ∧ b.1.testBit i = true))

/-- `names` are the names of the entries of the table that are set, in order. -/
inductive Names (argument : Nat) : List (Nat × List UInt8) → List (List UInt8) → Prop where
  | nil : Names argument [] []
  | set {flag name rest names} : IsSet argument flag → Names argument rest names → Names argument ((flag, name) :: rest) (name :: names)
  | unset {flag name rest names} : ¬ IsSet argument flag → Names argument rest names → Names argument ((flag, name) :: rest) names

/-- The bits of the argument that belong to no flag that is set. -/
def IsRest (table : List (Nat × List UInt8)) (argument r : Nat) : Prop :=
  ∀ i, r.testBit i = true ↔ argument.testBit i = true ∧ ∀ e ∈ table, IsSet argument e.1 → e.1.testBit i = false

/-- The number a string of digits stands for, in base 16. -/
def readHex (s : List UInt8) : Nat :=
  s.foldl (fun n c => n * 16 + (if c.toNat < 58 then c.toNat - 48 else c.toNat - 87)) 0

/-- `UNKNOWN_FLAG(0x........)` with eight digits that stand for `r`. -/
def IsUnknown (r : Nat) (s : List UInt8) : Prop :=
  ∃ digits, s = "UNKNOWN_FLAG(0x".toUTF8.toList ++ digits ++ ")".toUTF8.toList ∧ digits.length = 8 ∧ readHex digits = r ∧
    ∀ c ∈ digits, (48 ≤ c.toNat ∧ c.toNat ≤ 57) ∨ (97 ≤ c.toNat ∧ c.toNat ≤ 102)

/-- The documented text. -/
def IsText (table : List (Nat × List UInt8)) (argument : Nat) (text : List UInt8) : Prop :=
  ∃ names r, Names argument table names ∧ IsRest table argument r ∧
    ((r = 0 ∧ text = List.intercalate " | ".toUTF8.toList names) ∨
      (r ≠ 0 ∧ ∃ u, IsUnknown r u ∧ text = List.intercalate " | ".toUTF8.toList (names ++ [u])))

/-! ### Lemmas -/

theorem isSet_iff (argument flag : Nat) : argument &&& flag = flag ↔ IsSet argument flag := by
  constructor
  · intro h i hi
    rw [← h, Nat.testBit_and] at hi
    simp only [Bool.and_eq_true] at hi
    exact hi.1
  · intro h
    apply Nat.eq_of_testBit_eq
    intro i
    rw [Nat.testBit_and]
    cases hf : flag.testBit i with
    | false => simp
    | true => rw [h i hf]; rfl

theorem clear_bit {argument flag : Nat} (h : argument < 4294967296) (i : Nat) :
    (argument &&& (4294967295 ^^^ flag)).testBit i = (argument.testBit i && !flag.testBit i) := by
  rw [Nat.testBit_and, Nat.testBit_xor]
  have h1 : (4294967295 : Nat).testBit i = decide (i < 32) := Nat.testBit_two_pow_sub_one 32 i
  rw [h1]
  by_cases hi : i < 32
  · simp [hi]
  · have : argument.testBit i = false := Nat.testBit_lt_two_pow (Nat.lt_of_lt_of_le h (by
      have : (2 : Nat) ^ 32 ≤ 2 ^ i := Nat.pow_le_pow_right (by omega) (by omega)
      simpa using this))
    simp [this]

/-- What the pairs print: the names set one after the other in what remains, each but the first after a separator. -/
def joined (first : Bool) (names : List (List UInt8)) : List UInt8 :=
  match names with
  | [] => []
  | n :: ns => (if first then [] else sep) ++ n ++ joined false ns

theorem joined_false_append (a b : List (List UInt8)) : joined false (a ++ b) = joined false a ++ joined false b := by
  induction a with
  | nil => rfl
  | cons n ns ih => simp [joined, ih]

theorem joined_true (names : List (List UInt8)) : joined true names = List.intercalate sep names := by
  cases names with
  | nil => rfl
  | cons n ns =>
    induction ns generalizing n with
    | nil => simp [joined, List.intercalate]
    | cons m ms ih =>
      have := ih m
      simp only [joined, List.intercalate, List.intersperse_cons₂, List.flatten_cons] at this ⊢
      rw [← this]
      simp

/-- The loop on any table, in terms of what remains of the argument. -/
theorem pairs_spec : ∀ (table : List (Nat × List UInt8)) (argument : Nat) (first : Bool), Good table → argument < 4294967296 →
    ∃ names r, Names argument table names ∧ IsRest table argument r ∧ r < 4294967296 ∧
      pairs table argument first = (joined first names, r, first && names.isEmpty) := by
  intro table
  induction table with
  | nil =>
    intro argument first _ h
    exact ⟨[], argument, .nil, by intro i; simp, h, by simp [pairs, joined]⟩
  | cons e table ih =>
    obtain ⟨flag, name⟩ := e
    intro argument first hg hlt
    have hg' : Good table := ⟨fun e he => hg.nonzero e (by simp [he]), fun e he => hg.small e (by simp [he]), (List.pairwise_cons.1 hg.disjoint).2⟩
    have hdis := (List.pairwise_cons.1 hg.disjoint).1
    unfold pairs
    by_cases hs : argument &&& flag = flag
    · have hset := (isSet_iff _ _).1 hs
      rw [if_pos hs, if_pos hs]
      have hlt' : argument &&& (4294967295 ^^^ flag) < 4294967296 := Nat.lt_of_le_of_lt Nat.and_le_left hlt
      -- flags of the rest are disjoint from the one cleared
      have hsame : ∀ e ∈ table, (IsSet (argument &&& (4294967295 ^^^ flag)) e.1 ↔ IsSet argument e.1) := by
        intro e he
        constructor
        · intro h i hi
          have := h i hi
          rw [clear_bit hlt] at this
          simp only [Bool.and_eq_true] at this
          exact this.1
        · intro h i hi
          rw [clear_bit hlt, h i hi]
          have := hdis e he i
          cases hf : flag.testBit i with
          | false => rfl
          | true => exact absurd ⟨hf, hi⟩ this
      have hnames : ∀ (t : List (Nat × List UInt8)) names, (∀ e ∈ t, e ∈ table) → Names (argument &&& (4294967295 ^^^ flag)) t names → Names argument t names := by
        intro t names hsub hn
        induction hn with
        | nil => exact .nil
        | set h1 _ ih => exact .set ((hsame (_, _) (hsub _ List.mem_cons_self)).1 h1) (ih (fun e he => hsub e (by simp [he])))
        | unset h1 _ ih => exact .unset (fun h => h1 ((hsame (_, _) (hsub _ List.mem_cons_self)).2 h)) (ih (fun e he => hsub e (by simp [he])))
      have fin : ∀ f', ∃ names r, Names argument table names ∧ IsRest ((flag, name) :: table) argument r ∧ r < 4294967296 ∧
          pairs table (argument &&& (4294967295 ^^^ flag)) f' = (joined f' names, r, f' && names.isEmpty) := by
        intro f'
        obtain ⟨names, r, e1, e2, e3, e4⟩ := ih (argument &&& (4294967295 ^^^ flag)) f' hg' hlt'
        refine ⟨names, r, hnames _ _ (fun e he => he) e1, ?_, e3, e4⟩
        intro i
        rw [e2 i, clear_bit hlt]
        constructor
        · rintro ⟨h1, h2⟩
          simp only [Bool.and_eq_true, Bool.not_eq_true'] at h1
          refine ⟨h1.1, ?_⟩
          intro e he hse
          rw [List.mem_cons] at he
          rcases he with rfl | he
          · exact h1.2
          · exact h2 e he ((hsame e he).2 hse)
        · rintro ⟨h1, h2⟩
          refine ⟨?_, ?_⟩
          · rw [h1, h2 (flag, name) (by simp) hset]; rfl
          · intro e he hse
            exact h2 e (by simp [he]) ((hsame e he).1 hse)
      cases first with
      | true =>
        obtain ⟨names, r, e1, e2, e3, e4⟩ := fin false
        refine ⟨name :: names, r, .set hset e1, e2, e3, ?_⟩
        simp [e4, joined]
      | false =>
        obtain ⟨names, r, e1, e2, e3, e4⟩ := fin false
        refine ⟨name :: names, r, .set hset e1, e2, e3, ?_⟩
        simp [e4, joined]
    · have hset : ¬ IsSet argument flag := fun h => hs ((isSet_iff _ _).2 h)
      rw [if_neg hs, if_neg hs]
      obtain ⟨names, r, e1, e2, e3, e4⟩ := ih argument first hg' hlt
      refine ⟨names, r, .unset hset e1, ?_, e3, ?_⟩
      · intro i
        rw [e2 i]
        constructor
        · rintro ⟨h1, h2⟩
          refine ⟨h1, ?_⟩
          intro e he hse
          rw [List.mem_cons] at he
          rcases he with rfl | he
          · exact absurd hse hset
          · exact h2 e he hse
        · rintro ⟨h1, h2⟩
          exact ⟨h1, fun e he hse => h2 e (by simp [he]) hse⟩
      · simp [e4]

theorem hexDigit_value {n : Nat} (h : n < 16) : (hexDigit n).toNat = if n < 10 then 48 + n else 87 + n := by
  have : ∀ n, n < 16 → (hexDigit n).toNat = if n < 10 then 48 + n else 87 + n := by decide +kernel
  exact this n h

theorem readHex_append (s : List UInt8) (c : UInt8) :
    readHex (s ++ [c]) = readHex s * 16 + (if c.toNat < 58 then c.toNat - 48 else c.toNat - 87) := by
  unfold readHex; rw [List.foldl_append]; rfl

theorem hexDigits_spec : ∀ (n v : Nat), (hexDigits n v).length = n ∧ readHex (hexDigits n v) = v % 16 ^ n ∧
    ∀ c ∈ hexDigits n v, (48 ≤ c.toNat ∧ c.toNat ≤ 57) ∨ (97 ≤ c.toNat ∧ c.toNat ≤ 102) := by
  intro n
  induction n with
  | zero => intro v; refine ⟨rfl, ?_, by simp [hexDigits]⟩; simp [hexDigits, readHex, Nat.mod_one]
  | succ n ih =>
    intro v
    obtain ⟨h1, h2, h3⟩ := ih (v / 16)
    have hd := hexDigit_value (Nat.mod_lt v (by omega : 16 > 0))
    have hm : v % 16 < 16 := Nat.mod_lt _ (by omega)
    unfold hexDigits
    refine ⟨by simp [h1], ?_, ?_⟩
    · rw [readHex_append, h2, hd, Nat.pow_succ, Nat.mul_comm (16 ^ n), Nat.mod_mul]
      split <;> split <;> omega
    · intro c hc
      rw [List.mem_append, List.mem_singleton] at hc
      rcases hc with hc | rfl
      · exact h3 c hc
      · rw [hd]; split <;> omega

theorem unknown_spec {r : Nat} (h : r < 4294967296) : IsUnknown r (unknownOpen ++ fmtHex r ++ [41]) := by
  obtain ⟨h1, h2, h3⟩ := hexDigits_spec 8 r
  refine ⟨hexDigits 8 r, ?_, h1, ?_, h3⟩
  · have e1 : "UNKNOWN_FLAG(0x".toUTF8.toList = unknownOpen ++ [48, 120] := by decide +kernel
    have e2 : ")".toUTF8.toList = [41] := by decide +kernel
    rw [e1, e2]
    simp [fmtHex]
  · rw [h2]; exact Nat.mod_eq_of_lt (by simpa using h)

theorem sep_eq : " | ".toUTF8.toList = sep := by decide +kernel

/-! ### Property -/

/-- C51: for every table of disjoint flags and every argument, the text is the documented one; NULL only for want of memory. -/
theorem flags_to_string_spec {table : List (Nat × List UInt8)} (hg : Good table) {argument : Nat} (h : argument < 4294967296) :
    (∃ text, flagsToString table argument true = some text ∧ IsText table argument text) ∧ flagsToString table argument false = none := by
  obtain ⟨names, r, e1, e2, e3, e4⟩ := pairs_spec table argument true hg h
  unfold flagsToString
  rw [e4]
  refine ⟨?_, by simp⟩
  dsimp only
  by_cases hr : r = 0
  · rw [if_neg (by simp [hr]), if_pos rfl]
    exact ⟨_, rfl, names, r, e1, e2, Or.inl ⟨hr, by rw [sep_eq, joined_true]⟩⟩
  · rw [if_pos hr, if_pos rfl]
    refine ⟨_, rfl, names, r, e1, e2, Or.inr ⟨hr, _, unknown_spec e3, ?_⟩⟩
    rw [sep_eq, ← joined_true]
    cases names with
    | nil => simp [joined]
    | cons n ns =>
      simp only [List.isEmpty_cons, Bool.and_false, Bool.false_eq_true, if_false, List.cons_append, joined, if_true]
      rw [joined_false_append]
      simp [joined]

/-- The names and the remaining bits are determined, so the text is. -/
theorem names_unique {argument : Nat} {table : List (Nat × List UInt8)} {n m : List (List UInt8)} (h1 : Names argument table n) (h2 : Names argument table m) :
    n = m := by
  induction h1 generalizing m with
  | nil => cases h2; rfl
  | set h _ ih => cases h2 with
    | set _ h3 => rw [ih h3]
    | unset h3 _ => exact absurd h h3
  | unset h _ ih => cases h2 with
    | set h3 _ => exact absurd h3 h
    | unset _ h3 => exact ih h3

theorem rest_unique {argument : Nat} {table : List (Nat × List UInt8)} {r s : Nat} (h1 : IsRest table argument r) (h2 : IsRest table argument s) : r = s := by
  apply Nat.eq_of_testBit_eq
  intro i
  rw [Bool.eq_iff_iff, h1 i, h2 i]

/-- Outside the contract: a flag that is zero is always listed. -/
theorem zero_flag_listed (name : List UInt8) : flagsToString [(0, name)] 0 true = some name := by
  simp [flagsToString, pairs]

/-! ### Witness: A = 1, B = 6, C = 0x80 -/

def sample : List (Nat × List UInt8) := [(1, [65]), (6, [66]), (128, [67])]

theorem sample_good : Good sample := by
  refine ⟨by decide, by decide, ?_⟩
  have hb : ∀ a ∈ [1, 6, 128], ∀ i, Nat.testBit a i = true → i < 8 := by
    intro a ha i hi
    apply Classical.byContradiction
    intro h
    have : a < 2 ^ i := Nat.lt_of_lt_of_le ((by decide : ∀ a ∈ [1, 6, 128], a < 2 ^ 8) a ha) (Nat.pow_le_pow_right (by omega) (by omega))
    rw [Nat.testBit_lt_two_pow this] at hi; cases hi
  have key : ∀ i, i < 8 → (¬ (Nat.testBit 1 i = true ∧ Nat.testBit 6 i = true)) ∧ (¬ (Nat.testBit 1 i = true ∧ Nat.testBit 128 i = true)) ∧
      (¬ (Nat.testBit 6 i = true ∧ Nat.testBit 128 i = true)) := by decide +kernel
  have key' : ∀ i, (¬ (Nat.testBit 1 i = true ∧ Nat.testBit 6 i = true)) ∧ (¬ (Nat.testBit 1 i = true ∧ Nat.testBit 128 i = true)) ∧
      (¬ (Nat.testBit 6 i = true ∧ Nat.testBit 128 i = true)) := by
    intro i
    by_cases hi : i < 8
    · exact key i hi
    · refine ⟨?_, ?_, ?_⟩
      · rintro ⟨h, _⟩; exact hi (hb 1 (by simp) i h)
      · rintro ⟨h, _⟩; exact hi (hb 1 (by simp) i h)
      · rintro ⟨h, _⟩; exact hi (hb 6 (by simp) i h)
  simp only [sample, List.pairwise_cons, List.mem_cons, List.not_mem_nil, or_false, forall_eq_or_imp, forall_eq, List.Pairwise.nil, and_true,
    false_implies, implies_true]
  exact ⟨⟨fun i => (key' i).1, fun i => (key' i).2.1⟩, fun i => (key' i).2.2⟩

/-- `A | C | UNKNOWN_FLAG(0x00000102)`. -/
example : flagsToString sample 387 true = some "A | C | UNKNOWN_FLAG(0x00000102)".toUTF8.toList := by decide +kernel

end CUtil.Flags
