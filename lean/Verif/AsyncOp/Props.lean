import Verif.AsyncOp.Model
set_option linter.unusedSimpArgs false
set_option linter.unusedVariables false
/-
C31: the layout of an async_op.  C32: cancelling runs the cancel function exactly once.
-/
namespace CUtil.AsyncOp

theorem nextAligned_spec (start align : Nat) (ha : 0 < align) (hf : start + align ≤ 2 ^ 64) :
    start ≤ nextAligned start align ∧ nextAligned start align < start + align ∧ nextAligned start align % align = 0 := by
  unfold nextAligned
  dsimp only
  have hm := Nat.mod_lt start ha
  by_cases h : start % align = 0
  · rw [if_neg (by simpa using h), Nat.zero_mul, Nat.add_zero, Nat.mod_eq_of_lt (by omega)]
    exact ⟨Nat.le_refl _, by omega, h⟩
  · rw [if_pos h, Nat.one_mul, Nat.mod_eq_of_lt (by omega)]
    refine ⟨by omega, by omega, ?_⟩
    have hd := Nat.div_add_mod start align
    have : start + (align - start % align) = align * (start / align) + align := by omega
    rw [this, Nat.add_mod_right]
    exact Nat.mul_mod_right _ _

theorem prevAligned_spec (start : Nat) (h8 : 8 ≤ start) (hf : start < 2 ^ 64) :
    prevAligned start 8 8 = (start - 8) / 8 * 8 := by
  unfold prevAligned
  dsimp only
  have : (start + 2 ^ 64 - 8) % 2 ^ 64 = start - 8 := by simp only [Nat.reducePow] at *; omega
  rw [this]
  omega

theorem byteOf (v n : Nat) : (UInt8.ofNat (v / 256 ^ n)).toNat = v / 256 ^ n % 256 := by
  simp [UInt8.toNat_ofNat']

theorem store_at (m : Memory) (a v i : Nat) (h : i < 8) : storePtr m a v (a + i) = UInt8.ofNat (v / 256 ^ i) := by
  unfold storePtr
  rw [if_pos ⟨by omega, by omega⟩, Nat.add_sub_cancel_left]

theorem load_store (m m' : Memory) (a v : Nat) (hv : v < 2 ^ 64) (h : ∀ q, a ≤ q → q < a + 8 → m' q = storePtr m a v q) : loadPtr m' a = v := by
  unfold loadPtr
  rw [h a (by omega) (by omega), h (a + 1) (by omega) (by omega), h (a + 2) (by omega) (by omega), h (a + 3) (by omega) (by omega),
    h (a + 4) (by omega) (by omega), h (a + 5) (by omega) (by omega), h (a + 6) (by omega) (by omega), h (a + 7) (by omega) (by omega)]
  have h0 := store_at m a v 0 (by omega)
  rw [Nat.add_zero] at h0
  rw [h0, store_at m a v 1 (by omega), store_at m a v 2 (by omega), store_at m a v 3 (by omega), store_at m a v 4 (by omega),
    store_at m a v 5 (by omega), store_at m a v 6 (by omega), store_at m a v 7 (by omega)]
  simp only [byteOf]
  simp only [Nat.reducePow] at *
  omega

theorem small_power {align k : Nat} (hk : align = 2 ^ k) (h : align < 2 ^ 32) : align ≤ 2147483648 := by
  have : k < 32 := by
    rw [hk] at h
    exact (Nat.pow_lt_pow_iff_right (by omega)).mp h
  rw [hk]
  exact Nat.pow_le_pow_right (by omega) (show k ≤ 31 by omega)

/-- **C31**: exactly the alignments that are no power of two and the sizes that do not fit are refused. -/
theorem refused_iff (size align : Nat) (hk32 : align < 2 ^ 32) : refused size align = false ↔ (∃ k, align = 2 ^ k) ∧ size + align ≤ 4294967277 := by
  unfold refused
  simp only [Bool.or_eq_false_iff, decide_eq_false_iff_not, Bool.not_eq_false', decide_eq_true_eq]
  have h := Nat.ne_zero_and_sub_one_eq_zero_iff_isPowerOfTwo (n := align)
  constructor
  · rintro ⟨⟨h1, h2⟩, h3⟩
    obtain ⟨k, hk⟩ := h.mp ⟨h1, h2⟩
    have := small_power hk hk32
    exact ⟨⟨k, hk⟩, by omega⟩
  · rintro ⟨h1, h3⟩
    have := h.mpr h1
    exact ⟨⟨this.1, this.2⟩, by omega⟩

/-- **C31**: for every size and every power of two alignment (that is accepted), wherever the block is, the context is aligned, its bytes are inside the
block, the hidden back pointer is aligned, inside the block and before the context, no other memory changes; and whatever the user then
writes into the context (or anywhere but the back pointer), `async_op_from_context` gives the same operation. -/
theorem layout (alloc : Nat → Option Nat) (mem : Memory) (cancel dispose : Bool) (size align addr : Nat) (k : Nat) (hk : align = 2 ^ k) (hk32 : align < 2 ^ 32)
    (hs : size + align ≤ 4294967277) (ha : alloc (14 + size + align) = some addr)
    (hfit : addr + 28 + (14 + size + align) + 2 ^ 32 ≤ 2 ^ 64) :
    ∃ mem' o back, create alloc mem cancel size align dispose = C.ok (mem', some o) ∧
      o.addr = addr ∧ o.cancel = cancel ∧ o.dispose = dispose ∧ o.flex = 14 + size + align ∧
      o.context % align = 0 ∧
      o.priv ≤ back ∧ back % 8 = 0 ∧ back + 8 ≤ o.context ∧ o.context + size ≤ o.priv + o.flex ∧
      (∀ q, q < back ∨ back + 8 ≤ q → mem' q = mem q) ∧
      (∀ mem'' : Memory, (∀ q, q < o.context ∨ o.context + size ≤ q → mem'' q = mem' q) → fromContext mem'' (some o.context) = some o.addr) ∧
      disposeCall o = if dispose then some o.context else none := by
  have hr : refused size align = false := (refused_iff size align hk32).mpr ⟨⟨k, hk⟩, hs⟩
  have hpos : 0 < align := by rw [hk]; exact Nat.two_pow_pos k
  simp only [Nat.reducePow] at hfit hk32
  unfold create
  rw [hr]
  simp only [Bool.false_eq_true, if_false]
  have hflex : (8 + 8 + size + align - 1 - 1) % 2 ^ 32 = 14 + size + align := by simp only [Nat.reducePow]; omega
  rw [hflex, ha]
  dsimp only
  obtain ⟨a1, a2, a3⟩ := nextAligned_spec (addr + 28) 8 (by omega) (by simp only [Nat.reducePow]; omega)
  generalize nextAligned (addr + 28) 8 = temp at *
  obtain ⟨b1, b2, b3⟩ := nextAligned_spec (temp + 8) align hpos (by simp only [Nat.reducePow]; omega)
  generalize nextAligned (temp + 8) align = context at *
  have hp := prevAligned_spec context (by omega) (by simp only [Nat.reducePow]; omega)
  rw [hp]
  have c1 : temp ≤ (context - 8) / 8 * 8 := by omega
  have c2 : (context - 8) / 8 * 8 + 8 ≤ context := by omega
  rw [if_pos ⟨by omega, by omega⟩]
  refine ⟨_, _, (context - 8) / 8 * 8, rfl, rfl, rfl, rfl, rfl, b3, ?_, ?_, c2, ?_, ?_, ?_, rfl⟩
  · show addr + 28 ≤ _; omega
  · omega
  · show context + size ≤ addr + 28 + (14 + size + align); omega
  · intro q hq
    unfold storePtr
    rw [if_neg (by omega)]
  · intro mem'' hm
    dsimp only at hm
    unfold fromContext
    have e2 : backAddress context = (context - 8) / 8 * 8 := by
      unfold backAddress
      have e : (context + 2 ^ 64 - 8) % 2 ^ 64 = context - 8 := by simp only [Nat.reducePow]; omega
      rw [e]; omega
    simp only [e2, Option.some.injEq]
    refine load_store mem mem'' _ addr (by simp only [Nat.reducePow]; omega) ?_
    intro q h1 h2
    exact hm q (Or.inl (by omega))

/-- **C31**: otherwise nothing is created and nothing is changed. -/
theorem create_fails (alloc : Nat → Option Nat) (mem : Memory) (cancel dispose : Bool) (size align : Nat) (hk32 : align < 2 ^ 32) :
    ((¬ ∃ k, align = 2 ^ k) ∨ 4294967277 < size + align → create alloc mem cancel size align dispose = C.ok (mem, none)) ∧
    ((∀ n, alloc n = none) → create alloc mem cancel size align dispose = C.ok (mem, none)) ∧
    fromContext mem none = none := by
  refine ⟨?_, ?_, rfl⟩
  · intro h
    have hr : refused size align = true := by
      cases e : refused size align with
      | true => rfl
      | false =>
        have := (refused_iff size align hk32).mp e
        rcases h with h | h
        · exact absurd this.1 h
        · omega
    unfold create
    rw [hr]; rfl
  · intro h
    unfold create
    cases refused size align with
    | true => rfl
    | false =>
      dsimp only
      rw [h]; rfl

/-- A block at an odd address and alignment 64. -/
example : ∃ mem' o, create (fun _ => some 1000) (fun _ => 0) true 100 64 true = C.ok (mem', some o) ∧ o.context = 1088 ∧ fromContext mem' (some o.context) = some 1000 :=
  ⟨_, _, rfl, rfl, by decide +kernel⟩

/-! ## C32 -/

/-- Invariant of the interleavings. -/
structure Inv (o : Op) (s : Sys) : Prop where
  /-- nobody has exchanged yet and nothing has happened, or exactly one call has -/
  fresh : s.state = .running → (∀ t, s.pc t = .start) ∧ s.calls = 0 ∧ s.args = []
  valid : s.state = .running ∨ s.state = .cancelling
  won : s.state = .cancelling → ∃ w, (s.pc w = .won ∨ s.pc w = .done .cancelling) ∧ (∀ t, s.pc t = .won → t = w) ∧
    (s.calls = if s.pc w = .won then 0 else if o.cancel then 1 else 0)
  results : ∀ t r, s.pc t = .done r → r = .cancelling
  args : s.args = List.replicate s.calls o.context

theorem inv_of_reach {o : Op} {s : Sys} (h : Reach o s) : Inv o s := by
  induction h with
  | init => exact ⟨fun _ => ⟨fun _ => rfl, rfl, rfl⟩, Or.inl rfl, by simp, by simp, rfl⟩
  | step s s' _ st I =>
    cases st with
    | exchange_ok t hp hs =>
      obtain ⟨f1, f2, f3⟩ := I.fresh hs
      refine ⟨by simp, Or.inr rfl, ?_, ?_, I.args⟩
      · intro _
        refine ⟨t, Or.inl (by simp [setPc]), ?_, by simp [setPc, f2]⟩
        intro u hu
        by_cases e : u = t
        · exact e
        · simp [setPc, e, f1 u] at hu
      · intro u r hu
        by_cases e : u = t
        · simp [setPc, e] at hu
        · simp [setPc, e, f1 u] at hu
    | exchange_no t hp hs =>
      have hc : s.state = .cancelling := by rcases I.valid with h | h; exact absurd h hs; exact h
      refine ⟨fun h => absurd h hs, I.valid, ?_, ?_, I.args⟩
      · intro _
        obtain ⟨w, h1, h2, h3⟩ := I.won hc
        have hwt : w ≠ t := by
          intro e; subst e; rw [hp] at h1; simp at h1
        refine ⟨w, by simpa [setPc, hwt] using h1, ?_, by simpa [setPc, hwt] using h3⟩
        intro u hu
        by_cases e : u = t
        · simp [setPc, e] at hu
        · simp only [setPc, e, if_false] at hu; exact h2 u hu
      · intro u r hu
        by_cases e : u = t
        · simp [setPc, e] at hu; rw [← hu, hc]
        · simp only [setPc, e, if_false] at hu; exact I.results u r hu
    | call t hp ho =>
      have hc : s.state = .cancelling := by
        rcases I.valid with h | h
        · have := (I.fresh h).1 t; rw [hp] at this; simp at this
        · exact h
      obtain ⟨w, h1, h2, h3⟩ := I.won hc
      have := h2 t hp; subst this
      rw [hp] at h3; simp at h3
      refine ⟨(fun h => absurd (hc.symm.trans h) (by simp)), I.valid, ?_, ?_, ?_⟩
      · intro _
        refine ⟨t, Or.inr (by simp [setPc]), ?_, by simp [setPc, h3, ho]⟩
        intro u hu
        by_cases e : u = t
        · exact e
        · simp only [setPc, e, if_false] at hu; exact h2 u hu
      · intro u r hu
        by_cases e : u = t
        · simp [setPc, e] at hu; exact hu.symm
        · simp only [setPc, e, if_false] at hu; exact I.results u r hu
      · dsimp only; rw [I.args, List.replicate_succ]
    | no_call t hp ho =>
      have hc : s.state = .cancelling := by
        rcases I.valid with h | h
        · have := (I.fresh h).1 t; rw [hp] at this; simp at this
        · exact h
      obtain ⟨w, h1, h2, h3⟩ := I.won hc
      have := h2 t hp; subst this
      rw [hp] at h3; simp at h3
      refine ⟨(fun h => absurd (hc.symm.trans h) (by simp)), I.valid, ?_, ?_, I.args⟩
      · intro _
        refine ⟨t, Or.inr (by simp [setPc]), ?_, by simp [setPc, h3, ho]⟩
        intro u hu
        by_cases e : u = t
        · exact e
        · simp only [setPc, e, if_false] at hu; exact h2 u hu
      · intro u r hu
        by_cases e : u = t
        · simp [setPc, e] at hu; exact hu.symm
        · simp only [setPc, e, if_false] at hu; exact I.results u r hu

/-- **C32**: at no point of any interleaving has the cancel function been called twice, and it is only ever called with the context. -/
theorem cancel_at_most_once (o : Op) (s : Sys) (h : Reach o s) : s.calls ≤ 1 ∧ s.args = List.replicate s.calls o.context := by
  have I := inv_of_reach h
  refine ⟨?_, I.args⟩
  rcases I.valid with hs | hs
  · rw [(I.fresh hs).2.1]; exact Nat.zero_le 1
  · obtain ⟨w, _, _, h3⟩ := I.won hs
    rw [h3]; split
    · exact Nat.zero_le 1
    · split
      · exact Nat.le_refl 1
      · exact Nat.zero_le 1

/-- **C32**: once some call has started and none is under way, the cancel function (if there is one) has been called exactly once. -/
theorem cancel_exactly_once (o : Op) (s : Sys) (h : Reach o s) (hstarted : ∃ t, s.pc t ≠ .start) (hquiet : ∀ t, s.pc t ≠ .won) :
    s.calls = if o.cancel then 1 else 0 := by
  have I := inv_of_reach h
  obtain ⟨t, ht⟩ := hstarted
  rcases I.valid with hs | hs
  · exact absurd ((I.fresh hs).1 t) ht
  · obtain ⟨w, _, _, h3⟩ := I.won hs
    rw [h3, if_neg (hquiet w)]

/-- **C32**: every call answers CANCELLING (a NULL handle: INVALID_ARG). -/
theorem cancel_result (o : Op) (s : Sys) (h : Reach o s) (t : Nat) (r : State) (hr : s.pc t = .done r) : r = .cancelling ∧ s.state = .cancelling ∧ cancelNull = .invalidArg := by
  have I := inv_of_reach h
  refine ⟨I.results t r hr, ?_, rfl⟩
  rcases I.valid with hs | hs
  · have := (I.fresh hs).1 t; rw [hr] at this; simp at this
  · exact hs

/-- **C32**: no call can get stuck: any call that has not returned can make a step. -/
theorem cancel_progress (o : Op) (s : Sys) (t : Nat) (h : ∀ r, s.pc t ≠ .done r) : ∃ s', Step o s s' ∧ s'.pc t ≠ s.pc t := by
  cases hp : s.pc t with
  | start =>
    by_cases hs : s.state = .running
    · exact ⟨_, .exchange_ok s t hp hs, by simp [setPc]⟩
    · exact ⟨_, .exchange_no s t hp hs, by simp [setPc]⟩
  | won =>
    cases hc : o.cancel with
    | true => exact ⟨_, .call s t hp hc, by simp [setPc]⟩
    | false => exact ⟨_, .no_call s t hp hc, by simp [setPc]⟩
  | done r => exact absurd hp (h r)

/-- Two calls: the second loses and returns before the first has called the cancel function. -/
example (o : Op) (ho : o.cancel = true) : ∃ s, Reach o s ∧ s.pc 7 = .done .cancelling ∧ s.pc 3 = .won ∧ s.calls = 0 := by
  refine ⟨_, .step _ _ (.step _ _ .init (.exchange_ok _ 3 rfl rfl)) (.exchange_no _ 7 (by simp [setPc]) (by simp)), ?_, ?_, rfl⟩
  · simp [setPc]
  · simp [setPc]

end CUtil.AsyncOp
