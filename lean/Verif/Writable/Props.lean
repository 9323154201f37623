import Verif.Writable.Spec
/-
Properties of writable buffers (C59) and of buffers made from a BUFFER (C60).
-/
set_option linter.unusedSimpArgs false
set_option linter.unusedVariables false
namespace CUtil.Writable
open CUtil Conc Spec

structure Inv (twin : Bool) (s : Sys) : Prop where
  cnt : ∀ p, p < s.heap.n → s.heap.count p = s.w p + s.r p
  out : ∀ p, s.heap.n ≤ p → s.w p = 0 ∧ s.r p = 0 ∧ s.heap.count p = 0
  len : ∀ p, p < s.heap.n → (s.heap.data p).length = s.heap.size p ∧ 0 < s.heap.size p
  fr : ∀ p, p < s.heap.n → s.heap.freed p = if s.heap.count p = 0 then 1 else 0
  two : twin = true → ∀ p, 0 < s.r p → s.w p = 0
  cells : ∀ p, 0 < s.w p ∨ twin = false → p < s.heap.n → ∀ i, i < s.heap.size p → (s.heap.data p)[i]? = some (lastWrite s.log p i)
  logn : ∀ x ∈ s.log, x.1 < s.heap.n

theorem lastWrite_none (l : List (Nat × Nat × UInt8)) (p i : Nat) (h : ∀ x ∈ l, x.1 ≠ p) : lastWrite l p i = none := by
  induction l with
  | nil => rfl
  | cons x l ih =>
    obtain ⟨q, j, b⟩ := x
    have h1 := h _ (List.mem_cons_self ..)
    simp only [lastWrite]
    rw [if_neg (by simp at h1; simp [h1])]
    exact ih (fun x hx => h x (List.mem_cons_of_mem _ hx))

theorem inv_init (twin : Bool) : Inv twin init := by
  constructor <;> simp [init]

theorem live_of {twin s p} (hi : Inv twin s) (h : 0 < s.w p ∨ 0 < s.r p) : p < s.heap.n ∧ live s.heap p = true := by
  have hp : p < s.heap.n := by
    rcases Nat.lt_or_ge p s.heap.n with h1 | h1
    · exact h1
    · have := hi.out p h1; omega
  have := hi.cnt p hp
  exact ⟨hp, by simp only [live, decide_eq_true_eq]; omega⟩

/-- Every allowed use is defined and keeps the invariant. -/
theorem exec_inv {twin s} (hi : Inv twin s) (op : Op) (ha : Allowed s op) : ∃ s', exec twin s op = C.ok s' ∧ Inv twin s' := by
  cases op with
  | create size alloc =>
    simp only [exec, createWritable]
    by_cases h0 : size = 0
    · rw [if_pos h0]; exact ⟨_, rfl, hi⟩
    rw [if_neg h0]
    by_cases h1 : alloc = false
    · rw [if_pos h1]; exact ⟨_, rfl, hi⟩
    rw [if_neg h1]
    refine ⟨_, rfl, ?_⟩
    have hz := hi.out s.heap.n (Nat.le_refl _)
    constructor
    · intro p hp; simp only [add, upd] at *; have := hi.cnt p; grind
    · intro p hp; simp only [add, upd] at *; have := hi.out p; grind
    · intro p hp; simp only [add, upd] at *; have := hi.len p
      by_cases e : p = s.heap.n
      · simp [e, uninit]; omega
      · simp only [if_neg e]; exact this (by omega)
    · intro p hp; simp only [add, upd] at *; have := hi.fr p; grind
    · intro ht p hp; simp only [add, upd] at *; have := hi.two ht p; grind
    · intro p hw hp i hl
      simp only [add, upd] at *
      by_cases e : p = s.heap.n
      · subst e
        simp only [if_true] at *
        rw [lastWrite_none _ _ _ (fun x hx => by have := hi.logn x hx; omega)]
        simp [uninit, hl]
      · simp only [if_neg e] at *
        exact hi.cells p hw (by omega) i hl
    · intro x hx; have := hi.logn x hx; simp only [add]; omega
  | write p i b =>
    obtain ⟨hw, hl⟩ := ha
    obtain ⟨hp, hlive⟩ := live_of hi (Or.inl hw)
    simp only [exec, write, hlive]
    have hlen := (hi.len p hp).1
    simp only [wr, hlen, hl, if_true, C.ok_bind, C.pure_eq, Bool.true_eq_false, if_false]
    refine ⟨_, rfl, ?_⟩
    constructor
    · exact hi.cnt
    · exact hi.out
    · intro q hq; simp only [upd]
      by_cases e : q = p
      · subst e; simp only [if_true, List.length_set]; exact hi.len q hq
      · simp only [if_neg e]; exact hi.len q hq
    · exact hi.fr
    · exact hi.two
    · intro q hq hn j hj
      simp only [upd, lastWrite] at *
      have hc := hi.cells q hq hn j hj
      by_cases e : q = p
      · subst e
        simp only [if_true, true_and, List.getElem?_set]
        by_cases e2 : i = j
        · subst e2; simp [hlen, hl]
        · simp only [if_neg e2]; exact hc
      · simp only [if_neg e, if_neg (fun h => e (And.left h).symm : ¬ (p = q ∧ i = j))]; exact hc
    · intro x hx
      rcases List.mem_cons.1 hx with rfl | h
      · exact hp
      · exact hi.logn x h
  | sealW p alloc =>
    obtain ⟨hp, hlive⟩ := live_of hi (Or.inl ha)
    simp only [exec, sealW, hlive]
    cases twin with
    | false =>
      simp only [if_true, C.ok_bind, C.pure_eq, afterSeal, Bool.false_eq_true, if_false]
      refine ⟨_, rfl, ?_⟩
      have hz : 0 < s.w p := ha
      constructor
      · intro q hq; simp only [upd]; have := hi.cnt q hq; by_cases e : q = p <;> simp only [e, if_true, if_false] at * <;> omega
      · intro q hq; simp only [upd] at *; have := hi.out q hq; have : q ≠ p := by omega
        simp only [if_neg this]; exact hi.out q hq
      · exact hi.len
      · exact hi.fr
      · intro h; cases h
      · intro q _ hn; exact hi.cells q (Or.inr rfl) hn
      · exact hi.logn
    | true =>
      have hlen := hi.len p hp
      simp only [Bool.true_eq_false, if_false]
      by_cases h1 : alloc = false
      · simp only [h1, if_true, C.ok_bind, C.pure_eq, afterSeal]; exact ⟨_, rfl, hi⟩
      simp only [h1, if_false, if_neg (show ¬ (s.heap.data p).length < s.heap.size p by omega), C.ok_bind, C.pure_eq, afterSeal, if_true]
      refine ⟨_, rfl, ?_⟩
      have hz := hi.out s.heap.n (Nat.le_refl _)
      constructor
      · intro q hq; simp only [add, upd] at *; have := hi.cnt q; grind
      · intro q hq; simp only [add, upd] at *; have := hi.out q; grind
      · intro q hq; simp only [add, upd] at *; have := hi.len q
        by_cases e : q = s.heap.n
        · simp only [e, if_true, List.length_take]; omega
        · simp only [if_neg e]; exact this (by omega)
      · intro q hq; simp only [add, upd] at *; have := hi.fr q; grind
      · intro ht q hq; simp only [add, upd] at *; have := hi.two rfl q; grind
      · intro q hw hq i hl
        simp only [add, upd] at *
        by_cases e : q = s.heap.n
        · subst e
          rcases hw with hw | hw
          · omega
          · cases hw
        · simp only [if_neg e] at *
          exact hi.cells q hw (by omega) i hl
      · intro x hx; have := hi.logn x hx; simp only [add]; omega
  | wInc p =>
    have hw : 0 < s.w p := ha
    obtain ⟨hp, hlive⟩ := live_of hi (Or.inl hw)
    simp only [exec, incRef, hlive, Bool.true_eq_false, if_false, C.ok_bind, C.pure_eq]
    refine ⟨_, rfl, ?_⟩
    constructor
    · intro q hq; simp only [upd] at *; have := hi.cnt q; grind
    · intro q hq; simp only [upd] at *; have := hi.out q; grind
    · exact hi.len
    · intro q hq; simp only [upd] at *; have := hi.fr q; have := hi.cnt q; grind
    · intro ht q hq; simp only [upd] at *; have := hi.two ht q; grind
    · intro q hw' hq i hl; simp only [upd] at *; exact hi.cells q (by grind) hq i hl
    · exact hi.logn
  | wDec p =>
    have hw : 0 < s.w p := ha
    obtain ⟨hp, hlive⟩ := live_of hi (Or.inl hw)
    simp only [exec, decRef, hlive, Bool.true_eq_false, if_false, C.ok_bind, C.pure_eq]
    refine ⟨_, rfl, ?_⟩
    constructor
    · intro q hq; simp only [upd] at *; have := hi.cnt q; grind
    · intro q hq; simp only [upd] at *; have := hi.out q; grind
    · exact hi.len
    · intro q hq; simp only [upd] at *; have := hi.fr q; have := hi.cnt q; grind
    · intro ht q hq; simp only [upd] at *; have := hi.two ht q; grind
    · intro q hw' hq i hl; simp only [upd] at *; exact hi.cells q (by grind) hq i hl
    · exact hi.logn
  | inc p =>
    have hw : 0 < s.r p := ha
    obtain ⟨hp, hlive⟩ := live_of hi (Or.inr hw)
    simp only [exec, incRef, hlive, Bool.true_eq_false, if_false, C.ok_bind, C.pure_eq]
    refine ⟨_, rfl, ?_⟩
    constructor
    · intro q hq; simp only [upd] at *; have := hi.cnt q; grind
    · intro q hq; simp only [upd] at *; have := hi.out q; grind
    · exact hi.len
    · intro q hq; simp only [upd] at *; have := hi.fr q; have := hi.cnt q; grind
    · intro ht q hq; simp only [upd] at *; have := hi.two ht q; grind
    · intro q hw' hq i hl; exact hi.cells q hw' hq i hl
    · exact hi.logn
  | dec p =>
    have hw : 0 < s.r p := ha
    obtain ⟨hp, hlive⟩ := live_of hi (Or.inr hw)
    simp only [exec, decRef, hlive, Bool.true_eq_false, if_false, C.ok_bind, C.pure_eq]
    refine ⟨_, rfl, ?_⟩
    constructor
    · intro q hq; simp only [upd] at *; have := hi.cnt q; grind
    · intro q hq; simp only [upd] at *; have := hi.out q; grind
    · exact hi.len
    · intro q hq; simp only [upd] at *; have := hi.fr q; have := hi.cnt q; grind
    · intro ht q hq; simp only [upd] at *; have := hi.two ht q; grind
    · intro q hw' hq i hl; exact hi.cells q hw' hq i hl
    · exact hi.logn

theorem inv_reach {twin s} (h : Reach twin s) : Inv twin s := by
  induction h with
  | init => exact inv_init _
  | step op _ ha he ih =>
    obtain ⟨s', h1, h2⟩ := exec_inv ih op ha
    rw [h1] at he
    cases he
    exact h2

/-- C59: no allowed use of writable and sealed buffers is undefined, in either flavour. -/
theorem use_defined {twin s} (h : Reach twin s) (op : Op) (ha : Allowed s op) : C.Defined (exec twin s op) := by
  obtain ⟨s', h1, -⟩ := exec_inv (inv_reach h) op ha
  exact ⟨s', h1⟩

/-- C59: what has been stored through a writable handle can be read back, and so it can through the handle it was sealed to; nothing else can. -/
theorem read_back {twin s} (h : Reach twin s) (p i : Nat) (hp : 0 < s.w p ∨ (twin = false ∧ 0 < s.r p)) (hi : i < s.heap.size p) (b : UInt8) :
    read s.heap p i = C.ok b ↔ lastWrite s.log p i = some b := by
  have hv := inv_reach h
  obtain ⟨hn, hl⟩ := live_of hv (by rcases hp with hp | hp; exact Or.inl hp; exact Or.inr hp.2)
  have hc := hv.cells p (by rcases hp with hp | hp; exact Or.inl hp; exact Or.inr hp.1) hn i hi
  simp only [read, hl, Bool.true_eq_false, if_false, if_neg (Nat.not_le.2 hi), hc]
  cases lastWrite s.log p i <;> simp

/-- C59: the size a handle reports is the size it was created with: reads and stores are possible below it only. -/
theorem size_reported {twin s} (h : Reach twin s) (p : Nat) (hp : 0 < s.w p) :
    getSize s.heap (some p) = C.ok (s.heap.data p).length ∧ 0 < (s.heap.data p).length ∧
    (∀ i b, C.Defined (write s.heap p i b) ↔ i < (s.heap.data p).length) := by
  have hv := inv_reach h
  obtain ⟨hn, hl⟩ := live_of hv (Or.inl hp)
  have := hv.len p hn
  refine ⟨by simp [getSize, hl, this.1], by omega, ?_⟩
  intro i b
  simp only [write, hl, Bool.true_eq_false, if_false, wr]
  by_cases hi : i < (s.heap.data p).length <;> simp [hi]

/-- C59: creating and sealing: no memory or a size of 0 gives NULL and changes nothing. -/
theorem create_fails (h : Heap) (size : Nat) (alloc : Bool) :
    (createWritable h size alloc).1 = none ↔ size = 0 ∨ alloc = false := by
  unfold createWritable
  by_cases h0 : size = 0
  · simp [h0]
  · cases alloc <;> simp [h0]

/-- C59 (constbuffer.c): sealing needs no memory and gives the same bytes. -/
theorem seal_same {s} (h : Reach false s) (p : Nat) (alloc : Bool) : sealW false s.heap p alloc = C.ok (some p, s.heap) := rfl

/-- C59 (constbuffer_thandle.c): sealing gives a new buffer with the same bytes, or NULL without memory. -/
theorem seal_copies {s} (h : Reach true s) (p : Nat) (hp : 0 < s.w p) (alloc : Bool) :
    (alloc = false → sealW true s.heap p alloc = C.ok (none, s.heap)) ∧
    (alloc = true → ∃ q hp', sealW true s.heap p alloc = C.ok (some q, hp') ∧ q ≠ p ∧ hp'.size q = s.heap.size p ∧
      ∀ i, i < s.heap.size p → ∀ b, read hp' q i = C.ok b ↔ lastWrite s.log p i = some b) := by
  have hv := inv_reach h
  obtain ⟨hn, hl⟩ := live_of hv (Or.inl hp)
  have hlen := hv.len p hn
  refine ⟨?_, ?_⟩
  · rintro rfl; simp [sealW, hl]
  · rintro rfl
    refine ⟨s.heap.n, add s.heap ((s.heap.data p).take (s.heap.size p)) (s.heap.size p), ?_, by omega, by simp [add], ?_⟩
    · simp [sealW, hl, hlen.1]
    · intro i hi b
      have hc := hv.cells p (Or.inl hp) hn i hi
      have e : ((s.heap.data p).take (s.heap.size p))[i]? = some (lastWrite s.log p i) := by
        rw [List.getElem?_take_of_lt hi]; exact hc
      simp only [read, live, add, upd_self, Nat.zero_lt_one, decide_true, Bool.true_eq_false, if_false, if_neg (Nat.not_le.2 hi), e]
      cases lastWrite s.log p i <;> simp

/-- C59: a sealed buffer nobody has a writable handle to any more never changes; in the THANDLE flavour no sealed buffer ever does. -/
theorem sealed_immutable {twin s s'} (h : Reach twin s) (op : Op) (ha : Allowed s op) (he : exec twin s op = C.ok s') (p : Nat) (hp : 0 < s.r p)
    (hw : twin = true ∨ s.w p = 0) (hs : 0 < s'.r p) : (∀ i, read s'.heap p i = read s.heap p i) ∧ s'.heap.size p = s.heap.size p ∧
      (s.w p = 0 → s'.w p = 0) := by
  have hv := inv_reach h
  have hv' := inv_reach (Reach.step op h ha he)
  obtain ⟨hn, hl⟩ := live_of hv (Or.inr hp)
  obtain ⟨hn', hl'⟩ := live_of hv' (Or.inr hs)
  have hw0 : s.w p = 0 := by
    rcases hw with h1 | h1
    · exact hv.two h1 p hp
    · exact h1
  have key : (s'.heap.data p = s.heap.data p ∧ s'.heap.size p = s.heap.size p) ∧ s'.w p = 0 := by
    cases op with
    | create size alloc =>
      simp only [exec, createWritable] at he
      by_cases h0 : size = 0
      · simp [h0] at he; subst he; simp [hw0]
      · by_cases h1 : alloc = false
        · simp [h0, h1] at he; subst he; simp [hw0]
        · simp [h0, h1] at he; subst he; simp [add, upd, show p ≠ s.heap.n by omega, hw0]
    | write q i b =>
      obtain ⟨h1, h2⟩ := ha
      have hne : p ≠ q := by rintro rfl; omega
      have hlq := (live_of hv (Or.inl h1)).2
      simp only [exec, write, hlq, wr, Bool.true_eq_false, if_false] at he
      split at he
      · simp only [C.ok_bind, C.pure_eq, C.ok.injEq] at he; subst he; simp [upd, hne, hw0]
      · simp at he
    | sealW q alloc =>
      have h1 : 0 < s.w q := ha
      have hne : p ≠ q := by rintro rfl; omega
      have hlq := (live_of hv (Or.inl h1)).2
      cases twin with
      | false => simp [exec, sealW, afterSeal] at he; subst he; simp [upd, hne, hw0]
      | true =>
        simp only [exec, sealW, hlq, Bool.true_eq_false, if_false] at he
        by_cases h1 : alloc = false
        · simp [h1, afterSeal] at he; subst he; simp [hw0]
        · simp only [h1, if_false] at he
          have e : ¬ (s.heap.data q).length < s.heap.size q := by have := hv.len q (live_of hv (Or.inl ha)).1; omega
          rw [if_neg e] at he
          simp [afterSeal] at he; subst he; simp [add, upd, show p ≠ s.heap.n by omega, hw0]
    | wInc q =>
      have h1 : 0 < s.w q := ha
      have hne : p ≠ q := by rintro rfl; omega
      have hlq := (live_of hv (Or.inl h1)).2
      simp [exec, incRef, hlq] at he; subst he; simp [upd, hne, hw0]
    | wDec q =>
      have h1 : 0 < s.w q := ha
      have hne : p ≠ q := by rintro rfl; omega
      have hlq := (live_of hv (Or.inl h1)).2
      simp [exec, decRef, hlq] at he; subst he; simp [upd, hne, hw0]
    | inc q =>
      have h1 : 0 < s.r q := ha
      have hlq := (live_of hv (Or.inr h1)).2
      simp [exec, incRef, hlq] at he; subst he; simp [hw0]
    | dec q =>
      have h1 : 0 < s.r q := ha
      have hlq := (live_of hv (Or.inr h1)).2
      simp [exec, decRef, hlq] at he; subst he; simp [hw0]
  obtain ⟨⟨e1, e2⟩, e3⟩ := key
  refine ⟨fun i => ?_, e2, fun _ => e3⟩
  simp only [read, hl, hl', e1, e2]

/-- C59: a buffer is freed exactly once, and exactly when nobody owns a reference of either sort. -/
theorem freed_exactly {twin s} (h : Reach twin s) (p : Nat) (hp : p < s.heap.n) :
    s.heap.freed p = if s.w p = 0 ∧ s.r p = 0 then 1 else 0 := by
  have hv := inv_reach h
  rw [hv.fr p hp, hv.cnt p hp]
  by_cases h1 : s.w p = 0 <;> by_cases h2 : s.r p = 0 <;> simp [h1, h2]

/-- C59: once the last reference is gone the buffer is gone: any further use is undefined (so the theorems above do say something). -/
theorem ended_use_undefined {twin s} (h : Reach twin s) (p : Nat) (hw : s.w p = 0) (hr : s.r p = 0) :
    (∀ i, read s.heap p i = C.ub) ∧ (∀ i b, exec twin s (.write p i b) = C.ub) ∧ (∀ alloc, exec true s (.sealW p alloc) = C.ub) ∧
      exec twin s (.wInc p) = C.ub ∧ exec twin s (.wDec p) = C.ub ∧ exec twin s (.inc p) = C.ub ∧ exec twin s (.dec p) = C.ub ∧ getSize s.heap (some p) = C.ub := by
  have hv := inv_reach h
  have hl : live s.heap p = false := by
    rcases Nat.lt_or_ge p s.heap.n with h1 | h1
    · have := hv.cnt p h1; simp [live, this, hw, hr]
    · simp [live, (hv.out p h1).2.2]
  refine ⟨fun i => ?_, fun i b => ?_, fun a => ?_, ?_, ?_, ?_, ?_, ?_⟩ <;> simp [read, exec, write, sealW, incRef, decRef, getSize, hl] <;> rfl

/-- C59 (constbuffer.c): while somebody keeps a writable handle, a sealed buffer can still change under its readers. -/
theorem sealed_can_change : ∃ s s', Reach false s ∧ 0 < s.r 0 ∧ read s.heap 0 0 = C.ok 7 ∧ exec false s (.write 0 0 8) = C.ok s' ∧
    Allowed s (.write 0 0 8) ∧ read s'.heap 0 0 = C.ok 8 := by
  have h0 := Reach.init (twin := false)
  have h1 := h0.step (.create 1 true) trivial rfl
  have h2 := h1.step (.write 0 0 7) ⟨by decide, by decide⟩ rfl
  have h3 := h2.step (.wInc 0) (by decide : 0 < _) rfl
  have h4 := h3.step (.sealW 0 true) (by decide : 0 < _) rfl
  exact ⟨_, _, h4, by decide, by decide, rfl, ⟨by decide, by decide⟩, by decide⟩

example : ∃ s, Reach true s ∧ 0 < s.r 1 ∧ 0 < s.w 0 ∧ read s.heap 1 0 = C.ok 7 := by
  have h1 := (Reach.init (twin := true)).step (.create 1 true) trivial rfl
  have h2 := h1.step (.write 0 0 7) ⟨by decide, by decide⟩ rfl
  have h3 := h2.step (.sealW 0 true) (by decide : 0 < _) rfl
  exact ⟨_, h3, by decide, by decide, by decide⟩

/-- C60: a buffer made from a BUFFER of less than 4 GiB has its bytes; NULL for NULL and without memory. -/
theorem from_buffer_bytes_partial (bytes : List UInt8) (alloc : Bool) (hl : bytes.length < 2 ^ 32) :
    createFromBuffer (some bytes) alloc = C.ok (if alloc then some bytes else none) ∧ createFromBuffer none alloc = C.ok none := by
  refine ⟨?_, rfl⟩
  unfold createFromBuffer
  simp only [Nat.mod_eq_of_lt hl]
  cases alloc
  · rfl
  · simp

/-- C60 is false beyond: a BUFFER of 4 GiB or more is cut to its length modulo 2^32, without a failure being reported. -/
theorem from_buffer_truncates (bytes : List UInt8) (hl : 2 ^ 32 ≤ bytes.length) :
    ∃ c, createFromBuffer (some bytes) true = C.ok (some c) ∧ c.length = bytes.length % 2 ^ 32 ∧ c ≠ bytes := by
  unfold createFromBuffer
  have hm : bytes.length % 2 ^ 32 < 2 ^ 32 := Nat.mod_lt _ (by decide)
  have hle := Nat.mod_le bytes.length (2 ^ 32)
  refine ⟨bytes.take (bytes.length % 2 ^ 32), ?_, by rw [List.length_take]; omega, ?_⟩
  · simp only [Bool.true_eq_false, if_false]
    rw [if_neg (by omega)]
  · intro h
    have := congrArg List.length h
    rw [List.length_take] at this
    omega

example : ∃ bytes : List UInt8, 2 ^ 32 ≤ bytes.length := ⟨List.replicate (2 ^ 32) 0, by rw [List.length_replicate]; exact Nat.le_refl _⟩

end CUtil.Writable
