import Verif.TArray.Model
set_option linter.unusedSimpArgs false
set_option linter.unusedVariables false
/-
C47: growing a TARRAY.
-/
namespace CUtil.TArray
open CUtil

/-! ### Specification -/

/-- `n` is the least doubling (at least one) of `old` that is at least `want`. -/
def LeastDoubling (old want n : Nat) : Prop :=
  want ≤ n ∧ ∃ k, n = old * 2 ^ k ∧ 0 < k ∧ ∀ j, j < k → old * 2 ^ j < want

/-- A well formed array: the two blocks are its own, and the elements have room for `capacity`. -/
structure Ok {α : Type} (h : Heap) (t : Arr α) : Prop where
  fresh : ∀ q, h.next ≤ q → h.live q = false
  hdr : h.live t.hdr = true
  ptr : h.live t.ptr = true
  apart : t.hdr ≠ t.ptr
  size : t.arr.length = t.capacity
  pos : 0 < t.capacity
  fits : t.capacity < 4294967296

/-! ### The loop -/

theorem double_spec : ∀ (fuel n capacity : Nat), n < capacity → capacity ≤ 2147483648 → 2147483648 ≤ n * 2 ^ fuel →
    ∃ m, double fuel n capacity = C.ok m ∧ LeastDoubling n capacity m ∧ m < 4294967296 := by
  intro fuel
  induction fuel with
  | zero => intro n capacity h1 h2 h3; simp at h3; omega
  | succ fuel ih =>
    intro n capacity h1 h2 h3
    unfold double
    have hm : n * 2 % 4294967296 = n * 2 := Nat.mod_eq_of_lt (by omega)
    simp only [hm]
    by_cases hlt : n * 2 < capacity
    · rw [if_pos hlt]
      obtain ⟨m, e1, ⟨e2, k, e3, e4, e5⟩, e6⟩ := ih (n * 2) capacity hlt h2 (by rw [Nat.pow_succ] at h3; rw [Nat.mul_assoc, Nat.mul_comm 2]; exact h3)
      refine ⟨m, e1, ⟨e2, k + 1, ?_, by omega, ?_⟩, e6⟩
      · rw [e3, Nat.pow_succ, Nat.mul_assoc, Nat.mul_comm 2]
      · intro j hj
        cases j with
        | zero => simpa using h1
        | succ j =>
          have := e5 j (by omega)
          rw [Nat.mul_assoc, Nat.mul_comm 2, ← Nat.pow_succ] at this
          exact this
    · rw [if_neg hlt]
      refine ⟨n * 2, rfl, ⟨by omega, 1, by simp, by omega, ?_⟩, by omega⟩
      intro j hj
      have : j = 0 := by omega
      subst this; simpa using h1

theorem leastDoubling_unique {old want m n : Nat} (h1 : LeastDoubling old want m) (h2 : LeastDoubling old want n) : m = n := by
  obtain ⟨a1, k, a2, a3, a4⟩ := h1
  obtain ⟨b1, l, b2, b3, b4⟩ := h2
  rcases Nat.lt_trichotomy k l with h | h | h
  · have := b4 k h; omega
  · rw [a2, b2, h]
  · have := a4 l h; omega

/-! ### Properties -/

/-- Creation: a fresh well formed array of the capacity asked for, or nothing and a heap as before; it fails
for capacity 0, for a size that does not fit `size_t`, and for want of memory only. -/
theorem create_spec {α : Type} {h : Heap} (hf : ∀ q, h.next ≤ q → h.live q = false) (σ capacity : Nat) (hc : capacity < 4294967296)
    (cl : Option Nat) (a1 a2 : Bool) :
    ∃ r h', create (α := α) h σ capacity cl a1 a2 = C.ok (r, h') ∧ h.next ≤ h'.next ∧
      (r = none ↔ capacity = 0 ∨ a1 = false ∨ a2 = false ∨ 18446744073709551616 ≤ capacity * σ) ∧
      (r = none → h'.live = h.live) ∧
      (∀ t, r = some t → Ok h' t ∧ t.capacity = capacity ∧ t.cleanup = cl ∧ t.arr = uninit capacity ∧
        ∀ q, h'.live q = (h.live q || q == t.hdr || q == t.ptr)) := by
  unfold create
  by_cases h0 : capacity = 0
  · rw [if_pos h0]; exact ⟨_, _, rfl, Nat.le_refl _, by simp [h0], by simp, by simp⟩
  rw [if_neg h0]
  cases a1 with
  | false => exact ⟨_, _, rfl, Nat.le_refl _, by simp, by simp, by simp⟩
  | true =>
    rw [if_neg (by simp)]
    dsimp only [malloc]
    by_cases h1 : sizeMax ≤ capacity * σ ∨ a2 = false
    · rw [if_pos h1]
      unfold freeBlock
      rw [if_pos (by simp), C.ok_bind]
      refine ⟨_, _, rfl, by simp, ?_, ?_, by simp⟩
      · constructor
        · intro _; rcases h1 with h1 | h1
          · exact Or.inr (Or.inr (Or.inr h1))
          · exact Or.inr (Or.inr (Or.inl h1))
        · intro _; rfl
      · intro _
        funext q
        dsimp only
        by_cases hq : q = h.next
        · rw [if_pos hq, hq, hf _ (Nat.le_refl _)]
        · rw [if_neg hq, if_neg hq]
    · rw [if_neg h1]
      rw [not_or] at h1
      refine ⟨_, _, rfl, by dsimp only; omega, ?_, by simp, ?_⟩
      · constructor
        · intro h; cases h
        · rintro (h | h | h | h)
          · exact absurd h h0
          · cases h
          · exact absurd h h1.2
          · exact absurd h h1.1
      · intro t ht
        cases ht
        refine ⟨⟨?_, ?_, ?_, ?_, ?_, ?_, hc⟩, rfl, rfl, rfl, ?_⟩
        · intro q hq
          dsimp only at hq ⊢
          rw [if_neg (by omega), if_neg (by omega)]
          exact hf q (by omega)
        · dsimp only; rw [if_neg (by omega), if_pos rfl]
        · dsimp only; rw [if_pos rfl]
        · dsimp only; omega
        · simp
        · dsimp only; omega
        · intro q
          dsimp only
          by_cases hq : q = h.next + 1
          · rw [if_pos hq, hq]; simp
          · rw [if_neg hq]
            by_cases hq' : q = h.next
            · rw [if_pos hq', hq']; simp
            · rw [if_neg hq', beq_eq_false_iff_ne.2 hq, beq_eq_false_iff_ne.2 hq']; simp

/-- C47: for every array, capacity asked for and allocation outcome, `TARRAY_ENSURE_CAPACITY` terminates; it answers
0 or not; if not, the array is as it was; if 0, the capacity is what it was when that is enough and otherwise its
least doubling that is enough, below 2^32; all elements are kept and the rest is new; the array stays well formed and
the only block released is the old block of the elements, replaced by the new one. -/
theorem ensure_spec {α : Type} {h : Heap} {t : Arr α} (hok : Ok h t) (σ want : Nat) (hw : want < 4294967296) (a : Bool) :
    ∃ r t' h', ensure h σ (some t) want a = C.ok (r, some t', h') ∧ Ok h' t' ∧
      (r ≠ 0 → t' = t ∧ h' = h) ∧
      (r = 0 → want ≤ t'.capacity) ∧ t.capacity ≤ t'.capacity ∧
      (want ≤ t.capacity → r = 0 ∧ t' = t ∧ h' = h) ∧
      (r = 0 → t.capacity < want → LeastDoubling t.capacity want t'.capacity ∧ t'.ptr ≠ t.ptr ∧
        (∀ q, h'.live q = (q == t'.ptr || (h.live q && q != t.ptr)))) ∧
      t'.arr = t.arr ++ uninit (t'.capacity - t.capacity) ∧ t'.hdr = t.hdr ∧ t'.cleanup = t.cleanup ∧
      (r ≠ 0 → want > 2147483648 ∨ a = false ∨ ∃ n, LeastDoubling t.capacity want n ∧ 18446744073709551616 ≤ n * σ) := by
  unfold ensure
  dsimp only
  by_cases h1 : want ≤ t.capacity
  · rw [if_pos h1]
    exact ⟨_, _, _, rfl, hok, by simp, by simpa using h1, Nat.le_refl _, by simp, fun _ h => by omega, by simp [uninit], rfl, rfl, by simp⟩
  rw [if_neg h1]
  by_cases h2 : want > 2147483648
  · rw [if_pos h2]
    exact ⟨_, _, _, rfl, hok, by simp, by simp, Nat.le_refl _, fun h => absurd h h1, by simp, by simp [uninit], rfl, rfl, fun _ => Or.inl h2⟩
  rw [if_neg h2]
  have hp := hok.pos
  obtain ⟨m, e1, e2, e3⟩ := double_spec 64 t.capacity want (by omega) (by omega)
    (by have h64 : (2147483648 : Nat) ≤ 1 * 2 ^ 64 := by decide
        exact Nat.le_trans h64 (Nat.mul_le_mul_right _ hp))
  rw [e1, C.ok_bind]
  by_cases h3 : sizeMax ≤ m * σ ∨ a = false
  · rw [if_pos h3]
    refine ⟨_, _, _, rfl, hok, by simp, by simp, Nat.le_refl _, fun h => absurd h h1, by simp, by simp [uninit], rfl, rfl, ?_⟩
    intro _
    rcases h3 with h3 | h3
    · exact Or.inr (Or.inr ⟨m, e2, h3⟩)
    · exact Or.inr (Or.inl h3)
  rw [if_neg h3]
  have hle : t.capacity ≤ m := by have := e2.1; omega
  have hptr : t.ptr < h.next := by
    rcases Nat.lt_or_ge t.ptr h.next with h | h
    · exact h
    · have := hok.fresh _ h; rw [hok.ptr] at this; cases this
  have hhdr : t.hdr < h.next := by
    rcases Nat.lt_or_ge t.hdr h.next with h | h
    · exact h
    · have := hok.fresh _ h; rw [hok.hdr] at this; cases this
  unfold freeBlock
  rw [if_pos hok.ptr, C.ok_bind]
  dsimp only [malloc]
  have harr : reallocMem t.arr m = t.arr ++ uninit (m - t.capacity) := by
    unfold reallocMem
    rw [List.take_of_length_le (by rw [hok.size]; exact hle), hok.size]
  refine ⟨_, _, _, rfl, ⟨?_, ?_, ?_, ?_, ?_, ?_, e3⟩, by simp, fun _ => e2.1, hle, fun h => absurd h h1, ?_, harr, rfl, rfl, by simp⟩
  · intro q hq
    dsimp only at hq ⊢
    rw [if_neg (by omega)]
    by_cases hq' : q = t.ptr
    · rw [if_pos hq']
    · rw [if_neg hq']; exact hok.fresh q (by omega)
  · dsimp only
    rw [if_neg (by omega), if_neg hok.apart]; exact hok.hdr
  · dsimp only; rw [if_pos rfl]
  · dsimp only; omega
  · dsimp only; rw [harr]; simp [hok.size]; omega
  · dsimp only; omega
  · intro _ _
    refine ⟨e2, by dsimp only; omega, ?_⟩
    intro q
    dsimp only
    by_cases hq : q = h.next
    · rw [if_pos hq, hq]; simp
    · rw [if_neg hq]
      by_cases hq' : q = t.ptr
      · rw [if_pos hq', hq']; simp; omega
      · rw [if_neg hq', beq_eq_false_iff_ne.2 hq, bne_iff_ne.2 hq']; simp

/-- NULL is refused. -/
theorem ensure_null {α : Type} (h : Heap) (σ want : Nat) (a : Bool) :
    ensure (α := α) h σ none want a = C.ok (1, none, h) := rfl

/-- With memory, capacities up to 2^31 are granted (for elements of up to 4 GB). -/
theorem ensure_grants {α : Type} {h : Heap} {t : Arr α} (hok : Ok h t) {σ want : Nat} (hw : want ≤ 2147483648) (hσ : σ ≤ 4294967296) :
    ∃ t' h', ensure h σ (some t) want true = C.ok (0, some t', h') ∧ want ≤ t'.capacity := by
  obtain ⟨r, t', h', e, _, _, e1, _, _, _, _, _, _, e2⟩ := ensure_spec hok σ want (by omega) true
  by_cases hr : r = 0
  · subst hr; exact ⟨t', h', e, e1 rfl⟩
  · rcases e2 hr with h1 | h1 | ⟨n, ⟨h1, k, h2, h3, h4⟩, h5⟩
    · omega
    · cases h1
    · have hk : k - 1 < k := by omega
      have := h4 (k - 1) hk
      have h6 : n = t.capacity * 2 ^ (k - 1) * 2 := by
        rw [h2, Nat.mul_assoc, ← Nat.pow_succ]; congr 2; omega
      have h7 : n < 4294967296 := by omega
      have h8 : n * σ ≤ 4294967295 * 4294967296 := Nat.mul_le_mul (by omega) hσ
      have h9 : (4294967295 * 4294967296 : Nat) < 18446744073709551616 := by decide
      omega

/-- Disposing calls the cleanup exactly once, with all elements, and frees exactly the two blocks. -/
theorem free_spec {α : Type} {h : Heap} {t : Arr α} (hok : Ok h t) :
    ∃ calls h', free h t = C.ok (calls, h') ∧ (t.cleanup = none → calls = []) ∧ (∀ f, t.cleanup = some f → calls = [(f, t.arr)]) ∧
      ∀ q, h'.live q = (h.live q && q != t.hdr && q != t.ptr) := by
  unfold free freeBlock
  simp only
  rw [if_pos hok.ptr, C.ok_bind]
  dsimp only
  rw [if_pos (by rw [if_neg hok.apart]; exact hok.hdr), C.ok_bind]
  refine ⟨_, _, rfl, ?_, ?_, ?_⟩
  · intro h; rw [h]
  · intro f h; rw [h]
  · intro q
    dsimp only
    by_cases hq : q = t.hdr
    · rw [if_pos hq, hq]; simp
    · rw [if_neg hq]
      by_cases hq' : q = t.ptr
      · rw [if_pos hq', hq']; simp
      · rw [if_neg hq', bne_iff_ne.2 hq, bne_iff_ne.2 hq']; simp

/-! ### Histories -/

/-- What a user does with an array. -/
inductive Op (α : Type) where
  | ensure (want : Nat) (a : Bool)
  | write (i : Nat) (v : α)

/-- Calls within the contract: 32 bit capacities, indices below the capacity. -/
def Op.Legal {α : Type} (t : Arr α) : Op α → Prop
  | .ensure want _ => want < 4294967296
  | .write i _ => i < t.capacity

def exec {α : Type} (σ : Nat) (h : Heap) (t : Arr α) : Op α → C (Arr α × Heap)
  | .ensure want a => do
    let (_, t', h') ← ensure h σ (some t) want a
    match t' with
    | some t' => C.ok (t', h')
    | none => C.ub
  | .write i v => do
    let t' ← write t i v
    C.ok (t', h)

/-- Histories of legal calls. -/
inductive Run {α : Type} (σ : Nat) : Heap → Arr α → List (Op α) → Heap → Arr α → Prop where
  | nil {h t} : Run σ h t [] h t
  | cons {h t op h1 t1 ops h2 t2} : op.Legal t → exec σ h t op = C.ok (t1, h1) → Run σ h1 t1 ops h2 t2 → Run σ h t (op :: ops) h2 t2

/-- The last value written to index `i`, if any. -/
def lastWrite {α : Type} (i : Nat) : List (Op α) → Option α
  | [] => none
  | .ensure _ _ :: ops => lastWrite i ops
  | .write j v :: ops => match lastWrite i ops with
    | some w => some w
    | none => if j = i then some v else none

/-- No legal call is undefined, and every call keeps the array well formed. -/
theorem call_defined {α : Type} {h : Heap} {t : Arr α} (hok : Ok h t) (σ : Nat) (op : Op α) (hl : op.Legal t) :
    ∃ t' h', exec σ h t op = C.ok (t', h') ∧ Ok h' t' ∧ t.capacity ≤ t'.capacity := by
  cases op with
  | ensure want a =>
    obtain ⟨r, t', h', e, e1, _, _, e2, _⟩ := ensure_spec hok σ want hl a
    refine ⟨t', h', ?_, e1, e2⟩
    show (ensure h σ (some t) want a >>= _) = _
    rw [e]; rfl
  | write i v =>
    refine ⟨{ t with arr := t.arr.set i (some v) }, h, ?_, ?_, Nat.le_refl _⟩
    · simp only [exec, write, wr]
      rw [if_pos (by rw [hok.size]; exact hl)]; rfl
    · exact ⟨hok.fresh, hok.hdr, hok.ptr, hok.apart, by simp [hok.size], hok.pos, hok.fits⟩

/-- After any history, every element reads as the last value written to it (or as it was before the history,
if it was there and not written), the capacity never shrank and the array is well formed. -/
theorem history_outcome {α : Type} {σ : Nat} {h : Heap} {t : Arr α} {ops : List (Op α)} {h' : Heap} {t' : Arr α} (hok : Ok h t)
    (hr : Run σ h t ops h' t') : Ok h' t' ∧ t.capacity ≤ t'.capacity ∧
      ∀ i, (∀ v, lastWrite i ops = some v → t'.arr[i]? = some (some v)) ∧
        (lastWrite i ops = none → i < t.capacity → t'.arr[i]? = t.arr[i]?) := by
  induction hr with
  | nil => exact ⟨hok, Nat.le_refl _, fun i => ⟨fun v h => (by cases h), fun _ _ => rfl⟩⟩
  | cons hl he hrest ih =>
    rename_i h t op h1 t1 ops h2 t2
    obtain ⟨t1', h1', e1, e2, e3⟩ := call_defined hok σ op hl
    rw [he] at e1
    cases e1
    obtain ⟨i1, i2, i3⟩ := ih e2
    refine ⟨i1, by omega, fun i => ⟨?_, ?_⟩⟩
    · intro v hv
      cases op with
      | ensure want a => exact (i3 i).1 v hv
      | write j w =>
        simp only [lastWrite] at hv
        cases hlw : lastWrite i ops with
        | some w' => rw [hlw] at hv; cases hv; exact (i3 i).1 v hlw
        | none =>
          rw [hlw] at hv
          simp only at hv
          split at hv
          · rename_i hji
            cases hv
            subst hji
            have hlt : j < t1.capacity := Nat.lt_of_lt_of_le hl e3
            rw [(i3 j).2 hlw hlt]
            simp only [exec, write, wr] at he
            rw [if_pos (by rw [hok.size]; exact hl)] at he
            simp only [C.ok_bind, C.ok.injEq, Prod.mk.injEq] at he
            rw [← he.1]
            dsimp only
            rw [List.getElem?_set_self (by rw [hok.size]; exact hl)]
          · cases hv
    · intro hlw hi
      cases op with
      | ensure want a =>
        rw [(i3 i).2 hlw (by omega)]
        obtain ⟨r, t', h', f, _, _, _, _, _, _, f1, _⟩ := ensure_spec hok σ want hl a
        simp only [exec] at he
        rw [f, C.ok_bind] at he
        simp only [C.ok.injEq, Prod.mk.injEq] at he
        rw [← he.1, f1, List.getElem?_append_left (by rw [hok.size]; exact hi)]
      | write j w =>
        simp only [lastWrite] at hlw
        cases hlw' : lastWrite i ops with
        | some w' => rw [hlw'] at hlw; cases hlw
        | none =>
          rw [hlw'] at hlw
          simp only at hlw
          have hne : j ≠ i := by intro h; rw [if_pos h] at hlw; cases hlw
          rw [(i3 i).2 hlw' (by omega)]
          simp only [exec, write, wr] at he
          rw [if_pos (by rw [hok.size]; exact hl)] at he
          simp only [C.ok_bind, C.ok.injEq, Prod.mk.injEq] at he
          rw [← he.1]
          dsimp only
          rw [List.getElem?_set_ne hne]

/-! ### Witnesses -/

def emptyHeap : Heap := ⟨0, fun _ => false⟩

/-- An array of 3 with its second element set, grown to 7: the least doubling is 12. -/
example : (match create (α := Nat) emptyHeap 8 3 (some 5) true true with
    | C.ok (some t, h) => (do
        let t1 ← write t 1 42
        let (r, t2, _) ← ensure h 8 (some t1) 7 true
        C.ok (r, t2.map (fun t => (t.capacity, t.arr))))
    | _ => C.ub) = C.ok (0, some (12, [none, some 42, none, none, none, none, none, none, none, none, none, none])) := by decide +kernel

example : ∃ h t, Ok (α := Nat) h t ∧ t.capacity = 3 := by
  obtain ⟨r, h', _, _, h1, _, h2⟩ := create_spec (α := Nat) (h := emptyHeap) (fun _ _ => rfl) 8 3 (by omega) none true true
  cases r with
  | none => simp at h1
  | some t => exact ⟨h', t, (h2 t rfl).1, (h2 t rfl).2.1⟩

end CUtil.TArray
