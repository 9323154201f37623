/-
Infinite executions, weak fairness and "leads to", for the transition systems of the concurrent modules.
-/
namespace CUtil.Live

variable {S : Type} {Step A : S → S → Prop} {σ : Nat → S} {P Q R : S → Prop}

/-- An infinite execution from a reachable state; at any time nothing at all may happen (so finite executions are covered too). -/
structure Run (Reach : S → Prop) (Step : S → S → Prop) (σ : Nat → S) : Prop where
  start : Reach (σ 0)
  next : ∀ i, Step (σ i) (σ (i + 1)) ∨ σ (i + 1) = σ i

/-- Some step of the kind `A` is possible. -/
def Enabled (A : S → S → Prop) (s : S) : Prop := ∃ s', A s s'

/-- Weak fairness: if from some time on a step of the kind `A` is possible all the time, one is made. -/
def Fair (A : S → S → Prop) (σ : Nat → S) : Prop := ∀ i, (∀ j, i ≤ j → Enabled A (σ j)) → ∃ j, i ≤ j ∧ A (σ j) (σ (j + 1))

/-- Whenever `P` holds, `Q` holds then or later. -/
def LeadsTo (σ : Nat → S) (P Q : S → Prop) : Prop := ∀ i, P (σ i) → ∃ j, i ≤ j ∧ Q (σ j)

theorem Run.reach {Reach : S → Prop} (hr : ∀ s s', Reach s → Step s s' → Reach s') (h : Run Reach Step σ) (i : Nat) : Reach (σ i) := by
  induction i with
  | zero => exact h.start
  | succ i ih =>
    rcases h.next i with st | e
    · exact hr _ _ ih st
    · rw [e]; exact ih

/-- What holds and is kept until `Q` holds, while a fair kind of step that brings `Q` is possible, leads to `Q`. -/
theorem ensures2 {I : S → Prop} (hI : ∀ i, I (σ i)) (hn : ∀ i, Step (σ i) (σ (i + 1)) ∨ σ (i + 1) = σ i) (f : Fair A σ)
    (stay : ∀ s s', I s → I s' → P s → Step s s' → P s' ∨ Q s') (en : ∀ s, I s → P s → Enabled A s) (does : ∀ s s', I s → I s' → P s → A s s' → Q s') : LeadsTo σ P Q := by
  intro i hp
  by_cases hq : ∃ j, i ≤ j ∧ Q (σ j)
  · exact hq
  · exfalso
    have all : ∀ k, P (σ (i + k)) := by
      intro k
      induction k with
      | zero => exact hp
      | succ k ih =>
        rcases hn (i + k) with st | e
        · rcases stay _ _ (hI _) (hI _) ih st with h | h
          · exact h
          · exact absurd ⟨_, by omega, h⟩ hq
        · rw [show i + (k + 1) = i + k + 1 from rfl, e]; exact ih
    have all' : ∀ j, i ≤ j → P (σ j) := fun j hj => by
      obtain ⟨k, rfl⟩ := Nat.le.dest hj
      exact all k
    obtain ⟨j, hj, a⟩ := f i fun j hj => en _ (hI _) (all' j hj)
    exact hq ⟨j + 1, by omega, does _ _ (hI _) (hI _) (all' j hj) a⟩

theorem ensures {I : S → Prop} (hI : ∀ i, I (σ i)) (hn : ∀ i, Step (σ i) (σ (i + 1)) ∨ σ (i + 1) = σ i) (f : Fair A σ)
    (stay : ∀ s s', I s → P s → Step s s' → P s' ∨ Q s') (en : ∀ s, I s → P s → Enabled A s) (does : ∀ s s', I s → P s → A s s' → Q s') : LeadsTo σ P Q :=
  ensures2 hI hn f (fun s s' h _ => stay s s' h) en (fun s s' h _ => does s s' h)

theorem LeadsTo.trans (h1 : LeadsTo σ P Q) (h2 : LeadsTo σ Q R) : LeadsTo σ P R := fun i hp => by
  obtain ⟨j, hj, hq⟩ := h1 i hp
  obtain ⟨k, hk, hr⟩ := h2 j hq
  exact ⟨k, by omega, hr⟩

theorem LeadsTo.of_imp (h : ∀ s, P s → Q s) : LeadsTo σ P Q := fun i hp => ⟨i, Nat.le_refl i, h _ hp⟩

/-- `P` leads to `Q` or something that leads to `Q`. -/
theorem LeadsTo.chain {Q' : S → Prop} (h1 : LeadsTo σ P fun s => Q s ∨ Q' s) (h2 : LeadsTo σ Q' Q) : LeadsTo σ P Q := fun i hp => by
  obtain ⟨j, hj, hq | hq⟩ := h1 i hp
  · exact ⟨j, hj, hq⟩
  · obtain ⟨k, hk, hr⟩ := h2 j hq
    exact ⟨k, by omega, hr⟩

/-- What leads to `Q` or to a smaller rank leads to `Q`. -/
theorem LeadsTo.rank (μ : S → Nat) (h : ∀ n, LeadsTo σ (fun s => P s ∧ μ s = n) fun s => Q s ∨ (P s ∧ μ s < n)) : LeadsTo σ P Q := by
  intro i
  generalize hn : μ (σ i) = n
  induction n using Nat.strongRecOn generalizing i with
  | _ n ih =>
    intro hp
    obtain ⟨j, hj, hq | ⟨hp', hlt⟩⟩ := h n i ⟨hp, hn⟩
    · exact ⟨j, hj, hq⟩
    · obtain ⟨k, hk, hq⟩ := ih _ hlt j rfl hp'
      exact ⟨k, by omega, hq⟩

/-- Finitely many things that come about and stay are all there at some time. -/
theorem all_together {R : Nat → S → Prop} {i : Nat} (N : Nat) (stay : ∀ t j, t < N → i ≤ j → R t (σ j) → R t (σ (j + 1))) (h : ∀ t, t < N → ∃ j, i ≤ j ∧ R t (σ j)) :
    ∃ j, i ≤ j ∧ ∀ t, t < N → R t (σ j) := by
  have later : ∀ t j k, t < N → i ≤ j → R t (σ j) → R t (σ (j + k)) := by
    intro t j k ht hj hr
    induction k with
    | zero => exact hr
    | succ k ih => exact stay t (j + k) ht (by omega) ih
  have : ∀ n, n ≤ N → ∃ j, i ≤ j ∧ ∀ t, t < n → R t (σ j) := by
    intro n
    induction n with
    | zero => exact fun _ => ⟨i, Nat.le_refl i, fun t ht => absurd ht (by omega)⟩
    | succ n ih =>
      intro hn
      obtain ⟨j, hj, ha⟩ := ih (by omega)
      obtain ⟨k, hk, hr⟩ := h n (by omega)
      refine ⟨j + k, by omega, fun t ht => ?_⟩
      by_cases e : t = n
      · subst e
        have := later t k j (by omega) hk hr
        rwa [Nat.add_comm] at this
      · exact later t j k (by omega) hj (ha t (by omega))
  exact this N (Nat.le_refl N)

/-! ### Fair executions exist -/

/-- A finite execution. -/
inductive Path (Step : S → S → Prop) : S → S → Prop
  | nil (s : S) : Path Step s s
  | cons {s s' e : S} : Step s s' → Path Step s' e → Path Step s e

/-- A finite execution, continued by nothing happening. -/
theorem exists_run {Reach : S → Prop} (hr : ∀ s s', Reach s → Step s s' → Reach s') {s e : S} (h : Reach s) (p : Path Step s e) :
    ∃ σ n, Run Reach Step σ ∧ σ 0 = s ∧ ∀ j, n ≤ j → σ j = e := by
  induction p with
  | nil s => exact ⟨fun _ => s, 0, ⟨h, fun _ => .inr rfl⟩, rfl, fun _ _ => rfl⟩
  | @cons s s' e st p ih =>
    obtain ⟨σ, n, r, h0, hn⟩ := ih (hr _ _ h st)
    refine ⟨fun i => match i with | 0 => s | i + 1 => σ i, n + 1, ⟨h, ?_⟩, rfl, ?_⟩
    · intro i
      match i with
      | 0 => exact .inl (by simpa [h0] using st)
      | i + 1 => exact r.next i
    · intro j hj
      match j with
      | 0 => omega
      | j + 1 => exact hn j (by omega)

/-- It is fair to steps that are not possible at its end. -/
theorem fair_of_end {σ : Nat → S} {n : Nat} {e : S} (hn : ∀ j, n ≤ j → σ j = e) (h : ¬ Enabled A e) : Fair A σ := by
  intro i hi
  have := hi (i + n) (by omega)
  rw [hn _ (by omega)] at this
  exact absurd this h

end CUtil.Live
