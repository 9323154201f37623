import Verif.Live
import Verif.Conc
/-
Systems that come to an end: a rank that no step raises and that the steps of the system itself lower.
-/
namespace CUtil.Live
open CUtil.Conc

variable {S : Type} {Step A : S → S → Prop} {σ : Nat → S}

/-- If in an execution a rank is lowered by the steps of the kind `A` and raised by none, there comes a time when no step of the kind `A` is possible. -/
theorem settles_on {i : Nat} (μ : S → Nat) (dec : ∀ j, i ≤ j → A (σ j) (σ (j + 1)) → μ (σ (j + 1)) < μ (σ j)) (le : ∀ j, i ≤ j → μ (σ (j + 1)) ≤ μ (σ j)) (f : Fair A σ) :
    ∃ j, i ≤ j ∧ ¬ Enabled A (σ j) := by
  have mono : ∀ d j, i ≤ j → μ (σ (j + d)) ≤ μ (σ j) := by
    intro d j hj
    induction d with
    | zero => exact Nat.le_refl _
    | succ d ih => exact Nat.le_trans (le (j + d) (by omega)) ih
  have key : ∀ m j, i ≤ j → μ (σ j) = m → ∃ j', j ≤ j' ∧ ¬ Enabled A (σ j') := by
    intro m
    induction m using Nat.strongRecOn with
    | _ m ih =>
      intro j hj hm
      by_cases h : ∃ j', j ≤ j' ∧ ¬ Enabled A (σ j')
      · exact h
      · have all : ∀ j', j ≤ j' → Enabled A (σ j') := fun j' hj' => Classical.byContradiction fun e => h ⟨j', hj', e⟩
        obtain ⟨j', hj', a⟩ := f j all
        have h1 := dec j' (by omega) a
        have h2 := mono (j' - j) j hj
        rw [show j + (j' - j) = j' by omega] at h2
        obtain ⟨j'', h3, h4⟩ := ih _ (by omega) (j' + 1) (by omega) rfl
        exact ⟨j'', by omega, h4⟩
  exact key _ i (Nat.le_refl i) rfl

/-- If a rank is lowered by the steps of the kind `A` and raised by none, there comes a time when no step of the kind `A` is possible. -/
theorem settles {I : S → Prop} {i : Nat} (μ : S → Nat) (dec : ∀ s s', I s → A s s' → μ s' < μ s) (le : ∀ s s', I s → Step s s' → μ s' ≤ μ s)
    (hn : ∀ j, i ≤ j → Step (σ j) (σ (j + 1)) ∨ σ (j + 1) = σ j) (hI : ∀ j, i ≤ j → I (σ j)) (f : Fair A σ) : ∃ j, i ≤ j ∧ ¬ Enabled A (σ j) := by
  refine settles_on μ (fun j hj a => dec _ _ (hI j hj) a) (fun j hj => ?_) f
  rcases hn j hj with st | e
  · exact le _ _ (hI j hj) st
  · rw [e]; exact Nat.le_refl _

/-- What no step changes holds on. -/
theorem holds_on {P : S → Prop} {Reach : S → Prop} (hr : ∀ s s', Reach s → Step s s' → Reach s') (run : Run Reach Step σ) (st : ∀ s s', Reach s → P s → Step s s' → P s') {i j : Nat} (hj : i ≤ j)
    (h : P (σ i)) : P (σ j) := by
  obtain ⟨d, rfl⟩ := Nat.le.dest hj
  induction d with
  | zero => exact h
  | succ d ih =>
    have ih := ih (by omega)
    rcases run.next (i + d) with s | e
    · exact st _ _ (run.reach hr _) ih s
    · rw [show i + (d + 1) = i + d + 1 from rfl, e]; exact ih

/-- The sum over 0, …, `n`. -/
def sumBy {α : Type} (g : α → Nat) (f : Nat → α) : Nat → Nat
  | 0 => g (f 0)
  | n + 1 => sumBy g f n + g (f (n + 1))

theorem sumBy_high {α : Type} (g : α → Nat) (f : Nat → α) (x : α) {i n : Nat} (h : n < i) : sumBy g (upd f i x) n = sumBy g f n := by
  induction n with
  | zero => simp [sumBy, upd_apply, show ¬ 0 = i by omega]
  | succ n ih => simp [sumBy, ih (by omega), upd_apply, show ¬ n + 1 = i by omega]

theorem sumBy_upd {α : Type} (g : α → Nat) (f : Nat → α) (x : α) {i n : Nat} (h : i ≤ n) : sumBy g (upd f i x) n + g (f i) = sumBy g f n + g x := by
  induction n with
  | zero =>
    obtain rfl : i = 0 := by omega
    simp [sumBy, upd_apply]; omega
  | succ n ih =>
    rcases Nat.lt_or_ge n i with hl | hl
    · obtain rfl : i = n + 1 := by omega
      simp [sumBy, sumBy_high g f x hl, upd_apply]; omega
    · have := ih hl
      simp [sumBy, upd_apply, show ¬ n + 1 = i by omega]; omega

theorem sumBy_const {α : Type} (g : α → Nat) (x : α) (n : Nat) : sumBy g (fun _ => x) n = g x * (n + 1) := by
  induction n with
  | zero => simp [sumBy]
  | succ n ih => rw [sumBy, ih]; exact (Nat.mul_succ (g x) (n + 1)).symm

end CUtil.Live
