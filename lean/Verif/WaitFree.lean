/-
Counting the steps a thread makes itself: a call is wait-free if it never depends on others to go on and returns after a bounded
number of its own steps, however many steps others make in between.
-/
namespace CUtil.WaitFree

/-- How often `f` changes from position `i` on, in `n` steps. -/
def changes {β : Type} [DecidableEq β] (f : Nat → β) (i : Nat) : Nat → Nat
  | 0 => 0
  | n + 1 => changes f i n + if f (i + n + 1) = f (i + n) then 0 else 1

/-- If a rank decreases whenever `f` changes, `f` changes at most as often as the rank at the beginning. -/
theorem changes_le {β : Type} [DecidableEq β] (f : Nat → β) (rank : β → Nat) (i : Nat) : ∀ n,
    (∀ k, k < n → f (i + k + 1) ≠ f (i + k) → rank (f (i + k + 1)) < rank (f (i + k))) →
    changes f i n + rank (f (i + n)) ≤ rank (f i) := by
  intro n
  induction n with
  | zero => intro _; simp [changes]
  | succ n ih =>
    intro h
    have h1 := ih (fun k hk => h k (by omega))
    have h2 := h n (by omega)
    simp only [changes]
    rw [show i + (n + 1) = i + n + 1 from rfl]
    by_cases he : f (i + n + 1) = f (i + n)
    · rw [if_pos he, he]; omega
    · rw [if_neg he]; have := h2 he; omega

example : changes (fun k => k / 2) 0 6 = 3 := by decide +kernel

end CUtil.WaitFree
