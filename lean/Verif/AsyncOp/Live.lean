import Verif.AsyncOp.Props
import Verif.WaitFree
/-
async_op_cancel never blocks: every call can always go on and returns after at most two steps of its own (the second is the call of
the user's function).
-/
namespace CUtil.AsyncOp
open CUtil.WaitFree

/-- The steps a call still has to make, at most. -/
def left : Pc → Nat
  | .done _ => 0
  | .won => 1
  | .start => 2

theorem move {o : Op} {s s' : Sys} (st : Step o s s') (t : Nat) (hm : s'.pc t ≠ s.pc t) : left (s'.pc t) < left (s.pc t) := by
  cases st <;> simp only [setPc] at hm ⊢ <;> (try split at hm) <;> (try split) <;> simp_all [left]

/-- A call of async_op_cancel that has not returned can go on in every state. -/
theorem cancel_never_blocked {o : Op} {s : Sys} (t : Nat) (hp : ∀ r, s.pc t ≠ .done r) : ∃ s', Step o s s' ∧ s'.pc t ≠ s.pc t := by
  cases h : s.pc t with
  | done r => exact absurd h (hp r)
  | start =>
    by_cases hs : s.state = .running
    · exact ⟨_, .exchange_ok s t h hs, by simp [setPc]⟩
    · exact ⟨_, .exchange_no s t h hs, by simp [setPc]⟩
  | won =>
    cases hc : o.cancel with
    | true => exact ⟨_, .call s t h hc, by simp [setPc]⟩
    | false => exact ⟨_, .no_call s t h hc, by simp [setPc]⟩

/-- However many steps other calls make, a call of async_op_cancel makes at most two. -/
theorem cancel_wait_free {o : Op} (σ : Nat → Sys) (hr : ∀ n, σ (n + 1) = σ n ∨ Step o (σ n) (σ (n + 1))) (t i n : Nat) :
    changes (fun k => (σ k).pc t) i n ≤ 2 := by
  have := changes_le (fun k => (σ k).pc t) left i n (fun k hk hm => by
    rcases hr (i + k) with h | h
    · exact absurd (by simp only [h]) hm
    · exact move h t hm)
  have h2 : left ((σ i).pc t) ≤ 2 := by cases (σ i).pc t <;> simp [left]
  omega

/-- The call that wins makes two steps. -/
example : ∃ σ : Nat → Sys, (∀ n, σ (n + 1) = σ n ∨ Step ⟨64, 100, 104, true, true⟩ (σ n) (σ (n + 1))) ∧
    changes (fun k => (σ k).pc 1) 0 2 = 2 ∧ (σ 2).args = [104] := by
  refine ⟨fun n => match n with
    | 0 => ⟨.running, fun _ => .start, 0, []⟩
    | 1 => ⟨.cancelling, setPc (fun _ => .start) 1 .won, 0, []⟩
    | _ => ⟨.cancelling, setPc (setPc (fun _ => .start) 1 .won) 1 (.done .cancelling), 1, [104]⟩, ?_, rfl, rfl⟩
  intro n
  match n with
  | 0 => exact Or.inr (.exchange_ok _ 1 rfl rfl)
  | 1 => exact Or.inr (.call (o := ⟨64, 100, 104, true, true⟩) _ 1 rfl rfl)
  | _ + 2 => exact Or.inl rfl

end CUtil.AsyncOp
