/-
Shared by the transition systems of the concurrent modules.
-/
namespace CUtil.Conc

/-- The map `f` with the value of `t` replaced (threads, objects). -/
def upd {α : Type} (f : Nat → α) (t : Nat) (v : α) : Nat → α := fun u => if u = t then v else f u

@[simp] theorem upd_self {α : Type} (f : Nat → α) (t : Nat) (v : α) : upd f t v t = v := by simp [upd]

theorem upd_ne {α : Type} (f : Nat → α) {t u : Nat} (v : α) (h : u ≠ t) : upd f t v u = f u := by simp [upd, h]

theorem upd_apply {α : Type} (f : Nat → α) (t : Nat) (v : α) (u : Nat) : upd f t v u = if u = t then v else f u := rfl

end CUtil.Conc
