import Verif.Channel.Lemmas
/-
Where each operation is, who has it and which callbacks were called.
-/
set_option linter.unusedSimpArgs false
set_option linter.unusedVariables false

namespace CUtil.Channel
open CUtil.Conc

/-- The operation, if it was found. -/
def mine : Bool → Nat → Option Nat
  | true, o => some o
  | false, _ => none

/-- The operation the thread has in its hands before its executions are ended. -/
def pre : Pc → Option Nat
  | .cRes o | .e1 o _ | .e2 o _ _ => some o
  | .xRes o f | .xSet o f | .xSched o f => mine f o
  | .xChan _ | .xBegin _ | .xLock _ | .out | .rBegin _ _ | .rLock _ _ | .rEnd | .rRet _ | .xEnd | .oBegin | .oSet | .oEnd | .cBegin | .cMove
  | .cHead | .cTake _ | .cWait | .cEnd | .e3 _ _ _ | .e4 _ _ _ | .e5 _ _ _ | .e6 _ _ => none

/-- … and after. -/
def post : Pc → Option Nat
  | .e3 o _ _ | .e4 o _ _ | .e5 o _ _ | .e6 o _ => some o
  | .cRes _ | .xRes _ _ | .xSet _ _ | .xSched _ _ | .e1 _ _ | .e2 _ _ _
  | .xChan _ | .xBegin _ | .xLock _ | .out | .rBegin _ _ | .rLock _ _ | .rEnd | .rRet _ | .xEnd | .oBegin | .oSet | .oEnd | .cBegin | .cMove
  | .cHead | .cTake _ | .cWait | .cEnd => none

/-- The operation the thread knows. -/
def ment : Pc → Option Nat
  | .cRes o | .xRes o _ | .xSet o _ | .xSched o _ | .e1 o _ | .e2 o _ _ | .e3 o _ _ | .e4 o _ _ | .e5 o _ _ | .e6 o _
  | .xChan o | .xBegin o | .xLock o | .cTake o => some o
  | .out | .rBegin _ _ | .rLock _ _ | .rEnd | .rRet _ | .xEnd | .oBegin | .oSet | .oEnd | .cBegin | .cMove
  | .cHead | .cWait | .cEnd => none

/-- The thread is closing: between `sm_close_begin_with_cb` granting and `sm_close_end`. -/
def closer : Pc → Bool
  | .cMove | .cHead | .cTake _ | .cRes _ | .cWait | .cEnd => true
  | .e1 _ k | .e2 _ _ k | .e3 _ _ k | .e4 _ _ k | .e5 _ _ k | .e6 _ k => decide (k = .closer)
  | .out | .rBegin _ _ | .rLock _ _ | .rEnd | .rRet _ | .xEnd | .oBegin | .oSet | .oEnd | .cBegin
  | .xRes _ _ | .xSet _ _ | .xSched _ _ | .xChan _ | .xBegin _ | .xLock _ => false

/-- The state machine and the lists of the two sides. -/
structure Sm' (s : Sys) : Prop where
  cl : ∀ t, closer (s.pc t) = true → s.sm = .closing
  one : ∀ t u, closer (s.pc t) = true → closer (s.pc u) = true → t = u
  op : ∀ t, s.pc t = .oSet ∨ s.pc t = .oEnd → s.sm = .opening
  op1 : ∀ t u, s.pc t = .oSet ∨ s.pc t = .oEnd → s.pc u = .oSet ∨ s.pc u = .oEnd → t = u
  loc : s.sm ≠ .closing → s.loc = [] ∧ s.stack = false
  mv : ∀ t, s.pc t = .cMove → s.loc = [] ∧ s.stack = false
  wt : ∀ t, s.pc t = .cWait ∨ s.pc t = .cEnd → s.loc = [] ∧ s.stack = false ∧ s.q = [] ∧ s.isOpen = false
  st : ∀ t, closer (s.pc t) = true → s.pc t ≠ .cMove → s.isOpen = false ∧ s.q = []
  cls : s.sm = .closed → s.q = [] ∧ s.isOpen = false
  opo : s.sm = .opened → s.isOpen = true
  ope : ∀ t, s.pc t = .oEnd → s.isOpen = true

theorem back_facts (k : Ret) : (k = .worker ∧ back k = .out) ∨ (k = .closer ∧ back k = .cHead) := by cases k <;> simp [back]

set_option maxHeartbeats 4000000 in
theorem sm_step {cfg s s'} (h : Sm' s) (st : Step cfg s s') : Sm' s' := by
  obtain ⟨h1, h2, h3, h4, h5, h6, h7, h8, h9, h11, h12⟩ := h
  have hw : ∀ l o, l = [] → without l o = [] := by intro l o e; simp [e, without]
  cases st <;> constructor <;> first
    | assumption
    | (simp only [upd]; grind [closer, back_facts, without])

theorem sm {cfg s} (h : Reach cfg s) : Sm' s := by
  induction h with
  | init => constructor <;> simp [init, closer]
  | step hr st ih => exact sm_step ih st

end CUtil.Channel
