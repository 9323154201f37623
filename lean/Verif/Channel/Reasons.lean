import Verif.Channel.Lemmas
/-
Why a callback says "cancelled" or "abandoned": invariants that hold whatever the callers do.
-/
set_option linter.unusedSimpArgs false
set_option linter.unusedVariables false

namespace CUtil.Channel
open CUtil.Conc

/-- An execution together with what the users asked for: the operations async_op_cancel was called for so far, and whether channel_close was
granted so far.  A thread enters a call of async_op_cancel for `o` when it goes from outside to `.xChan o`; its channel_close is granted when it goes from
`.cBegin` to `.cMove`. -/
inductive Hist (cfg : Cfg) : Sys → (Nat → Prop) → Prop → Prop
  | init : Hist cfg init (fun _ => False) False
  | step {s s' C K} : Hist cfg s C K → Step cfg s s' →
      Hist cfg s' (fun o => C o ∨ ∃ t, s.pc t = .out ∧ s'.pc t = .xChan o) (K ∨ ∃ t, s.pc t = .cBegin ∧ s'.pc t = .cMove)

theorem Hist.reach {cfg s C K} (h : Hist cfg s C K) : Reach cfg s := by
  induction h with
  | init => exact .init
  | step _ st ih => exact .step ih st

theorem Reach.hist {cfg s} (h : Reach cfg s) : ∃ C K, Hist cfg s C K := by
  induction h with
  | init => exact ⟨_, _, .init⟩
  | step _ st ih => obtain ⟨C, K, ih⟩ := ih; exact ⟨_, _, ih.step st⟩

/-- The operation a thread runs callbacks of, with the result it read. -/
def saying : Pc → Option (Nat × Res)
  | .e2 o r _ | .e3 o r _ | .e4 o r _ | .e5 o r _ => some (o, r)
  | .out | .rBegin _ _ | .rLock _ _ | .rEnd | .rRet _ | .xChan _ | .xBegin _ | .xLock _ | .xRes _ _ | .xSet _ _ | .xSched _ _ | .xEnd | .oBegin | .oSet
  | .oEnd | .cBegin | .cMove | .cHead | .cTake _ | .cRes _ | .cWait | .cEnd | .e1 _ _ | .e6 _ _ => none

/-- The operation channel_close is taking from its list. -/
def taking : Pc → Option Nat
  | .cTake o | .cRes o => some o
  | .out | .rBegin _ _ | .rLock _ _ | .rEnd | .rRet _ | .xChan _ | .xBegin _ | .xLock _ | .xRes _ _ | .xSet _ _ | .xSched _ _ | .xEnd | .oBegin | .oSet
  | .oEnd | .cBegin | .cMove | .cHead | .cWait | .cEnd | .e1 _ _ | .e2 _ _ _ | .e3 _ _ _ | .e4 _ _ _ | .e5 _ _ _ | .e6 _ _ => none

theorem back_quiet (k : Ret) : xing (back k) = none ∧ saying (back k) = none ∧ taking (back k) = none ∧ back k ≠ .cMove := by
  cases k <;> exact ⟨rfl, rfl, rfl, by decide⟩

/-- Why a result is "cancelled". -/
structure Cn (s : Sys) (C : Nat → Prop) : Prop where
  x : ∀ t o, xing (s.pc t) = some o → C o
  r : ∀ o, s.res o = .cancelled → C o
  e : ∀ t o, saying (s.pc t) = some (o, .cancelled) → C o
  l : ∀ c, c ∈ s.log → c.res = .cancelled → ∃ o, C o ∧ (s.avail o = some c.req ∨ s.cons o = some c.req)

set_option maxHeartbeats 4000000 in
theorem cn_step {cfg s s' C} (hq : Qs s) (h : Cn s C) (st : Step cfg s s') :
    Cn s' (fun o => C o ∨ ∃ t, s.pc t = .out ∧ s'.pc t = .xChan o) := by
  obtain ⟨h1, h2, h3, h4, h5, h6, h7, h8, h9, h10, h11⟩ := hq
  obtain ⟨g1, g2, g3, g4⟩ := h
  cases st <;> constructor <;> (simp only [upd]; grind [xing, saying, back_quiet])

theorem cn {cfg s C K} (h : Hist cfg s C K) : Cn s C := by
  induction h with
  | init => constructor <;> simp [init, xing, saying]
  | step h st ih => exact cn_step (qs h.reach) ih st

/-- All requests of the operation were taken out of the list of the channel unmatched. -/
def taken (s : Sys) (o : Nat) : Prop := o < s.nops ∧ o ∉ s.q ∧ ∀ r, (s.avail o = some r ∨ s.cons o = some r) → s.removed r = true

/-- The requests waiting were not taken out. -/
def Qn (s : Sys) : Prop := ∀ o r, o ∈ s.q → (s.avail o = some r ∨ s.cons o = some r) → s.removed r = false

set_option maxHeartbeats 4000000 in
theorem qn_step {cfg s s'} (hq : Qs s) (h : Qn s) (st : Step cfg s s') : Qn s' := by
  obtain ⟨h1, h2, h3, h4, h5, h6, h7, h8, h9, h10, h11⟩ := hq
  have hn : ∀ o rest, s.q = o :: rest → o ∈ s.q ∧ o ∉ rest ∧ ∀ x ∈ rest, x ∈ s.q := by
    intro o rest e; rw [e] at h2 ⊢; simp only [List.nodup_cons] at h2; exact ⟨List.mem_cons_self, h2.1, fun x hx => List.mem_cons_of_mem _ hx⟩
  clear h4 h10 h11 h2
  unfold Qn at h ⊢
  cases st <;> first
    | assumption
    | (intro o r; simp only [upd]; grind [ofOp, mem_without])

set_option maxHeartbeats 4000000 in
theorem taken_step {cfg s s'} (hq : Qs s) (o : Nat) (h : taken s o) (st : Step cfg s s') : taken s' o := by
  obtain ⟨h1, h2, h3, h4, h5, h6, h7, h8, h9, h10, h11⟩ := hq
  obtain ⟨t1, t2, t3⟩ := h
  have hn : ∀ o rest, s.q = o :: rest → o ∈ s.q ∧ ∀ x ∈ rest, x ∈ s.q := by
    intro o rest e; rw [e]; exact ⟨List.mem_cons_self, fun x hx => List.mem_cons_of_mem _ hx⟩
  clear h1 h2 h3 h4 h5 h6 h7 h8 h9 h10 h11
  unfold taken
  cases st <;> first
    | exact ⟨t1, t2, t3⟩
    | (simp only [upd]; grind [mem_without])

/-- Why a result is "abandoned". -/
structure Ab (s : Sys) (K : Prop) : Prop where
  q : Qn s
  m : ∀ t, s.pc t = .cMove → K
  l : ∀ o, o ∈ s.loc → taken s o ∧ K
  t : ∀ t o, taking (s.pc t) = some o → taken s o ∧ K
  r : ∀ o, s.res o = .abandoned → taken s o ∧ K
  e : ∀ t o, saying (s.pc t) = some (o, .abandoned) → taken s o ∧ K
  g : ∀ c, c ∈ s.log → c.res = .abandoned → s.removed c.req = true ∧ K

set_option maxHeartbeats 4000000 in
theorem ab_step {cfg s s' K} (hq : Qs s) (h : Ab s K) (st : Step cfg s s') :
    Ab s' (K ∨ ∃ t, s.pc t = .cBegin ∧ s'.pc t = .cMove) := by
  obtain ⟨g0, g2, g3, g4, g5, g6, g7⟩ := h
  refine ⟨qn_step hq g0 st, ?_, ?_, ?_, ?_, ?_, ?_⟩
  · clear g0 g3 g4 g5 g6 g7
    cases st <;> (simp only [upd]; grind [back_quiet])
  · have hk := fun o h => taken_step hq o h st
    clear g0 g4 g5 g6 g7
    cases st <;> first
      | (intro o ho; exact ⟨hk o (g3 o ho).1, Or.inl (g3 o ho).2⟩)
      | (simp only [mem_without]; intro o ho; exact ⟨hk o (g3 o ho.1).1, Or.inl (g3 o ho.1).2⟩)
      | skip
    rename_i t h1 h2
    intro o ho
    refine ⟨⟨hq.lt o ho, List.not_mem_nil, ?_⟩, Or.inl (g2 t h1)⟩
    intro r hr
    simp only [Bool.or_eq_true, List.any_eq_true]
    refine Or.inr ⟨o, ho, ?_⟩
    simp only [ofOp, Bool.or_eq_true, decide_eq_true_eq]
    exact hr
  · have hk := fun o h => taken_step hq o h st
    clear g0 g2 g5 g6 g7
    cases st <;> (simp only [upd] at hk ⊢; grind [taking, back_quiet])
  · have hk := fun o h => taken_step hq o h st
    have hr : ∀ t o, s.pc t = .cRes o → taken s o ∧ K := fun t o h => g4 t o (by rw [h]; rfl)
    clear g0 g2 g3 g4 g6 g7
    cases st <;> (simp only [upd] at hk ⊢; grind)
  · have hk := fun o h => taken_step hq o h st
    clear g0 g2 g3 g4 g7
    cases st <;> (simp only [upd] at hk ⊢; grind [saying, back_quiet])
  · have ht : ∀ t o r, saying (s.pc t) = some (o, .abandoned) → (s.avail o = some r ∨ s.cons o = some r) → s.removed r = true ∧ K :=
      fun t o r h1 h2 => ⟨(g6 t o h1).1.2.2 r h2, (g6 t o h1).2⟩
    clear g0 g2 g3 g4 g5 g6
    cases st <;> (simp only; grind [saying])

theorem ab {cfg s C K} (h : Hist cfg s C K) : Ab s K := by
  induction h with
  | init => constructor <;> simp [init, taking, saying, Qn]
  | step h st ih => exact ab_step (qs h.reach) ih st

end CUtil.Channel
