import Verif.CancelToken.Model
namespace CUtil.CancelToken
open CUtil.Conc
set_option linter.unusedSimpArgs false
set_option linter.unusedVariables false

/-- The callback a register call is about. -/
def regOf : Pc → Option Nat
  | .rRead i => some i
  | .rCall i => some i
  | .rAlloc i => some i
  | .rReg i => some i
  | .out => none
  | .rOk _ => none
  | .rNull _ => none
  | .uRem _ => none
  | .cCas => none
  | .cLock => none
  | .cAt _ => none
  | .cOk => none
  | .cFail => none
  | .iRead => none
  | .iRet _ => none

structure InvS (c : Bool) (s : Sys) : Prop where
  ct : c = true → s.canceled = true ∧ s.succ = 0
  cf : c = false → s.succ = (if s.canceled then 1 else 0)
  nc : s.canceled = false → s.phase = 0
  ph : c = true → s.phase = 0
  pc1 : c = false → s.canceled = true → 1 ≤ s.phase ∧ s.phase ≤ 3
  lock : ∀ t, s.pc t = .cLock ↔ s.phase = 1 ∧ s.winner = t
  at_ : ∀ t rest, s.pc t = .cAt rest → s.phase = 2 ∧ s.winner = t
  rd : s.readers = (if s.phase = 2 then 1 else 0)
  ok : ∀ t, s.pc t = .cOk → s.phase = 3 ∧ s.winner = t
  fail : ∀ t, s.pc t = .cFail → s.canceled = true
  rc : ∀ t i, s.pc t = .rCall i → s.canceled = true

set_option maxHeartbeats 4000000 in
theorem invS_step {c s s'} (h : InvS c s) (st : Step s s') : InvS c s' := by
  obtain ⟨h1, h2, h3, h4, h5, h6, h7, h8, h9, h10, h11⟩ := h
  cases st <;> constructor <;> simp only [upd] <;> grind

theorem invS_reach {c s} (r : Reach c s) : InvS c s := by
  induction r with
  | init => constructor <;> simp [init] <;> (intro h; simp [h])
  | step _ st ih => exact invS_step ih st

/-- Whose registration the thread has in hand. -/
def handOf : Pc → Option Nat
  | .rOk i => some i
  | .uRem i => some i
  | .rRead _ => none
  | .rCall _ => none
  | .rAlloc _ => none
  | .rReg _ => none
  | .out => none
  | .rNull _ => none
  | .cCas => none
  | .cLock => none
  | .cAt _ => none
  | .cOk => none
  | .cFail => none
  | .iRead => none
  | .iRet _ => none

structure InvL (s : Sys) : Prop where
  nd : s.L.Nodup
  lt : ∀ i ∈ s.L, i < s.fresh ∧ s.direct i = false ∧ s.disposed i = false
  rlt : ∀ t i, regOf (s.pc t) = some i → i < s.fresh ∧ i ∉ s.L ∧ i ∉ s.snap ∧ s.direct i = false ∧ s.disposed i = false
  ru : ∀ t u i, regOf (s.pc t) = some i → regOf (s.pc u) = some i → t = u
  own : ∀ i, s.owned i = true → i ∈ s.L
  hand : ∀ t i, handOf (s.pc t) = some i → i ∈ s.L ∧ s.owned i = false
  hu : ∀ t u i, handOf (s.pc t) = some i → handOf (s.pc u) = some i → t = u
  sn : s.snap.Nodup
  slt : ∀ i ∈ s.snap, i < s.fresh ∧ s.direct i = false
  ge : ∀ i, s.fresh ≤ i → s.direct i = false ∧ s.disposed i = false

structure InvD (s : Sys) : Prop where
  p01 : s.phase ≤ 1 → s.done = [] ∧ s.snap = []
  p1 : s.phase = 1 → ∀ i ∈ s.before, i ∈ s.L ∨ s.disposed i = true
  p2 : s.phase = 2 → s.L = s.snap
  p2r : ∀ t rest, s.pc t = .cAt rest → s.snap = s.done ++ rest
  sub : ∀ i ∈ s.done, i ∈ s.snap
  p23 : 2 ≤ s.phase → ∀ i ∈ s.before, i ∈ s.snap ∨ s.disposed i = true
  p3 : s.phase = 3 → s.done = s.snap
  cnt : ∀ i, s.called i = (if s.direct i then 1 else 0) + (if i ∈ s.done then 1 else 0)

theorem mem_without {L : List Nat} {i j : Nat} : j ∈ without L i ↔ j ∈ L ∧ j ≠ i := by simp [without]

theorem nodup_without {L : List Nat} (i : Nat) (h : L.Nodup) : (without L i).Nodup := h.filter _

theorem nodup_snoc {L : List Nat} {i : Nat} (h : L.Nodup) (hi : i ∉ L) : (L ++ [i]).Nodup := by
  rw [List.nodup_append]
  refine ⟨h, by simp, ?_⟩
  intro a ha b hb e
  simp at hb; subst hb; subst e; exact hi ha

set_option maxHeartbeats 4000000 in
theorem invL_step {c s s'} (hs : InvS c s) (h : InvL s) (hd : InvD s) (st : Step s s') : InvL s' := by
  obtain ⟨h1, h2, h3, h4, h5, h6, h7, h8, h9, h10⟩ := h
  have s1 := hs.rc
  have s2 := hs.at_
  have s3 := hs.rd
  have d2 := hd.p2
  have d01 := hd.p01
  clear hs hd
  cases st <;> constructor <;> simp only [upd] <;> grind [regOf, handOf, mem_without, nodup_without, nodup_snoc]

set_option maxHeartbeats 4000000 in
theorem invD_step {c s s'} (hs : InvS c s) (h : InvL s) (hd : InvD s) (st : Step s s') : InvD s' := by
  obtain ⟨d1, d2, d3, d4, d8, d5, d6, d7⟩ := hd
  have s1 := hs.rc
  have s2 := hs.at_
  have s3 := hs.rd
  have s4 := hs.lock
  have s5 := hs.nc
  have l1 := h.rlt
  have l2 := h.sn
  have l3 := h.slt
  clear hs h
  cases st <;> constructor <;> simp only [upd] <;> grind [regOf, mem_without]

theorem inv_reach {c s} (r : Reach c s) : InvS c s ∧ InvL s ∧ InvD s := by
  induction r with
  | init => exact ⟨invS_reach .init, by constructor <;> simp [init, regOf, handOf], by constructor <;> simp [init]⟩
  | step _ st ih => exact ⟨invS_step ih.1 st, invL_step ih.1 ih.2.1 ih.2.2 st, invD_step ih.1 ih.2.1 ih.2.2 st⟩

end CUtil.CancelToken
