import Verif.Channel.Places
/-
Where each operation is and who has it.
-/
set_option linter.unusedSimpArgs false
set_option linter.unusedVariables false

namespace CUtil.Channel
open CUtil.Conc

/-- Both callbacks are there. -/
def both (s : Sys) (o : Nat) : Bool := (s.avail o).isSome && (s.cons o).isSome

/-- The operations of which the place is known: all, if the callers are careful, and else those waiting in the list and those matched. -/
def good (cfg : Cfg) (s : Sys) (o : Nat) : Bool := cfg.quiet || decide (s.place o = .queue) || both s o

/-- The operation is somewhere and its callbacks have not been called. -/
def alive : Place → Bool
  | .queue | .loc | .sched | .run _ | .fin _ | .lost => true
  | .fresh | .done => false

/-- … and its executions have not been ended. -/
def begun : Place → Bool
  | .queue | .loc | .sched | .run _ | .lost => true
  | .fresh | .done | .fin _ => false

/-- Where the operations are. -/
structure Pl (cfg : Cfg) (s : Sys) : Prop where
  q : ∀ o, s.place o = .queue ↔ o ∈ s.q
  l : ∀ o, good cfg s o = true → (s.place o = .loc ↔ o ∈ s.loc)
  p : ∀ o, good cfg s o = true → (s.place o = .sched ↔ 0 < s.pend o)
  p1 : ∀ o, good cfg s o = true → s.pend o ≤ 1
  r : ∀ o t, good cfg s o = true → (s.place o = .run t ↔ pre (s.pc t) = some o)
  f : ∀ o t, good cfg s o = true → (s.place o = .fin t ↔ post (s.pc t) = some o)
  t : ∀ o t, good cfg s o = true → s.pc t = .cTake o → s.place o = .loc
  self : ∀ o, good cfg s o = true → alive (s.place o) = true → s.self o = true
  chan : ∀ o, good cfg s o = true → begun (s.place o) = true → s.chan o = true
  fr : ∀ o, s.nops ≤ o → s.place o = .fresh ∧ s.pend o = 0 ∧ o ∉ s.loc ∧ s.uref o = 0
  frt : ∀ o t, s.nops ≤ o → ment (s.pc t) ≠ some o
  nl : cfg.quiet = false → ∀ o, both s o = true → s.place o ≠ .loc
  aim : cfg.quiet = true → ∀ o t, aim (s.pc t) = some o → o ∈ s.q
  aim1 : cfg.quiet = true → ∀ o t u, Channel.aim (s.pc t) = some o → Channel.aim (s.pc u) = some o → t = u

theorem pre_ment (p : Pc) (o : Nat) (h : pre p = some o) : ment p = some o := by
  revert h; cases p <;> simp [pre, ment] <;> rename_i b <;> cases b <;> simp [mine]

theorem post_ment (p : Pc) (o : Nat) (h : post p = some o) : ment p = some o := by
  revert h; cases p <;> simp [post, ment]

theorem aim_ment (p : Pc) (o : Nat) (h : aim p = some o) : ment p = some o := by
  revert h; cases p <;> simp [aim, ment]

theorem pl_move {cfg s s'} (h : Pl cfg s) (t : Nat) (hq : s'.q = s.q) (hl : s'.loc = s.loc) (hp : s'.place = s.place) (hn : s'.pend = s.pend)
    (hf : s'.self = s.self) (hc : s'.chan = s.chan) (ho : s'.nops = s.nops) (hu : s'.uref = s.uref) (ha : s'.avail = s.avail) (hco : s'.cons = s.cons)
    (hpc : ∀ u, u ≠ t → s'.pc u = s.pc u) (h1 : pre (s'.pc t) = pre (s.pc t)) (h2 : post (s'.pc t) = post (s.pc t))
    (h3 : ∀ o, s'.pc t ≠ .cTake o) (h4 : Channel.aim (s'.pc t) = Channel.aim (s.pc t) ∨ Channel.aim (s'.pc t) = none)
    (h5 : ment (s'.pc t) = ment (s.pc t) ∨ ment (s'.pc t) = none) : Pl cfg s' := by
  obtain ⟨g1, g2, g3, g4, g5, g6, g7, g8, g9, g10, g11, g12, g13, g14⟩ := h
  have hpre : ∀ u, pre (s'.pc u) = pre (s.pc u) := by intro u; by_cases e : u = t; · rw [e, h1]
                                                      · rw [hpc u e]
  have hpost : ∀ u, post (s'.pc u) = post (s.pc u) := by intro u; by_cases e : u = t; · rw [e, h2]
                                                         · rw [hpc u e]
  have haim : ∀ u o, Channel.aim (s'.pc u) = some o → Channel.aim (s.pc u) = some o := by
    intro u o hx; by_cases e : u = t
    · subst e; rcases h4 with h4 | h4 <;> simp_all
    · rwa [hpc u e] at hx
  have hment : ∀ u o, ment (s'.pc u) = some o → ment (s.pc u) = some o := by
    intro u o hx; by_cases e : u = t
    · subst e; rcases h5 with h5 | h5 <;> simp_all
    · rwa [hpc u e] at hx
  have htk : ∀ u o, s'.pc u = .cTake o → s.pc u = .cTake o := by
    intro u o hx; by_cases e : u = t
    · subst e; exact absurd hx (h3 o)
    · rwa [hpc u e] at hx
  have hgood : ∀ o, good cfg s' o = good cfg s o := by intro o; simp only [good, both, hp, ha, hco]
  have hboth : ∀ o, both s' o = both s o := by intro o; simp only [both, ha, hco]
  constructor <;> try simp only [hq, hl, hp, hn, hf, hc, ho, hu, hpre, hpost, hgood, hboth]
  · exact g1
  · exact g2
  · exact g3
  · exact g4
  · exact g5
  · exact g6
  · exact fun o u hg hx => g7 o u hg (htk u o hx)
  · exact g8
  · exact g9
  · exact g10
  · exact fun o u hg hx => g11 o u hg (hment u o hx)
  · exact g12
  · exact fun hz o u hx => g13 hz o u (haim u o hx)
  · exact fun hz o u v hx hy => g14 hz o u v (haim u o hx) (haim v o hy)

set_option maxHeartbeats 40000000 in
theorem pl_step {cfg s s'} (hq : Qs s) (hs : Sm' s) (h : Pl cfg s) (st : Step cfg s s') : Pl cfg s' := by
  cases st
  all_goals first
    | (refine pl_move h _ rfl rfl rfl rfl rfl rfl rfl rfl rfl rfl (fun u hu => upd_ne _ _ hu) ?_ ?_ ?_ ?_ ?_ <;> (simp [pre, post, aim, ment, *]; done))
    | skip
  all_goals
    obtain ⟨q1, q2, q3, q4, q5, q6, q7, q8, -, -, -⟩ := hq
    obtain ⟨s1, s2, -, -, s5, s6, s7, -, -, -, -⟩ := hs
    obtain ⟨h1, h2, h3, h4, h5, h6, h7, h8, h9, h10, h11, h12, h13, h14⟩ := h
    have hhd : ∀ o rest, s.q = o :: rest → o ∈ s.q ∧ o ∉ rest ∧ ∀ x ∈ rest, x ∈ s.q := by
      intro o rest e; rw [e] at q2 ⊢; simp only [List.nodup_cons] at q2; exact ⟨List.mem_cons_self, q2.1, fun x hx => List.mem_cons_of_mem _ hx⟩
    have hnr : ∀ o t, o ∈ s.q → pre (s.pc t) ≠ some o := by
      intro o t ho hp
      have h1 := (h1 o).2 ho
      have h2 := (h5 o t (by simp [good, h1])).2 hp
      simp [h1] at h2
    have hrun : ∀ o t, good cfg s o = true → pre (s.pc t) = some o → o ∉ s.loc ∧ s.pend o = 0 := by
      intro o t hg hp
      have e := (h5 o t hg).2 hp
      refine ⟨fun hm => ?_, ?_⟩
      · have := (h2 o hg).2 hm; simp [e] at this
      · have := h3 o hg; simp [e] at this; omega
    have hT1 : ∀ o t, s.pc t = .xSched o true → pre (s.pc t) = some o := by intro o t h; rw [h]; rfl
    have hT2 : ∀ o t r k, s.pc t = .e2 o r k → pre (s.pc t) = some o := by intro o t r k h; rw [h]; rfl
    have hT3 : ∀ o t r k, s.pc t = .e3 o r k → post (s.pc t) = some o := by intro o t r k h; rw [h]; rfl
    have hT4 : ∀ o t k, s.pc t = .e6 o k → post (s.pc t) = some o := by intro o t k h; rw [h]; rfl
    have hfin : ∀ o t, good cfg s o = true → post (s.pc t) = some o → o ∉ s.loc ∧ s.pend o = 0 ∧ o ∉ s.q := by
      intro o t hg hp
      have e := (h6 o t hg).2 hp
      refine ⟨fun hm => ?_, ?_, fun hm => ?_⟩
      · have := (h2 o hg).2 hm; simp [e] at this
      · have := h3 o hg; simp [e] at this; omega
      · have := (h1 o).2 hm; simp [e] at this
    have hfinq : ∀ o t, o ∈ s.q → post (s.pc t) ≠ some o := by
      intro o t ho hp
      have h1 := (h1 o).2 ho
      have h2 := (h6 o t (by simp [good, h1])).2 hp
      simp [h1] at h2
    have h5b : ∀ o t, pre (s.pc t) = some o → good cfg s o = true → s.place o = .run t := fun o t h g => (h5 o t g).2 h
    have h6b : ∀ o t, post (s.pc t) = some o → good cfg s o = true → s.place o = .fin t := fun o t h g => (h6 o t g).2 h
    simp only [good, both] at h2 h3 h4 h5 h6 h7 h8 h9 h12 hrun hfin h5b h6b
    constructor
  all_goals first
    | assumption
    | (simp only [upd, good, both]; grind [mem_without, pre, mine, post, ment, aim, alive, begun, back_facts, closer, pre_ment, post_ment, aim_ment])
    | skip
  rename_i t o hp hnq hl
  intro o' t' hg hp'
  by_cases e : o' = o
  · subst e
    exfalso
    have htt : t' ≠ t := by intro e; subst e; simp at hp'
    dsimp only at hp'
    rw [upd_ne _ _ htt] at hp'
    cases hqt : cfg.quiet with
    | true => exact hnq (h13 hqt o' t (by simp [hp, aim]))
    | false =>
      simp only [good, both, upd_self, hqt] at hg
      have hb : ((s.avail o').isSome && (s.cons o').isSome) = true := by simpa using hg
      exact h12 hqt o' hb (h7 o' t' (by simp [hb]) hp')
  · have htt : t' ≠ t := by intro e; subst e; simp at hp'
    dsimp only at hp' ⊢
    rw [upd_ne _ _ htt] at hp'
    rw [upd_ne _ _ e]
    exact h7 o' t' (by simpa only [good, both, upd_ne _ _ e] using hg) hp'

theorem pl {cfg s} (h : Reach cfg s) : Pl cfg s := by
  induction h with
  | init => constructor <;> simp [init, pre, post, aim, ment, alive, begun, both]
  | step hr st ih => exact pl_step (qs hr) (sm hr) ih st

end CUtil.Channel
