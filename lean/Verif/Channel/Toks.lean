import Verif.Channel.Calls
/-
Executions begun and not ended, and undefined behaviour, when the callers are careful.
-/
set_option linter.unusedSimpArgs false
set_option linter.unusedVariables false

namespace CUtil.Channel
open CUtil.Conc

/-- The thread has begun an execution. -/
def inExec : Pc → Bool
  | .rLock _ _ | .rEnd | .xLock _ | .xRes _ _ | .xSet _ _ | .xSched _ _ | .xEnd => true
  | .e2 _ _ _ | .e3 _ _ _ | .e4 _ _ _ | .e5 _ _ _ | .e1 _ _ | .e6 _ _ | .cRes _
  | .xChan _ | .xBegin _ | .out | .rBegin _ _ | .rRet _ | .oBegin | .oSet | .oEnd | .cBegin | .cMove
  | .cHead | .cTake _ | .cWait | .cEnd => false

/-- Every execution begun and not ended is that of a request whose callback is still to be called, or of a call under way. -/
structure Tk (s : Sys) : Prop where
  len : s.execs = s.toks.length
  nd : s.toks.Nodup
  thr : ∀ t, .thr t ∈ s.toks ↔ inExec (s.pc t) = true
  lt : ∀ r, .req r ∈ s.toks → r < s.nreq
  rA : ∀ o r, s.avail o = some r → (begun (s.place o) = true ↔ .req r ∈ s.toks)
  rC : ∀ o r, s.cons o = some r → (begun (s.place o) = true ↔ .req r ∈ s.toks)
  ok : s.bad = false

theorem length_drop (l : List Tok) (k : Tok) (hn : l.Nodup) (hk : k ∈ l) : (drop l k).length + 1 = l.length := by
  induction l with
  | nil => simp at hk
  | cons x l ih =>
    rw [List.nodup_cons] at hn
    by_cases e : x = k
    · subst e
      have : drop (x :: l) x = l := by
        simp only [drop, List.filter_cons, ne_eq, not_true_eq_false, decide_false, Bool.false_eq_true, if_false]
        rw [List.filter_eq_self]
        intro y hy
        simp only [decide_eq_true_eq]
        intro e
        exact hn.1 (e ▸ hy)
      rw [this]; rfl
    · have hk' : k ∈ l := by
        rw [List.mem_cons] at hk
        rcases hk with hk | hk
        · exact absurd hk.symm e
        · exact hk
      have := ih hn.2 hk'
      simp only [drop, List.filter_cons, ne_eq, e, not_false_eq_true, decide_true, if_true, List.length_cons] at this ⊢
      omega

theorem mem_dropReq (l : List Tok) (r : Option Nat) (k : Tok) : k ∈ dropReq l r ↔ k ∈ l ∧ ∀ x, r = some x → k ≠ .req x := by
  cases r with
  | none => simp [dropReq]
  | some x => simp [dropReq, mem_drop]

theorem nodup_dropReq (l : List Tok) (r : Option Nat) (h : l.Nodup) : (dropReq l r).Nodup := by
  cases r with
  | none => exact h
  | some x => exact nodup_drop _ _ h

theorem length_dropReq (l : List Tok) (r : Option Nat) (h : l.Nodup) (hm : ∀ x, r = some x → .req x ∈ l) :
    (dropReq l r).length + (if r = none then 0 else 1) = l.length := by
  cases r with
  | none => simp [dropReq]
  | some x => simp [dropReq, length_drop l _ h (hm x rfl)]

theorem tk_move {s s'} (h : Tk s) (he : s'.execs = s.execs) (ht : s'.toks = s.toks) (ha : s'.avail = s.avail) (hc : s'.cons = s.cons) (hn : s'.nreq = s.nreq)
    (hb : s'.bad = false) (hp : ∀ o, begun (s'.place o) = begun (s.place o)) (hi : ∀ t, inExec (s'.pc t) = inExec (s.pc t)) : Tk s' := by
  obtain ⟨h1, h2, h3, h4, h5, h6, h7⟩ := h
  constructor <;> (try simp only [he, ht, ha, hc, hn, hp, hi]) <;> assumption

theorem begun_upd (pl : Nat → Place) (o : Nat) (X : Place) (h : begun (pl o) = begun X) (o' : Nat) : begun (upd pl o X o') = begun (pl o') := by
  by_cases e : o' = o
  · subst e; rw [upd_self, h]
  · rw [upd_ne _ _ e]

theorem inExec_upd (pc : Nat → Pc) (t : Nat) (p : Pc) (h : inExec p = inExec (pc t)) (u : Nat) : inExec (upd pc t p u) = inExec (pc u) := by
  by_cases e : u = t
  · subst e; rw [upd_self, h]
  · rw [upd_ne _ _ e]

theorem not_freed {s : Sys} {o : Nat} (h : s.self o = true) : freed s o = false := by simp [freed, h]

set_option maxHeartbeats 4000000 in
theorem tk_step {cfg s s'} (hq : cfg.quiet = true) (hqs : Qs s) (hl : Pl cfg s) (h : Tk s) (st : Step cfg s s') : Tk s' := by
  have hg : ∀ o, good cfg s o = true := fun o => by simp [good, hq]
  have hqm : ∀ o, o ∈ s.q → begun (s.place o) = true := fun o ho => by rw [(hl.q o).2 ho]; rfl
  have hqh : ∀ o rest, s.q = o :: rest → o ∈ s.q := fun o rest e => by rw [e]; exact List.mem_cons_self
  have hself : ∀ o t, pre (s.pc t) = some o → freed s o = false := fun o t hp => not_freed (hl.self o (hg o) (by rw [(hl.r o t (hg o)).2 hp]; rfl))
  have hselfF : ∀ o t, post (s.pc t) = some o → freed s o = false := fun o t hp => not_freed (hl.self o (hg o) (by rw [(hl.f o t (hg o)).2 hp]; rfl))
  have hchan : ∀ o t, pre (s.pc t) = some o → s.chan o = true := fun o t hp => hl.chan o (hg o) (by rw [(hl.r o t (hg o)).2 hp]; rfl)
  have hbad := h.ok
  cases st with
  | rGranted t k d hp _ =>
    obtain ⟨h1, h2, h3, h4, h5, h6, h7⟩ := h
    have hnt : Tok.thr t ∉ s.toks := fun hm => by have := (h3 t).1 hm; simp [hp, inExec] at this
    constructor <;> dsimp only
    · simp [h1]
    · rw [List.nodup_cons]; exact ⟨hnt, h2⟩
    · intro u
      by_cases e : u = t
      · subst e; simp [inExec]
      · rw [upd_ne _ _ e, ← h3 u]; simp [e]
    · intro r hr; exact h4 r (by simpa using hr)
    · intro o r ho; rw [h5 o r ho]; simp
    · intro o r ho; rw [h6 o r ho]; simp
    · exact h7
  | xGranted t o hp _ =>
    obtain ⟨h1, h2, h3, h4, h5, h6, h7⟩ := h
    have hnt : Tok.thr t ∉ s.toks := fun hm => by have := (h3 t).1 hm; simp [hp, inExec] at this
    constructor <;> dsimp only
    · simp [h1]
    · rw [List.nodup_cons]; exact ⟨hnt, h2⟩
    · intro u
      by_cases e : u = t
      · subst e; simp [inExec]
      · rw [upd_ne _ _ e, ← h3 u]; simp [e]
    · intro r hr; exact h4 r (by simpa using hr)
    · intro o r ho; rw [h5 o r ho]; simp
    · intro o r ho; rw [h6 o r ho]; simp
    · exact h7
  | rEnd t hp =>
    obtain ⟨h1, h2, h3, h4, h5, h6, h7⟩ := h
    have hm : Tok.thr t ∈ s.toks := (h3 t).2 (by rw [hp]; rfl)
    have hlen := length_drop _ _ h2 hm
    constructor <;> dsimp only
    · omega
    · exact nodup_drop _ _ h2
    · intro u
      rw [mem_drop]
      by_cases e : u = t
      · subst e; simp [inExec]
      · rw [upd_ne _ _ e, ← h3 u]; simp [e]
    · intro r hr; exact h4 r ((mem_drop _ _ _).1 hr).1
    · intro o r ho; rw [h5 o r ho, mem_drop]; simp
    · intro o r ho; rw [h6 o r ho, mem_drop]; simp
    · rw [h7]; simp; omega
  | xEnd t hp =>
    obtain ⟨h1, h2, h3, h4, h5, h6, h7⟩ := h
    have hm : Tok.thr t ∈ s.toks := (h3 t).2 (by rw [hp]; rfl)
    have hlen := length_drop _ _ h2 hm
    constructor <;> dsimp only
    · omega
    · exact nodup_drop _ _ h2
    · intro u
      rw [mem_drop]
      by_cases e : u = t
      · subst e; simp [inExec]
      · rw [upd_ne _ _ e, ← h3 u]; simp [e]
    · intro r hr; exact h4 r ((mem_drop _ _ _).1 hr).1
    · intro o r ho; rw [h5 o r ho, mem_drop]; simp
    · intro o r ho; rw [h6 o r ho, mem_drop]; simp
    · rw [h7]; simp; omega
  | pullEnq t d hp _ _ =>
    obtain ⟨h1, h2, h3, h4, h5, h6, h7⟩ := h
    have hm : Tok.thr t ∈ s.toks := (h3 t).2 (by rw [hp]; rfl)
    have hlen := length_drop _ _ h2 hm
    have hnr : Tok.req s.nreq ∉ s.toks := fun hm => absurd (h4 _ hm) (by omega)
    constructor <;> dsimp only
    · simp; omega
    · rw [List.nodup_cons]; exact ⟨fun hm => hnr ((mem_drop _ _ _).1 hm).1, nodup_drop _ _ h2⟩
    · intro u
      rw [List.mem_cons, mem_drop]
      by_cases e : u = t
      · subst e; simp [inExec]
      · rw [upd_ne _ _ e, ← h3 u]; simp [e]
    · intro r hr
      simp only [List.mem_cons, mem_drop, Tok.req.injEq] at hr
      rcases hr with hr | hr
      · omega
      · have := h4 r hr.1; omega
    · intro o r ho
      simp only [List.mem_cons, mem_drop, Tok.req.injEq]
      by_cases e : o = s.nops
      · subst e; simp only [upd_self, Option.some.injEq] at ho ⊢; simp [begun, ho]
      · rw [upd_ne _ _ e] at ho ⊢
        have := (hqs.av o r ho).1
        rw [h5 o r ho]; simp; omega
    · intro o r ho
      simp only [List.mem_cons, mem_drop, Tok.req.injEq]
      by_cases e : o = s.nops
      · subst e; simp at ho
      · rw [upd_ne _ _ e] at ho ⊢
        have := (hqs.co o r ho).1
        rw [h6 o r ho]; simp; omega
    · exact h7
  | pushEnq t d hp _ _ =>
    obtain ⟨h1, h2, h3, h4, h5, h6, h7⟩ := h
    have hm : Tok.thr t ∈ s.toks := (h3 t).2 (by rw [hp]; rfl)
    have hlen := length_drop _ _ h2 hm
    have hnr : Tok.req s.nreq ∉ s.toks := fun hm => absurd (h4 _ hm) (by omega)
    constructor <;> dsimp only
    · simp; omega
    · rw [List.nodup_cons]; exact ⟨fun hm => hnr ((mem_drop _ _ _).1 hm).1, nodup_drop _ _ h2⟩
    · intro u
      rw [List.mem_cons, mem_drop]
      by_cases e : u = t
      · subst e; simp [inExec]
      · rw [upd_ne _ _ e, ← h3 u]; simp [e]
    · intro r hr
      simp only [List.mem_cons, mem_drop, Tok.req.injEq] at hr
      rcases hr with hr | hr
      · omega
      · have := h4 r hr.1; omega
    · intro o r ho
      simp only [List.mem_cons, mem_drop, Tok.req.injEq]
      by_cases e : o = s.nops
      · subst e; simp at ho
      · rw [upd_ne _ _ e] at ho ⊢
        have := (hqs.av o r ho).1
        rw [h5 o r ho]; simp; omega
    · intro o r ho
      simp only [List.mem_cons, mem_drop, Tok.req.injEq]
      by_cases e : o = s.nops
      · subst e; simp only [upd_self, Option.some.injEq] at ho ⊢; simp [begun, ho]
      · rw [upd_ne _ _ e] at ho ⊢
        have := (hqs.co o r ho).1
        rw [h6 o r ho]; simp; omega
    · exact h7
  | pullDeq t d o rest c hp _ hqe ha hc _ =>
    obtain ⟨h1, h2, h3, h4, h5, h6, h7⟩ := h
    have hm : Tok.thr t ∈ s.toks := (h3 t).2 (by rw [hp]; rfl)
    have hlen := length_drop _ _ h2 hm
    have hnr : Tok.req s.nreq ∉ s.toks := fun hm => absurd (h4 _ hm) (by omega)
    have hbo : ∀ o', begun (upd s.place o .sched o') = begun (s.place o') := begun_upd _ _ _ (by rw [hqm o (hqh _ _ hqe)]; rfl)
    constructor <;> dsimp only
    · simp; omega
    · rw [List.nodup_cons]; exact ⟨fun hm => hnr ((mem_drop _ _ _).1 hm).1, nodup_drop _ _ h2⟩
    · intro u
      rw [List.mem_cons, mem_drop]
      by_cases e : u = t
      · subst e; simp [inExec]
      · rw [upd_ne _ _ e, ← h3 u]; simp [e]
    · intro r hr
      simp only [List.mem_cons, mem_drop, Tok.req.injEq] at hr
      rcases hr with hr | hr
      · omega
      · have := h4 r hr.1; omega
    · intro o' r ho
      simp only [List.mem_cons, mem_drop, Tok.req.injEq]
      rw [hbo]
      by_cases e : o' = o
      · subst e; simp only [upd_self, Option.some.injEq] at ho ⊢; simp [ho, hqm _ (hqh _ _ hqe)]
      · rw [upd_ne _ _ e] at ho
        have := (hqs.av o' r ho).1
        rw [h5 o' r ho]; simp; omega
    · intro o' r ho
      simp only [List.mem_cons, mem_drop, Tok.req.injEq]
      rw [hbo]
      have := (hqs.co o' r ho).1
      rw [h6 o' r ho]; simp; omega
    · exact h7
  | pushDeq t d o rest a hp _ hqe hc ha _ =>
    obtain ⟨h1, h2, h3, h4, h5, h6, h7⟩ := h
    have hm : Tok.thr t ∈ s.toks := (h3 t).2 (by rw [hp]; rfl)
    have hlen := length_drop _ _ h2 hm
    have hnr : Tok.req s.nreq ∉ s.toks := fun hm => absurd (h4 _ hm) (by omega)
    have hbo : ∀ o', begun (upd s.place o .sched o') = begun (s.place o') := begun_upd _ _ _ (by rw [hqm o (hqh _ _ hqe)]; rfl)
    constructor <;> dsimp only
    · simp; omega
    · rw [List.nodup_cons]; exact ⟨fun hm => hnr ((mem_drop _ _ _).1 hm).1, nodup_drop _ _ h2⟩
    · intro u
      rw [List.mem_cons, mem_drop]
      by_cases e : u = t
      · subst e; simp [inExec]
      · rw [upd_ne _ _ e, ← h3 u]; simp [e]
    · intro r hr
      simp only [List.mem_cons, mem_drop, Tok.req.injEq] at hr
      rcases hr with hr | hr
      · omega
      · have := h4 r hr.1; omega
    · intro o' r ho
      simp only [List.mem_cons, mem_drop, Tok.req.injEq]
      rw [hbo]
      have := (hqs.av o' r ho).1
      rw [h5 o' r ho]; simp; omega
    · intro o' r ho
      simp only [List.mem_cons, mem_drop, Tok.req.injEq]
      rw [hbo]
      by_cases e : o' = o
      · subst e; simp only [upd_self, Option.some.injEq] at ho ⊢; simp [ho, hqm _ (hqh _ _ hqe)]
      · rw [upd_ne _ _ e] at ho
        have := (hqs.co o' r ho).1
        rw [h6 o' r ho]; simp; omega
    · exact h7
  | e2 t o r k hp =>
    obtain ⟨h1, h2, h3, h4, h5, h6, h7⟩ := h
    have hpre : pre (s.pc t) = some o := by rw [hp]; rfl
    have hbg : begun (s.place o) = true := by rw [(hl.r o t (hg o)).2 hpre]; rfl
    have hac : ∀ o' a, s.avail o' = some a → ∀ o'', s.cons o'' ≠ some a := by
      intro o' a h o'' h'
      have e1 := (hqs.av o' a h).2.1
      have e2 := (hqs.co o'' a h').2.1
      rw [e1] at e2
      exact absurd e2 (by simp)
    have l1 := length_dropReq s.toks (s.avail o) h2 (fun x hx => (h5 o x hx).1 hbg)
    have l2 := length_dropReq (dropReq s.toks (s.avail o)) (s.cons o) (nodup_dropReq _ _ h2)
      (fun x hx => (mem_dropReq _ _ _).2 ⟨(h6 o x hx).1 hbg, fun y hy e => by injection e with e; subst e; exact hac o x hy o hx⟩)
    have hcb : (dropReq (dropReq s.toks (s.avail o)) (s.cons o)).length + callbacks s o = s.toks.length := by simp only [callbacks]; omega
    constructor <;> dsimp only
    · omega
    · exact nodup_dropReq _ _ (nodup_dropReq _ _ h2)
    · intro u
      rw [mem_dropReq, mem_dropReq]
      by_cases e : u = t
      · subst e
        rw [upd_self]
        have : Tok.thr u ∉ s.toks := fun hm => by have := (h3 u).1 hm; simp [hp, inExec] at this
        simp [this, inExec]
      · rw [upd_ne _ _ e, ← h3 u]; simp
    · intro r hr
      rw [mem_dropReq, mem_dropReq] at hr
      exact h4 r hr.1.1
    · intro o' r' ho
      rw [mem_dropReq, mem_dropReq]
      by_cases e : o' = o
      · subst e; simp [begun, ho]
      · rw [upd_ne _ _ e, h5 o' r' ho]
        have w1 : ∀ x, s.avail o = some x → ¬ r' = x := fun x hx e' => by subst e'; exact e (hqs.avInj _ _ _ ho hx)
        have w2 : ∀ x, s.cons o = some x → ¬ r' = x := fun x hx e' => by subst e'; exact hac _ _ ho _ hx
        simp only [ne_eq, Tok.req.injEq]
        exact ⟨fun h => ⟨⟨h, w1⟩, w2⟩, fun h => h.1.1⟩
    · intro o' r' ho
      rw [mem_dropReq, mem_dropReq]
      by_cases e : o' = o
      · subst e; simp [begun, ho]
      · rw [upd_ne _ _ e, h6 o' r' ho]
        have w1 : ∀ x, s.avail o = some x → ¬ r' = x := fun x hx e' => by subst e'; exact hac _ _ hx _ ho
        have w2 : ∀ x, s.cons o = some x → ¬ r' = x := fun x hx e' => by subst e'; exact e (hqs.coInj _ _ _ ho hx)
        simp only [ne_eq, Tok.req.injEq]
        exact ⟨fun h => ⟨⟨h, w1⟩, w2⟩, fun h => h.1.1⟩
    · rw [h7, hself o t hpre, hchan o t hpre]; simp; omega
  | xNull t o hp hc =>
    have := hl.chan o (hg o) (hqm o (hl.aim hq o t (by rw [hp]; rfl)))
    rw [hc] at this
    exact absurd this (by simp)
  | xNotFound t o hp hn _ => exact absurd (hl.aim hq o t (by rw [hp]; rfl)) hn
  | cRes t o hp => exact tk_move h rfl rfl rfl rfl rfl (by simp [hbad, hself o t (by rw [hp]; rfl)]) (fun _ => rfl) (inExec_upd _ _ _ (by rw [hp]; rfl))
  | e1 t o k hp => exact tk_move h rfl rfl rfl rfl rfl (by simp [hbad, hself o t (by rw [hp]; rfl)]) (fun _ => rfl) (inExec_upd _ _ _ (by rw [hp]; rfl))
  | e6 t o k hp =>
    exact tk_move h rfl rfl rfl rfl rfl (by simp [hbad, hselfF o t (by rw [hp]; rfl)])
      (begun_upd _ _ _ (by rw [(hl.f o t (hg o)).2 (by rw [hp]; rfl)]; rfl)) (inExec_upd _ _ _ (by rw [hp]; cases k <;> rfl))
  | pullDeqFail t d o rest _ hp _ hqe ha _ =>
    exact tk_move h rfl rfl rfl rfl rfl hbad (begun_upd _ _ _ (by rw [hqm o (hqh _ _ hqe)]; rfl)) (inExec_upd _ _ _ (by rw [hp]; rfl))
  | pushDeqFail t d o rest _ hp _ hqe ha _ =>
    exact tk_move h rfl rfl rfl rfl rfl hbad (begun_upd _ _ _ (by rw [hqm o (hqh _ _ hqe)]; rfl)) (inExec_upd _ _ _ (by rw [hp]; rfl))
  | xFoundQ t o hp ho => exact tk_move h rfl rfl rfl rfl rfl hbad (begun_upd _ _ _ (by rw [hqm o ho]; rfl)) (inExec_upd _ _ _ (by rw [hp]; rfl))
  | xFoundLoc t o hp _ ho =>
    exact tk_move h rfl rfl rfl rfl rfl hbad (begun_upd _ _ _ (by rw [(hl.l o (hg o)).2 ho]; rfl)) (inExec_upd _ _ _ (by rw [hp]; rfl))
  | xSchedOk t o hp =>
    exact tk_move h rfl rfl rfl rfl rfl hbad (begun_upd _ _ _ (by rw [(hl.r o t (hg o)).2 (by rw [hp]; rfl)]; rfl)) (inExec_upd _ _ _ (by rw [hp]; rfl))
  | xSchedFail t o _ hp =>
    exact tk_move h rfl rfl rfl rfl rfl hbad (begun_upd _ _ _ (by rw [(hl.r o t (hg o)).2 (by rw [hp]; rfl)]; rfl)) (inExec_upd _ _ _ (by rw [hp]; rfl))
  | cTake t o hp =>
    exact tk_move h rfl rfl rfl rfl rfl hbad (begun_upd _ _ _ (by rw [hl.t _ _ (hg o) hp]; rfl)) (inExec_upd _ _ _ (by rw [hp]; rfl))
  | work t o hp ho =>
    exact tk_move h rfl rfl rfl rfl rfl hbad (begun_upd _ _ _ (by rw [(hl.p _ (hg o)).2 ho]; rfl)) (inExec_upd _ _ _ (by rw [hp]; rfl))
  | cMove t hp _ =>
    refine tk_move h rfl rfl rfl rfl rfl hbad ?_ (inExec_upd _ _ _ (by rw [hp]; rfl))
    intro o
    dsimp only
    split
    · rename_i ho; rw [hqm o ho]; rfl
    · rfl
  | release o _ _ => exact tk_move h rfl rfl rfl rfl rfl hbad (fun _ => rfl) (fun _ => rfl)
  | _ =>
    refine tk_move h rfl rfl rfl rfl rfl hbad (fun _ => rfl) (inExec_upd _ _ _ ?_)
    simp [inExec, *]

theorem tk {cfg s} (hq : cfg.quiet = true) (h : Reach cfg s) : Tk s := by
  induction h with
  | init => constructor <;> simp [init, inExec]
  | step hr st ih => exact tk_step hq (qs hr) (pl hr) ih st

/-- Every request has its operation. -/
theorem owner {cfg s} (h : Reach cfg s) : ∀ r, r < s.nreq → ∃ o, s.avail o = some r ∨ s.cons o = some r := by
  induction h with
  | init => simp [init]
  | step hr st ih =>
    rename_i s s'
    have hq := qs hr
    have hfa : ∀ o r, s.avail o = some r → o ≠ s.nops := fun o r h e => by have := (hq.av o r h).2.2; omega
    have hfc : ∀ o r, s.cons o = some r → o ≠ s.nops := fun o r h e => by have := (hq.co o r h).2.2; omega
    cases st with
    | pullEnq t d hp _ _ =>
      intro r hr
      dsimp only at hr ⊢
      by_cases e : r = s.nreq
      · exact ⟨s.nops, .inl (by rw [upd_self, e])⟩
      · obtain ⟨o, ho⟩ := ih r (by omega)
        rcases ho with ho | ho
        · exact ⟨o, .inl (by rw [upd_ne _ _ (hfa o r ho)]; exact ho)⟩
        · exact ⟨o, .inr (by rw [upd_ne _ _ (hfc o r ho)]; exact ho)⟩
    | pushEnq t d hp _ _ =>
      intro r hr
      dsimp only at hr ⊢
      by_cases e : r = s.nreq
      · exact ⟨s.nops, .inr (by rw [upd_self, e])⟩
      · obtain ⟨o, ho⟩ := ih r (by omega)
        rcases ho with ho | ho
        · exact ⟨o, .inl (by rw [upd_ne _ _ (hfa o r ho)]; exact ho)⟩
        · exact ⟨o, .inr (by rw [upd_ne _ _ (hfc o r ho)]; exact ho)⟩
    | pullDeq t d o rest c hp _ hqe ha hc _ =>
      intro r hr
      dsimp only at hr ⊢
      by_cases e : r = s.nreq
      · exact ⟨o, .inl (by rw [upd_self, e])⟩
      · obtain ⟨o', ho⟩ := ih r (by omega)
        rcases ho with ho | ho
        · exact ⟨o', .inl (by rw [upd_ne _ _ (fun e => by subst e; rw [ha] at ho; exact absurd ho (by simp))]; exact ho)⟩
        · exact ⟨o', .inr ho⟩
    | pushDeq t d o rest a hp _ hqe hc ha _ =>
      intro r hr
      dsimp only at hr ⊢
      by_cases e : r = s.nreq
      · exact ⟨o, .inr (by rw [upd_self, e])⟩
      · obtain ⟨o', ho⟩ := ih r (by omega)
        rcases ho with ho | ho
        · exact ⟨o', .inl ho⟩
        · exact ⟨o', .inr (by rw [upd_ne _ _ (fun e => by subst e; rw [hc] at ho; exact absurd ho (by simp))]; exact ho)⟩
    | _ => exact ih

/-- An operation created is somewhere. -/
theorem not_fresh {cfg s} (h : Reach cfg s) : ∀ o, o < s.nops → s.place o ≠ .fresh := by
  induction h with
  | init => simp [init]
  | step hr st ih =>
    cases st <;> first
      | exact ih
      | (intro o ho; dsimp only at ho ⊢; simp only [upd]; split
         · simp
         · exact ih o (by omega))
      | (intro o ho; dsimp only at ho ⊢; split
         · simp
         · exact ih o (by omega))

end CUtil.Channel
