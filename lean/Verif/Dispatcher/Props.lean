import Verif.Dispatcher.Lemmas
/-
C42: the call dispatcher, for every interleaving of any number of calls.
-/
namespace CUtil.Dispatcher
open CUtil.Conc
set_option linter.unusedSimpArgs false
set_option linter.unusedVariables false

theorem Steps.reach {s s' : Sys} (st : Steps s s') (r : Reach s) : Reach s' := by
  induction st with
  | refl => exact r
  | step _ st ih => exact ih.step st

/-- **C42**: no call ever touches memory it may not touch: no target is used after it was freed. -/
theorem no_bad {s : Sys} (r : Reach s) : s.bad = false := by
  obtain ⟨es, h, -⟩ := inv_reach r
  exact h.bad

/-- **C42**: a dispatch that returns has called exactly the targets that were registered when it got the lock, each once, in the order of
their registration. -/
theorem dispatch_calls {s : Sys} (r : Reach s) (t : Nat) (h : s.pc t = .dRet) : s.calls t = registered (s.start t) := by
  obtain ⟨es, -, hd⟩ := inv_reach r
  exact (hd t).2.2.2.2.2 h

/-- Registrations are told apart: no number is listed twice, so "each once" above means what it says. -/
theorem registered_nodup {s : Sys} (r : Reach s) : ((registered s.hist).map Prod.fst).Nodup := by
  obtain ⟨es, h, -⟩ := inv_reach r
  rw [h.reg]
  have hn := (List.nodup_cons.mp h.rep.nodup).2
  rw [List.map_map]
  have : ∀ l : List Nat, l.Nodup → (∀ p ∈ l, p ∈ es) → (l.map (Prod.fst ∘ cell s)).Nodup := by
    intro l
    induction l with
    | nil => simp
    | cons x l ih =>
      intro hl hm
      rw [List.nodup_cons] at hl
      rw [List.map_cons, List.nodup_cons]
      refine ⟨?_, ih hl.2 (fun p hp => hm p (by simp [hp]))⟩
      intro hx
      simp only [List.mem_map, Function.comp, cell] at hx
      obtain ⟨q, hq, e⟩ := hx
      have h1 := mem_alive h.rep (hm x (by simp))
      have h2 := mem_alive h.rep (hm q (by simp [hq]))
      have := h.idinj q x h2.1 h2.2 h1.1 h1.2 e
      exact hl.1 (this ▸ hq)
  exact this es hn (fun _ h => h)

/-- **C42**: the history a dispatch works on is the one at the moment it got the lock: between its call and its return. -/
theorem dispatch_start {s s' : Sys} (st : Step s s') (t : Nat) : s'.start t = s.start t ∨ (s.pc t = .dLock ∧ s'.start t = s.hist) := by
  cases st with
  | dLock u hpc he =>
    by_cases h : t = u
    · subst h; right; exact ⟨hpc, by simp⟩
    · left; exact upd_ne _ _ h
  | _ => exact Or.inl rfl

/-- **C42**: what register returns is registered, with the function given, as long as it has not been passed to unregister. -/
theorem register_effective {s : Sys} (r : Reach s) (p : Nat) (h : s.owned p = true ∨ ∃ t, s.pc t = .regRet p) :
    (s.ident p, s.fn p) ∈ registered s.hist := by
  obtain ⟨es, hi, -⟩ := inv_reach r
  have : p ∈ es := by
    rcases h with h | ⟨t, h⟩
    · exact hi.own p h
    · exact hi.ins t p (by simp [h, inside])
  rw [hi.reg]
  exact List.mem_map.mpr ⟨p, this, rfl⟩

/-- **C42**: unregistering removes exactly that registration: the step that changes the list leaves every other one and their order. -/
theorem unregister_removes {s s' : Sys} (st : Step s s') (t p : Nat) (h : s.pc t = .unRem p) (h' : s'.pc t = .unRel p) :
    registered s'.hist = (registered s.hist).filter (fun x => decide (x.1 ≠ s.ident p)) := by
  cases st with
  | unRem u q m r hpc hm =>
    by_cases hu : t = u
    · subst hu
      rw [hpc] at h; injection h with h; subst h
      exact registered_snoc _ _
    · dsimp only at h'; rw [upd_ne _ _ hu, h] at h'; cases h'
  | _ => exfalso; simp only [upd] at h'; grind

/-- The registration `i` has been unregistered for good. -/
def Gone (s : Sys) (i : Nat) : Prop := i < s.fresh ∧ ∀ p, s.mem.alive p = true → p ≠ 0 → s.ident p ≠ i

/-- A registration that is gone is not listed. -/
theorem gone_not_registered {s : Sys} (r : Reach s) {i : Nat} (h : Gone s i) : ∀ f, (i, f) ∉ registered s.hist := by
  obtain ⟨es, hi, -⟩ := inv_reach r
  intro f hf
  rw [hi.reg] at hf
  obtain ⟨p, hp, e⟩ := List.mem_map.mp hf
  have hp' := mem_alive hi.rep hp
  simp only [cell, Prod.mk.injEq] at e
  exact h.2 p hp'.1 hp'.2 e.1

theorem gone_step {s s' : Sys} (r : Reach s) (st : Step s s') {i : Nat} (h : Gone s i) : Gone s' i := by
  obtain ⟨es, hi, -⟩ := inv_reach r
  obtain ⟨h1, h2⟩ := h
  cases st with
  | register t p f hpc ha =>
    refine ⟨Nat.lt_succ_of_lt h1, ?_⟩
    intro q hq hq0
    by_cases e : q = p
    · subst e; simp only [upd_self]; omega
    · simp only [upd_ne _ _ e] at hq ⊢; exact h2 q hq hq0
  | regIns t p m hpc hm =>
    have ho := hi.outs t p (by simp [hpc, outside])
    obtain ⟨m', em, -, fr⟩ := DList.insertTailList_spec s.mem 0 p es hi.rep (by simp [ho.2.1, ho.2.2]) ho.1
    rw [hm] at em; injection em with em; subst em
    exact ⟨h1, by dsimp only; rw [fr.alive]; exact h2⟩
  | unRem t p m r hpc hm =>
    obtain ⟨a, b, rfl⟩ := mem_split (hi.ins t p (by simp [hpc, inside]))
    obtain ⟨m', em, -, fr⟩ := DList.removeEntryList_spec s.mem 0 p a b hi.rep
    rw [hm] at em; injection em with em; injection em with em em2; subst em
    exact ⟨h1, by dsimp only; rw [fr.alive]; exact h2⟩
  | unFree t p hpc =>
    refine ⟨h1, ?_⟩
    intro q hq hq0
    by_cases e : q = p
    · subst e; simp at hq
    · simp only [upd_ne _ _ e] at hq; exact h2 q hq hq0
  | _ => exact ⟨h1, h2⟩

/-- What a step adds to the calls of a dispatch is registered at that moment. -/
theorem call_registered {s s' : Sys} (r : Reach s) (st : Step s s') (u i f : Nat) (h : s'.calls u = s.calls u ++ [(i, f)]) :
    (i, f) ∈ registered s.hist := by
  obtain ⟨es, hi, hd⟩ := inv_reach r
  cases st with
  | dCall t p hpc h0 =>
    by_cases e : u = t
    · subst e
      simp only [upd_self, List.append_cancel_left_eq, List.cons.injEq, and_true] at h
      obtain ⟨-, pre, post, h2, h3, h4⟩ := (hd u).2.2.1 p hpc
      have hp : p ∈ es := by
        cases post with
        | nil => simp at h4; exact absurd h4 h0
        | cons x post => simp at h4; subst h4; simp [h2]
      rw [hi.reg]
      exact List.mem_map.mpr ⟨p, hp, h⟩
    · simp [upd_ne _ _ e] at h
  | dispatch t hpc =>
    by_cases e : u = t
    · subst e; simp at h
    · simp [upd_ne _ _ e] at h
  | _ => simp at h

/-- **C42**: once unregister has returned, the target is never called again, whatever happens. -/
theorem no_call_after_unregister {s s' s'' : Sys} (r : Reach s) (t i : Nat) (h : s.pc t = .unRet i) (st : Steps s s') (st' : Step s' s'') (u f : Nat) :
    s''.calls u ≠ s'.calls u ++ [(i, f)] := by
  have hg : Gone s' i ∧ Reach s' := by
    clear st'
    induction st with
    | refl =>
      obtain ⟨es, hi, -⟩ := inv_reach r
      exact ⟨hi.gone t i h, r⟩
    | step _ st ih =>
      rename_i s1 s2 hs
      exact ⟨gone_step ih.2 st ih.1, ih.2.step st⟩
  intro hc
  exact gone_not_registered hg.2 hg.1 f (call_registered hg.2 st' u i f hc)

/-- **C42**: while a dispatch runs, nothing is registered or unregistered: a target that unregisters itself (or anything else) from within
its own call waits for a lock its own thread holds. -/
theorem frozen_while_dispatching {s s' : Sys} (r : Reach s) (st : Step s s') (u : Nat) (h : isShared (s.pc u) = true) :
    s'.hist = s.hist ∧ s'.excl = s.excl ∧ ∀ t p, s.pc t = .unLock p → s'.pc t = .unLock p := by
  obtain ⟨es, hi, -⟩ := inv_reach r
  have hs := (hi.sh u).mpr h
  have hx : ∀ t, isExcl (s.pc t) = false := by
    intro t
    cases hq : isExcl (s.pc t) with
    | false => rfl
    | true => have := hi.exsh t ((hi.ex t).mpr hq) u; rw [hs] at this; cases this
  cases st with
  | regIns t p m hpc hm => have := hx t; simp [hpc, isExcl] at this
  | unRem t p m r hpc hm => have := hx t; simp [hpc, isExcl] at this
  | regRel t p hpc => have := hx t; simp [hpc, isExcl] at this
  | unRel t p hpc => have := hx t; simp [hpc, isExcl] at this
  | regLock t p hpc he hn => have := hn u; rw [hs] at this; cases this
  | unLock t p hpc he hn => have := hn u; rw [hs] at this; cases this
  | regInsBad _ _ _ _ => exact ⟨rfl, rfl, fun _ _ h => h⟩
  | unRemBad _ _ _ _ => exact ⟨rfl, rfl, fun _ _ h => h⟩
  | dHeadBad _ _ _ => exact ⟨rfl, rfl, fun _ _ h => h⟩
  | dNextBad _ _ _ _ => exact ⟨rfl, rfl, fun _ _ h => h⟩
  | register t p f hpc ha => exact ⟨rfl, rfl, fun v q hv => by dsimp only; rw [upd_ne _ _ (by rintro rfl; simp [hv] at hpc)]; exact hv⟩
  | regRet t p hpc => exact ⟨rfl, rfl, fun v q hv => by dsimp only; rw [upd_ne _ _ (by rintro rfl; simp [hv] at hpc)]; exact hv⟩
  | unregister t p hpc ho => exact ⟨rfl, rfl, fun v q hv => by dsimp only; rw [upd_ne _ _ (by rintro rfl; simp [hv] at hpc)]; exact hv⟩
  | unFree t p hpc => exact ⟨rfl, rfl, fun v q hv => by dsimp only; rw [upd_ne _ _ (by rintro rfl; simp [hv] at hpc)]; exact hv⟩
  | unRet t i hpc => exact ⟨rfl, rfl, fun v q hv => by dsimp only; rw [upd_ne _ _ (by rintro rfl; simp [hv] at hpc)]; exact hv⟩
  | dispatch t hpc => exact ⟨rfl, rfl, fun v q hv => by dsimp only; rw [upd_ne _ _ (by rintro rfl; simp [hv] at hpc)]; exact hv⟩
  | dLock t hpc he => exact ⟨rfl, rfl, fun v q hv => by dsimp only; rw [upd_ne _ _ (by rintro rfl; simp [hv] at hpc)]; exact hv⟩
  | dHead t p hpc hm => exact ⟨rfl, rfl, fun v q hv => by dsimp only; rw [upd_ne _ _ (by rintro rfl; simp [hv] at hpc)]; exact hv⟩
  | dEnd t hpc => exact ⟨rfl, rfl, fun v q hv => by dsimp only; rw [upd_ne _ _ (by rintro rfl; simp [hv] at hpc)]; exact hv⟩
  | dCall t p hpc h0 => exact ⟨rfl, rfl, fun v q hv => by dsimp only; rw [upd_ne _ _ (by rintro rfl; simp [hv] at hpc)]; exact hv⟩
  | dNext t p q' hpc hm => exact ⟨rfl, rfl, fun v q hv => by dsimp only; rw [upd_ne _ _ (by rintro rfl; simp [hv] at hpc)]; exact hv⟩
  | dRel t hpc => exact ⟨rfl, rfl, fun v q hv => by dsimp only; rw [upd_ne _ _ (by rintro rfl; simp [hv] at hpc)]; exact hv⟩
  | dRet t hpc => exact ⟨rfl, rfl, fun v q hv => by dsimp only; rw [upd_ne _ _ (by rintro rfl; simp [hv] at hpc)]; exact hv⟩

/-- **C42**: freeing the dispatcher frees every target still registered, each once, and touches nothing freed. -/
theorem freeTargets_spec (es : List Nat) : ∀ (fuel : Nat) (m : DList.Heap) (freed : List Nat), DList.Rep m 0 es → es.length < fuel →
    ∃ m', freeTargets fuel m freed = C.ok (some (m', freed ++ es)) ∧ (∀ p ∈ es, m'.alive p = false) ∧ (∀ p, p ∉ es → m'.alive p = m.alive p) := by
  induction es with
  | nil =>
    intro fuel m freed r hf
    obtain ⟨fuel, rfl⟩ : ∃ k, fuel = k + 1 := ⟨fuel - 1, by simp at hf; omega⟩
    refine ⟨m, ?_, by simp, fun _ _ => rfl⟩
    have h0 := flink_head r
    simp only [freeTargets, DList.getF_of (r.alive 0 (by simp)), C.ok_bind, h0]
    simp [C.pure_eq]
  | cons e es ih =>
    intro fuel m freed r hf
    obtain ⟨fuel, rfl⟩ : ∃ k, fuel = k + 1 := ⟨fuel - 1, by simp at hf; omega⟩
    have h0 := flink_head r
    have he := mem_alive r (p := e) (by simp)
    obtain ⟨m1, em, r1, fr⟩ := DList.removeEntryList_spec m 0 e [] es r
    simp only [List.nil_append] at em r1 fr
    have hn : e ∉ es := (List.nodup_cons.mp (List.nodup_cons.mp r.nodup).2).1
    have r2 := rep_alive r1 e false he.2 hn
    obtain ⟨m', e1, e2, e3⟩ := ih fuel _ (freed ++ [e]) r2 (by simp at hf; omega)
    refine ⟨m', ?_, ?_, ?_⟩
    · simp only [freeTargets, DList.getF_of (r.alive 0 (by simp)), C.ok_bind, h0, List.cons_append, List.headD_cons]
      rw [if_neg he.2, em]
      simp only [C.ok_bind]
      rw [if_pos (by rw [fr.alive]; exact he.1), e1]
      simp
    · intro p hp
      rcases List.mem_cons.mp hp with rfl | hp
      · rw [e3 p hn]; simp
      · exact e2 p hp
    · intro p hp
      simp only [List.mem_cons, not_or] at hp
      rw [e3 p hp.2]
      simp only [upd_ne _ _ hp.1, fr.alive]

/-- **C42**: in any state in which no call is in progress, freeing leaves no target allocated. -/
theorem free_leaves_nothing {s : Sys} (r : Reach s) : ∃ es fuel m', DList.Rep s.mem 0 es ∧ freeTargets fuel s.mem [] = C.ok (some (m', es)) ∧
    (∀ p, s.owned p = true → m'.alive p = false) := by
  obtain ⟨es, h, -⟩ := inv_reach r
  obtain ⟨m', h1, h2, -⟩ := freeTargets_spec es (es.length + 1) s.mem [] h.rep (by omega)
  exact ⟨es, es.length + 1, m', h.rep, h1, fun p hp => h2 p (h.own p hp)⟩

/-! ## The theorems speak about executions that exist -/

/-- Two registrations, a dispatch that calls both, an unregistration, a dispatch that calls the other one. -/
example : ∃ s, Reach s ∧ s.pc 1 = .dRet ∧ s.calls 1 = [(0, 70), (1, 71)] := by
  have h1 := Reach.init.step (.register _ 0 5 70 rfl rfl)
  have h2 := h1.step (.regLock _ 0 5 (by simp) rfl (fun _ => rfl))
  have h3 := h2.step (.regIns _ 0 5 _ (by simp) rfl)
  have h4 := h3.step (.regRel _ 0 5 (by simp))
  have h5 := h4.step (.regRet _ 0 5 (by simp))
  have h6 := h5.step (.register _ 0 9 71 (by simp) rfl)
  have h7 := h6.step (.regLock _ 0 9 (by simp) rfl (fun _ => rfl))
  have h8 := h7.step (.regIns _ 0 9 _ (by simp) rfl)
  have h9 := h8.step (.regRel _ 0 9 (by simp))
  have h10 := h9.step (.regRet _ 0 9 (by simp))
  have g1 := h10.step (.dispatch _ 1 rfl)
  have g2 := g1.step (.dLock _ 1 (by simp) rfl)
  have g3 := g2.step (.dHead _ 1 5 (by simp) rfl)
  have g4 := g3.step (.dCall _ 1 5 (by simp) (by simp))
  have g5 := g4.step (.dNext _ 1 5 9 (by simp) rfl)
  have g6 := g5.step (.dCall _ 1 9 (by simp) (by simp))
  have g7 := g6.step (.dNext _ 1 9 0 (by simp) rfl)
  have g8 := g7.step (.dEnd _ 1 (by simp))
  have g9 := g8.step (.dRel _ 1 (by simp))
  exact ⟨_, g9, by simp, rfl⟩

/-- The premise of `no_call_after_unregister`, and of `frozen_while_dispatching` in between. -/
example : ∃ s, Reach s ∧ s.pc 0 = .unRet 0 ∧ s.fresh = 1 := by
  have h1 := Reach.init.step (.register _ 0 5 70 rfl rfl)
  have h2 := h1.step (.regLock _ 0 5 (by simp) rfl (fun _ => rfl))
  have h3 := h2.step (.regIns _ 0 5 _ (by simp) rfl)
  have h4 := h3.step (.regRel _ 0 5 (by simp))
  have h5 := h4.step (.regRet _ 0 5 (by simp))
  have h6 := h5.step (.unregister _ 0 5 (by simp) (by simp))
  have h7 := h6.step (.unLock _ 0 5 (by simp) rfl (fun _ => rfl))
  have h8 := h7.step (.unRem _ 0 5 _ _ (by simp) rfl)
  have h9 := h8.step (.unRel _ 0 5 (by simp))
  have h10 := h9.step (.unFree _ 0 5 (by simp))
  exact ⟨_, h10, by simp [upd, init], rfl⟩

/-- A target that unregisters itself: the dispatch is at its target, the unregistration waits for the lock. -/
example : ∃ s, Reach s ∧ isShared (s.pc 1) = true ∧ s.pc 2 = .unLock 5 := by
  have h1 := Reach.init.step (.register _ 0 5 70 rfl rfl)
  have h2 := h1.step (.regLock _ 0 5 (by simp) rfl (fun _ => rfl))
  have h3 := h2.step (.regIns _ 0 5 _ (by simp) rfl)
  have h4 := h3.step (.regRel _ 0 5 (by simp))
  have h5 := h4.step (.regRet _ 0 5 (by simp))
  have g1 := h5.step (.dispatch _ 1 rfl)
  have g2 := g1.step (.dLock _ 1 (by simp) rfl)
  have g3 := g2.step (.dHead _ 1 5 (by simp) rfl)
  have g4 := g3.step (.dCall _ 1 5 (by simp) (by simp))
  have g5 := g4.step (.unregister _ 2 5 (by simp [upd, init]) (by simp))
  exact ⟨_, g5, by simp [upd, isShared], by simp⟩

end CUtil.Dispatcher
