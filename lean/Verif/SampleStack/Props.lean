import Verif.SampleStack.Lemmas
set_option linter.unusedSimpArgs false
set_option linter.unusedVariables false
/-
C83: a stack of any height of the sample modules that forward a call, under every interleaving of the call, its completion, a cancel and an owner who destroys the modules.
-/
namespace CUtil.SampleStack
open CUtil.Conc

variable {n : Nat} {s s' : Sys}

/-- No call, completion, cancel or dispose function is going on. -/
def Quiet (n : Nat) (s : Sys) : Prop :=
  (∃ b, s.epc n = .ret b) ∧ (∀ i, i ≤ n → s.kpc i = .idle ∨ s.kpc i = .fin) ∧ (∀ i, i ≤ n → s.cpc i = .idle ∨ s.cpc i = .done) ∧
    ∀ i, ¬ (s.freed (i + 1) = true ∧ s.tok i = .stored)

theorem of_top (i : Inv n s) (h : s.epc n = .ret true) {j : Nat} (hj : j ≤ n) : s.epc j = .ret true := by
  rcases Nat.lt_or_ge j n with hl | hl
  · exact (i.e.up n j hl).resolve_right (by rw [h]; simp [EPc.up])
  · rw [Nat.le_antisymm hj hl]; exact h

theorem all_fin (i : Inv n s) (h : s.kpc 0 = .fin) {j : Nat} (hj : j ≤ n) : s.kpc j = .fin := by
  rcases Nat.eq_zero_or_pos j with h0 | h0
  · rw [h0]; exact h
  · exact (i.k.fi 0 j h0 hj).resolve_right (by rw [h]; simp [KPc.over])

theorem of_active (i : Inv n s) {j : Nat} (h : (s.cpc j).active = true) : s.epc j = .ret true :=
  of_top i (i.c.ca j h).2.1 (i.c.ca j h).1

set_option maxHeartbeats 4000000 in
theorem badOp_step (i : Inv n s) (h : s.badOp = false) (st : Step n s s') : s'.badOp = false := by
  have h1 := i.f.cb
  have h2 := i.f.fr
  have h3 := i.f.ls
  have h4 := i.o.bo
  have h5 := i.o.ho
  have h6 : ∀ j, s.kpc j ≠ .idle → (s.epc j).good = true := fun j hj => by
    refine i.e.ac j (fun h0 => hj (i.e.na j h0).2) (Nat.le_of_not_lt fun hn => hj (i.k.hk j hn))
  have h7 : ∀ j, (s.cpc j).active = true → s.epc j = .ret true ∧ s.freed j = false ∧ s.tok j ≠ .none := fun j hj => by
    refine ⟨of_active i hj, ?_, ?_⟩
    · cases hf : s.freed j with
      | false => rfl
      | true =>
        have a := ((h2 j).1 hf).1
        have b := (i.c.ca j hj).2.2
        rw [a] at b
        simp at b
    · have b := (i.c.ca j hj).2.2
      intro a
      rw [a] at b
      simp at b
  have h8 := EPc.of_good
  have h9 : ∀ j, s.epc (j + 1) = .store → s.tok j = .var := fun j hj => by
    have f2 : j + 1 ≤ n := Nat.le_of_not_lt fun hn => by rw [i.e.hi _ hn] at hj; cases hj
    have f3 := (i.e.up (j + 1) j (Nat.lt_succ_self j)).resolve_right (by rw [hj]; simp [EPc.up])
    rcases i.o.vs j (j + 1) (Nat.lt_succ_self j) (Nat.le_refl _) f2 with h | h | h
    · exact absurd f3 h
    · simp_all [EPc.stored]
    · exact h
  have h10 : ∀ j, s.epc j = .relCb → s.kpc j = .idle := fun j hj => by
    refine Classical.byContradiction fun hk => ?_
    have := h6 j hk
    rw [hj] at this
    cases this
  have h11 := i.o.cl
  clear i
  cases st <;> simp only [upd_apply, relTok, relCb, touch] at * <;> grind

/-- C83: for a stack of any height, no operation is used before it is there or after it was freed, no reference is released that is not held, and a cancel always finds the operation of the layer below. -/
theorem operations_safe (h : Reach n s) : s.badOp = false := by
  induction h with
  | init => rfl
  | step h st ih => exact badOp_step (inv_reach h) ih st

set_option maxHeartbeats 4000000 in
theorem badModule_step (i : Inv n s) (h : s.badModule = false) (st : Step n s s') : s'.badModule = false := by
  have h1 := i.m.me
  have h2 := i.m.dn
  have h3 : ∀ j r, s.kpc j = .endSm r → s.inExec j = true := fun j r hj => by
    refine i.m.mk' j (Nat.pos_of_ne_zero fun h0 => ?_) (i.e.ac j (fun h0 => ?_) (Nat.le_of_not_lt fun hn => ?_)) (by rw [hj]; rfl)
    · subst h0; exact i.k.k1 r hj
    · have := (i.e.na j h0).2; rw [hj] at this; cases this
    · have := i.k.hk j hn; rw [hj] at this; cases this
  clear i
  cases st <;> simp only [upd_apply, relTok, relCb, touchM] at * <;> grind

/-- C83: if the owner destroys the modules from the top, no module is used after it was freed, whatever is still going on in execute_async, in the completion and in the client, and every call that was granted is ended once. -/
theorem modules_safe (h : Reach n s) : s.badModule = false := by
  induction h with
  | init => rfl
  | step h st ih => exact badModule_step (inv_reach h) ih st

/-- C83: the client's callback is called at most once. -/
theorem callback_once (h : Reach n s) : s.calls.length ≤ 1 := by
  have i := (inv_reach h).r
  cases hb : (s.kpc n).before with
  | true => rw [i.c0 hb]; exact Nat.zero_le _
  | false =>
    obtain ⟨g, _, e⟩ := i.c1 hb
    rw [e]; exact Nat.le_refl _

/-- C83: when the top layer has said that it failed, the callback is not called, now or later, no layer counts a call as going on, no work was started, and every operation that was created at any layer is freed. -/
theorem failed_silent (h : Reach n s) (hr : s.epc n = .ret false) :
    s.calls = [] ∧ (∀ i, s.kpc i = .idle) ∧ (∀ i, i ≤ n → s.inExec i = false ∧ (s.tok i = .none ∨ s.freed i = true)) := by
  have i := inv_reach h
  have h0 : s.kpc 0 = .idle := Classical.byContradiction fun hk => by
    have := i.e.ac n hk (Nat.le_refl n)
    rw [hr] at this
    cases this
  have hk : ∀ j, s.kpc j = .idle := fun j => (i.e.na j h0).2
  refine ⟨i.r.c0 (by rw [hk]; rfl), hk, fun j hj => ?_⟩
  have hu := (i.e.na j h0).1
  have ha : (s.epc j).act = false := by
    rcases Nat.lt_or_ge j n with hl | hl
    · exact (i.e.de j n hl (Nat.le_refl n)).resolve_left (by rw [hr]; simp)
    · rw [Nat.le_antisymm hj hl, hr]; rfl
  have h1 := i.m.mb j
  have h2 := i.o.no j
  have h3 := i.o.hc j
  have h4 := i.o.vt j
  have h5 := i.o.ss j (j + 1) (Nat.lt_succ_self j) (Nat.le_refl _)
  have h5' := (i.e.na (j + 1) h0).1
  have h5'' := EPc.of_stored (s.epc (j + 1))
  have h6 := i.o.cl j
  have h7 := i.f.cb j
  have h8 := i.f.fr j
  have h9 : s.epc j = .idle ∨ s.epc j = .ret false := by
    cases he : s.epc j with
    | idle => exact .inl rfl
    | ret b => cases b with
      | false => exact .inr rfl
      | true => rw [he] at hu; cases hu
    | _ => rw [he] at ha; cases ha
  constructor
  · cases hb : s.inExec j with
    | false => rfl
    | true =>
      have := h1 hb
      rcases h9 with e | e <;> rw [e] at this <;> simp [EPc.mine, EPc.good] at this
  · rcases h9 with e | e <;> rw [e] at h2 h3 h4 h7 <;> cases ht : s.tok j <;> simp_all [EPc.early, EPc.holds, EPc.refd]

/-- C83: when the top layer has said that it succeeded and the completion is through, the callback was called exactly once, with the result of the work, where each layer turns everything but "ok" and "canceled" into "error". -/
theorem succeeded_called (h : Reach n s) (hr : s.epc n = .ret true) (h0 : s.kpc 0 = .idle ∨ s.kpc 0 = .fin) :
    ∃ r, s.got = some r ∧ s.calls = [if n = 0 then r else r.passed] := by
  have i := inv_reach h
  have h1 : s.kpc 0 ≠ .idle := fun e => by
    have := (i.e.na n e).1
    rw [hr] at this
    cases this
  have h2 := h0.resolve_left h1
  have h3 := all_fin i h2 (Nat.le_refl n)
  obtain ⟨g, e1, e2⟩ := i.r.c1 (by rw [h3]; rfl)
  exact ⟨g, e1, e2⟩

/-- C83: when the client's callback is called, no layer counts the call as going on: the callback may close any of the modules. -/
theorem callback_may_close (h : Reach n s) (hc : (∃ r, s.kpc n = .call r) ∨ s.calls ≠ []) (i : Nat) (hi : 0 < i) (hn : i ≤ n) : s.inExec i = false := by
  have v := inv_reach h
  have hk : s.kpc n ≠ .idle ∧ (s.kpc n).auth = false := by
    rcases hc with ⟨r, e⟩ | e
    · rw [e]; exact ⟨by simp, rfl⟩
    · cases hp : s.kpc n with
      | idle | running | endSm _ | call _ => exact absurd (v.r.c0 (by rw [hp]; rfl)) e
      | _ => exact ⟨by simp, rfl⟩
  have h0 : s.kpc 0 ≠ .idle := fun e => hk.1 (v.e.na n e).2
  have hb : (s.kpc i).auth = false := by
    rcases Nat.lt_or_ge i n with hl | hl
    · have h1 := v.k.hg i n hl
      have h2 := h1.resolve_left hk.1
      cases hp : s.kpc i <;> simp_all [KPc.before, KPc.auth]
    · rw [Nat.le_antisymm hn hl]; exact hk.2
  cases he : s.inExec i with
  | false => rfl
  | true =>
    rcases v.m.mb i he with h1 | ⟨_, h1⟩
    · have h2 := (EPc.of_good _ (v.e.ac i h0 hn)).1
      rw [h1] at h2; cases h2
    · rw [h1] at hb; cases hb

/-- C83: when a cancel by the client is through, the work at the bottom of the stack was canceled. -/
theorem cancel_reaches (h : Reach n s) (hc : s.cpc n = .done) : s.canceled = true := (inv_reach h).c.cd n hc

/-- C83: when nothing is going on any more and the client has released its handle, or has none, every operation that was created at any layer is freed. -/
theorem everything_freed (h : Reach n s) (hq : Quiet n s) (hc : s.tok n ≠ .client) (j : Nat) (hj : j ≤ n) : s.tok j = .none ∨ s.freed j = true := by
  obtain ⟨⟨b, q1⟩, q2, q3, q4⟩ := hq
  cases b with
  | false => exact ((failed_silent h q1).2.2 j hj).2
  | true =>
    have i := inv_reach h
    have hk : s.kpc 0 ≠ .idle := fun e => by
      have := (i.e.na n e).1
      rw [q1] at this
      cases this
    have hf := (q2 0 (Nat.zero_le n)).resolve_left hk
    have gone : ∀ j, j ≤ n → s.tok j = .gone → s.freed j = true := fun j hj ht => by
      have h1 := i.f.cb j
      rw [all_fin i hf hj] at h1
      refine (i.f.fr j).2 ⟨ht, ?_⟩
      cases hb : s.cbr j with
      | false => rfl
      | true => exact absurd rfl (h1.1 hb).2
    have key : ∀ d j, j + d = n → s.freed j = true := by
      intro d
      induction d with
      | zero =>
        intro j hd
        have hjn : j = n := by omega
        subst hjn
        refine gone j (Nat.le_refl j) ?_
        have t1 := i.o.hc j
        have t2 := i.o.bo j
        have t3 := i.o.sn j
        rw [q1] at t1 t2
        cases ht : s.tok j <;> simp_all [EPc.holds, EPc.good]
      | succ d ih =>
        intro j hd
        have h1 := ih (j + 1) (by omega)
        refine gone j (by omega) ?_
        have g1 := of_top i q1 (j := j) (by omega)
        have g2 := of_top i q1 (j := j + 1) (by omega)
        have t1 := i.o.hc j
        have t2 := i.o.bo j
        have t3 := i.o.vr j (j + 1) (Nat.lt_succ_self j) (Nat.le_refl _)
        have t4 := i.o.cl j
        have t5 := q4 j
        rw [g1] at t1 t2
        rw [g2] at t3
        rw [h1] at t5
        cases ht : s.tok j <;> simp_all [EPc.holds, EPc.good]
    exact .inr (key (n - j) j (by omega))

/-- A reachable state of a stack of two modules, the sample's: the call has gone down to layer 0. -/
theorem down : ∃ s, Reach 2 s ∧ s.epc 2 = .inLower ∧ s.epc 1 = .inLower ∧ s.epc 0 = .ask ∧ s.tok 2 = .caller ∧ s.tok 1 = .caller ∧ s.cbr 2 = true ∧ s.cbr 1 = true ∧
    s.freed 2 = false ∧ s.freed 1 = false ∧ s.freed 0 = false ∧ s.cpc 2 = .idle ∧ s.calls = [] ∧ s.destroyed 2 = false ∧ s.destroyed 1 = false :=
  ⟨_, Reach.init
    |>.step (.start _ rfl rfl)
    |>.step (.beginOk _ 2 (by decide) rfl)
    |>.step (.createOk _ 2 rfl)
    |>.step (.ref _ 2 rfl)
    |>.step (.call _ 1 rfl)
    |>.step (.beginOk _ 1 (by decide) rfl)
    |>.step (.createOk _ 1 rfl)
    |>.step (.ref _ 1 rfl)
    |>.step (.call _ 0 rfl), rfl, rfl, rfl, rfl, rfl, rfl, rfl, rfl, rfl, rfl, rfl, rfl, rfl, rfl⟩

/-- The work completes with `r` before execute_async of the middle layer has returned; the completion has gone up to the top layer, and the modules can be destroyed from then on. -/
theorem up (r : Res) : ∃ s, Reach 2 s ∧ s.epc 2 = .inLower ∧ s.epc 1 = .inLower ∧ s.epc 0 = .ret true ∧ s.tok 2 = .caller ∧ s.tok 1 = .caller ∧ s.tok 0 = .var ∧ s.cbr 2 = true ∧ s.cbr 1 = true ∧ s.cbr 0 = true ∧
    s.freed 2 = false ∧ s.freed 1 = false ∧ s.freed 0 = false ∧ s.cpc 2 = .idle ∧ s.calls = [] ∧ s.destroyed 2 = false ∧ s.destroyed 1 = false ∧
    s.kpc 2 = .call r.passed ∧ s.kpc 1 = .inUpper ∧ s.kpc 0 = .inUpper ∧ s.inExec 2 = false ∧ s.inExec 1 = false := by
  obtain ⟨s, rs, a⟩ := down
  have r1 := rs.step (.accept s (by simp [a]))
  have r2 := r1.step (.complete _ r (by simp [upd]))
  have r3 := r2.step (.callUp _ 0 r (by decide) (by simp [upd]))
  have r4 := r3.step (.endSm _ 1 r (by simp [upd, out]))
  have r5 := r4.step (.callUp _ 1 r (by decide) (by simp [upd]))
  have r6 := r5.step (.endSm _ 2 r.passed (by simp [upd, out]))
  exact ⟨_, r6, by simp [upd, a]⟩

/-- The same after all completion functions have returned. -/
theorem upped (r : Res) : ∃ s, Reach 2 s ∧ s.epc 2 = .inLower ∧ s.epc 1 = .inLower ∧ s.epc 0 = .ret true ∧ s.tok 2 = .caller ∧ s.tok 1 = .caller ∧ s.tok 0 = .var ∧ s.cbr 2 = false ∧ s.cbr 1 = false ∧ s.cbr 0 = false ∧
    s.freed 2 = false ∧ s.freed 1 = false ∧ s.freed 0 = false ∧ s.cpc 2 = .idle ∧ s.calls = [r.passed.passed] ∧ s.destroyed 2 = true ∧ s.destroyed 1 = true ∧ s.kpc 0 = .fin := by
  obtain ⟨s, rs, a⟩ := up r
  have r1 := rs.step (.destroy s 2 (by decide) (by simp) (by simp [a]) (by simp [a]) (by simp) (by simp [upd, a]))
  have r2 := r1.step (.destroy _ 1 (by decide) (by simp [upd]) (by simp [a]) (by simp [a]) (by simp) (by simp [upd, a]))
  have r3 := r2.step (.callClient _ r.passed (by simp [a]))
  have r4 := r3.step (.relK _ 2 (by simp [upd]))
  have r5 := r4.step (.upReturned _ 1 (by simp [upd, relCb, a]) (by simp [upd, relCb]))
  have r6 := r5.step (.relK _ 1 (by simp [upd]))
  have r7 := r6.step (.upReturned _ 0 (by simp [upd, relCb, a]) (by simp [upd, relCb]))
  have r8 := r7.step (.relK _ 0 (by simp [upd]))
  exact ⟨_, r8, by simp [upd, relCb, out, a]⟩

/-- The hypotheses are met by a stack of two modules, the sample's: a call whose completion comes before execute_async of the middle layer has returned, and whose modules are destroyed meanwhile. -/
theorem returned (r : Res) : ∃ s, Reach 2 s ∧ s.epc 2 = .ret true ∧ s.kpc 0 = .fin ∧ s.calls = [r.passed.passed] ∧ s.destroyed 1 = true ∧ s.tok 2 = .client ∧ s.tok 1 = .stored ∧ s.tok 0 = .stored ∧ s.llset 2 = true ∧ s.llset 1 = true ∧
    s.cbr 2 = false ∧ s.cbr 1 = false ∧ s.cbr 0 = false ∧ s.cpc 2 = .idle := by
  obtain ⟨s, rs, a⟩ := upped r
  have r1 := rs.step (.lowerOk s 0 (by simp [a]) (by simp [a]))
  have r2 := r1.step (.store _ 0 (by simp [upd]))
  have r3 := r2.step (.out _ 1 (by simp [upd]))
  have r4 := r3.step (.lowerOk _ 1 (by simp [upd, a]) (by simp [upd]))
  have r5 := r4.step (.store _ 1 (by simp [upd]))
  have r6 := r5.step (.out _ 2 (by simp [upd]))
  exact ⟨_, r6, by simp [upd, a]⟩

/-- Then the client cancels. -/
example : ∃ s, Reach 2 s ∧ s.epc 2 = .ret true ∧ s.kpc 0 = .fin ∧ s.calls = [.error] ∧ s.cpc 2 = .done ∧ s.tok 2 = .client := by
  obtain ⟨s, rs, a⟩ := returned .retry
  have r1 := rs.step (.cancel s (by simp [a]) (by simp [a]))
  have r2 := r1.step (.cancelDown _ 1 (by simp [upd]))
  have r3 := r2.step (.cancelDown _ 0 (by simp [upd]))
  have r4 := r3.step (.cancelWork _ (by simp [upd]))
  have r5 := r4.step (.cancelled _ 0 (by simp [upd]) (by simp [upd]))
  have r6 := r5.step (.cancelled _ 1 (by simp [upd]) (by simp [upd]))
  exact ⟨_, r6, by simp [upd, a, Res.passed]⟩

/-- Or the client releases its handle, and all operations are freed. -/
example : ∃ s, Reach 2 s ∧ s.epc 2 = .ret true ∧ s.destroyed 1 = true ∧ s.tok 2 = .gone ∧ s.freed 2 = true ∧ s.freed 1 = true ∧ s.freed 0 = true := by
  obtain ⟨s, rs, a⟩ := returned .ok
  have r1 := rs.step (.drop s (by simp [a]) (by simp [a]))
  have r2 := r1.step (.dispose _ 1 (by simp [upd, relTok, a]) (by simp [upd, relTok, a]))
  have r3 := r2.step (.dispose _ 0 (by simp [upd, relTok, a]) (by simp [upd, relTok, a]))
  exact ⟨_, r3, by simp [upd, relTok, a]⟩

/-- The hypotheses of `failed_silent` are met: the layer at the bottom refuses, and all layers above it give up. -/
example : ∃ s, Reach 2 s ∧ s.epc 2 = .ret false ∧ s.freed 2 = true ∧ s.freed 1 = true := by
  obtain ⟨s, rs, a⟩ := down
  have r1 := rs.step (.refuse s (by simp [a]))
  have r2 := r1.step (.lowerFailed _ 0 (by simp [upd, a]) (by simp [upd]))
  have r3 := r2.step (.relCbE _ 1 (by simp [upd]))
  have r4 := r3.step (.relE _ 1 (by simp [upd]))
  have r5 := r4.step (.endExec _ 1 (by simp [upd]))
  have r6 := r5.step (.lowerFailed _ 1 (by simp [upd, relTok, relCb, a]) (by simp [upd]))
  have r7 := r6.step (.relCbE _ 2 (by simp [upd]))
  have r8 := r7.step (.relE _ 2 (by simp [upd]))
  have r9 := r8.step (.endExec _ 2 (by simp [upd]))
  exact ⟨_, r9, by simp [upd, relTok, relCb, a]⟩

end CUtil.SampleStack
