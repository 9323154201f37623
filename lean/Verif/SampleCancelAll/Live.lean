import Verif.SampleCancelAll.Props
import Verif.Settle
set_option linter.unusedSimpArgs false
set_option linter.unusedVariables false
/-
C82: the close returns and the callbacks come.
-/
namespace CUtil.SampleCancelAll
open CUtil.Conc CUtil.Live

variable {c : Bool} {s s' : Sys} {σ : Nat → Sys}

/-- A step of the module itself or of the layer below: execute_async once it was called, a completion, or a close once it was called. -/
def Auto (c : Bool) (s s' : Sys) : Prop :=
  Step c s s' ∧ ((∃ k, s.epc k ≠ .idle ∧ s'.epc k ≠ s.epc k) ∨ (∃ k, s'.kpc k ≠ s.kpc k) ∨ (s.cl ≠ .idle ∧ s'.cl ≠ s.cl))

def eR : EPc → Nat
  | .idle => 16 | .ask => 15 | .create => 14 | .ref => 13 | .start => 12 | .store => 11 | .lock => 10 | .check => 9 | .mark => 8 | .unlock => 7 | .unlockC => 6 | .cancel => 5 | .relTok => 4
  | .relCb => 3 | .rel => 2 | .endExec => 1 | .ret _ => 0
def kR : KPc → Nat
  | .idle => 10 | .running => 9 | .lock _ => 8 | .cas _ => 7 | .remove _ => 6 | .relTok _ => 5 | .unlock _ => 4 | .endSm _ => 3 | .call _ => 2 | .rel => 1 | .fin => 0
def lR : CPc → Nat
  | .idle => 0 | .lock => 6 | .drain => 5 | .unmark _ => 6 | .unlock => 4 | .next => 3 | .cancel _ => 5 | .rel _ => 4 | .wait => 2

/-- How many steps there may still be, at most, if only calls 0, …, `m` are made and `n` closes. -/
def left (m n : Nat) (s : Sys) : Nat :=
  8 * sumBy eR s.epc m + sumBy kR s.kpc m + 6 * s.list.length + 4 * s.temp.length + lR s.cl + 7 * (n - s.closeNo)

theorem dec_e {m k : Nat} {p : EPc} {f : Nat → EPc} (hk : k ≤ m) (h : eR p < eR (f k)) : 8 * sumBy eR (upd f k p) m + 8 ≤ 8 * sumBy eR f m := by
  have := sumBy_upd eR f p hk
  omega
theorem dec_k {m k : Nat} {p : KPc} {f : Nat → KPc} (hk : k ≤ m) (h : kR p < kR (f k)) : sumBy kR (upd f k p) m + 1 ≤ sumBy kR f m := by
  have := sumBy_upd kR f p hk
  omega

theorem lt_e {a b x1 x2 x3 x4 x5 : Nat} (h : a + 8 ≤ b) : a + x1 + x2 + x3 + x4 + x5 < b + x1 + x2 + x3 + x4 + x5 := by omega
theorem lt_k {a b x1 x2 x3 x4 x5 : Nat} (h : a + 1 ≤ b) : x1 + a + x2 + x3 + x4 + x5 < x1 + b + x2 + x3 + x4 + x5 := by omega

theorem steps_or_not {m n : Nat} (h : Reach c s) (st : Step c s s') (hm : ∀ k, m < k → s'.epc k = .idle) (hn : s'.closeNo ≤ n) :
    left m n s' < left m n s ∨ (s'.epc = s.epc ∧ s'.kpc = s.kpc ∧ s'.cl = s.cl ∧ s'.list = s.list ∧ s'.temp = s.temp ∧ s'.closeNo = s.closeNo) := by
  have p := (inv_reach h).p
  have pk : ∀ k q, s.kpc k = q → q ≠ .idle → (∀ k, m < k → s.epc k = .idle) → k ≤ m := fun k q e hq hi => by
    refine Nat.le_of_not_lt fun hl => hq ?_
    rw [← e]; exact p.nacc k (by rw [hi k hl]; rfl)
  have pe : ∀ k q, s'.epc = upd s.epc k q → q ≠ .idle → k ≤ m := fun k q e hq => by
    refine Nat.le_of_not_lt fun hl => hq ?_
    have := hm k hl
    rw [e, upd_apply, if_pos rfl] at this
    exact this
  cases st with
  | opens | destroy => exact .inr ⟨rfl, rfl, rfl, rfl, rfl, rfl⟩
  | start k h | beginRefused k h | beginOk k h | createFails k h | createOk k h | ref k h | llRefuses k h | store k h | lock k h | sawClosing k h hc | mark k h | unlockE k h | unlockC k h | cancelE k h | relTokE k h | relCbE k h | relE k h | endExec k h =>
    refine .inl ?_
    have a := pe k _ rfl (by simp)
    simp only [left, relTok, relCb, cancelLl, unlock]
    exact lt_e (dec_e (f := s.epc) a (by rw [h]; decide))
  | insert k h hc =>
    refine .inl ?_
    have a := pe k _ rfl (by simp)
    have := dec_e (f := s.epc) (p := .mark) a (by rw [h]; decide)
    simp only [left, List.length_append, List.length_singleton]
    omega
  | llAccepts k h =>
    refine .inl ?_
    have a := pe k _ rfl (by simp)
    have := dec_e (f := s.epc) (p := .store) a (by rw [h]; decide)
    have i := p.nacc k (by rw [h]; rfl)
    have := dec_k (f := s.kpc) (p := .running) a (by rw [i]; decide)
    simp only [left]
    omega
  | complete k r h | lockK k r h | casIn k r h | casOut k r h | relTokK k r h | unlockK k r h | endSm k r h | call k r h | relK k h =>
    refine .inl ?_
    have a := pk k _ h (by simp) hm
    simp only [left, relTok, relCb, unlock]
    exact lt_k (dec_k (f := s.kpc) a (by rw [h]; simp [kR]))
  | remove k r h =>
    refine .inl ?_
    have a := pk k _ h (by simp) hm
    have b := (List.erase_sublist (a := k) (l := s.list)).length_le
    have := dec_k (f := s.kpc) (p := .relTok r) a (by rw [h]; simp [kR])
    simp only [left]
    omega
  | closes h =>
    refine .inl ?_
    have : s.cl = .idle := (inv_reach ‹Reach c s›).m.ms.2 (by rw [h]; simp)
    simp only [left, lR, this] at *
    omega
  | take k l h hl => refine .inl ?_; simp only [left, h, hl, lR, List.length_append, List.length_cons, List.length_nil]; omega
  | next k l h hl => refine .inl ?_; simp only [left, h, hl, lR, List.length_cons]; omega
  | _ => refine .inl ?_; simp only [left, relTok, cancelLl, unlock, lR, *]; omega

theorem progress (h : Reach c s) (hq : ¬ Quiet s) : Enabled (Auto c) s := by
  have v := inv_reach h
  obtain ⟨n1, n2, n3⟩ := never_stuck h
  cases hl : s.lock with
  | some w =>
    obtain ⟨s', st, e⟩ := holder_runs h hl
    cases w with
    | caller k =>
      refine ⟨s', st, .inl ⟨k, fun h0 => ?_, e⟩⟩
      have := (v.m.le k).1 hl
      rw [h0] at this; cases this
    | comp k => exact ⟨s', st, .inr (.inl ⟨k, e⟩)⟩
    | closer =>
      refine ⟨s', st, .inr (.inr ⟨fun h0 => ?_, e⟩)⟩
      have := v.m.lc.1 hl
      rw [h0] at this; cases this
  | none =>
    have a1 : ∀ k, (s.epc k).out = false → Enabled (Auto c) s := fun k ho => by
      rcases n1 k ho with e | ⟨s', st, e⟩
      · exact absurd hl e.2
      · exact ⟨s', st, .inl ⟨k, (fun h0 => by rw [h0] at ho; cases ho), e⟩⟩
    have a2 : ∀ k, ¬ (s.kpc k = .idle ∨ s.kpc k = .fin) → Enabled (Auto c) s := fun k hk => by
      rcases n2 k with e | e | e | ⟨s', st, e⟩
      · exact absurd (.inl e) hk
      · exact absurd (.inr e) hk
      · exact absurd hl e.2
      · exact ⟨s', st, .inr (.inl ⟨k, e⟩)⟩
    refine Classical.byContradiction fun no => hq ⟨fun k => ?_, fun k => ?_, ?_⟩
    · cases ho : (s.epc k).out with
      | true => rfl
      | false => exact absurd (a1 k ho) no
    · exact Classical.byContradiction fun hk => no (a2 k hk)
    · rcases n3 with e | e | ⟨_, k, e⟩ | ⟨s', st, e⟩
      · exact e
      · exact absurd hl e.2
      · exfalso
        rcases v.p.back k e with b | b
        · exact no (a1 k (by cases hp : s.epc k <;> simp_all [EPc.mine, EPc.out]))
        · exact no (a2 k (by cases hp : s.kpc k <;> simp_all [KPc.auth]))
      · exact Classical.byContradiction fun hc => no ⟨s', st, .inr (.inr ⟨hc, e⟩)⟩

/-- C82: everything comes to an end: in every execution in which the module and the layer below go on running, and only finitely many calls and closes are made, there comes a time when all calls have returned, all completions have run
and no close goes on. -/
theorem comes_to_end {m n i : Nat} (run : Run (Reach c) (Step c) σ) (f : Fair (Auto c) σ) (hm : ∀ j k, m < k → (σ j).epc k = .idle) (hn : ∀ j, i ≤ j → (σ j).closeNo ≤ n) : ∃ j, i ≤ j ∧ Quiet (σ j) := by
  have hr : ∀ s s', Reach c s → Step c s s' → Reach c s' := fun _ _ h st => h.step st
  have key : ∀ j, i ≤ j → Step c (σ j) (σ (j + 1)) → left m n (σ (j + 1)) < left m n (σ j) ∨ _ := fun j hj st => steps_or_not (run.reach hr j) st (hm (j + 1)) (hn (j + 1) (by omega))
  obtain ⟨j, hj, no⟩ := settles_on (i := i) (left m n)
    (fun j hj a => by
      rcases key j hj a.1 with l | ⟨e1, e2, e3, _⟩
      · exact l
      · have := a.2; rw [e1, e2, e3] at this; simp at this)
    (fun j hj => by
      rcases run.next j with st | e
      · rcases key j hj st with l | ⟨e1, e2, e3, e4, e5, e6⟩
        · omega
        · simp only [left, e1, e2, e3, e4, e5, e6]; exact Nat.le_refl _
      · rw [e]; exact Nat.le_refl _) f
  exact ⟨j, hj, Classical.byContradiction fun hq => no (progress (run.reach hr j) hq)⟩

/-- C82: the close returns: in every execution in which the module and the layer below go on running and only finitely many calls are made, a close that has begun comes to its end. -/
theorem close_returns {m : Nat} (run : Run (Reach c) (Step c) σ) (f : Fair (Auto c) σ) (hm : ∀ j k, m < k → (σ j).epc k = .idle) (i : Nat) : ∃ j, i ≤ j ∧ (σ j).cl = .idle := by
  have hr : ∀ s s', Reach c s → Step c s s' → Reach c s' := fun _ _ h st => h.step st
  refine Classical.byContradiction fun no => ?_
  have all : ∀ j, i ≤ j → (σ j).cl ≠ .idle := fun j hj e => no ⟨j, hj, e⟩
  have same : ∀ d, (σ (i + d)).closeNo = (σ i).closeNo := by
    intro d
    induction d with
    | zero => rfl
    | succ d ih =>
      rw [← ih]
      have hc := all (i + d) (by omega)
      have hi := (inv_reach (run.reach hr (i + d))).m.ms
      rcases run.next (i + d) with st | e
      · show (σ (i + d + 1)).closeNo = _
        generalize σ (i + d + 1) = t at st
        generalize σ (i + d) = u at st hc hi
        cases st with
        | closes h => exact absurd (hi.2 (by rw [h]; simp)) hc
        | _ => rfl
      · show (σ (i + d + 1)).closeNo = _
        rw [e]
  obtain ⟨j, hj, q⟩ := comes_to_end (n := (σ i).closeNo) run f hm (fun j hj => by
    obtain ⟨d, rfl⟩ := Nat.le.dest hj
    exact Nat.le_of_eq (same d))
  exact all j hj q.2.2

theorem ret_stays (k : Nat) (b : Bool) : ∀ s s', Reach c s → s.epc k = .ret b → Step c s s' → s'.epc k = .ret b := by
  intro s s' _ h st
  cases st <;> simp only [upd_apply, relTok, relCb, cancelLl, unlock] <;> grind

/-- C82: the callbacks come: in every execution in which the module and the layer below go on running, and only finitely many calls and closes are made, there comes a time when the callback of a call that succeeded has been
called, exactly once. -/
theorem callback_comes {m n : Nat} (run : Run (Reach c) (Step c) σ) (f : Fair (Auto c) σ) (hm : ∀ j k, m < k → (σ j).epc k = .idle) (hn : ∀ j, (σ j).closeNo ≤ n) (i k : Nat) (h : (σ i).epc k = .ret true) :
    ∃ j, i ≤ j ∧ ∃ r, (σ j).calls k = [r] := by
  have hr : ∀ s s', Reach c s → Step c s s' → Reach c s' := fun _ _ h st => h.step st
  obtain ⟨j, hj, q⟩ := comes_to_end run f hm (fun j _ => hn j)
  obtain ⟨r, _, e, _⟩ := succeeded_called (run.reach hr j) k (holds_on hr run (ret_stays k true) hj h) (q.2.1 k)
  exact ⟨j, hj, _, e⟩

theorem quiet_end (hq : Quiet s) : ¬ Enabled (Auto c) s := by
  rintro ⟨s', st, d⟩
  obtain ⟨q1, q2, q3⟩ := hq
  have e1 : ∀ k p, s.epc k = p → p.out = true := fun k p h => h ▸ q1 k
  have e2 : ∀ k p, s.kpc k = p → p = .idle ∨ p = .fin := fun k p h => h ▸ q2 k
  cases st with
  | start k h _ =>
    rcases d with ⟨k', d1, d2⟩ | ⟨k', d⟩ | ⟨d, _⟩
    · simp only [upd_apply] at d2; split at d2
      · simp_all
      · exact d2 rfl
    · exact d rfl
    · exact d q3
  | opens _ _ => simp at d
  | destroy _ _ _ => simp at d
  | closes _ => rcases d with ⟨_, _, d⟩ | ⟨_, d⟩ | ⟨d, _⟩ <;> simp_all
  | _ => first
    | (exact absurd (e1 _ _ (by assumption)) (by simp [EPc.out]))
    | (exact absurd (e2 _ _ (by assumption)) (by simp))
    | simp_all

theorem before (k : Nat) (st : Step c s s') : (s'.epc k = .idle → s.epc k = .idle) ∧ s.closeNo ≤ s'.closeNo := by
  cases st <;> simp only [upd_apply, relTok, relCb, cancelLl, unlock] <;> grind

theorem waiting : ∃ s, Reach true s ∧ s.cl = .wait ∧ s.lock = none ∧ s.flag 0 = false ∧ s.kpc = upd (fun _ => .idle) 0 .running ∧ s.epc = upd (fun _ => .idle) 0 (.ret true) ∧ s.inExec = upd (fun _ => false) 0 true ∧
    s.closeNo = 1 := by
  refine ⟨_, Reach.init true
    |>.step (.opens _ rfl rfl)
    |>.step (.start _ 0 rfl rfl)
    |>.step (.beginOk _ 0 rfl rfl)
    |>.step (.createOk _ 0 rfl)
    |>.step (.ref _ 0 rfl)
    |>.step (.llAccepts _ 0 rfl)
    |>.step (.store _ 0 rfl)
    |>.step (.lock _ 0 rfl rfl)
    |>.step (.insert _ 0 rfl rfl)
    |>.step (.mark _ 0 rfl)
    |>.step (.unlockE _ 0 rfl)
    |>.step (.closes _ rfl)
    |>.step (.lockC _ rfl rfl)
    |>.step (.take _ 0 [] rfl rfl)
    |>.step (.unmark _ 0 rfl)
    |>.step (.drained _ rfl rfl)
    |>.step (.unlockCl _ rfl)
    |>.step (.next _ 0 [] rfl rfl)
    |>.step (.cancelCl _ 0 rfl)
    |>.step (.relCl _ 0 rfl)
    |>.step (.told _ rfl rfl), rfl, rfl, rfl, rfl, ?_, rfl, rfl⟩
  funext k
  simp only [upd_apply, unlock, relTok, cancelLl]
  split <;> rfl

theorem ending {s : Sys} (e1 : s.cl = .wait) (e2 : s.lock = none) (e3 : s.flag 0 = false) (e4 : s.kpc = upd (fun _ => .idle) 0 .running) (e6 : s.inExec = upd (fun _ => false) 0 true) :
    ∃ e, Path (Step true) s e ∧ e.epc = s.epc ∧ e.kpc = upd s.kpc 0 .fin ∧ e.cl = .idle ∧ e.closeNo = s.closeNo := by
  refine ⟨_, (.cons (.complete _ 0 .canceled (by rw [e4]; rfl)) (.cons (.lockK _ 0 .canceled rfl e2) (.cons (.casOut _ 0 .canceled rfl e3) (.cons (.unlockK _ 0 .canceled rfl) (.cons (.endSm _ 0 .canceled rfl)
      (.cons (.call _ 0 .canceled rfl) (.cons (.relK _ 0 rfl) (.cons (.closeEnd _ e1 (fun k => by simp [upd, unlock, relCb, e6])) (.nil _))))))))), rfl, ?_, rfl, rfl⟩
  funext k
  simp only [upd_apply, unlock, relCb]
  split <;> rfl

/-- There are such executions: a close waits for an operation that it has canceled, the operation completes, and the close returns; nothing is left to do. -/
example : ∃ σ, Run (Reach true) (Step true) σ ∧ Fair (Auto true) σ ∧ (∀ j k, 0 < k → (σ j).epc k = .idle) ∧ (∀ j, (σ j).closeNo ≤ 1) ∧ (σ 0).cl = .wait ∧ (σ 0).epc 0 = .ret true := by
  have hr : ∀ s s', Reach true s → Step true s s' → Reach true s' := fun _ _ h st => h.step st
  obtain ⟨s, h, e1, e2, e3, e4, e5, e6, e7⟩ := waiting
  obtain ⟨e, p, f1, f2, f3, f4⟩ := ending e1 e2 e3 e4 e6
  obtain ⟨σ, n, run, h0, hn⟩ := exists_run (Step := Step true) hr h p
  have back : ∀ d j, j + d = n → (∀ k, 0 < k → (σ j).epc k = .idle) ∧ (σ j).closeNo ≤ 1 := by
    intro d
    induction d with
    | zero =>
      intro j hj
      rw [hn j (by omega), f1, f4, e5, e7]
      exact ⟨fun k hk => by simp only [upd_apply]; split <;> first | rfl | omega, Nat.le_refl 1⟩
    | succ d ih =>
      intro j hj
      obtain ⟨i1, i2⟩ := ih (j + 1) (by omega)
      rcases run.next j with st | e
      · exact ⟨fun k hk => (before k st).1 (i1 k hk), Nat.le_trans (before 0 st).2 i2⟩
      · rw [e] at i1 i2; exact ⟨i1, i2⟩
  have all : ∀ j, (∀ k, 0 < k → (σ j).epc k = .idle) ∧ (σ j).closeNo ≤ 1 := fun j => by
    by_cases hj : j ≤ n
    · exact back (n - j) j (by omega)
    · have := back 0 n rfl
      rw [hn n (Nat.le_refl n)] at this
      rw [hn j (by omega)]; exact this
  refine ⟨σ, run, fair_of_end hn (quiet_end ⟨fun k => ?_, fun k => ?_, f3⟩), fun j => (all j).1, fun j => (all j).2, by rw [h0, e1], by rw [h0, e5]; rfl⟩
  · rw [f1, e5]; simp only [upd_apply]; split <;> rfl
  · rw [f2, e4]; simp only [upd_apply]; split <;> simp

end CUtil.SampleCancelAll
