import Verif.SampleStack.Props
import Verif.Settle
set_option linter.unusedSimpArgs false
set_option linter.unusedVariables false
/-
C83: the stack of sample modules comes to an end: every execution is finite, with a bound linear in the height of the stack, and what cannot go on without the client or the owner is quiet.
-/
namespace CUtil.SampleStack
open CUtil.Conc CUtil.Live

/-- An execution of `k` steps. -/
inductive Exec (n : Nat) : Nat → Sys → Sys → Prop
  | nil (s : Sys) : Exec n 0 s s
  | step {k : Nat} {s s' s'' : Sys} (h : Exec n k s s') (st : Step n s' s'') : Exec n (k + 1) s s''

structure InvT (n : Nat) (s : Sys) : Prop where
  t1 : ∀ i j, i < j → j ≤ i + 1 → s.epc j ≠ .inLower ∨ s.epc i ≠ .idle
  t2 : ∀ i j, i < j → j ≤ i + 1 → s.kpc i ≠ .inUpper ∨ s.kpc j ≠ .idle
  t3 : ∀ i j, i < j → j ≤ i + 1 → s.cpc j ≠ .inLower ∨ s.cpc i ≠ .idle
  t4 : ∀ i j, i < j → j ≤ i + 1 → j ≤ n → s.cpc i ≠ .done ∨ s.cpc j = .inLower ∨ s.cpc j = .done
  t5 : s.cpc 0 ≠ .inLower

set_option maxHeartbeats 4000000 in
theorem invT_step {n : Nat} {s s' : Sys} (c : InvC n s) (h : InvT n s) (st : Step n s s') : InvT n s' := by
  obtain ⟨h1, h2, h3, h4, h5⟩ := h
  have c1 := c.cj
  have c2 := c.ca
  clear c
  cases st <;> constructor <;> simp only [upd_apply, relTok, relCb] at * <;> grind

theorem invT_reach {n : Nat} {s : Sys} (h : Reach n s) : InvT n s := by
  induction h with
  | init => constructor <;> simp [init]
  | step h st ih => exact invT_step (inv_reach h).c ih st

/-- How far execute_async of a layer still has to go. -/
def eR : EPc → Nat
  | .idle => 11 | .ask => 10 | .create => 9 | .ref => 8 | .call => 7 | .inLower => 6 | .store => 5 | .out => 4 | .relCb => 3 | .rel => 2 | .endExec => 1 | .ret _ => 0
def kR : KPc → Nat
  | .idle => 6 | .running => 5 | .endSm _ => 4 | .call _ => 3 | .inUpper => 2 | .rel => 1 | .fin => 0
def cR : CPc → Nat
  | .idle => 3 | .enter => 2 | .inLower => 1 | .done => 0
def tR : Tok → Nat
  | .gone => 0 | _ => 1
def dR : Bool → Nat
  | true => 0 | false => 1

/-- How many steps there may still be. -/
def left (n : Nat) (s : Sys) : Nat := 2 * sumBy eR s.epc n + sumBy kR s.kpc n + sumBy cR s.cpc n + sumBy tR s.tok n + sumBy dR s.destroyed n

theorem tR_le (t : Tok) : tR t ≤ 1 := by cases t <;> simp [tR]

/-- One step of the call at layer `i`, and at most one reference put back. -/
theorem dec_e {n : Nat} {s : Sys} {i j : Nat} {p : EPc} {t : Tok} (hi : i ≤ n) (h : eR p < eR (s.epc i)) :
    2 * sumBy eR (upd s.epc i p) n + sumBy tR (upd s.tok j t) n < 2 * sumBy eR s.epc n + sumBy tR s.tok n := by
  have a := sumBy_upd eR s.epc p hi
  rcases Nat.lt_or_ge n j with hj | hj
  · rw [sumBy_high tR s.tok t hj]; omega
  · have b := sumBy_upd tR s.tok t hj
    have := tR_le t
    omega

theorem dec_e' {n : Nat} {s : Sys} {i : Nat} {p : EPc} (hi : i ≤ n) (h : eR p < eR (s.epc i)) : 2 * sumBy eR (upd s.epc i p) n < 2 * sumBy eR s.epc n := by
  have a := sumBy_upd eR s.epc p hi
  omega

theorem dec_k {n : Nat} {s : Sys} {i : Nat} {p : KPc} (hi : i ≤ n) (h : kR p < kR (s.kpc i)) : sumBy kR (upd s.kpc i p) n < sumBy kR s.kpc n := by
  have a := sumBy_upd kR s.kpc p hi
  omega

theorem dec_c {n : Nat} {s : Sys} {i : Nat} {p : CPc} (hi : i ≤ n) (h : cR p < cR (s.cpc i)) : sumBy cR (upd s.cpc i p) n < sumBy cR s.cpc n := by
  have a := sumBy_upd cR s.cpc p hi
  omega

theorem dec_t {n : Nat} {s : Sys} {i : Nat} (hi : i ≤ n) (h : s.tok i ≠ .gone) : sumBy tR (upd s.tok i .gone) n < sumBy tR s.tok n := by
  have a := sumBy_upd tR s.tok .gone hi
  have : tR (s.tok i) = 1 := by cases ht : s.tok i <;> simp_all [tR]
  rw [this, show tR .gone = 0 from rfl] at a
  omega

theorem decreases {n : Nat} {s s' : Sys} (v : Inv n s) (t : InvT n s) (st : Step n s s') : left n s' < left n s := by
  have he : ∀ i p, s.epc i = p → p ≠ .idle → i ≤ n := fun i p h hp => Nat.le_of_not_lt fun hn => hp (by rw [← h]; exact v.e.hi i hn)
  have hk : ∀ i p, s.kpc i = p → p ≠ .idle → i ≤ n := fun i p h hp => Nat.le_of_not_lt fun hn => hp (by rw [← h]; exact v.k.hk i hn)
  have hc : ∀ i p, s.cpc i = p → p.active = true → i ≤ n := fun i p h hp => (v.c.ca i (by rw [h]; exact hp)).1
  cases st with
  | start h hd => have := dec_e' (s := s) (p := .ask) (Nat.le_refl n) (by rw [h]; decide); simp only [left]; omega
  | beginRefused i hi h => have := dec_e' (s := s) (p := .ret false) (he i _ h (by simp)) (by rw [h]; decide); simp only [left]; omega
  | beginOk i hi h => have := dec_e' (s := s) (p := .create) (he i _ h (by simp)) (by rw [h]; decide); simp only [left]; omega
  | createFails i h => have := dec_e' (s := s) (p := .endExec) (he i _ h (by simp)) (by rw [h]; decide); simp only [left]; omega
  | createOk i h => have := dec_e (s := s) (p := .ref) (t := .caller) (j := i) (he i _ h (by simp)) (by rw [h]; decide); simp only [left]; omega
  | ref i h => have := dec_e' (s := s) (p := .call) (he i _ h (by simp)) (by rw [h]; decide); simp only [left]; omega
  | call i h =>
    have a := he _ _ h (by simp)
    have b := (v.e.id (i + 1) i a (Nat.lt_succ_self i)).resolve_right (by rw [h]; simp [EPc.desc])
    have c := sumBy_upd eR s.epc .inLower a
    have d := sumBy_upd eR (upd s.epc (i + 1) .inLower) .ask (i := i) (n := n) (by omega)
    rw [upd_apply, if_neg (by omega), b] at d
    rw [h] at c
    simp only [left, eR] at *
    omega
  | refuse h => have := dec_e' (s := s) (p := .ret false) (he 0 _ h (by simp)) (by rw [h]; decide); simp only [left]; omega
  | accept h =>
    have a := dec_e (s := s) (p := .ret true) (t := if n = 0 then .client else .var) (j := 0) (he 0 _ h (by simp)) (by rw [h]; decide)
    have b : s.kpc 0 = .idle := by
      refine Classical.byContradiction fun hk => ?_
      have := v.e.ac 0 hk (Nat.zero_le n)
      rw [h] at this
      cases this
    have c := dec_k (s := s) (p := .running) (Nat.zero_le n) (by rw [b]; decide)
    simp only [left]; omega
  | lowerFailed i h hl => have := dec_e' (s := s) (p := .relCb) (he _ _ h (by simp)) (by rw [h]; decide); simp only [left]; omega
  | lowerOk i h hl => have := dec_e' (s := s) (p := .store) (he _ _ h (by simp)) (by rw [h]; decide); simp only [left]; omega
  | store i h => have := dec_e (s := s) (p := .out) (t := .stored) (j := i) (he _ _ h (by simp)) (by rw [h]; decide); simp only [left]; omega
  | out i h => have := dec_e (s := s) (p := .ret true) (t := if i = n then .client else .var) (j := i) (he _ _ h (by simp)) (by rw [h]; simp [eR]); simp only [left]; omega
  | relCbE i h => have := dec_e' (s := s) (p := .rel) (he _ _ h (by simp)) (by rw [h]; decide); simp only [left, relCb]; omega
  | relE i h => have := dec_e (s := s) (p := .endExec) (t := .gone) (j := i) (he _ _ h (by simp)) (by rw [h]; decide); simp only [left, relTok]; omega
  | endExec i h => have := dec_e' (s := s) (p := .ret false) (he _ _ h (by simp)) (by rw [h]; decide); simp only [left]; omega
  | complete r h => have := dec_k (s := s) (p := .call r) (hk 0 _ h (by simp)) (by rw [h]; simp [kR]); simp only [left]; omega
  | endSm i r h => have := dec_k (s := s) (p := .call r) (hk i _ h (by simp)) (by rw [h]; simp [kR]); simp only [left]; omega
  | callUp i r hi h =>
    have b := (v.k.hg i (i + 1) (Nat.lt_succ_self i)).resolve_right (by rw [h]; simp [KPc.before])
    have c := sumBy_upd kR s.kpc .inUpper (i := i) (n := n) (by omega)
    have d := sumBy_upd kR (upd s.kpc i .inUpper) (.endSm (CUtil.SampleStack.out i r)) (i := i + 1) (n := n) (by omega)
    rw [upd_apply, if_neg (by omega), b] at d
    rw [h] at c
    simp only [left, kR] at *
    omega
  | callClient r h => have := dec_k (s := s) (p := .rel) (hk n _ h (by simp)) (by rw [h]; simp [kR]); simp only [left]; omega
  | upReturned i h hu => have := dec_k (s := s) (p := .rel) (hk i _ h (by simp)) (by rw [h]; simp [kR]); simp only [left]; omega
  | relK i h => have := dec_k (s := s) (p := .fin) (hk i _ h (by simp)) (by rw [h]; simp [kR]); simp only [left, relCb]; omega
  | dispose i h ht =>
    have := dec_t (s := s) (i := i) (n := n) (Nat.le_of_lt (v.o.sn i (.inl ht))) (by rw [ht]; simp)
    simp only [left, relTok]; omega
  | cancel h h' => have := dec_c (s := s) (p := .enter) (Nat.le_refl n) (by rw [h']; decide); simp only [left]; omega
  | cancelDown i h =>
    have a := hc _ _ h rfl
    have b : s.cpc i = .idle := by
      have b1 := (v.c.cj i (i + 1) (Nat.lt_succ_self i) a).resolve_left (by rw [h]; simp)
      have b2 := t.t4 i (i + 1) (Nat.lt_succ_self i) (Nat.le_refl _) a
      rw [h] at b2
      cases hp : s.cpc i <;> simp_all [CPc.active]
    have c := sumBy_upd cR s.cpc .inLower a
    have d := sumBy_upd cR (upd s.cpc (i + 1) .inLower) .enter (i := i) (n := n) (by omega)
    rw [upd_apply, if_neg (by omega), b] at d
    rw [h] at c
    simp only [left, cR] at *
    omega
  | cancelWork h => have := dec_c (s := s) (p := .done) (Nat.zero_le n) (by rw [h]; decide); simp only [left]; omega
  | cancelled i h hl => have := dec_c (s := s) (p := .done) (hc _ _ h rfl) (by rw [h]; decide); simp only [left]; omega
  | drop h hc' =>
    have := dec_t (s := s) (Nat.le_refl n) (by rw [h]; simp)
    simp only [left, relTok]; omega
  | destroy i hn hu hi he h0 hd =>
    have := sumBy_upd dR s.destroyed true hn
    rw [hd] at this
    simp only [left, dR] at *; omega

/-- C83: the stack of `n` modules comes to an end: there is no execution, whatever the client and the owner do, of more than 33 steps per layer. -/
theorem terminates {n k : Nat} {s : Sys} (h : Exec n k init s) : k ≤ 33 * (n + 1) := by
  have key : ∀ s0 k s, Exec n k s0 s → Reach n s0 → Reach n s ∧ left n s + k ≤ left n s0 := by
    intro s0 k s h
    induction h with
    | nil s => exact fun r => ⟨r, by omega⟩
    | step h st ih =>
      intro r
      obtain ⟨r', l⟩ := ih r
      have := decreases (inv_reach r') (invT_reach r') st
      exact ⟨r'.step st, by omega⟩
  have l := (key init k s h Reach.init).2
  have e : left n init = 33 * (n + 1) := by
    simp only [left, init, sumBy_const, eR, kR, cR, tR, dR]; omega
  omega

/-- A step that neither the client nor the owner makes: it is not the start of the call, no cancel and no release by the client, and no destruction. -/
def Auto (n : Nat) (s s' : Sys) : Prop :=
  Step n s s' ∧ s.epc n ≠ .idle ∧ s'.destroyed = s.destroyed ∧ (s.tok n = .client → s'.tok n = .client) ∧ (s.cpc n = .idle → s'.cpc n = .idle)

theorem e_moves {n : Nat} {s : Sys} (v : Inv n s) (t : InvT n s) (hs : s.epc n ≠ .idle) (hc : ∀ i, (s.epc i).act = true → s.tok n ≠ .client) :
    ∀ i, (s.epc i).act = true → ∃ s', Auto n s s' := by
  intro i
  induction i with
  | zero =>
    intro h
    rcases v.e.z with z | z | ⟨b, z⟩
    · rw [z] at h; cases h
    · exact ⟨_, .refuse s z, hs, rfl, fun e => absurd e (hc 0 h), fun e => e⟩
    · rw [z] at h; cases h
  | succ i ih =>
    intro h
    have q : ∀ s', Step n s s' → s'.destroyed = s.destroyed → s'.cpc = s.cpc → ∃ s', Auto n s s' := fun s' st a b => ⟨s', st, hs, a, fun e => absurd e (hc _ h), fun e => by rw [b]; exact e⟩
    cases hp : s.epc (i + 1) with
    | idle | ret _ => rw [hp] at h; cases h
    | ask => exact q _ (.beginOk s _ (by omega) hp) rfl rfl
    | create => exact q _ (.createOk s _ hp) rfl rfl
    | ref => exact q _ (.ref s _ hp) rfl rfl
    | call => exact q _ (.call s _ hp) rfl rfl
    | inLower =>
      have h1 := (t.t1 i (i + 1) (Nat.lt_succ_self i) (Nat.le_refl _)).resolve_left (fun e => e hp)
      cases ha : (s.epc i).act with
      | true => exact ih ha
      | false =>
        cases hl : s.epc i with
        | ret b =>
          cases b with
          | false => exact q _ (.lowerFailed s i hp hl) rfl rfl
          | true => exact q _ (.lowerOk s i hp hl) rfl rfl
        | _ => simp_all [EPc.act]
    | store => exact q _ (.store s i hp) rfl rfl
    | out => exact q _ (.out s _ hp) rfl rfl
    | relCb => exact q _ (.relCbE s _ hp) rfl rfl
    | rel => exact q _ (.relE s _ hp) rfl rfl
    | endExec => exact q _ (.endExec s _ hp) rfl rfl

theorem k_moves {n : Nat} {s : Sys} (v : Inv n s) (t : InvT n s) (hs : s.epc n ≠ .idle) :
    ∀ d i, i + d = n → s.kpc i ≠ .idle → s.kpc i ≠ .fin → ∃ s', Auto n s s' := by
  intro d
  induction d with
  | zero =>
    intro i hi h1 h2
    obtain rfl : i = n := by omega
    have q : ∀ s', Step i s s' → s'.destroyed = s.destroyed → s'.tok = s.tok → s'.cpc = s.cpc → ∃ s', Auto i s s' := fun s' st a c b => ⟨s', st, hs, a, fun e => by rw [c]; exact e, fun e => by rw [b]; exact e⟩
    cases hp : s.kpc i with
    | idle => exact absurd hp h1
    | fin => exact absurd hp h2
    | running => obtain rfl := v.k.k0 i hp; exact q _ (.complete s .ok hp) rfl rfl rfl
    | endSm r => exact q _ (.endSm s i r hp) rfl rfl rfl
    | call r => exact q _ (.callClient s r hp) rfl rfl rfl
    | inUpper =>
      have a := (t.t2 i (i + 1) (Nat.lt_succ_self i) (Nat.le_refl _)).resolve_left (fun e => e hp)
      exact absurd (v.k.hk (i + 1) (by omega)) a
    | rel => exact q _ (.relK s i hp) rfl rfl rfl
  | succ d ih =>
    intro i hi h1 h2
    have q : ∀ s', Step n s s' → s'.destroyed = s.destroyed → s'.tok = s.tok → s'.cpc = s.cpc → ∃ s', Auto n s s' := fun s' st a c b => ⟨s', st, hs, a, fun e => by rw [c]; exact e, fun e => by rw [b]; exact e⟩
    cases hp : s.kpc i with
    | idle => exact absurd hp h1
    | fin => exact absurd hp h2
    | running => obtain rfl := v.k.k0 i hp; exact q _ (.complete s .ok hp) rfl rfl rfl
    | endSm r => exact q _ (.endSm s i r hp) rfl rfl rfl
    | call r => exact q _ (.callUp s i r (by omega) hp) rfl rfl rfl
    | inUpper =>
      have a := (t.t2 i (i + 1) (Nat.lt_succ_self i) (Nat.le_refl _)).resolve_left (fun e => e hp)
      by_cases hf : s.kpc (i + 1) = .fin
      · exact q _ (.upReturned s i hp hf) rfl rfl rfl
      · exact ih (i + 1) (by omega) a hf
    | rel => exact q _ (.relK s i hp) rfl rfl rfl

theorem c_moves {n : Nat} {s : Sys} (v : Inv n s) (t : InvT n s) (hs : s.epc n ≠ .idle) : ∀ i, (s.cpc i).active = true → ∃ s', Auto n s s' := by
  intro i
  induction i with
  | zero =>
    intro h
    cases hp : s.cpc 0 with
    | idle | done => rw [hp] at h; cases h
    | enter => exact ⟨_, .cancelWork s hp, hs, rfl, fun e => e, fun e => by simp only [upd_apply]; split <;> simp_all⟩
    | inLower =>
      exact absurd hp t.t5
  | succ i ih =>
    intro h
    cases hp : s.cpc (i + 1) with
    | idle | done => rw [hp] at h; cases h
    | enter =>
      have a := (v.c.ca (i + 1) h).1
      exact ⟨_, .cancelDown s i hp, hs, rfl, fun e => e, fun e => by
        simp only [upd_apply]; rw [if_neg (by omega)]; split <;> simp_all⟩
    | inLower =>
      have h1 := (t.t3 i (i + 1) (Nat.lt_succ_self i) (Nat.le_refl _)).resolve_left (fun e => e hp)
      cases ha : (s.cpc i).active with
      | true => exact ih ha
      | false =>
        have hd : s.cpc i = .done := by cases hq : s.cpc i <;> simp_all [CPc.active]
        exact ⟨_, .cancelled s i hp hd, hs, rfl, fun e => e, fun e => by simp only [upd_apply]; split <;> simp_all⟩

/-- C83: as long as something is going on, a step can be made that neither the client nor the owner makes: nothing waits for the client or the owner. -/
theorem progress {n : Nat} {s : Sys} (h : Reach n s) (hs : s.epc n ≠ .idle) (hq : ¬ Quiet n s) : ∃ s', Auto n s s' := by
  have v := inv_reach h
  have t := invT_reach h
  refine Classical.byContradiction fun no => hq ?_
  have e0 : (s.epc n).act = false := by
    cases ha : (s.epc n).act with
    | false => rfl
    | true =>
      refine absurd (e_moves v t hs (fun i hi hc => ?_) n ha) no
      rw [(v.o.cl n hc).2] at ha
      cases ha
  refine ⟨?_, fun i hi => ?_, fun i hi => ?_, fun i hi => ?_⟩
  · cases hp : s.epc n with
    | ret b => exact ⟨b, rfl⟩
    | _ => simp_all [EPc.act]
  · refine Classical.byContradiction fun hk => ?_
    have hk' := not_or.1 hk
    exact no (k_moves v t hs (n - i) i (by omega) hk'.1 hk'.2)
  · cases ha : (s.cpc i).active with
    | true => exact absurd (c_moves v t hs i ha) no
    | false => cases hp : s.cpc i <;> simp_all [CPc.active]
  · refine no ⟨_, .dispose s i hi.1 hi.2, hs, rfl, fun e => ?_, fun e => e⟩
    have : i ≠ n := fun e' => by rw [← e', hi.2] at e; cases e
    simp only [relTok, upd_apply, if_neg (Ne.symm this)]
    exact e

/-- C83: so the call comes to its end whatever happens: from any state a call has led to, a state can only not be left, but by the client or the owner, when execute_async has returned, and, if it has succeeded, the client was called back exactly once. -/
theorem comes_to_end {n : Nat} {s : Sys} (h : Reach n s) (hs : s.epc n ≠ .idle) (hn : ¬ ∃ s', Auto n s s') :
    (s.epc n = .ret false ∧ s.calls = []) ∨ (s.epc n = .ret true ∧ ∃ r, s.got = some r ∧ s.calls = [if n = 0 then r else r.passed]) := by
  have q : Quiet n s := Classical.byContradiction fun hq => hn (progress h hs hq)
  obtain ⟨⟨b, e⟩, k, _, _⟩ := q
  cases b with
  | false => exact .inl ⟨e, (failed_silent h e).1⟩
  | true => exact .inr ⟨e, succeeded_called h e (k 0 (Nat.zero_le n))⟩

/-- The hypotheses of `progress` are met: the call has gone down a stack of two modules, nothing has returned. -/
example : ∃ s, Reach 2 s ∧ s.epc 2 ≠ .idle ∧ ¬ Quiet 2 s := by
  obtain ⟨s, rs, a⟩ := down
  refine ⟨s, rs, by simp [a], fun q => ?_⟩
  obtain ⟨⟨b, e⟩, _⟩ := q
  rw [a.1] at e
  cases e

/-- The hypotheses of `comes_to_end` are met: from any state a call has led to, the steps that neither the client nor the owner makes lead to one where there are none left. -/
theorem end_exists {n : Nat} {s : Sys} (h : Reach n s) (hs : s.epc n ≠ .idle) : ∃ s', Reach n s' ∧ s'.epc n ≠ .idle ∧ ¬ ∃ s'', Auto n s' s'' := by
  have key : ∀ d s, left n s ≤ d → Reach n s → s.epc n ≠ .idle → ∃ s', Reach n s' ∧ s'.epc n ≠ .idle ∧ ¬ ∃ s'', Auto n s' s'' := by
    intro d
    induction d with
    | zero =>
      intro s hd h hs
      refine ⟨s, h, hs, fun ⟨s', a⟩ => ?_⟩
      have := decreases (inv_reach h) (invT_reach h) a.1
      omega
    | succ d ih =>
      intro s hd h hs
      by_cases hn : ∃ s', Auto n s s'
      · obtain ⟨s', a⟩ := hn
        have := decreases (inv_reach h) (invT_reach h) a.1
        refine ih s' (by omega) (h.step a.1) ?_
        have t := (invT_reach (h.step a.1)).t1
        have st := a.1
        have hid := (inv_reach h).e.id
        have hi := (inv_reach h).e.hi
        cases st <;> simp only [upd_apply, relTok, relCb] <;> grind
      · exact ⟨s, h, hs, hn⟩
  exact key _ s (Nat.le_refl _) h hs

end CUtil.SampleStack
