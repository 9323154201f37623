import Verif.SampleRetry.Props
import Verif.Settle
set_option linter.unusedSimpArgs false
set_option linter.unusedVariables false
/-
C79: the callback comes: unless the layer below asks for a retry again and again, and in any case after a cancel, the call comes to its end.
-/
namespace CUtil.SampleRetry
open CUtil.Conc CUtil.Live

variable {s s' : Sys} {σ : Nat → Sys}

/-- A step of the module itself or of the layer below: execute_async, the completions, or the cancel function once it was called. -/
def Auto (s s' : Sys) : Prop := Step s s' ∧ (s'.exec ≠ s.exec ∨ s'.op ≠ s.op ∨ (s.can ≠ .idle ∧ s'.can ≠ s.can))

def eR : EPc → Nat
  | .ask => 9 | .create => 8 | .ref => 7 | .start => 6 | .lock => 5 | .out => 4 | .relCb => 3 | .rel => 2 | .endExec => 1 | .ret _ => 0
def oR : OPc → Nat
  | .idle => 11 | .running => 10 | .lock1 => 9 | .ref _ => 8 | .start _ => 7 | .lock2 _ => 6 | .cancelLl => 5 | .relLl => 4 | .endExec _ => 3 | .call _ => 2 | .rel => 1 | .fin => 0
def cR : CPc → Nat
  | .idle => 4 | .lock _ => 3 | .cancelLl _ _ => 2 | .relLl _ _ => 1 | .done => 0

/-- How many steps there may still be if no more than operations 0, …, `n` are started. -/
def left (n : Nat) (s : Sys) : Nat := eR s.exec + sumBy oR s.op n + cR s.can

theorem dec_op {n k : Nat} {p : OPc} {f : Nat → OPc} (hk : k ≤ n) (h : oR p < oR (f k)) : sumBy oR (upd f k p) n < sumBy oR f n := by
  have := sumBy_upd oR f p hk
  omega

theorem steps_or_not {n : Nat} (h : Reach s) (st : Step s s') (hl : s'.last ≤ n) : left n s' < left n s ∨ (s'.exec = s.exec ∧ s'.op = s.op ∧ s'.can = s.can) := by
  have p := (inv_reach h).p
  have hk : ∀ k q, s.op k = q → q ≠ .idle → k ≤ s.last := fun k q e hq => Nat.le_of_not_lt fun hl => hq (by rw [← e]; exact p.idle k hl)
  cases st with
  | clone | drop => exact .inr ⟨rfl, rfl, rfl⟩
  | startOk h =>
    have e := p.nacc (by rw [h]; rfl)
    have := dec_op (p := .running) (f := s.op) (Nat.zero_le n) (by rw [e.2]; decide)
    refine .inl ?_
    simp only [left, h, eR]; omega
  | beginRefused h | beginOk h | createFails h | createOk h | ref h | startRefused h | lockStores h he | lockDrops h he | out m h hn | relCb h | rel h | endExec h =>
    refine .inl ?_; simp only [left, release]; simp [eR, h]
  | cancel m hn h | cLockNone m h hs | cLock m k h hs | cCancel m k h | cRel m k h => refine .inl ?_; simp only [left]; simp [cR, h]
  | completesRetry k h | completes k r h hr | lock1Canceled k h hc | lock1 k h hc | retryRef k e h | retryRefused k e h | lock2Canceled k e h hc | lock2Stores k e h hc he | lock2Drops k e h hc he | cancelRetry k h
  | relLl k h | opEndExec k r h | call k r h | opRel k h =>
    have a := hk k _ h (by simp)
    refine .inl ?_
    simp only [left, release] at *
    exact Nat.add_lt_add_right (Nat.add_lt_add_left (dec_op (Nat.le_trans a hl) (by rw [h]; simp [oR])) _) _
  | retryOk k e h =>
    have a := hk k _ h (by simp)
    have b : k = s.last := by
      rcases Nat.lt_or_ge k s.last with l | l
      · have := p.past k l; rw [h] at this; cases this
      · omega
    have c := p.idle (k + 1) (by omega)
    have d := dec_op (n := n) (p := .lock2 e) (f := s.op) (k := k) (by simp at hl; omega) (by rw [h]; simp [oR])
    have g := dec_op (n := n) (p := .running) (f := upd s.op k (.lock2 e)) (k := k + 1) (by simpa using hl) (by rw [upd_apply, if_neg (by omega), c]; simp [oR])
    refine .inl ?_
    simp only [left]; omega

theorem progress_same (h : Reach s) (hq : ¬ Quiet s) : ∃ s', Auto s s' ∧ s'.last = s.last := by
  refine Classical.byContradiction fun no => hq ?_
  have q : ∀ s', Step s s' → (s'.exec ≠ s.exec ∨ s'.op ≠ s.op ∨ (s.can ≠ .idle ∧ s'.can ≠ s.can)) → s'.last = s.last → False := fun s' st d e => no ⟨s', ⟨st, d⟩, e⟩
  have u : ∀ k p, s.op k ≠ p → upd s.op k p ≠ s.op := fun k p hp e => hp (by have := congrFun e k; rw [upd_apply, if_pos rfl] at this; exact this.symm)
  refine ⟨?_, fun k => ?_, ?_⟩
  · cases hp : s.exec with
    | ret b => exact ⟨b, rfl⟩
    | ask => exact (q _ (.beginOk s hp) (by simp [hp]) rfl).elim
    | create => exact (q _ (.createOk s hp) (by simp [hp]) rfl).elim
    | ref => exact (q _ (.ref s hp) (by simp [hp]) rfl).elim
    | start => exact (q _ (.startOk s hp) (by simp [hp]) rfl).elim
    | lock =>
      by_cases he : s.epoch = 0
      · exact (q _ (.lockStores s hp he) (by simp [hp]) rfl).elim
      · exact (q _ (.lockDrops s hp he) (by simp [hp]) rfl).elim
    | out =>
      refine (q _ (.out s 0 hp ?_) (by simp [hp]) rfl).elim
      cases ho : s.owns (.client 0) with
      | false => rfl
      | true => have := (inv_reach h).p.cl 0 ho; rw [hp] at this; cases this
    | relCb => exact (q _ (.relCb s hp) (by simp [hp]) rfl).elim
    | rel => exact (q _ (.rel s hp) (by simp [hp]) rfl).elim
    | endExec => exact (q _ (.endExec s hp) (by simp [hp]) rfl).elim
  · cases hp : s.op k with
    | idle => exact .inl rfl
    | fin => exact .inr rfl
    | running => exact (q _ (.completes s k .ok hp (by simp)) (.inr (.inl (u _ _ (by simp [hp])))) rfl).elim
    | lock1 =>
      cases hc : s.canceled with
      | false => exact (q _ (.lock1 s k hp hc) (.inr (.inl (u _ _ (by simp [hp])))) rfl).elim
      | true => exact (q _ (.lock1Canceled s k hp hc) (.inr (.inl (u _ _ (by simp [hp])))) rfl).elim
    | ref e => exact (q _ (.retryRef s k e hp) (.inr (.inl (u _ _ (by simp [hp])))) rfl).elim
    | start e => exact (q _ (.retryRefused s k e hp) (.inr (.inl (u _ _ (by simp [hp])))) rfl).elim
    | lock2 e =>
      cases hc : s.canceled with
      | false =>
        by_cases he : s.epoch = e
        · exact (q _ (.lock2Stores s k e hp hc he) (.inr (.inl (u _ _ (by simp [hp])))) rfl).elim
        · exact (q _ (.lock2Drops s k e hp hc he) (.inr (.inl (u _ _ (by simp [hp])))) rfl).elim
      | true => exact (q _ (.lock2Canceled s k e hp hc) (.inr (.inl (u _ _ (by simp [hp])))) rfl).elim
    | cancelLl => exact (q _ (.cancelRetry s k hp) (.inr (.inl (u _ _ (by simp [hp])))) rfl).elim
    | relLl => exact (q _ (.relLl s k hp) (.inr (.inl (u _ _ (by simp [hp])))) rfl).elim
    | endExec r => exact (q _ (.opEndExec s k r hp) (.inr (.inl (u _ _ (by simp [hp])))) rfl).elim
    | call r => exact (q _ (.call s k r hp) (.inr (.inl (u _ _ (by simp [hp])))) rfl).elim
    | rel => exact (q _ (.opRel s k hp) (.inr (.inl (u _ _ (by simp [hp])))) rfl).elim
  · cases hp : s.can with
    | idle => exact .inl rfl
    | done => exact .inr rfl
    | lock n =>
      cases hs : s.slot with
      | none => exact (q _ (.cLockNone s n hp hs) (by simp [hp]) rfl).elim
      | some k => exact (q _ (.cLock s n k hp hs) (by simp [hp]) rfl).elim
    | cancelLl n k => exact (q _ (.cCancel s n k hp) (by simp [hp]) rfl).elim
    | relLl n k => exact (q _ (.cRel s n k hp) (by simp [hp]) rfl).elim

theorem progress (h : Reach s) (hq : ¬ Quiet s) : Enabled Auto s := (progress_same h hq).imp fun _ a => a.1

/-- At most operation `n` is started from here on, as it seems: the call was canceled, and operation `n` is the last, or the one before and it may be about to be tried again. -/
def Doomed (n : Nat) (s : Sys) : Prop := s.canceled = true ∧ (s.last < n ∨ (s.last = n ∧ ∀ e, s.op n ≠ .ref e ∧ s.op n ≠ .start e))

theorem doomed_step {n : Nat} : ∀ s s', Reach s → Doomed n s → Step s s' → Doomed n s' := by
  intro s s' h d st
  have p := (inv_reach h).p
  obtain ⟨hc, d⟩ := d
  cases st with
  | retryOk k e h =>
    have b : k = s.last := by
      rcases Nat.lt_trichotomy k s.last with l | l | l
      · have := p.past k l; rw [h] at this; cases this
      · exact l
      · have := p.idle k l; rw [h] at this; cases this
    refine ⟨hc, ?_⟩
    rcases d with d | ⟨d1, d2⟩
    · rcases Nat.lt_or_ge (k + 1) n with l | l
      · exact .inl l
      · have : k + 1 = n := by omega
        refine .inr ⟨this, fun e' => ?_⟩
        simp [upd_apply, this]
    · exact absurd h (by rw [b, d1]; exact (d2 e).2)
  | lock1 k h hc' => rw [hc] at hc'; cases hc'
  | startOk h =>
    refine ⟨hc, ?_⟩
    have := p.nacc (by rw [h]; rfl)
    rcases d with d | ⟨d1, d2⟩
    · exact .inl d
    · refine .inr ⟨d1, fun e => ?_⟩
      simp only [upd_apply]; split <;> simp [d2]
  | retryRef k e h =>
    refine ⟨hc, ?_⟩
    rcases d with d | ⟨d1, d2⟩
    · exact .inl d
    · refine .inr ⟨d1, fun e' => ?_⟩
      simp only [upd_apply]
      split
      · rename_i hk; subst hk; exact absurd h (d2 e).1
      · exact d2 e'
  | completesRetry k h | completes k r h hr | lock1Canceled k h _ | retryRefused k e h | lock2Canceled k e h _ | lock2Stores k e h _ he | lock2Drops k e h _ he | cancelRetry k h
  | relLl k h | opEndExec k r h | call k r h | opRel k h =>
    refine ⟨by simpa [release] using hc, ?_⟩
    rcases d with d | ⟨d1, d2⟩
    · exact .inl (by simpa [release] using d)
    · refine .inr ⟨by simpa [release] using d1, fun e' => ?_⟩
      simp only [upd_apply]
      split
      · simp
      · exact d2 e'
  | cLockNone | cLock => exact ⟨rfl, d⟩
  | _ => exact ⟨hc, d⟩

/-- C79: after a cancel at most one more operation of the layer below is started. -/
theorem cancel_stops_retries (run : Run Reach Step σ) (i j : Nat) (hj : i ≤ j) (hc : (σ i).canceled = true) : (σ j).last ≤ (σ i).last + 1 := by
  have hr : ∀ s s', Reach s → Step s s' → Reach s' := fun _ _ h st => h.step st
  have := holds_on (P := Doomed ((σ i).last + 1)) hr run doomed_step hj ⟨hc, .inl (Nat.lt_succ_self _)⟩
  rcases this.2 with l | l <;> omega

/-- C79: in every execution in which the module and the layer below go on running and only finitely many operations of the layer below are started, whatever the client does, there comes, at any time, a later one when
nothing is going on any more. -/
theorem comes_to_end (run : Run Reach Step σ) (f : Fair Auto σ) (i n : Nat) (hl : ∀ j, (σ j).last ≤ n) : ∃ j, i ≤ j ∧ Quiet (σ j) := by
  have hr : ∀ s s', Reach s → Step s s' → Reach s' := fun _ _ h st => h.step st
  have dec : ∀ j, Step (σ j) (σ (j + 1)) → left n (σ (j + 1)) < left n (σ j) ∨ ((σ (j + 1)).exec = (σ j).exec ∧ (σ (j + 1)).op = (σ j).op ∧ (σ (j + 1)).can = (σ j).can) :=
    fun j st => steps_or_not (run.reach hr j) st (hl (j + 1))
  obtain ⟨j, hj, no⟩ := settles (I := Reach) (i := i) (A := fun s s' => Auto s s' ∧ s'.last ≤ n) (Step := fun s s' => Step s s' ∧ s'.last ≤ n) (left n)
    (fun s s' h a => by
      rcases steps_or_not h a.1.1 a.2 with l | ⟨e1, e2, e3⟩
      · exact l
      · have := a.1.2; rw [e1, e2, e3] at this; simp at this)
    (fun s s' h st => by
      rcases steps_or_not h st.1 st.2 with l | ⟨e1, e2, e3⟩
      · omega
      · simp only [left, e1, e2, e3]; exact Nat.le_refl _)
    (fun j _ => (run.next j).imp_left fun st => ⟨st, hl (j + 1)⟩) (fun j _ => run.reach hr j)
    (fun j he => by
      obtain ⟨j', hj', a⟩ := f j fun j' hj' => (he j' hj').imp fun _ a => a.1
      exact ⟨j', hj', a, hl (j' + 1)⟩)
  refine ⟨j, hj, Classical.byContradiction fun hq => no ?_⟩
  obtain ⟨s', a, e⟩ := progress_same (run.reach hr j) hq
  exact ⟨s', a, by rw [e]; exact hl j⟩

theorem last_grows : ∀ s s', Reach s → Step s s' → s.last ≤ s'.last := by
  intro s s' h st
  have p := (inv_reach h).p
  cases st with
  | retryOk k e h =>
    rcases Nat.lt_or_ge k s.last with l | l
    · have := p.past k l; rw [h] at this; cases this
    · exact Nat.le_succ_of_le l
  | _ => exact Nat.le_refl _

theorem ret_stays (b : Bool) : ∀ s s', Reach s → s.exec = .ret b → Step s s' → s'.exec = .ret b := by
  intro s s' _ h st
  cases st <;> simp_all [release]

/-- C79: a call that was canceled comes to its end, whatever the layer below answers. -/
theorem canceled_comes_to_end (run : Run Reach Step σ) (f : Fair Auto σ) (i : Nat) (hc : (σ i).canceled = true) : ∃ j, i ≤ j ∧ Quiet (σ j) := by
  have hr : ∀ s s', Reach s → Step s s' → Reach s' := fun _ _ h st => h.step st
  refine comes_to_end run f i ((σ i).last + 1) fun j => ?_
  rcases Nat.le_total i j with l | l
  · exact cancel_stops_retries run i j l hc
  · have := holds_on (P := fun s => (σ j).last ≤ s.last) hr run (fun s s' h hp st => Nat.le_trans hp (last_grows s s' h st)) l (Nat.le_refl _)
    exact Nat.le_succ_of_le this

/-- C79: the callback comes: when the function has said that it succeeded, and the module and the layer below go on running, there comes a time when the callback has been called, exactly once, provided that the call is
canceled at some time or that only finitely many operations of the layer below are started. -/
theorem callback_comes (run : Run Reach Step σ) (f : Fair Auto σ) (i : Nat) (h : (σ i).exec = .ret true) (hf : (∃ j, (σ j).canceled = true) ∨ ∃ n, ∀ j, (σ j).last ≤ n) : ∃ j, i ≤ j ∧ ∃ r, (σ j).calls = [r] := by
  have hr : ∀ s s', Reach s → Step s s' → Reach s' := fun _ _ h st => h.step st
  have e : ∃ j, i ≤ j ∧ Quiet (σ j) := by
    rcases hf with ⟨m, hm⟩ | ⟨n, hn⟩
    · have stays : ∀ s s', Reach s → s.canceled = true → Step s s' → s'.canceled = true := by
        intro s s' _ h st
        cases st <;> simp_all [release]
      have hmax : (σ (max i m)).canceled = true := holds_on hr run stays (Nat.le_max_right i m) hm
      obtain ⟨j, hj, q⟩ := canceled_comes_to_end run f _ hmax
      exact ⟨j, Nat.le_trans (Nat.le_max_left i m) hj, q⟩
    · exact comes_to_end run f i n hn
  obtain ⟨j, hj, q⟩ := e
  obtain ⟨r, e, _⟩ := succeeded_called (run.reach hr j) (holds_on hr run (ret_stays true) hj h) q
  exact ⟨j, hj, r, e⟩

/-- C79: the provision is needed: there is no bound on the number of retries while the layer below asks for them and the client does not cancel. -/
theorem retries_unbounded (n : Nat) : ∃ s, Reach s ∧ s.exec = .ret true ∧ s.last = n ∧ s.calls = [] := by
  have key : ∃ s, Reach s ∧ s.exec = .ret true ∧ s.last = n ∧ s.calls = [] ∧ s.op n = .running ∧ s.canceled = false := by
    induction n with
    | zero =>
      exact ⟨_, Reach.init |>.step (.beginOk _ rfl) |>.step (.createOk _ rfl) |>.step (.ref _ rfl) |>.step (.startOk _ rfl) |>.step (.lockStores _ rfl rfl) |>.step (.out _ 0 rfl rfl), rfl, rfl, rfl, rfl, rfl⟩
    | succ n ih =>
      obtain ⟨s, h, e1, e2, e3, e4, e5⟩ := ih
      exact ⟨_, h |>.step (.completesRetry s n e4) |>.step (.lock1 _ n (by simp [upd_apply]) e5) |>.step (.retryRef _ n (s.epoch + 1) (by simp [upd_apply])) |>.step (.retryOk _ n (s.epoch + 1) (by simp [upd_apply])),
        e1, rfl, e3, by simp [upd_apply], e5⟩
  obtain ⟨s, h, e1, e2, e3, _⟩ := key
  exact ⟨s, h, e1, e2, e3⟩

theorem quiet_end (hq : Quiet s) : ¬ Enabled Auto s := by
  rintro ⟨s', st, d⟩
  obtain ⟨⟨b, q1⟩, q2, q3⟩ := hq
  have q2' : ∀ k p, s.op k = p → p = .idle ∨ p = .fin := fun k p e => e ▸ q2 k
  cases st <;> first
    | (simp_all [release]; done)
    | (rename_i k h; have := q2' k _ h; simp at this; done)
    | (rename_i k _ h; have := q2' k _ h; simp at this; done)
    | (rename_i k h _; have := q2' k _ h; simp at this; done)
    | (rename_i k _ h _; have := q2' k _ h; simp at this; done)
    | (rename_i k _ h _ _; have := q2' k _ h; simp at this; done)

/-- There are such executions: the operation succeeds at the first attempt; nothing is left to do. -/
example : ∃ σ, Run Reach Step σ ∧ Fair Auto σ ∧ ∃ i, (σ i).exec = .ret true := by
  have hr : ∀ s s', Reach s → Step s s' → Reach s' := fun _ _ h st => h.step st
  obtain ⟨σ, n, run, h0, hn⟩ := exists_run (Step := Step) hr Reach.init
    (.cons (.beginOk _ rfl) (.cons (.createOk _ rfl) (.cons (.ref _ rfl) (.cons (.startOk _ rfl) (.cons (.lockStores _ rfl rfl) (.cons (.out _ 0 rfl rfl) (.cons (.completes _ 0 .ok rfl (by simp))
      (.cons (.opEndExec _ 0 .ok rfl) (.cons (.call _ 0 .ok rfl) (.cons (.opRel _ 0 rfl) (.nil _)))))))))))
  refine ⟨σ, run, fair_of_end hn ?_, n, ?_⟩
  · refine quiet_end ⟨⟨true, rfl⟩, fun k => ?_, .inl rfl⟩
    by_cases hk : k = 0
    · subst hk; exact .inr rfl
    · refine .inl ?_
      simp [upd_apply, release, init, hk]
  · rw [hn n (Nat.le_refl n)]; rfl

end CUtil.SampleRetry
