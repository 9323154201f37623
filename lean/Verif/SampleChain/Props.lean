import Verif.SampleChain.Lemmas
set_option linter.unusedSimpArgs false
set_option linter.unusedVariables false
/-
C80: the asynchronous call of two steps of the samples, under every interleaving of the caller, the lower layer's callbacks and a client that cancels and releases.
-/
namespace CUtil.SampleChain

/-- `r` is what the second operation of the lower layer said; or the call was canceled; or the second operation was refused. -/
def Truthful (s : Sys) (r : Res) : Prop :=
  s.res .two = some r ∨ (r = .canceled ∧ s.canceled = true ∧ s.res .one ≠ none) ∨ (r = .error ∧ s.refused = true ∧ s.res .one ≠ none)

/-- Nothing is going on any more. -/
def Quiet (s : Sys) : Prop :=
  (∃ b, s.exec = .ret b) ∧ (s.o1 = .idle ∨ s.o1 = .fin) ∧ (s.o2 = .idle ∨ s.o2 = .fin) ∧ (s.can = .idle ∨ s.can = .done)

/-- From one state to a later one. -/
inductive Steps : Sys → Sys → Prop
  | refl (s : Sys) : Steps s s
  | step {s s' s'' : Sys} (h : Steps s s') (st : Step s' s'') : Steps s s''

structure InvT (s : Sys) : Prop where
  t1 : ∀ r, s.o1.rep = some r ∨ s.o2.rep = some r ∨ r ∈ s.calls → Truthful s r
  t2 : s.o1 = .idle ∨ s.o1 = .running ∨ s.res .one ≠ none
  t3 : s.o1 = .relRef → s.refused = true
  t4 : s.o2 ≠ .idle → s.o1 ≠ .idle ∧ s.o1 ≠ .running

set_option maxHeartbeats 4000000 in
theorem invT_step {s s' : Sys} (p : InvP s) (x : InvX s) (h : InvT s) (st : Step s s') : InvT s' := by
  obtain ⟨h1, h2, h3, h4⟩ := h
  obtain ⟨p1, p2, p3, p4, p5, p6, p7, p8, p9, p10⟩ := p
  obtain ⟨x1, x2, x3, x4, x5, x6, x7⟩ := x
  cases st <;> constructor <;> simp only [own, set, release, Truthful, O1.rep, O2.rep] at * <;> grind

set_option maxHeartbeats 4000000 in
theorem bad_step {s s' : Sys} (i : Inv s) (h : s.bad = false) (st : Step s s') : s'.bad = false := by
  obtain ⟨h1, h2, h3, h4, h5, h6, h7, h8, h9, h10, h11, h12, h13⟩ := i.o
  obtain ⟨x1, x2, x3, x4, x5, x6, x7⟩ := i.x
  obtain ⟨l1, l2, l3⟩ := i.l
  clear i
  have hu : ∀ n, s.can = .lock n → s.owns (.client n) = true := fun n e => h6 n (by rw [e]; rfl)
  cases st <;> simp only [own, release, touch] at * <;> grind

theorem both {s : Sys} (h : Reach s) : InvT s ∧ s.bad = false := by
  induction h with
  | init => exact ⟨⟨by simp [init, O1.rep, O2.rep], by simp [init], by simp [init], by simp [init]⟩, rfl⟩
  | step h st ih => exact ⟨invT_step (inv_reach h).p (inv_reach h).x ih.1 st, bad_step (inv_reach h) ih.2 st⟩

/-- C80: no memory is used after it was freed, no reference released twice, sm_exec_end is called in its place. -/
theorem memory_safe {s : Sys} (h : Reach s) : s.bad = false := (both h).2

/-- C80: the client's callback is called at most once; by then the call counts as ended, so that the callback may close the module. -/
theorem callback_once {s : Sys} (h : Reach s) : s.calls.length ≤ 1 ∧ (s.calls ≠ [] → s.inExec = false) := by
  have i := inv_reach h
  obtain ⟨p1, p2, p3, p4, p5, p6, p7, p8, p9, p10⟩ := i.p
  obtain ⟨x1, x2, x3, x4, x5, x6, x7⟩ := i.x
  have q' := EPc.of_mine
  clear i
  refine ⟨?_, ?_⟩ <;> cases e : s.o1 <;> cases e2 : s.o2 <;> grind

/-- C80: when the function has said that it failed, there is no callback, now or later, nothing was started, and the call counts as ended. -/
theorem failed_silent {s : Sys} (h : Reach s) (hr : s.exec = .ret false) : s.calls = [] ∧ s.o1 = .idle ∧ s.o2 = .idle ∧ s.inExec = false := by
  have i := inv_reach h
  have h0 := i.p.nacc (by rw [hr]; rfl)
  have h1 := i.p.pre (by rw [h0]; rfl)
  refine ⟨i.x.c0 (.inl (by rw [h0]; rfl)), h0, h1, ?_⟩
  cases hb : s.inExec with
  | false => rfl
  | true =>
    have h2 := i.x.back hb
    rw [hr, h0, h1] at h2
    simp [EPc.mine, O1.auth, O2.auth] at h2

/-- C80: when the function has said that it succeeded and nothing is going on any more, the callback was called exactly once. -/
theorem succeeded_called {s : Sys} (h : Reach s) (hr : s.exec = .ret true) (hq : Quiet s) : ∃ r, s.calls = [r] ∧ Truthful s r ∧ s.inExec = false := by
  have i := inv_reach h
  have h1 := i.p.acc (by rw [hr]; rfl)
  have h2 := hq.2.1.resolve_left h1
  have h3 : s.calls.length = 1 := by
    rcases hq.2.2.1 with e | e
    · exact i.x.c1 (by rw [h2]; rfl) e
    · exact i.x.c2 (by rw [e]; rfl)
  match hc : s.calls, h3 with
  | [r], _ => exact ⟨r, rfl, (both h).1.t1 r (.inr (.inr (by simp [hc]))), (callback_once h).2 (by simp [hc])⟩

/-- C80: what the callback is called with is truthful as to the second step, the cancel and the refusal. -/
theorem result_truthful_partial {s : Sys} (h : Reach s) (r : Res) (hr : r ∈ s.calls) : Truthful s r := (both h).1.t1 r (.inr (.inr hr))

/-- C80: once the cancel function has run, the lower layer is told to cancel whatever it is still running: it was told, or the thread that
started step 2 has not yet come to the lock after that and will tell it (`told_or_will`); unless the completion of step 1 came to that lock before execute_async came to its own. -/
theorem cancel_reaches_partial {s : Sys} (h : Reach s) (hd : s.can = .done) :
    (s.o1 = .running → s.llCanceled .one = true) ∧ (s.o2 = .running → s.llCanceled .two = true ∨ s.o1 = .lock2 ∨ s.o1 = .cancelLl ∨ s.early = true) := by
  have i := inv_reach h
  have hc : s.canceled = true := by rw [← i.c.c1, hd]; rfl
  have h4 := i.c.c4 hc
  have h5 := i.c.c5 hc
  rw [hd] at h4 h5
  simpa [CPc.isCancelLl] using And.intro h4 h5

/-- C80: after the cancel function has run, the step of the starter of step 2 can only be to tell the lower layer to cancel it. -/
theorem told_or_will {s s' : Sys} (h : Reach s) (hd : s.can = .done) (hj : s.o1 = .cancelLl ∨ s.o1 = .lock2) (st : Step s s') :
    s'.o1 = s.o1 ∨ s'.o1 = .cancelLl ∨ s'.llCanceled .two = true := by
  have hc : s.canceled = true := by rw [← (inv_reach h).c.c1, hd]; rfl
  have ha := (inv_reach h).p.nacc
  cases st <;> simp only [set, release] at * <;> grind

/-- C80: step 2 is not started after the lock has seen the cancellation: the callback comes with "canceled". -/
theorem no_step_after_cancel {s s' : Sys} (h : Reach s) (hc : s.canceled = true) (hk : s.o1 = .lock1) (st : Step s s') :
    s'.o1 = .lock1 ∨ s'.o1 = .endExec .canceled := by
  have ha := (inv_reach h).p.nacc
  cases st <;> simp only [set, release] at * <;> grind

/-- The operation of step 2 is not and will not be told to cancel. -/
def Lost (s : Sys) : Prop := s.can = .done ∧ s.o1.ended = true ∧ s.llCanceled .two = false

/-- C80: a cancel that has run and has not reached step 2, whose starter is through, never reaches it. -/
theorem lost_forever {s s' : Sys} (h : Reach s) (hl : Lost s) (hs : Steps s s') : Lost s' := by
  have hr : ∀ {s'}, Steps s s' → Reach s' := fun {s'} hs => by
    induction hs with
    | refl => exact h
    | step _ st ih => exact ih.step st
  induction hs with
  | refl => exact hl
  | step hs st ih =>
    have ha := (inv_reach (hr hs)).p.nacc
    obtain ⟨h1, h2, h3⟩ := ih
    cases st <;> simp only [Lost, set, release] at * <;> grind

/-- C80: the guard of execute_async against a first step that is already over never strikes: at its lock the step counter is 0, and the operation of step 1 is stored whether or not it is over. -/
theorem always_stored {s : Sys} (h : Reach s) (hl : s.exec = .lock) : s.step = 0 := (inv_reach h).p.st0 (.inr hl)

/-- C80: when nothing is going on and the client holds no handle, everything is freed. -/
theorem everything_freed {s : Sys} (h : Reach s) (hq : Quiet s) (hb : s.born = true) (hc : ∀ n, s.owns (.client n) = false) :
    s.disposed = true ∧ s.slot = none ∧ s.eref = false ∧ s.sref = false ∧ ∀ k, s.cref k = false := by
  have i := inv_reach h
  obtain ⟨⟨b, hx⟩, ho, ho2, hn⟩ := hq
  have hd : s.disposed = true := by
    refine Classical.byContradiction fun hd => ?_
    obtain ⟨o, hw⟩ := i.o.live hb (by simpa using hd)
    cases o with
    | caller => rw [i.o.caller, hx] at hw; simp [EPc.holds] at hw
    | client n => rw [hc] at hw; cases hw
    | first => rw [i.o.first, hx] at hw; simp at hw
    | next => rw [i.o.next] at hw; rcases ho with e' | e' <;> rw [e'] at hw <;> simp at hw
    | cb1 => rw [i.o.cb1] at hw; rcases ho with e' | e' <;> rw [e'] at hw <;> simp [O1.live] at hw
    | cb2 => rw [i.o.cb2] at hw; rcases ho2 with e' | e' <;> rw [e'] at hw <;> simp [O2.live] at hw
  refine ⟨hd, i.o.slot hd, ?_, ?_, fun k => ?_⟩
  · cases he : s.eref with
    | false => rfl
    | true => rw [i.l.l2, hx] at he; cases he
  · rw [i.l.l3]; rcases ho with e | e <;> rw [e] <;> rfl
  · cases he : s.cref k with
    | false => rfl
    | true => rw [i.l.l4] at he; rcases hn with e | e <;> rw [e] at he <;> simp [CPc.holds] at he

/-! ### Witnesses -/

/-- C80: false of the sample: step 1 is over before execute_async stores its operation; step 2 is running and not stored; the client cancels, the cancel function
runs to its end, and step 2 is not told to cancel, now or later (`lost_forever`): the cancel went to the operation of step 1. -/
theorem cancel_lost : ∃ s, Reach s ∧ s.exec = .ret true ∧ s.o2 = .running ∧ s.llCanceled .one = true ∧ Lost s := by
  refine ⟨_, Reach.init |>.step (.beginOk _ rfl) |>.step (.createOk _ rfl) |>.step (.ref _ rfl) |>.step (.startOk _ rfl) |>.step (.completes1 _ .ok rfl) |>.step (.lock1 _ rfl rfl)
    |>.step (.nextRef _ rfl) |>.step (.nextOk _ rfl) |>.step (.lock2Drops _ rfl rfl (by decide)) |>.step (.relLl _ rfl) |>.step (.lockStores _ rfl rfl) |>.step (.out _ 0 rfl rfl)
    |>.step (.cancel _ 0 rfl rfl) |>.step (.cLock _ 0 .one rfl rfl) |>.step (.cCancel _ 0 .one rfl) |>.step (.cRel _ 0 .one rfl), rfl, rfl, rfl, rfl, rfl, rfl⟩

/-- C80: false of the sample: the first step fails, the second does not, and the client is told that the call succeeded. -/
theorem error_of_step_1_ignored : ∃ s, Reach s ∧ s.res .one = some .error ∧ s.calls = [.ok] := by
  refine ⟨_, Reach.init |>.step (.beginOk _ rfl) |>.step (.createOk _ rfl) |>.step (.ref _ rfl) |>.step (.startOk _ rfl) |>.step (.lockStores _ rfl rfl) |>.step (.completes1 _ .error rfl) |>.step (.lock1 _ rfl rfl)
    |>.step (.nextRef _ rfl) |>.step (.nextOk _ rfl) |>.step (.lock2Stores _ rfl rfl rfl) |>.step (.relLl _ rfl) |>.step (.rel1 _ rfl)
    |>.step (.completes2 _ .ok rfl) |>.step (.endExec2 _ .ok rfl) |>.step (.call2 _ .ok rfl), rfl, rfl⟩

/-- Beside `cancel_reaches_partial`, `succeeded_called`, `everything_freed`: a cancel in step 2. -/
example : ∃ s, Reach s ∧ s.exec = .ret true ∧ s.can = .done ∧ s.o2 = .running ∧ s.early = false ∧ s.llCanceled .two = true := by
  refine ⟨_, Reach.init |>.step (.beginOk _ rfl) |>.step (.createOk _ rfl) |>.step (.ref _ rfl) |>.step (.startOk _ rfl) |>.step (.lockStores _ rfl rfl) |>.step (.out _ 0 rfl rfl) |>.step (.completes1 _ .ok rfl) |>.step (.lock1 _ rfl rfl)
    |>.step (.nextRef _ rfl) |>.step (.nextOk _ rfl) |>.step (.lock2Stores _ rfl rfl rfl) |>.step (.cancel _ 0 rfl rfl) |>.step (.cLock _ 0 .two rfl rfl) |>.step (.cCancel _ 0 .two rfl) |>.step (.cRel _ 0 .two rfl),
    rfl, rfl, rfl, rfl, rfl⟩

theorem quiet_of {s : Sys} (h : Reach s) (h1 : s.exec = .ret true) (h2 : s.o1 = .fin) (h3 : s.o2 = .fin) (h4 : s.can = .idle) (h5 : s.born = true) (h6 : s.calls = [.canceled])
    (h7 : ∀ n, s.owns (.client n) = false) : ∃ s, Reach s ∧ s.exec = .ret true ∧ Quiet s ∧ s.born = true ∧ (∀ n, s.owns (.client n) = false) ∧ s.calls = [.canceled] ∧ s.disposed = true :=
  have q : Quiet s := ⟨⟨_, h1⟩, .inr h2, .inr h3, .inl h4⟩
  ⟨s, h, h1, q, h5, h7, h6, (everything_freed h q h5 h7).1⟩

/-- Beside `succeeded_called`, `everything_freed`: a whole call that the lower layer cancels in step 2. -/
example : ∃ s, Reach s ∧ s.exec = .ret true ∧ Quiet s ∧ s.born = true ∧ (∀ n, s.owns (.client n) = false) ∧ s.calls = [.canceled] ∧ s.disposed = true := by
  have r := Reach.init |>.step (.beginOk _ rfl) |>.step (.createOk _ rfl) |>.step (.ref _ rfl) |>.step (.startOk _ rfl) |>.step (.lockStores _ rfl rfl) |>.step (.out _ 0 rfl rfl) |>.step (.completes1 _ .ok rfl) |>.step (.lock1 _ rfl rfl)
    |>.step (.nextRef _ rfl) |>.step (.nextOk _ rfl) |>.step (.lock2Stores _ rfl rfl rfl) |>.step (.relLl _ rfl) |>.step (.rel1 _ rfl)
    |>.step (.completes2 _ .canceled rfl) |>.step (.endExec2 _ .canceled rfl) |>.step (.call2 _ .canceled rfl) |>.step (.rel2 _ rfl) |>.step (.drop _ 0 rfl (by simp [release, CPc.user, init]))
  exact quiet_of r rfl rfl rfl rfl rfl rfl (fun n => by simp [release, own, init])

/-- Beside `failed_silent`: the first operation is refused. -/
example : ∃ s, Reach s ∧ s.exec = .ret false ∧ s.born = true :=
  ⟨_, Reach.init |>.step (.beginOk _ rfl) |>.step (.createOk _ rfl) |>.step (.ref _ rfl) |>.step (.startRefused _ rfl) |>.step (.relCb _ rfl) |>.step (.rel _ rfl) |>.step (.endExec _ rfl), rfl, rfl⟩

/-- Beside `told_or_will`: the cancellation comes before step 2 is stored. -/
example : ∃ s, Reach s ∧ s.can = .done ∧ s.o2 = .running ∧ s.o1 = .lock2 := by
  refine ⟨_, Reach.init |>.step (.beginOk _ rfl) |>.step (.createOk _ rfl) |>.step (.ref _ rfl) |>.step (.startOk _ rfl) |>.step (.lockStores _ rfl rfl) |>.step (.out _ 0 rfl rfl) |>.step (.completes1 _ .ok rfl) |>.step (.lock1 _ rfl rfl)
    |>.step (.nextRef _ rfl) |>.step (.nextOk _ rfl) |>.step (.cancel _ 0 rfl rfl) |>.step (.cLockNone _ 0 rfl rfl), rfl, rfl, rfl⟩

/-- Beside `no_step_after_cancel`. -/
example : ∃ s, Reach s ∧ s.canceled = true ∧ s.o1 = .lock1 := by
  refine ⟨_, Reach.init |>.step (.beginOk _ rfl) |>.step (.createOk _ rfl) |>.step (.ref _ rfl) |>.step (.startOk _ rfl) |>.step (.lockStores _ rfl rfl) |>.step (.out _ 0 rfl rfl)
    |>.step (.completes1 _ .ok rfl) |>.step (.cancel _ 0 rfl rfl) |>.step (.cLock _ 0 .one rfl rfl), rfl, rfl⟩

/-- Beside `always_stored`: the lock may come after step 1 is over. -/
example : ∃ s, Reach s ∧ s.exec = .lock ∧ s.o2 = .running := by
  refine ⟨_, Reach.init |>.step (.beginOk _ rfl) |>.step (.createOk _ rfl) |>.step (.ref _ rfl) |>.step (.startOk _ rfl) |>.step (.completes1 _ .ok rfl) |>.step (.lock1 _ rfl rfl)
    |>.step (.nextRef _ rfl) |>.step (.nextOk _ rfl), rfl, rfl⟩

end CUtil.SampleChain
