import Verif.SampleRetry.Lemmas
set_option linter.unusedSimpArgs false
set_option linter.unusedVariables false
/-
C79: the asynchronous call with retries of the samples, under every interleaving of the caller, the lower layer's callbacks and a client that cancels and releases.
-/
namespace CUtil.SampleRetry
open CUtil.Conc

/-- `r` is a truthful report: OK and "canceled" are what the lower layer said last, or the client has canceled; an error is one of the lower layer, or a retry it refused. -/
def Truthful (s : Sys) (r : Res) : Prop :=
  (r = .ok ∧ s.res s.last = some .ok) ∨
  (r = .canceled ∧ (s.canceled = true ∨ s.res s.last = some .canceled)) ∨
  (r = .error ∧ (s.res s.last = some .error ∨ (s.res s.last = some .retry ∧ s.refused s.last = true)))

/-- Nothing is going on any more. -/
def Quiet (s : Sys) : Prop :=
  (∃ b, s.exec = .ret b) ∧ (∀ k, s.op k = .idle ∨ s.op k = .fin) ∧ (s.can = .idle ∨ s.can = .done)

/-- The completion has a result to report. -/
def OPc.rep : OPc → Option Res
  | .endExec r => some r | .call r => some r | _ => none
/-- The callback was called with "retry". -/
def OPc.retr : OPc → Bool
  | .lock1 => true | .ref _ => true | .start _ => true | _ => false
attribute [local grind] OPc.rep OPc.retr

structure InvT (s : Sys) : Prop where
  t1 : ∀ r, (s.op s.last).rep = some r ∨ r ∈ s.calls → Truthful s r
  t2 : ∀ j, j < s.last → s.res j = some .retry
  t3 : (s.op s.last).retr = true → s.res s.last = some .retry
  t4 : s.refused s.last = true → s.res s.last = some .retry

theorem rep_past (p : OPc) (h : p.past = true) : p.rep = none ∧ p.retr = false := by cases p <;> simp_all [OPc.past, OPc.rep, OPc.retr]

set_option maxHeartbeats 4000000 in
theorem invT_step {s s' : Sys} (p : InvP s) (x : InvX s) (h : InvT s) (st : Step s s') : InvT s' := by
  obtain ⟨h1, h2, h3, h4⟩ := h
  obtain ⟨p1, p2, p3, p4, p5, p6, p7, p8⟩ := p
  have q := OPc.of_past
  have q' := rep_past
  have hx : (s.op s.last).auth = true → s.calls = [] := fun e => x.c0 (.inr (.inl e))
  clear x
  have hr : ∀ r r', r ≠ .retry → report r = r' → (r' = .ok ∧ r = .ok) ∨ (r' = .canceled ∧ r = .canceled) ∨ (r' = .error ∧ r = .error) := by
    intro r r' hr e; subst e; cases r <;> simp_all [report]
  cases st <;> constructor <;> simp only [upd_apply, own, release, Truthful] at * <;> grind

set_option maxHeartbeats 4000000 in
theorem bad_step {s s' : Sys} (i : Inv s) (h : s.bad = false) (st : Step s s') : s'.bad = false := by
  obtain ⟨h1, h2, h3, h4, h5, h6, h7, h8, h9, h10, h11, h12⟩ := i.o
  obtain ⟨x1, x2, x3, x4, x5⟩ := i.x
  obtain ⟨l1, l2, l3, l4⟩ := i.l
  clear i
  have hu : ∀ n, s.can = .lock n → s.owns (.client n) = true := fun n e => h5 n (by rw [e]; rfl)
  cases st <;> simp only [upd_apply, own, release, touch] at * <;> grind

theorem both {s : Sys} (h : Reach s) : InvT s ∧ s.bad = false := by
  induction h with
  | init => exact ⟨⟨by simp [init, OPc.rep], by simp [init], by simp [init, OPc.retr], by simp [init]⟩, rfl⟩
  | step h st ih => exact ⟨invT_step (inv_reach h).p (inv_reach h).x ih.1 st, bad_step (inv_reach h) ih.2 st⟩

/-- C79: no memory is used after it was freed, no reference released twice, sm_exec_end is called in its place. -/
theorem memory_safe {s : Sys} (h : Reach s) : s.bad = false := (both h).2

/-- C79: the client's callback is called at most once; by then the call counts as ended, so that the callback may close the module. -/
theorem callback_once {s : Sys} (h : Reach s) : s.calls.length ≤ 1 ∧ (s.calls ≠ [] → s.inExec = false) := by
  have i := inv_reach h
  obtain ⟨p1, p2, p3, p4, p5, p6, p7, p8⟩ := i.p
  obtain ⟨x1, x2, x3, x4, x5⟩ := i.x
  have q' := EPc.of_mine
  clear i
  refine ⟨?_, ?_⟩ <;> cases e : s.op s.last <;> grind

/-- C79: when the function has said that it failed, there is no callback, now or later, nothing was started, and the call counts as ended. -/
theorem failed_silent {s : Sys} (h : Reach s) (hr : s.exec = .ret false) : s.calls = [] ∧ (∀ k, s.op k = .idle) ∧ s.inExec = false := by
  have i := inv_reach h
  obtain ⟨p1, p2, p3, p4, p5, p6, p7, p8⟩ := i.p
  obtain ⟨x1, x2, x3, x4, x5⟩ := i.x
  clear i
  have h0 := p4 (by rw [hr]; rfl)
  refine ⟨x4 (.inl (by rw [h0.1]; exact h0.2)), fun k => ?_, ?_⟩
  · cases k with
    | zero => exact h0.2
    | succ k => exact p2 _ (by omega)
  · cases hb : s.inExec with
    | false => rfl
    | true =>
      rcases x3 hb with h1 | h1
      · rw [hr] at h1; exact nomatch h1
      · rw [h0.1, h0.2] at h1; exact nomatch h1

/-- C79: when the function has said that it succeeded and nothing is going on any more, the callback was called exactly once. -/
theorem succeeded_called {s : Sys} (h : Reach s) (hr : s.exec = .ret true) (hq : Quiet s) : ∃ r, s.calls = [r] ∧ Truthful s r ∧ s.inExec = false := by
  have i := inv_reach h
  have h1 := i.p.acc (by rw [hr]; rfl)
  have h2 := (hq.2.1 s.last).resolve_left h1
  have h3 := i.x.c1 (.inr h2)
  match hc : s.calls, h3 with
  | [r], _ => exact ⟨r, rfl, (both h).1.t1 r (.inr (by simp [hc])), (callback_once h).2 (by simp [hc])⟩

/-- C79: what the callback is called with is truthful, and every earlier operation of the lower layer ended with "retry". -/
theorem result_truthful {s : Sys} (h : Reach s) : (∀ r ∈ s.calls, Truthful s r) ∧ ∀ j, j < s.last → s.res j = some .retry :=
  ⟨fun r hr => (both h).1.t1 r (.inr hr), (both h).1.t2⟩

/-- C79: once the cancel function has run, the lower layer is told to cancel whatever it is still running: it was told, or the thread that
started the operation has not yet come to the lock after that and will tell it (`told_or_will`). -/
theorem cancel_reaches {s : Sys} (h : Reach s) (hd : s.can = .done) (k : Nat) (hk : s.op k = .running) :
    s.llCanceled k = true ∨ ∃ j, k = j + 1 ∧ (s.op j = .cancelLl ∨ ∃ e, s.op j = .lock2 e) := by
  have i := inv_reach h
  have hl : k = s.last := by
    have := i.p.past k
    have h2 := i.p.idle k
    rw [hk] at this h2
    simp [OPc.past] at this h2
    omega
  subst hl
  cases hc : s.llCanceled s.last with
  | true => exact .inl rfl
  | false =>
    have h1 := i.c.c3 (by rw [← i.c.c1, hd]; rfl) hk hc (by rw [hd]; simp [CPc.isCancelLl])
    refine .inr ⟨s.last - 1, by omega, ?_⟩
    rcases h1.2 with h2 | h2
    · revert h2; cases s.op (s.last - 1) <;> simp [OPc.isLock2]
    · exact .inl h2

/-- C79: after the cancel function has run, the step of the starter of a retry can only be to tell the lower layer to cancel it. -/
theorem told_or_will {s s' : Sys} (h : Reach s) (hd : s.can = .done) (j : Nat) (hj : s.op j = .cancelLl ∨ ∃ e, s.op j = .lock2 e) (st : Step s s') :
    (s'.op j = s.op j) ∨ s'.op j = .cancelLl ∨ s'.llCanceled (j + 1) = true := by
  have hc : s.canceled = true := by rw [← (inv_reach h).c.c1, hd]; rfl
  have hp := (inv_reach h).p.past
  have ha := (inv_reach h).p.nacc
  have hi := (inv_reach h).p.idle j
  cases st <;> simp only [upd_apply, release] at * <;> grind

/-- C79: no retry is started after the lock has seen the cancellation: the callback comes with "canceled". -/
theorem no_retry_after_cancel {s s' : Sys} (h : Reach s) (hc : s.canceled = true) (k : Nat) (hk : s.op k = .lock1) (st : Step s s') :
    s'.op k = .lock1 ∨ s'.op k = .endExec .canceled := by
  have hp := (inv_reach h).p.past
  have ha := (inv_reach h).p.nacc
  have hi := (inv_reach h).p.idle k
  cases st <;> simp only [upd_apply, release] at * <;> grind

/-- C79: when nothing is going on and the client holds no handle, no reference on an operation of the lower layer is left, and the operation is freed — unless the
lower layer refused a retry: then it is never freed. -/
theorem freed_unless_refused_partial {s : Sys} (h : Reach s) (hq : Quiet s) (hb : s.born = true) (hc : ∀ n, s.owns (.client n) = false) :
    s.eref = false ∧ (∀ k, s.sref k = false) ∧ (∀ k, s.cref k = false) ∧ (s.disposed = true → s.slot = none) ∧
    (s.disposed = false ↔ ∃ k, s.refused k = true) := by
  have i := inv_reach h
  obtain ⟨⟨b, hx⟩, ho, hn⟩ := hq
  refine ⟨?_, fun k => ?_, fun k => ?_, i.o.slot, ?_⟩
  · cases he : s.eref with
    | false => rfl
    | true => rw [i.l.l2, hx] at he; cases he
  · rw [i.l.l3]; rcases ho k with e | e <;> rw [e] <;> rfl
  · cases he : s.cref k with
    | false => rfl
    | true => rw [i.l.l4] at he; rcases hn with e | e <;> rw [e] at he <;> simp [CPc.holds] at he
  · constructor
    · intro hd
      obtain ⟨o, hw⟩ := i.o.live hb hd
      cases o with
      | caller => rw [i.o.caller, hx] at hw; simp [EPc.holds] at hw
      | client n => rw [hc] at hw; cases hw
      | first => rw [i.o.first, hx] at hw; simp at hw
      | next k =>
        rw [i.o.next] at hw
        rcases hw with e | e
        · rcases ho k with e' | e' <;> rw [e'] at e <;> simp [OPc.isStart] at e
        · exact ⟨k, e⟩
      | cb k => rw [i.o.cb] at hw; rcases ho k with e' | e' <;> rw [e'] at hw <;> simp [OPc.live] at hw
    · intro ⟨k, hk⟩
      cases hd : s.disposed with
      | false => rfl
      | true =>
        have h1 := i.o.disp hd (.next k)
        have h2 := (i.o.next k).mpr (.inr hk)
        rw [h1] at h2; cases h2

/-- Up to the accepted first operation. -/
theorem started : ∃ s, Reach s ∧ s.exec = .lock ∧ s.op = upd (fun _ => .idle) 0 .running ∧ s.epoch = 0 ∧ s.canceled = false ∧ s.can = .idle ∧ s.born = true ∧
    s.last = 0 ∧ s.calls = [] ∧ s.owns = own (own (own (own (fun _ => false) .caller true) .first true) .first false) (.cb 0) true ∧ s.refused = (fun _ => false) := by
  refine ⟨_, Reach.init |>.step (.beginOk _ rfl) |>.step (.createOk _ rfl) |>.step (.ref _ rfl) |>.step (.startOk _ rfl), ?_⟩
  exact ⟨rfl, rfl, rfl, rfl, rfl, rfl, rfl, rfl, rfl, rfl⟩

/-- The function has succeeded and its first operation is to be tried again. -/
theorem retrying : ∃ s, Reach s ∧ s.exec = .ret true ∧ s.op = upd (upd (upd (upd (fun _ => .idle) 0 .running) 0 .lock1) 0 (.ref 2)) 0 (.start 2) ∧ s.epoch = 2 ∧ s.canceled = false ∧ s.can = .idle ∧
    s.born = true ∧ s.last = 0 ∧ s.calls = [] ∧ s.refused = (fun _ => false) ∧ s.slot = none ∧
    s.owns = own (own (own (own (own (own (own (fun _ => false) .caller true) .first true) .first false) (.cb 0) true) .caller false) (.client 0) true) (.next 0) true := by
  refine ⟨_, Reach.init |>.step (.beginOk _ rfl) |>.step (.createOk _ rfl) |>.step (.ref _ rfl) |>.step (.startOk _ rfl) |>.step (.lockStores _ rfl rfl) |>.step (.out _ 0 rfl rfl)
    |>.step (.completesRetry _ 0 rfl) |>.step (.lock1 _ 0 rfl rfl) |>.step (.retryRef _ 0 2 rfl), ?_⟩
  exact ⟨rfl, rfl, rfl, rfl, rfl, rfl, rfl, rfl, rfl, rfl, rfl⟩

theorem leak_of {s : Sys} (h : Reach s) (q : Quiet s) (hc : ∀ n, s.owns (.client n) = false) (hb : s.born = true) (hr : s.calls = [.error]) (k : Nat) (hk : s.refused k = true) :
    ∃ s, Reach s ∧ Quiet s ∧ (∀ n, s.owns (.client n) = false) ∧ s.born = true ∧ s.calls = [.error] ∧ s.disposed = false :=
  ⟨s, h, q, hc, hb, hr, (freed_unless_refused_partial h q hb hc).2.2.2.2.mpr ⟨k, hk⟩⟩

theorem freed_of {s : Sys} (h : Reach s) (he : s.exec = .ret true) (q : Quiet s) (hd : s.can = .done) (hc : ∀ n, s.owns (.client n) = false) (hb : s.born = true) (hr : s.calls = [.canceled])
    (hl : s.llCanceled 1 = true) (hk : s.refused = fun _ => false) :
    ∃ s, Reach s ∧ s.exec = .ret true ∧ Quiet s ∧ s.can = .done ∧ (∀ n, s.owns (.client n) = false) ∧ s.calls = [.canceled] ∧ s.llCanceled 1 = true ∧ s.disposed = true := by
  refine ⟨s, h, he, q, hd, hc, hr, hl, ?_⟩
  refine Classical.byContradiction fun hn => ?_
  obtain ⟨k, hk'⟩ := (freed_unless_refused_partial h q hb hc).2.2.2.2.mp (by simpa using hn)
  rw [hk] at hk'
  cases hk'

/-- C79: false of the sample: everything is over, the client has released its handle, and the operation is not freed and never will be, because the lower layer refused the retry. -/
theorem refused_retry_leaks : ∃ s, Reach s ∧ Quiet s ∧ (∀ n, s.owns (.client n) = false) ∧ s.born = true ∧ s.calls = [.error] ∧ s.disposed = false := by
  obtain ⟨s, hr, h1, h2, h3, h4, h5, h6, h7, h8, h9, h10, h11⟩ := retrying
  have r1 := hr.step (.retryRefused s 0 2 (by rw [h2]; rfl)) |>.step (.opEndExec _ 0 .error rfl) |>.step (.call _ 0 .error rfl) |>.step (.opRel _ 0 rfl)
  have r2 := r1.step (.drop _ 0 (by simp [release, own, h11]) (by simp [release, h5, CPc.user]))
  refine leak_of r2 ⟨⟨true, h1⟩, fun k => ?_, .inl h5⟩ (fun n => ?_) h6 (by simp [release, h8]) 0 rfl
  · by_cases hk : k = 0 <;> simp [release, upd_apply, h2, hk]
  · simp [release, own, h11]

/-- Beside `succeeded_called`, `cancel_reaches` and `freed_unless_refused_partial`: a call that is canceled while its retry is being started; the lower layer is told, says "canceled", the
callback is called with it and everything is freed. -/
example : ∃ s, Reach s ∧ s.exec = .ret true ∧ Quiet s ∧ s.can = .done ∧ (∀ n, s.owns (.client n) = false) ∧ s.calls = [.canceled] ∧ s.llCanceled 1 = true ∧ s.disposed = true := by
  obtain ⟨s, hr, h1, h2, h3, h4, h5, h6, h7, h8, h9, h10, h11⟩ := retrying
  have r1 := hr.step (.retryOk s 0 2 (by rw [h2]; rfl)) |>.step (.cancel _ 0 (by simp [own, h11]) h5) |>.step (.cLockNone _ 0 rfl h10) |>.step (.lock2Canceled _ 0 2 rfl rfl)
    |>.step (.cancelRetry _ 0 rfl) |>.step (.relLl _ 0 rfl) |>.step (.opRel _ 0 rfl) |>.step (.completes _ 1 .canceled rfl (by simp)) |>.step (.opEndExec _ 1 .canceled rfl)
    |>.step (.call _ 1 .canceled rfl) |>.step (.opRel _ 1 rfl)
  have r2 := r1.step (.drop _ 0 (by simp [release, own, h11]) (by simp [release, CPc.user]))
  refine freed_of r2 h1 ⟨⟨true, h1⟩, fun k => ?_, .inr rfl⟩ rfl (fun n => ?_) h6 (by simp [release, h8]) rfl (by simp [release, h9])
  · by_cases hk : k = 0
    · simp [release, upd_apply, h2, hk]
    · by_cases hk' : k = 1 <;> simp [release, upd_apply, h2, hk, hk']
  · simp [release, own, h11]

/-- Beside `callback_once`: the callback may come before the function has returned, even before it has stored the lower layer's operation. -/
example : ∃ s, Reach s ∧ s.exec = .lock ∧ s.calls = [.ok] := by
  obtain ⟨s, hr, h1, h2, h3, h4, h5, h6, h7, h8, h9, h10⟩ := started
  exact ⟨_, hr.step (.completes s 0 .ok (by rw [h2]; rfl) (by simp)) |>.step (.opEndExec _ 0 .ok rfl) |>.step (.call _ 0 .ok rfl), h1, by simp [h8]⟩

/-- The call counts as ended before the callback is called (so that the callback may close the module): a close may be over before the callback comes. -/
theorem callback_after_close : ∃ s, Reach s ∧ s.inExec = false ∧ s.exec = .lock ∧ s.calls = [] ∧ s.op 0 = .call .ok := by
  obtain ⟨s, hr, h1, h2, h3, h4, h5, h6, h7, h8, h9, h10⟩ := started
  exact ⟨_, hr.step (.completes s 0 .ok (by rw [h2]; rfl) (by simp)) |>.step (.opEndExec _ 0 .ok rfl), rfl, h1, h8, rfl⟩

/-- Beside `failed_silent`: the first operation is refused. -/
example : ∃ s, Reach s ∧ s.exec = .ret false ∧ s.born = true :=
  ⟨_, Reach.init |>.step (.beginOk _ rfl) |>.step (.createOk _ rfl) |>.step (.ref _ rfl) |>.step (.startRefused _ rfl) |>.step (.relCb _ rfl) |>.step (.rel _ rfl) |>.step (.endExec _ rfl), rfl, rfl⟩

/-- Beside `cancel_reaches`, `told_or_will`: the cancellation comes before the retry is stored. -/
example : ∃ s e, Reach s ∧ s.can = .done ∧ s.op 1 = .running ∧ s.op 0 = .lock2 e := by
  obtain ⟨s, hr, h1, h2, h3, h4, h5, h6, h7, h8, h9, h10, h11⟩ := retrying
  exact ⟨_, 2, hr.step (.retryOk s 0 2 (by rw [h2]; rfl)) |>.step (.cancel _ 0 (by simp [own, h11]) h5) |>.step (.cLockNone _ 0 rfl h10), rfl, rfl, rfl⟩

/-- Beside `no_retry_after_cancel`. -/
example : ∃ s, Reach s ∧ s.canceled = true ∧ s.op 0 = .lock1 := by
  refine ⟨_, Reach.init |>.step (.beginOk _ rfl) |>.step (.createOk _ rfl) |>.step (.ref _ rfl) |>.step (.startOk _ rfl) |>.step (.lockStores _ rfl rfl) |>.step (.out _ 0 rfl rfl)
    |>.step (.completesRetry _ 0 rfl) |>.step (.cancel _ 0 rfl rfl) |>.step (.cLock _ 0 0 rfl rfl), rfl, rfl⟩

end CUtil.SampleRetry
