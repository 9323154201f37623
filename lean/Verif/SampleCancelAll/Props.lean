import Verif.SampleCancelAll.Lemmas
set_option linter.unusedSimpArgs false
set_option linter.unusedVariables false
/-
C82: the sample that cancels everything when it is closed, under every interleaving of any number of calls, their completions and an owner who opens, closes and destroys the module.
-/
namespace CUtil.SampleCancelAll
open CUtil.Conc

variable {calm : Bool} {s s' : Sys}

/-- No call, no completion and no close is going on. -/
def Quiet (s : Sys) : Prop :=
  (∀ k, (s.epc k).out = true) ∧ (∀ k, s.kpc k = .idle ∨ s.kpc k = .fin) ∧ s.cl = .idle

set_option maxHeartbeats 4000000 in
theorem badOp_step (i : Inv s) (h : s.badOp = false) (st : Step calm s s') : s'.badOp = false := by
  obtain ⟨h1, h2, h3, h4, h5, h6, h7, h8, h9, h10, h11, h12, h13, h14, h15, h16, h17, h18, h19, h20, h21, h22⟩ := i.o
  obtain ⟨p1, p2, p3, p4, p5, p6, p7, p8⟩ := i.p
  clear i
  cases st <;> simp only [upd_apply, relTok, relCb, cancelLl, unlock, touch] at * <;> grind

/-- C82: whatever the owner of the module does, no operation is used before it is there or after it was freed, no reference is released twice, no entry is removed from a list it is not in, and
whoever cancels an operation finds the operation of the lower layer there. -/
theorem operations_safe (h : Reach calm s) : s.badOp = false := by
  induction h with
  | init _ => rfl
  | step h st ih => exact badOp_step (inv_reach h) ih st

/-- C82: the callback of a call is called at most once. -/
theorem callback_once (h : Reach calm s) (k : Nat) : (s.calls k).length ≤ 1 := by
  have i := (inv_reach h).p
  cases ho : (s.kpc k).over with
  | true =>
    obtain ⟨r, _, e⟩ := i.c1 k ho
    rw [e]; exact Nat.le_refl _
  | false => rw [i.c0 k ho]; exact Nat.zero_le _

/-- C82: when a call has said that it failed, its callback is not called, the lower layer does nothing for it, the call counts as ended and nothing of it is kept. -/
theorem failed_silent (h : Reach calm s) (k : Nat) (hr : s.epc k = .ret false) :
    s.calls k = [] ∧ s.kpc k = .idle ∧ s.inExec k = false ∧ (s.tok k = .none ∨ s.freed k = true) ∧ k ∉ s.list ∧ k ∉ s.temp := by
  obtain ⟨p, m, o⟩ := inv_reach h
  have h0 := p.nacc k (by rw [hr]; rfl)
  have h1 : s.inExec k = false := by
    cases hb : s.inExec k with
    | false => rfl
    | true =>
      have := p.back k hb
      rw [hr, h0] at this
      simp [EPc.mine, KPc.auth] at this
  have h2 : s.tok k ≠ .caller := fun e => by
    have := (o.ho k).2 e
    rw [hr] at this
    cases this
  have h3 := o.ea k
  rw [hr] at h3
  simp only [EPc.stored] at h3
  have h4 : s.cbr k = false := by
    cases hb : s.cbr k with
    | false => rfl
    | true =>
      have := (o.cb k).1 hb
      rw [hr, h0] at this
      simp [KPc.live] at this
  refine ⟨p.c0 k (by rw [h0]; rfl), h0, h1, ?_, fun hl => ?_, fun hl => ?_⟩
  · cases ht : s.tok k <;> simp_all [o.fr k]
  · exact absurd (h3 (.inl ((o.li k).2 hl))) (by simp)
  · exact absurd (h3 (.inr (.inl ((o.te k).2 hl)))) (by simp)

/-- C82: when a call has said that it succeeded and its completion is through, its callback was called exactly once, with what the lower layer reported (everything but "ok" and "canceled" becomes "error"), and the call counts as ended. -/
theorem succeeded_called (h : Reach calm s) (k : Nat) (hr : s.epc k = .ret true) (hq : s.kpc k = .idle ∨ s.kpc k = .fin) :
    ∃ r, s.got k = some r ∧ s.calls k = [r.passed] ∧ s.inExec k = false := by
  obtain ⟨p, m, o⟩ := inv_reach h
  have h0 : s.kpc k = .fin := hq.resolve_left (p.acc k (by rw [hr]; rfl))
  obtain ⟨r, h1, h2⟩ := p.c1 k (by rw [h0]; rfl)
  refine ⟨r, h1, h2, ?_⟩
  cases hb : s.inExec k with
  | false => rfl
  | true =>
    have := p.back k hb
    rw [hr, h0] at this
    simp [EPc.mine, KPc.auth] at this

/-- C82: while the close waits for the calls to end, every operation that the lower layer is still working on has been canceled, unless its call is still on the way to see that
the module is closing and cancel it itself; no list holds any operation. -/
theorem close_cancels (h : Reach calm s) (hc : s.cl = .wait) :
    s.list = [] ∧ s.temp = [] ∧ ∀ k, s.kpc k = .running →
      s.canceled k = true ∨ s.epc k = .store ∨ s.epc k = .lock ∨ s.epc k = .check ∨ s.epc k = .unlockC ∨ s.epc k = .cancel := by
  obtain ⟨p, m, o⟩ := inv_reach h
  have hl : s.list = [] := m.ta (by rw [hc]; rfl)
  have ht : s.temp = [] := m.te (by rw [hc]; rfl)
  refine ⟨hl, ht, fun k hk => ?_⟩
  have h1 : (s.epc k).accepted = true := by
    cases ha : (s.epc k).accepted with
    | true => rfl
    | false => rw [p.nacc k ha] at hk; cases hk
  have h2 := o.tn k
  have h3 := o.li k
  have h4 := o.te k
  have h5 := o.cl k
  have h6 := o.co k
  have h7 := o.cg k
  have h8 := o.ho k
  have h9 := o.ca k
  rw [hl] at h3
  rw [ht] at h4
  rw [hc] at h5
  rw [hk] at h6 h7
  simp only [KPc.releasing, KPc.open] at h6 h7
  cases he : s.epc k <;> cases htk : s.tok k <;> simp_all [EPc.accepted, EPc.holds]

/-- C82: a call that comes to the list while the module is closing, or after it, does not enter the list, but cancels its operation. -/
theorem late_call_cancels (h : Reach calm s) (k : Nat) (he : s.epc k = .check) (hc : s.cl.sure = true ∨ s.ms = .closed) (st : Step calm s s') :
    s'.epc k = .check ∨ s'.epc k = .unlockC := by
  obtain ⟨p, m, o⟩ := inv_reach h
  have hcl : s.closing = true := by
    rcases hc with hc | hc
    · exact m.cl hc
    · exact (m.co hc).resolve_right fun hn => by have := hn k; rw [he] at this; cases this
  have hlk := (m.le k).2 (by rw [he]; rfl)
  clear p m o
  cases st <;> simp only [upd_apply, relTok, relCb, cancelLl, unlock] at * <;> grind

/-- C82: once every call has returned, a close that waits has canceled everything that the lower layer is still working on. -/
theorem close_canceled_all (h : Reach calm s) (hc : s.cl = .wait) (ho : ∀ k, (s.epc k).out = true) (k : Nat) (hk : s.kpc k = .running) : s.canceled k = true := by
  rcases (close_cancels h hc).2.2 k hk with e | e | e | e | e | e
  · exact e
  all_goals have := ho k; rw [e] at this; cases this

/-- C82: when the module is closed the lower layer works for none of its calls, every operation accepted is past its last use of the module, and both lists are empty. -/
theorem closed_done (h : Reach calm s) (hc : s.ms = .closed) :
    s.list = [] ∧ s.temp = [] ∧ ∀ k, s.inExec k = false ∧ (s.kpc k = .idle ∨ (∃ r, s.kpc k = .call r) ∨ s.kpc k = .rel ∨ s.kpc k = .fin) := by
  obtain ⟨p, m, o⟩ := inv_reach h
  have hi : s.cl = .idle := m.ms.2 (by rw [hc]; simp)
  refine ⟨m.ci hc, m.te (by rw [hi]; rfl), fun k => ⟨m.cc hc k, ?_⟩⟩
  have h1 := p.auth k
  rw [m.cc hc k] at h1
  cases hk : s.kpc k <;> simp_all [KPc.auth]

/-- C82: when the module is closed and nothing is going on any more, every operation that was created is freed. -/
theorem everything_freed (h : Reach calm s) (hc : s.ms = .closed) (hq : Quiet s) (k : Nat) (hk : s.tok k ≠ .none) : s.freed k = true := by
  obtain ⟨hl, ht, hn⟩ := closed_done h hc
  obtain ⟨p, m, o⟩ := inv_reach h
  obtain ⟨q1, q2, q3⟩ := hq
  have h3 := o.li k
  have h4 := o.te k
  have h5 := o.cl k
  have h6 := o.co k
  have h8 := o.ho k
  have h9 := o.cb k
  have h10 := o.fr k
  have h11 := q1 k
  rw [hl] at h3
  rw [ht] at h4
  rw [q3] at h5
  rcases q2 k with e | e <;> rw [e] at h6 h9 <;> cases htk : s.tok k <;> cases he : s.epc k <;> simp_all [KPc.releasing, KPc.live, EPc.out, EPc.holds]

/-- C82: an operation whose completion is through is in the list of pending operations only if the completion came before the call had put it there. -/
theorem retained_only_late (h : Reach calm s) (k : Nat) (hk : s.kpc k = .fin) (hl : k ∈ s.list) : s.late k = true := by
  have := (inv_reach h).o.lt k (((inv_reach h).o.li k).2 hl)
  rw [hk] at this
  simpa [KPc.before] using this

/-- C82: such an operation stays there, and is not freed, until the module is closed. -/
theorem retained_until_close (h : Reach calm s) (k : Nat) (hk : s.kpc k = .fin) (hl : k ∈ s.list) (hc : s.cl ≠ .drain) (st : Step calm s s') :
    s'.kpc k = .fin ∧ k ∈ s'.list ∧ s'.freed k = false := by
  have o := (inv_reach (h.step st)).o
  suffices h1 : s'.kpc k = .fin ∧ k ∈ s'.list by
    refine ⟨h1.1, h1.2, ?_⟩
    cases hf : s'.freed k with
    | false => rfl
    | true =>
      have := ((o.fr k).1 hf).1
      rw [(o.li k).2 h1.2] at this
      cases this
  have hn := (inv_reach h).o.nd
  have he : ∀ a j, a ∈ s.list.erase j ↔ a ≠ j ∧ a ∈ s.list := fun a j => hn.mem_erase_iff
  have hs : s.epc k ≠ .start := fun e => by
    have := (inv_reach h).p.nacc k (by rw [e]; rfl)
    rw [hk] at this
    cases this
  clear o h
  cases st <;> simp only [upd_apply, relTok, relCb, cancelLl, unlock] at * <;> grind

theorem invD (h : Reach true s) : s.destroyed = true → ∀ k, (s.epc k).out = true := by
  induction h with
  | init _ => intro hd; cases hd
  | step h st ih =>
    cases st <;> simp only [upd_apply, relTok, relCb, cancelLl, unlock] at * <;> grind

set_option maxHeartbeats 4000000 in
theorem badModule_step (hr : Reach true s) (h : s.badModule = false) (st : Step true s s') : s'.badModule = false := by
  obtain ⟨p1, p2, p3, p4, p5, p6, p7, p8⟩ := (inv_reach hr).p
  obtain ⟨m1, m2, m3, m4, m5, m6, m7, m8, m9, m10, m11⟩ := (inv_reach hr).m
  have d := invD hr
  have hu : ∀ k, s.destroyed = true → s.inExec k = false := fun k e => m8 (m11 e) k
  have hk : ∀ k, s.destroyed = true → (s.kpc k).auth = false := fun k e => by
    cases ha : (s.kpc k).auth with
    | false => rfl
    | true => exact absurd (p4 k ha) (by rw [hu k e]; simp)
  have hi : s.destroyed = true → s.cl = .idle := fun e => m4.2 (by rw [m11 e]; simp)
  clear hr
  cases st <;> simp only [upd_apply, relTok, relCb, cancelLl, unlock, touchM] at * <;> grind

/-- C82, with the proviso that the owner destroys the module only when no call of execute_async is going on: the module is not used after it was freed, nobody releases a lock that they do not hold, and every call that was granted is
ended once. Without the proviso it is false: `module_used_after_destroy`. -/
theorem module_safe_partial (h : Reach true s) : s.badModule = false := by
  induction h with
  | init _ => rfl
  | step h st ih => exact badModule_step h ih st

/-- A call is accepted by the lower layer, which completes it at once. -/
theorem quick (calm : Bool) : ∃ s, Reach calm s ∧ s.epc 0 = .lock ∧ s.kpc 0 = .fin ∧ s.calls 0 = [.ok] ∧ s.ms = .opened ∧ s.lock = none ∧ s.closing = false ∧ s.list = [] ∧ s.temp = [] ∧ s.destroyed = false
    ∧ s.cl = .idle ∧ s.tok 0 = .caller ∧ s.freed 0 = false ∧ s.late 0 = false ∧ (∀ k, s.inExec k = false) ∧ (∀ k, k ≠ 0 → s.epc k = .idle ∧ s.kpc k = .idle ∧ s.tok k = .none) := by
  refine ⟨_, Reach.init false
    |>.step (.opens _ rfl rfl)
    |>.step (.start _ 0 rfl rfl)
    |>.step (.beginOk _ 0 rfl rfl)
    |>.step (.createOk _ 0 rfl)
    |>.step (.ref _ 0 rfl)
    |>.step (.llAccepts _ 0 rfl)
    |>.step (.complete _ 0 .ok rfl)
    |>.step (.lockK _ 0 .ok rfl rfl)
    |>.step (.casOut _ 0 .ok rfl rfl)
    |>.step (.unlockK _ 0 .ok rfl)
    |>.step (.endSm _ 0 .ok rfl)
    |>.step (.call _ 0 .ok rfl)
    |>.step (.relK _ 0 rfl)
    |>.step (.store _ 0 rfl), rfl, rfl, rfl, rfl, rfl, rfl, rfl, rfl, rfl, rfl, rfl, rfl, rfl, ?_, ?_⟩
  · intro k
    simp only [upd_apply, init, relTok, relCb, cancelLl, unlock]
    split <;> rfl
  · intro k hk
    simp [upd_apply, init, relTok, relCb, cancelLl, unlock, hk]

/-- C82: the call has returned, its completion is through and its callback was called, and yet the operation is in the list of pending operations and its memory is not freed (until the module is closed, `retained_until_close`). -/
theorem completed_and_retained : ∃ s, Reach true s ∧ Quiet s ∧ s.epc 0 = .ret true ∧ s.calls 0 = [.ok] ∧ s.list = [0] ∧ s.freed 0 = false ∧ s.ms = .opened := by
  obtain ⟨s, h, e1, e2, e3, e4, e5, e6, e7, e8, e9, e10, e11, e12, e13, e14, e15⟩ := quick true
  refine ⟨_, h
    |>.step (.lock _ 0 e1 e5)
    |>.step (.insert _ 0 rfl e6)
    |>.step (.mark _ 0 rfl)
    |>.step (.unlockE _ 0 rfl), ⟨fun k => ?_, fun k => ?_, e10⟩, rfl, e3, ?_, e12, e4⟩
  · by_cases hk : k = 0
    · subst hk; rfl
    · simp [upd_apply, unlock, hk, (e15 k hk).1, EPc.out]
  · by_cases hk : k = 0
    · subst hk; exact .inr e2
    · exact .inl (e15 k hk).2.1
  · simp [unlock, e7]

/-- C82 is false without the proviso: the callback comes before execute_async has returned, the owner closes and destroys the module, and execute_async then takes the lock of a module that was freed. -/
theorem module_used_after_destroy : ∃ s, Reach false s ∧ s.badModule = true ∧ s.calls 0 = [.ok] := by
  obtain ⟨s, h, e1, e2, e3, e4, e5, e6, e7, e8, e9, e10, e11, e12, e13, e14, e15⟩ := quick false
  refine ⟨_, h
    |>.step (.closes _ e4)
    |>.step (.lockC _ rfl e5)
    |>.step (.drained _ rfl e7)
    |>.step (.unlockCl _ rfl)
    |>.step (.told _ rfl e8)
    |>.step (.closeEnd _ rfl e14)
    |>.step (.destroy _ rfl e9 (fun hc => by cases hc))
    |>.step (.lock _ 0 e1 rfl), ?_, e3⟩
  simp [touchM, unlock]

/-- C82: the callback may come after the close has returned. -/
theorem callback_after_close : ∃ s s', Reach true s ∧ s.ms = .closed ∧ s.calls 0 = [] ∧ Step true s s' ∧ s'.calls 0 = [.canceled] := by
  refine ⟨_, _, Reach.init true
    |>.step (.opens _ rfl rfl)
    |>.step (.start _ 0 rfl rfl)
    |>.step (.beginOk _ 0 rfl rfl)
    |>.step (.createOk _ 0 rfl)
    |>.step (.ref _ 0 rfl)
    |>.step (.llAccepts _ 0 rfl)
    |>.step (.store _ 0 rfl)
    |>.step (.lock _ 0 rfl rfl)
    |>.step (.insert _ 0 rfl rfl)
    |>.step (.mark _ 0 rfl)
    |>.step (.unlockE _ 0 rfl)
    |>.step (.closes _ rfl)
    |>.step (.lockC _ rfl rfl)
    |>.step (.take _ 0 [] rfl rfl)
    |>.step (.unmark _ 0 rfl)
    |>.step (.drained _ rfl rfl)
    |>.step (.unlockCl _ rfl)
    |>.step (.next _ 0 [] rfl rfl)
    |>.step (.cancelCl _ 0 rfl)
    |>.step (.relCl _ 0 rfl)
    |>.step (.told _ rfl rfl)
    |>.step (.complete _ 0 .canceled rfl)
    |>.step (.lockK _ 0 .canceled rfl rfl)
    |>.step (.casOut _ 0 .canceled rfl rfl)
    |>.step (.unlockK _ 0 .canceled rfl)
    |>.step (.endSm _ 0 .canceled rfl)
    |>.step (.closeEnd _ rfl ?_), rfl, rfl, .call _ 0 .canceled rfl, rfl⟩
  intro k
  simp only [upd_apply, init, relTok, relCb, cancelLl, unlock]
  split <;> rfl

/-- C82: an operation is canceled only if a close has begun since its call was granted. -/
theorem canceled_only_if_closed {c : Bool} {s : Sys} (h : Reach c s) (k : Nat) (hc : s.canceled k = true) : s.born k < s.closeNo := (inv_reach h).b.ca k hc

/-- C82: no thread is stuck, except that it waits for a lock that is held, for the lower layer, or in a close for the calls to end: a call of execute_async that is going on, a completion and a close can each make a step. -/
theorem never_stuck {c : Bool} {s : Sys} (h : Reach c s) :
    (∀ k, (s.epc k).out = false → s.epc k = .lock ∧ s.lock ≠ none ∨ ∃ s', Step c s s' ∧ s'.epc k ≠ s.epc k) ∧
    (∀ k, s.kpc k = .idle ∨ s.kpc k = .fin ∨ (∃ r, s.kpc k = .lock r) ∧ s.lock ≠ none ∨ ∃ s', Step c s s' ∧ s'.kpc k ≠ s.kpc k) ∧
    (s.cl = .idle ∨ s.cl = .lock ∧ s.lock ≠ none ∨ (s.cl = .wait ∧ ∃ k, s.inExec k = true) ∨ ∃ s', Step c s s' ∧ s'.cl ≠ s.cl) := by
  refine ⟨fun k ho => ?_, fun k => ?_, ?_⟩
  · cases hp : s.epc k with
    | idle | ret _ => rw [hp] at ho; cases ho
    | ask => exact .inr ⟨_, .beginRefused s k hp, by simp [hp]⟩
    | create => exact .inr ⟨_, .createOk s k hp, by simp [hp]⟩
    | ref => exact .inr ⟨_, .ref s k hp, by simp [hp]⟩
    | start => exact .inr ⟨_, .llAccepts s k hp, by simp [hp]⟩
    | store => exact .inr ⟨_, .store s k hp, by simp [hp]⟩
    | lock =>
      cases hl : s.lock with
      | none => exact .inr ⟨_, .lock s k hp hl, by simp [hp]⟩
      | some w => exact .inl ⟨rfl, by simp⟩
    | check =>
      cases hc : s.closing with
      | true => exact .inr ⟨_, .sawClosing s k hp hc, by simp [hp]⟩
      | false => exact .inr ⟨_, .insert s k hp hc, by simp [hp]⟩
    | mark => exact .inr ⟨_, .mark s k hp, by simp [hp]⟩
    | unlock => exact .inr ⟨_, .unlockE s k hp, by simp [hp]⟩
    | unlockC => exact .inr ⟨_, .unlockC s k hp, by simp [hp]⟩
    | cancel => exact .inr ⟨_, .cancelE s k hp, by simp [hp]⟩
    | relTok => exact .inr ⟨_, .relTokE s k hp, by simp [hp]⟩
    | relCb => exact .inr ⟨_, .relCbE s k hp, by simp [hp]⟩
    | rel => exact .inr ⟨_, .relE s k hp, by simp [hp]⟩
    | endExec => exact .inr ⟨_, .endExec s k hp, by simp [hp]⟩
  · cases hp : s.kpc k with
    | idle => exact .inl rfl
    | fin => exact .inr (.inl rfl)
    | running => exact .inr (.inr (.inr ⟨_, .complete s k .ok hp, by simp [hp]⟩))
    | lock r =>
      cases hl : s.lock with
      | none => exact .inr (.inr (.inr ⟨_, .lockK s k r hp hl, by simp [hp]⟩))
      | some w => exact .inr (.inr (.inl ⟨⟨r, rfl⟩, by simp⟩))
    | cas r =>
      cases hf : s.flag k with
      | true => exact .inr (.inr (.inr ⟨_, .casIn s k r hp hf, by simp [hp]⟩))
      | false => exact .inr (.inr (.inr ⟨_, .casOut s k r hp hf, by simp [hp]⟩))
    | remove r => exact .inr (.inr (.inr ⟨_, .remove s k r hp, by simp [hp]⟩))
    | relTok r => exact .inr (.inr (.inr ⟨_, .relTokK s k r hp, by simp [hp]⟩))
    | unlock r => exact .inr (.inr (.inr ⟨_, .unlockK s k r hp, by simp [hp]⟩))
    | endSm r => exact .inr (.inr (.inr ⟨_, .endSm s k r hp, by simp [hp]⟩))
    | call r => exact .inr (.inr (.inr ⟨_, .call s k r hp, by simp [hp]⟩))
    | rel => exact .inr (.inr (.inr ⟨_, .relK s k hp, by simp [hp]⟩))
  · cases hp : s.cl with
    | idle => exact .inl rfl
    | lock =>
      cases hl : s.lock with
      | none => exact .inr (.inr (.inr ⟨_, .lockC s hp hl, by simp⟩))
      | some w => exact .inr (.inl ⟨rfl, by simp⟩)
    | drain =>
      cases hl : s.list with
      | nil => exact .inr (.inr (.inr ⟨_, .drained s hp hl, by simp⟩))
      | cons k l => exact .inr (.inr (.inr ⟨_, .take s k l hp hl, by simp⟩))
    | unmark k => exact .inr (.inr (.inr ⟨_, .unmark s k hp, by simp⟩))
    | unlock => exact .inr (.inr (.inr ⟨_, .unlockCl s hp, by simp⟩))
    | next =>
      cases hl : s.temp with
      | nil => exact .inr (.inr (.inr ⟨_, .told s hp hl, by simp⟩))
      | cons k l => exact .inr (.inr (.inr ⟨_, .next s k l hp hl, by simp⟩))
    | cancel k => exact .inr (.inr (.inr ⟨_, .cancelCl s k hp, by simp⟩))
    | rel k => exact .inr (.inr (.inr ⟨_, .relCl s k hp, by simp⟩))
    | wait =>
      by_cases hn : ∃ k, s.inExec k = true
      · exact .inr (.inr (.inl ⟨rfl, hn⟩))
      · exact .inr (.inr (.inr ⟨_, .closeEnd s hp (fun k => by simpa using fun e => hn ⟨k, e⟩), by simp⟩))

/-- C82: whoever holds the lock can make a step: nobody waits for the lock for ever because its holder waits. -/
theorem holder_runs {c : Bool} {s : Sys} (h : Reach c s) {w : Who} (hl : s.lock = some w) :
    ∃ s', Step c s s' ∧ (match w with
      | .caller k => s'.epc k ≠ s.epc k
      | .comp k => s'.kpc k ≠ s.kpc k
      | .closer => s'.cl ≠ s.cl) := by
  have m := (inv_reach h).m
  obtain ⟨n1, n2, n3⟩ := never_stuck h
  cases w with
  | caller k =>
    have e := (m.le k).1 hl
    rcases n1 k (by cases hp : s.epc k <;> simp_all [EPc.locked, EPc.out]) with n | n
    · rw [n.1] at e; cases e
    · exact n
  | comp k =>
    have e := (m.lk k).1 hl
    rcases n2 k with n | n | n | n
    · rw [n] at e; cases e
    · rw [n] at e; cases e
    · obtain ⟨⟨r, n⟩, _⟩ := n; rw [n] at e; cases e
    · exact n
  | closer =>
    have e := m.lc.1 hl
    rcases n3 with n | n | n | n
    · rw [n] at e; cases e
    · rw [n.1] at e; cases e
    · rw [n.1] at e; cases e
    · exact n

/-- The hypotheses of `close_cancels` are met with a call at work: canceled by the close. -/
example : ∃ s, Reach true s ∧ s.cl = .wait ∧ s.kpc 0 = .running ∧ s.canceled 0 = true ∧ s.epc 0 = .ret true :=
  ⟨_, Reach.init true
    |>.step (.opens _ rfl rfl)
    |>.step (.start _ 0 rfl rfl)
    |>.step (.beginOk _ 0 rfl rfl)
    |>.step (.createOk _ 0 rfl)
    |>.step (.ref _ 0 rfl)
    |>.step (.llAccepts _ 0 rfl)
    |>.step (.store _ 0 rfl)
    |>.step (.lock _ 0 rfl rfl)
    |>.step (.insert _ 0 rfl rfl)
    |>.step (.mark _ 0 rfl)
    |>.step (.unlockE _ 0 rfl)
    |>.step (.closes _ rfl)
    |>.step (.lockC _ rfl rfl)
    |>.step (.take _ 0 [] rfl rfl)
    |>.step (.unmark _ 0 rfl)
    |>.step (.drained _ rfl rfl)
    |>.step (.unlockCl _ rfl)
    |>.step (.next _ 0 [] rfl rfl)
    |>.step (.cancelCl _ 0 rfl)
    |>.step (.relCl _ 0 rfl)
    |>.step (.told _ rfl rfl), rfl, rfl, rfl, rfl⟩

/-- The hypotheses of `late_call_cancels` are met: the close comes between the start of the operation and the lock; and then the call cancels, as `close_cancels` says. -/
example : ∃ s, Reach true s ∧ s.cl = .wait ∧ s.kpc 0 = .running ∧ s.canceled 0 = false ∧ s.epc 0 = .check :=
  ⟨_, Reach.init true
    |>.step (.opens _ rfl rfl)
    |>.step (.start _ 0 rfl rfl)
    |>.step (.beginOk _ 0 rfl rfl)
    |>.step (.createOk _ 0 rfl)
    |>.step (.ref _ 0 rfl)
    |>.step (.llAccepts _ 0 rfl)
    |>.step (.store _ 0 rfl)
    |>.step (.closes _ rfl)
    |>.step (.lockC _ rfl rfl)
    |>.step (.drained _ rfl rfl)
    |>.step (.unlockCl _ rfl)
    |>.step (.told _ rfl rfl)
    |>.step (.lock _ 0 rfl rfl), rfl, rfl, rfl, rfl⟩

/-- The hypotheses of `failed_silent` are met: refused by the lower layer. -/
example : ∃ s, Reach true s ∧ s.epc 0 = .ret false ∧ s.freed 0 = true :=
  ⟨_, Reach.init true
    |>.step (.opens _ rfl rfl)
    |>.step (.start _ 0 rfl rfl)
    |>.step (.beginOk _ 0 rfl rfl)
    |>.step (.createOk _ 0 rfl)
    |>.step (.ref _ 0 rfl)
    |>.step (.llRefuses _ 0 rfl)
    |>.step (.relCbE _ 0 rfl)
    |>.step (.relE _ 0 rfl)
    |>.step (.endExec _ 0 rfl), rfl, rfl⟩

/-- The hypotheses of `succeeded_called` and `everything_freed` are met: the operation completes, retained until the module is closed. -/
example : ∃ s, Reach true s ∧ Quiet s ∧ s.ms = .closed ∧ s.epc 0 = .ret true ∧ s.calls 0 = [.ok] ∧ s.tok 0 = .gone := by
  obtain ⟨s, h, e1, e2, e3, e4, e5, e6, e7, e8, e9, e10, e11, e12, e13, e14, e15⟩ := quick true
  refine ⟨_, h
    |>.step (.lock _ 0 e1 e5)
    |>.step (.insert _ 0 rfl e6)
    |>.step (.mark _ 0 rfl)
    |>.step (.unlockE _ 0 rfl)
    |>.step (.closes _ e4)
    |>.step (.lockC _ rfl rfl)
    |>.step (.take _ 0 [] rfl (by simp [unlock, e7]))
    |>.step (.unmark _ 0 rfl)
    |>.step (.drained _ rfl rfl)
    |>.step (.unlockCl _ rfl)
    |>.step (.next _ 0 [] rfl (by simp [unlock, e8]))
    |>.step (.cancelCl _ 0 rfl)
    |>.step (.relCl _ 0 rfl)
    |>.step (.told _ rfl rfl)
    |>.step (.closeEnd _ rfl e14), ⟨fun k => ?_, fun k => ?_, rfl⟩, rfl, rfl, e3, rfl⟩
  · by_cases hk : k = 0
    · subst hk; rfl
    · simp [upd_apply, unlock, cancelLl, relTok, hk, (e15 k hk).1, EPc.out]
  · by_cases hk : k = 0
    · subst hk; exact .inr e2
    · exact .inl (e15 k hk).2.1

end CUtil.SampleCancelAll
