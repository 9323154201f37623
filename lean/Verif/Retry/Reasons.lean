import Verif.Retry.Props
set_option linter.unusedSimpArgs false
set_option linter.unusedVariables false
/-
C62: why the retry wrapper stops trying. The executions are followed together with what the environment did: the values the asynchronous
function refused with, and whether a work item could not be scheduled.
-/
namespace CUtil.Retry
open CUtil CUtil.SyncWrapper

/-- What the environment did. -/
structure Env where
  /-- a pointer argument was NULL -/
  null : Bool
  /-- the context could be allocated -/
  mallocOk : Bool
  /-- the values the asynchronous function refused with, in order -/
  refusals : List Nat
  /-- threadpool_schedule_work was called and failed -/
  scheduleFailed : Bool

/-- The executions of `Reach`, with what the environment did so far. -/
inductive Hist (cfg : Cfg) : Sys → Env → Prop
  | start (null mallocOk : Bool) (t : Rat) : Hist cfg (enter cfg null mallocOk t) ⟨null, mallocOk, [], false⟩
  | tick {s : Sys} {e : Env} (h : Hist cfg s e) (t : Rat) (ht : s.now ≤ t) : Hist cfg { s with now := t } e
  | callerRefused {s : Sys} {e : Env} (h : Hist cfg s e) (r : Nat) (t : Rat) (hc : s.caller = .calling) (hr : r ≠ cfg.expected) (ht : s.now + (s.backoff : Rat) ≤ t) :
      Hist cfg (callerGot cfg (touch s) r t) { e with refusals := e.refusals ++ [r] }
  | callerAccepted {s : Sys} {e : Env} (h : Hist cfg s e) (hc : s.caller = .calling) : Hist cfg { touch s with caller := .returning, pending := s.pending + 1 } e
  | callerReturn {s : Sys} {e : Env} (h : Hist cfg s e) (t : Rat) (hc : s.caller = .returning) (ht : s.now + (s.backoff : Rat) ≤ t) : Hist cfg (callerGot cfg s cfg.expected t) e
  | callback {s : Sys} {e : Env} (h : Hist cfg s e) (values : List Nat) (scheduleOk : Bool) (hp : 0 < s.pending) :
      Hist cfg (callback cfg { s with pending := s.pending - 1 } values scheduleOk) { e with scheduleFailed := e.scheduleFailed || !scheduleOk }
  | work {s : Sys} {e : Env} (h : Hist cfg s e) (hp : 0 < s.scheduled) : Hist cfg { s with scheduled := s.scheduled - 1, retrying := s.retrying + 1 } e
  | workRefused {s : Sys} {e : Env} (h : Hist cfg s e) (r : Nat) (t : Rat) (hp : 0 < s.retrying) (hr : r ≠ cfg.expected) (ht : s.now + (s.backoff : Rat) ≤ t) :
      Hist cfg (workGot cfg (touch { s with retrying := s.retrying - 1 }) r t) { e with refusals := e.refusals ++ [r] }
  | workAccepted {s : Sys} {e : Env} (h : Hist cfg s e) (hp : 0 < s.retrying) :
      Hist cfg { touch s with retrying := s.retrying - 1, returning := s.returning + 1, pending := s.pending + 1 } e
  | workReturn {s : Sys} {e : Env} (h : Hist cfg s e) (t : Rat) (hp : 0 < s.returning) (ht : s.now + (s.backoff : Rat) ≤ t) :
      Hist cfg (workGot cfg { s with returning := s.returning - 1 } cfg.expected t) e

theorem Hist.reach {cfg : Cfg} {s : Sys} {e : Env} (h : Hist cfg s e) : Reach cfg s := by
  induction h with
  | start a b t => exact .start a b t
  | tick _ t ht ih => exact ih.step (.tick _ t ht)
  | callerRefused _ r t hc hr ht ih => exact ih.step (.callerRefused _ r t hc hr ht)
  | callerAccepted _ hc ih => exact ih.step (.callerAccepted _ hc)
  | callerReturn _ t hc ht ih => exact ih.step (.callerReturn _ t hc ht)
  | callback _ v k hp ih => exact ih.step (.callback _ v k hp)
  | work _ hp ih => exact ih.step (.work _ hp)
  | workRefused _ r t hp hr ht ih => exact ih.step (.workRefused _ r t hp hr ht)
  | workAccepted _ hp ih => exact ih.step (.workAccepted _ hp)
  | workReturn _ t hp ht ih => exact ih.step (.workReturn _ t hp ht)

/-- C62: every execution is one of those followed here. -/
theorem every_execution {cfg : Cfg} {s : Sys} : Reach cfg s ↔ ∃ e, Hist cfg s e := by
  constructor
  · intro h
    induction h with
    | start a b t => exact ⟨_, .start a b t⟩
    | step _ st ih =>
      obtain ⟨e, ih⟩ := ih
      cases st with
      | tick t ht => exact ⟨_, ih.tick t ht⟩
      | callerRefused r t hc hr ht => exact ⟨_, ih.callerRefused r t hc hr ht⟩
      | callerAccepted hc => exact ⟨_, ih.callerAccepted hc⟩
      | callerReturn t hc ht => exact ⟨_, ih.callerReturn t hc ht⟩
      | callback v k hp => exact ⟨_, ih.callback v k hp⟩
      | work hp => exact ⟨_, ih.work hp⟩
      | workRefused r t hp hr ht => exact ⟨_, ih.workRefused r t hp hr ht⟩
      | workAccepted hp => exact ⟨_, ih.workAccepted hp⟩
      | workReturn t hp ht => exact ⟨_, ih.workReturn t hp ht⟩
  · rintro ⟨e, h⟩; exact h.reach

/-! ### Invariant -/

structure Why (cfg : Cfg) (s : Sys) (e : Env) : Prop where
  /-- a refusal that was retried is followed by one delay -/
  live : s.alive = true → e.refusals.length = s.sleeps.length ∧ ∀ r ∈ e.refusals, cfg.syncRetry r = true
  timeout : (s.caller = .ret .timeout ∨ ∃ v, .timeout v ∈ s.user) →
    cfg.timeout < forever ∧ (cfg.timeout : Rat) < (s.now - s.start) + (delay s.sleeps.length : Rat)
  callError : s.caller = .ret .callError → ∃ r, e.refusals.getLast? = some r ∧ cfg.syncRetry r = false
  error : (∃ v, .error v ∈ s.user) → (∃ r, e.refusals.getLast? = some r ∧ cfg.syncRetry r = false) ∨ e.scheduleFailed = true
  invalid : s.caller = .ret .invalidArgs ↔ e.null = true
  malloc : s.caller = .ret .error ↔ e.null = false ∧ e.mallocOk = false
  copy : s.caller = .ret .copyArgError ↔ e.null = false ∧ e.mallocOk = true ∧ (copyArgs cfg.args 0 false).2.2 = true
  started : s.caller ≠ .ret .invalidArgs → s.caller ≠ .ret .error → s.caller ≠ .ret .copyArgError →
    e.null = false ∧ e.mallocOk = true ∧ (copyArgs cfg.args 0 false).2.2 = false

theorem timedOut_why {cfg : Cfg} {s : Sys} (h : timedOut cfg s = true) :
    cfg.timeout < forever ∧ (cfg.timeout : Rat) < (s.now - s.start) + (s.backoff : Rat) := by
  unfold timedOut at h
  split at h
  · next hlt => exact ⟨hlt, by simpa using h⟩
  · cases h

theorem why {cfg : Cfg} (hg : Good cfg) {s : Sys} {e : Env} (h : Hist cfg s e) : Why cfg s e := by
  induction h with
  | start null mallocOk t =>
    unfold enter
    cases null
    · cases mallocOk
      · constructor <;> simp
      · simp only [Bool.false_eq_true, if_false, Bool.true_eq_false]
        cases hc : (copyArgs cfg.args 0 false).2.2
        · constructor <;> simp [hc]
        · constructor <;> simp [hc]
    · constructor <;> simp
  | tick h t ht ih =>
    refine ⟨ih.live, ?_, ih.callError, ih.error, ih.invalid, ih.malloc, ih.copy, ih.started⟩
    intro hh
    have := ih.timeout hh
    refine ⟨this.1, ?_⟩
    have := this.2
    dsimp only
    grind
  | callerAccepted h hc ih =>
    obtain ⟨ha, _⟩ := (inv_of_reach hg h.reach).held (by simp [owners, hc]; omega)
    rw [touch_alive ha]
    have hu := (inv_of_reach hg h.reach).userLive ha
    obtain ⟨h1, h2, h3, h4, h5, h6, h7, h8⟩ := ih
    constructor <;> simp_all
  | work h hp ih => exact ⟨ih.live, ih.timeout, ih.callError, ih.error, ih.invalid, ih.malloc, ih.copy, ih.started⟩
  | workAccepted h hp ih =>
    obtain ⟨ha, _⟩ := (inv_of_reach hg h.reach).held (by simp [owners]; omega)
    rw [touch_alive ha]
    exact ⟨ih.live, ih.timeout, ih.callError, ih.error, ih.invalid, ih.malloc, ih.copy, ih.started⟩
  | @callerReturn s _ h t hc ht ih =>
    have e : callerGot cfg s cfg.expected t = { s with caller := .ret .ok } := by
      unfold callerGot
      rw [hg]; simp
    rw [e]
    obtain ⟨h1, h2, h3, h4, h5, h6, h7, h8⟩ := ih
    constructor <;> simp_all <;> assumption
  | @workReturn s _ h t hp ht ih =>
    have e : workGot cfg { s with returning := s.returning - 1 } cfg.expected t = { s with returning := s.returning - 1 } := by
      unfold workGot
      rw [hg]; simp
    rw [e]
    exact ⟨ih.live, ih.timeout, ih.callError, ih.error, ih.invalid, ih.malloc, ih.copy, ih.started⟩
  | @callerRefused s e h r t hc hr ht ih =>
    have hi := inv_of_reach hg h.reach
    obtain ⟨ha, _⟩ := hi.held (by simp [owners, hc]; omega)
    have hu := hi.userLive ha
    have hb := hi.backoff ha
    obtain ⟨l1, l2⟩ := ih.live ha
    obtain ⟨g1, g2, g3⟩ := ih.started (by rw [hc]; simp) (by rw [hc]; simp) (by rw [hc]; simp)
    unfold callerGot
    dsimp only
    simp only [touch_alive ha]
    cases hs : cfg.syncRetry r with
    | true =>
      rw [if_pos rfl]
      cases hto : timedOut cfg s with
      | true =>
        rw [if_pos rfl]
        have hw := timedOut_why hto
        rw [hb] at hw
        constructor <;> simp [hu, g1, g2, g3]
        simpa using hw
      | false =>
        rw [if_neg (by simp)]
        constructor <;> simp [hu, g1, g2, g3, sleep]
        refine fun _ => ⟨by omega, ?_⟩
        intro q hq
        rcases hq with hq | hq
        · exact l2 q hq
        · rw [hq]; exact hs
    | false =>
      rw [if_neg (by simp), if_pos hr]
      constructor <;> simp [hu, g1, g2, g3, hs]
  | @workRefused s e h r t hp hr ht ih =>
    have hi := inv_of_reach hg h.reach
    obtain ⟨ha, ho⟩ := hi.held (by simp [owners]; omega)
    have hu := hi.userLive ha
    have hb := hi.backoff ha
    obtain ⟨l1, l2⟩ := ih.live ha
    have hret : ∀ r, s.caller = .ret r → r = .ok := by
      intro r hr
      rcases Classical.em (r = .ok) with h | h
      · exact h
      · have := (hi.userFail r hr h).2; rw [ha] at this; cases this
    obtain ⟨h1, h2, h3, h4, h5, h6, h7, h8⟩ := ih
    have k1 : s.caller ≠ .ret .timeout := fun q => by cases hret _ q
    have k2 : s.caller ≠ .ret .callError := fun q => by cases hret _ q
    have k3 : s.caller ≠ .ret .invalidArgs := fun q => by cases hret _ q
    have k4 : s.caller ≠ .ret .error := fun q => by cases hret _ q
    have k5 : s.caller ≠ .ret .copyArgError := fun q => by cases hret _ q
    obtain ⟨g1, g2, g3⟩ := h8 k3 k4 k5
    rw [touch_alive (s := { s with retrying := s.retrying - 1 }) ha]
    unfold workGot
    dsimp only
    rw [touch_alive (s := { s with retrying := s.retrying - 1 }) ha]
    cases hs : cfg.syncRetry r with
    | true =>
      rw [if_pos rfl]
      cases hto : timedOut cfg { s with retrying := s.retrying - 1 } with
      | true =>
        rw [if_pos rfl]
        have hw := timedOut_why hto
        dsimp only at hw
        rw [hb] at hw
        constructor <;> simp [cleanUp, callUser, touch, ha, hu, g1, g2, g3, k1, k2, k3, k4, k5]
        simpa using hw
      | false =>
        rw [if_neg (by simp)]
        constructor <;> simp [hu, g1, g2, g3, k1, k2, k3, k4, k5, sleep]
        refine fun _ => ⟨by omega, ?_⟩
        intro q hq
        rcases hq with hq | hq
        · exact l2 q hq
        · rw [hq]; exact hs
    | false =>
      rw [if_neg (by simp), if_pos hr]
      constructor <;> simp [cleanUp, callUser, touch, ha, hu, g1, g2, g3, k1, k2, k3, k4, k5, hs]
  | @callback s e h values scheduleOk hp ih =>
    have hi := inv_of_reach hg h.reach
    obtain ⟨ha, ho⟩ := hi.held (by simp [owners]; omega)
    have hu := hi.userLive ha
    have hb := hi.backoff ha
    obtain ⟨l1, l2⟩ := ih.live ha
    have hret : ∀ r, s.caller = .ret r → r = .ok := by
      intro r hr
      rcases Classical.em (r = .ok) with h | h
      · exact h
      · have := (hi.userFail r hr h).2; rw [ha] at this; cases this
    obtain ⟨h1, h2, h3, h4, h5, h6, h7, h8⟩ := ih
    have k1 : s.caller ≠ .ret .timeout := fun q => by cases hret _ q
    have k2 : s.caller ≠ .ret .callError := fun q => by cases hret _ q
    have k3 : s.caller ≠ .ret .invalidArgs := fun q => by cases hret _ q
    have k4 : s.caller ≠ .ret .error := fun q => by cases hret _ q
    have k5 : s.caller ≠ .ret .copyArgError := fun q => by cases hret _ q
    obtain ⟨g1, g2, g3⟩ := h8 k3 k4 k5
    unfold CUtil.Retry.callback
    dsimp only
    rw [touch_alive (s := { s with pending := s.pending - 1, received := s.received ++ [values] }) ha]
    cases hv : cfg.asyncRetry values with
    | true =>
      rw [if_pos rfl]
      cases hto : timedOut cfg { s with pending := s.pending - 1, received := s.received ++ [values] } with
      | true =>
        rw [if_pos rfl]
        have hw := timedOut_why hto
        dsimp only at hw
        rw [hb] at hw
        constructor <;> simp [cleanUp, callUser, touch, ha, hu, g1, g2, g3, k1, k2, k3, k4, k5]
        simpa using hw
      | false =>
        rw [if_neg (by simp)]
        cases scheduleOk with
        | true =>
          rw [if_pos rfl]
          constructor <;> simp [ha, hu, g1, g2, g3, k1, k2, k3, k4, k5]
          exact ⟨l1, l2⟩
        | false =>
          rw [if_neg (by simp)]
          constructor <;> simp [cleanUp, callUser, touch, ha, hu, g1, g2, g3, k1, k2, k3, k4, k5]
    | false =>
      rw [if_neg (by simp)]
      constructor <;> simp [cleanUp, callUser, touch, ha, hu, g1, g2, g3, k1, k2, k3, k4, k5]

/-! ### Properties -/

/-- C62: a timeout, whether returned to the caller or given to the user's callback, is reported only if there is one and the next delay
(the one after those slept so far) would have ended after it. -/
theorem timeout_only_if_due {cfg : Cfg} (hg : Good cfg) {s : Sys} {e : Env} (h : Hist cfg s e)
    (ht : s.caller = .ret .timeout ∨ ∃ v, .timeout v ∈ s.user) :
    cfg.timeout < 4294967295 ∧ (cfg.timeout : Rat) < (s.now - s.start) + ((min (2 ^ s.sleeps.length) 10000 : Nat) : Rat) :=
  (why hg h).timeout ht

/-- C62: the caller is told of a failed call only if the last refusal was with a value that is not retried; of invalid arguments, no
memory, or a failed copy only in that case; and the asynchronous function is not called in those three cases. -/
theorem failure_only_for_its_reason {cfg : Cfg} (hg : Good cfg) {s : Sys} {e : Env} (h : Hist cfg s e) :
    (s.caller = .ret .callError → ∃ r, e.refusals.getLast? = some r ∧ cfg.syncRetry r = false) ∧
    (s.caller = .ret .invalidArgs ↔ e.null = true) ∧ (s.caller = .ret .error ↔ e.null = false ∧ e.mallocOk = false) ∧
    (s.caller = .ret .copyArgError ↔ e.null = false ∧ e.mallocOk = true ∧ SomeFails cfg.args) := by
  have hw := why hg h
  have hs : (copyArgs cfg.args 0 false).2.2 = true ↔ SomeFails cfg.args := (copyArgs_spec cfg.args 0).1
  exact ⟨hw.callError, hw.invalid, hw.malloc, by rw [hw.copy, hs]⟩

/-- C62: the user is told of an error only if the last refusal was with a value that is not retried, or a retry could not be scheduled. -/
theorem error_only_for_its_reason {cfg : Cfg} (hg : Good cfg) {s : Sys} {e : Env} (h : Hist cfg s e) (v : List Nat) (hv : .error v ∈ s.user) :
    (∃ r, e.refusals.getLast? = some r ∧ cfg.syncRetry r = false) ∨ e.scheduleFailed = true :=
  (why hg h).error ⟨v, hv⟩

/-- C62: as long as the wrapper is at it, every refusal was with a value to be retried and was followed by one delay. -/
theorem one_delay_per_refusal {cfg : Cfg} (hg : Good cfg) {s : Sys} {e : Env} (h : Hist cfg s e)
    (hp : s.caller = .calling ∨ 0 < s.pending ∨ 0 < s.scheduled ∨ 0 < s.retrying) :
    s.sleeps.length = e.refusals.length ∧ ∀ r ∈ e.refusals, cfg.syncRetry r = true := by
  obtain ⟨l1, l2⟩ := (why hg h).live (kept_until_end hg h.reach hp).1
  exact ⟨l1.symm, l2⟩

/-! ### Witnesses -/

/-- Refused with 7 for ever: after delays of 1, 2, ..., 32 ms (63 ms) the next, of 64, would end after 100 ms. -/
example : ∃ s e, Hist sample s e ∧ s.caller = .ret .timeout ∧ s.sleeps.length = 6 ∧ e.refusals = [7, 7, 7, 7, 7, 7, 7] := by
  have h0 : Hist sample (enter sample false true 0) _ := .start false true 0
  have h1 := h0.callerRefused 7 1 (by decide +kernel) (by decide) (by decide +kernel)
  have h2 := h1.callerRefused 7 3 (by decide +kernel) (by decide) (by decide +kernel)
  have h3 := h2.callerRefused 7 7 (by decide +kernel) (by decide) (by decide +kernel)
  have h4 := h3.callerRefused 7 15 (by decide +kernel) (by decide) (by decide +kernel)
  have h5 := h4.callerRefused 7 31 (by decide +kernel) (by decide) (by decide +kernel)
  have h6 := h5.callerRefused 7 63 (by decide +kernel) (by decide) (by decide +kernel)
  have h7 := h6.callerRefused 7 200 (by decide +kernel) (by decide) (by decide +kernel)
  exact ⟨_, _, h7, by decide +kernel, by decide +kernel, by decide +kernel⟩

/-- Refused with 5, which is not retried, on the threadpool: the user is told of an error. -/
example : ∃ s e, Hist sample s e ∧ s.user = [.error [1, 9]] ∧ e.refusals = [7, 5] ∧ e.scheduleFailed = false := by
  have h0 : Hist sample (enter sample false true 0) _ := .start false true 0
  have h1 := h0.callerRefused 7 1 (by decide +kernel) (by decide) (by decide +kernel)
  have h2 := h1.callerAccepted (by decide +kernel)
  have h3 := h2.callback [3, 0] true (by decide +kernel)
  have h4 := h3.work (by decide +kernel)
  have h5 := h4.workRefused 5 100 (by decide +kernel) (by decide) (by decide +kernel)
  exact ⟨_, _, h5, by decide +kernel, by decide +kernel, by decide +kernel⟩

/-- Refused with 5 at once: the caller is told. -/
example : ∃ s e, Hist sample s e ∧ s.caller = .ret .callError ∧ e.refusals = [5] := by
  have h0 : Hist sample (enter sample false true 0) _ := .start false true 0
  have h1 := h0.callerRefused 5 1 (by decide +kernel) (by decide) (by decide +kernel)
  exact ⟨_, _, h1, by decide +kernel, by decide +kernel⟩

end CUtil.Retry
