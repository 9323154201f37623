import Verif.Retry.Props
import Verif.Settle
set_option linter.unusedSimpArgs false
set_option linter.unusedVariables false
/-
C53: with a timeout the retries come to an end.
-/
namespace CUtil.Retry
open CUtil CUtil.SyncWrapper CUtil.Live

variable {cfg : Cfg} {s s' : Sys} {σ : Nat → Sys}

/-- A step that is not the passing of time alone. -/
def Auto (cfg : Cfg) (s s' : Sys) : Prop := Step cfg s s' ∧ ∀ t, s' ≠ { s with now := t }

/-- The time is over. -/
def Over (cfg : Cfg) (s : Sys) : Prop := cfg.timeout < forever ∧ (cfg.timeout : Rat) ≤ s.now - s.start

def cR : Caller → Nat
  | .calling => 5 | .returning => 1 | .ret _ => 0

/-- What is still to be done when the time is over. -/
def left (s : Sys) : Nat := cR s.caller + 3 * s.pending + 6 * s.scheduled + 5 * s.retrying + s.returning

@[simp] theorem touch_now (s : Sys) : (touch s).now = s.now := by unfold touch; split <;> rfl
@[simp] theorem touch_start (s : Sys) : (touch s).start = s.start := by unfold touch; split <;> rfl
@[simp] theorem touch_caller (s : Sys) : (touch s).caller = s.caller := by unfold touch; split <;> rfl
@[simp] theorem touch_pending (s : Sys) : (touch s).pending = s.pending := by unfold touch; split <;> rfl
@[simp] theorem touch_scheduled (s : Sys) : (touch s).scheduled = s.scheduled := by unfold touch; split <;> rfl
@[simp] theorem touch_retrying (s : Sys) : (touch s).retrying = s.retrying := by unfold touch; split <;> rfl
@[simp] theorem touch_returning (s : Sys) : (touch s).returning = s.returning := by unfold touch; split <;> rfl
@[simp] theorem touch_backoff (s : Sys) : (touch s).backoff = s.backoff := by unfold touch; split <;> rfl
@[simp] theorem end_now (s : Sys) (u : UserCall) : (cleanUp cfg (callUser s u)).now = s.now := by simp [cleanUp, callUser]
@[simp] theorem end_start (s : Sys) (u : UserCall) : (cleanUp cfg (callUser s u)).start = s.start := by simp [cleanUp, callUser]
@[simp] theorem end_caller (s : Sys) (u : UserCall) : (cleanUp cfg (callUser s u)).caller = s.caller := by simp [cleanUp, callUser]
@[simp] theorem end_pending (s : Sys) (u : UserCall) : (cleanUp cfg (callUser s u)).pending = s.pending := by simp [cleanUp, callUser]
@[simp] theorem end_scheduled (s : Sys) (u : UserCall) : (cleanUp cfg (callUser s u)).scheduled = s.scheduled := by simp [cleanUp, callUser]
@[simp] theorem end_retrying (s : Sys) (u : UserCall) : (cleanUp cfg (callUser s u)).retrying = s.retrying := by simp [cleanUp, callUser]
@[simp] theorem end_returning (s : Sys) (u : UserCall) : (cleanUp cfg (callUser s u)).returning = s.returning := by simp [cleanUp, callUser]
@[simp] theorem end_backoff (s : Sys) (u : UserCall) : (cleanUp cfg (callUser s u)).backoff = s.backoff := by simp [cleanUp, callUser]

theorem over_timedOut (h : Over cfg s) (hb : 1 ≤ s.backoff) : timedOut cfg s = true := by
  unfold timedOut
  rw [if_pos h.1]
  have h1 : (1 : Rat) ≤ (s.backoff : Rat) := by exact_mod_cast hb
  have h2 := h.2
  simp only [decide_eq_true_eq, gt_iff_lt]
  grind

theorem callerGot_time (r : Nat) (t : Rat) : (callerGot cfg s r t).start = s.start ∧ ((callerGot cfg s r t).now = s.now ∨ (callerGot cfg s r t).now = t) := by
  unfold callerGot; dsimp only
  repeat' split
  all_goals simp [sleep]

theorem workGot_time (r : Nat) (t : Rat) : (workGot cfg s r t).start = s.start ∧ ((workGot cfg s r t).now = s.now ∨ (workGot cfg s r t).now = t) := by
  unfold workGot; dsimp only
  repeat' split
  all_goals simp [sleep]

theorem callback_time (v : List Nat) (b : Bool) : (callback cfg s v b).start = s.start ∧ (callback cfg s v b).now = s.now := by
  unfold callback; dsimp only
  repeat' split
  all_goals simp

theorem time_step (st : Step cfg s s') : s'.start = s.start ∧ s.now ≤ s'.now := by
  have pos : (0 : Rat) ≤ (s.backoff : Rat) := by exact_mod_cast Nat.zero_le _
  cases st with
  | tick t h => exact ⟨rfl, h⟩
  | callerRefused r t hc hr hl => have := callerGot_time (cfg := cfg) (s := touch s) r t; simp only [touch_now, touch_start] at this; grind
  | callerReturn t hc hl => have := callerGot_time (cfg := cfg) (s := s) cfg.expected t; grind
  | workRefused r t hp hr hl => have := workGot_time (cfg := cfg) (s := touch { s with retrying := s.retrying - 1 }) r t; simp only [touch_now, touch_start] at this; grind
  | workReturn t hp hl => have := workGot_time (cfg := cfg) (s := { s with returning := s.returning - 1 }) cfg.expected t; grind
  | callback v b hp => have := callback_time (cfg := cfg) (s := { s with pending := s.pending - 1 }) v b; grind
  | callerAccepted hc => simp only [touch_now, touch_start]; exact ⟨trivial, Rat.le_refl⟩
  | workAccepted hp => simp only [touch_now, touch_start]; exact ⟨trivial, Rat.le_refl⟩
  | work hp => exact ⟨rfl, Rat.le_refl⟩

theorem over_step (st : Step cfg s s') (h : Over cfg s) : Over cfg s' := by
  obtain ⟨h1, h2⟩ := time_step st
  refine ⟨h.1, ?_⟩
  have := h.2
  rw [h1]; grind

theorem delay_pos (n : Nat) : 1 ≤ delay n := by
  unfold delay
  have : 0 < 2 ^ n := Nat.two_pow_pos n
  omega

theorem owner_times_out (hg : Good cfg) (h : Reach cfg s) (ho : Over cfg s) (hp : s.caller = .calling ∨ 0 < s.pending ∨ 0 < s.scheduled ∨ 0 < s.retrying) : timedOut cfg s = true :=
  over_timedOut ho (by rw [(inv_of_reach hg h).backoff (kept_until_end hg h hp).1]; exact delay_pos _)

theorem timedOut_congr {u : Sys} (h1 : u.now = s.now) (h2 : u.start = s.start) (h3 : u.backoff = s.backoff) : timedOut cfg u = timedOut cfg s := by
  unfold timedOut; rw [h1, h2, h3]

/-- When the time is over every step brings the end nearer. -/
theorem steps_or_not (hg : Good cfg) (h : Reach cfg s) (ho : Over cfg s) (st : Step cfg s s') : left s' < left s ∨ ∃ t, s' = { s with now := t } := by
  cases st with
  | tick t h => exact .inr ⟨t, rfl⟩
  | callerRefused r t hc hr hl =>
    left
    have to := owner_times_out hg h ho (.inl hc)
    rw [← timedOut_congr (u := touch (touch s)) (by simp) (by simp) (by simp)] at to
    unfold callerGot; dsimp only
    rw [to]
    repeat' split
    all_goals simp_all [left, cR]
  | callerReturn t hc hl =>
    left
    unfold callerGot; dsimp only
    rw [hg]
    simp [left, cR, hc]
  | workRefused r t hp hr hl =>
    left
    have to := owner_times_out hg h ho (.inr (.inr (.inr hp)))
    rw [← timedOut_congr (u := touch (touch { s with retrying := s.retrying - 1 })) (by simp) (by simp) (by simp)] at to
    unfold workGot; dsimp only
    rw [to]
    repeat' split
    all_goals simp_all [left]
    all_goals omega
  | workReturn t hp hl =>
    left
    unfold workGot; dsimp only
    rw [hg]
    simp [left]; omega
  | callback v b hp =>
    left
    have to := owner_times_out hg h ho (.inr (.inl hp))
    unfold callback; dsimp only
    rw [← timedOut_congr (u := touch { s with pending := s.pending - 1, received := s.received ++ [v] }) (by simp) (by simp) (by simp)] at to
    rw [to]
    repeat' split
    all_goals simp_all [left]
    all_goals omega
  | callerAccepted hc => left; simp [left, cR, hc]; omega
  | workAccepted hp => left; simp [left]; omega
  | work hp => left; simp [left]; omega

/-- As long as the wrapper has not come to its end something can be done. -/
theorem can_go_on (hg : Good cfg) (h : Reach cfg s) (hn : ¬ Finished s) : Enabled (Auto cfg) s := by
  rcases progress hg h hn with e | e | e | e | e | e
  · exact ⟨_, .callerAccepted s e, fun t h => by have := congrArg Sys.pending h; simp at this⟩
  · exact ⟨_, .callerReturn s _ e Rat.le_refl, fun t h => by
      have := congrArg Sys.caller h
      unfold callerGot at this; dsimp only at this; rw [hg] at this; simp [e] at this⟩
  · exact ⟨_, .callback s [] true e, fun t h => by
      have := congrArg (fun s => s.received.length) h
      unfold callback at this; dsimp only at this
      repeat' split at this
      all_goals simp [cleanUp, callUser, touch] at this
      all_goals (repeat' split at this) <;> simp at this⟩
  · exact ⟨_, .work s e, fun t h => by have := congrArg Sys.retrying h; simp at this⟩
  · exact ⟨_, .workAccepted s e, fun t h => by have := congrArg Sys.returning h; simp at this⟩
  · exact ⟨_, .workReturn s _ e Rat.le_refl, fun t h => by
      have := congrArg Sys.returning h
      unfold workGot at this; dsimp only at this; rw [hg] at this; simp at this; omega⟩

/-- C53: with a timeout the wrapper comes to its end: in every execution in which time goes on, and in which the caller, the asynchronous function and the threadpool go on if they can, there comes a time when the wrapper has
returned and nothing is left to happen, so that (`called_exactly_once`) the user's callback has been called if the wrapper has returned 0. -/
theorem comes_to_end (hg : Good cfg) (ht : cfg.timeout < 4294967295) (run : Run (Reach cfg) (Step cfg) σ) (f : Fair (Auto cfg) σ) (time : ∀ T : Rat, ∃ j, T ≤ (σ j).now) : ∃ j, Finished (σ j) := by
  have hr : ∀ s s', Reach cfg s → Step cfg s s' → Reach cfg s' := fun _ _ h st => h.step st
  have st0 : ∀ j, (σ j).start = (σ 0).start := by
    intro j
    induction j with
    | zero => rfl
    | succ j ih =>
      rcases run.next j with st | e
      · rw [(time_step st).1, ih]
      · rw [e, ih]
  obtain ⟨i, hi⟩ := time ((cfg.timeout : Rat) + (σ 0).start)
  have over : ∀ d, Over cfg (σ (i + d)) := by
    intro d
    induction d with
    | zero => exact ⟨ht, by have := st0 i; simp only [Nat.add_zero]; grind⟩
    | succ d ih =>
      rcases run.next (i + d) with st | e
      · exact over_step st ih
      · show Over cfg (σ (i + d + 1)); rw [e]; exact ih
  have over' : ∀ j, i ≤ j → Over cfg (σ j) := fun j hj => by obtain ⟨d, rfl⟩ := Nat.le.dest hj; exact over d
  obtain ⟨j, hj, no⟩ := settles_on (i := i) left
    (fun j hj a => (steps_or_not hg (run.reach hr j) (over' j hj) a.1).resolve_right fun ⟨t, e⟩ => a.2 t e)
    (fun j hj => by
      rcases run.next j with st | e
      · rcases steps_or_not hg (run.reach hr j) (over' j hj) st with l | ⟨t, e⟩
        · omega
        · rw [e]; exact Nat.le_refl _
      · rw [e]; exact Nat.le_refl _) f
  exact ⟨j, Classical.byContradiction fun hn => no (can_go_on hg (run.reach hr j) hn)⟩

/-- C53: how often the function is called again at once is bounded by the timeout: it refuses at most so many times with a result to be retried. -/
theorem sleeps_bounded (hg : Good cfg) (ht : cfg.timeout < 4294967295) (h : Reach cfg s) : s.sleeps.length ≤ cfg.timeout := by
  obtain ⟨e, h2⟩ := delays_spec hg h
  have hs := (h2 ht).2
  rw [e] at hs
  have : ∀ n, n ≤ ((List.range n).map (fun i => min (2 ^ i) 10000)).sum := by
    intro n
    induction n with
    | zero => simp
    | succ n ih =>
      simp only [List.range_succ, List.map_append, List.sum_append, List.map_cons, List.map_nil, List.sum_cons, List.sum_nil]
      have : 0 < 2 ^ n := Nat.two_pow_pos n
      omega
  have := this s.sleeps.length
  omega

/-- C53: there is no delay before a retry of a call that was accepted, and no bound on how many of them there are at one and the same time: only time itself ends them. -/
theorem retries_without_delay : ∀ n, ∃ s, Reach sample s ∧ s.received.length = n ∧ s.sleeps = [] ∧ s.now = s.start ∧ 0 < s.pending := by
  have main : ∀ n, ∃ s, Reach sample s ∧ s.received.length = n ∧ s.sleeps = [] ∧ s.now = s.start ∧ 0 < s.pending ∧ s.alive = true ∧ s.backoff = 1 := by
    intro n
    induction n with
    | zero =>
      have h0 : Reach sample (enter sample false true 0) := .start false true 0
      have h1 := h0.step (.callerAccepted _ (by decide +kernel))
      exact ⟨_, h1, by decide +kernel, by decide +kernel, by decide +kernel, by decide +kernel, by decide +kernel, by decide +kernel⟩
    | succ n ih =>
      obtain ⟨s, h, e1, e2, e3, e4, e5, e6⟩ := ih
      have to : timedOut sample { s with pending := s.pending - 1, received := s.received ++ [[3, 0]] } = false := by
        have h1 : s.start - s.start + ((1 : Nat) : Rat) = 1 := by grind
        simp only [timedOut, e3, e6, h1]
        decide +kernel
      have cb : callback sample { s with pending := s.pending - 1 } [3, 0] true = { s with pending := s.pending - 1, received := s.received ++ [[3, 0]], scheduled := s.scheduled + 1 } := by
        unfold callback
        dsimp only
        rw [show sample.asyncRetry [3, 0] = true from rfl, touch_alive (by exact e5), to]
        rfl
      have h1 := h.step (.callback _ [3, 0] true e4)
      rw [cb] at h1
      have h2 := h1.step (.work _ (Nat.succ_pos _))
      have h3 := h2.step (.workAccepted _ (Nat.succ_pos _))
      rw [touch_alive (by exact e5)] at h3
      exact ⟨_, h3, by simp [e1], e2, e3, Nat.succ_pos _, e5, e6⟩
  intro n
  obtain ⟨s, h, e1, e2, e3, e4, _⟩ := main n
  exact ⟨s, h, e1, e2, e3, e4⟩

theorem finished_end (h : Finished s) : ¬ Enabled (Auto cfg) s := by
  obtain ⟨⟨r, h1⟩, h2, h3, h4, h5⟩ := h
  rintro ⟨s', st, no⟩
  cases st with
  | tick t h => exact no t rfl
  | _ => simp_all

/-- There are such executions: a call is accepted, returns, and is called back; then only time goes on. -/
example : Good sample ∧ sample.timeout < 4294967295 ∧ ∃ σ, Run (Reach sample) (Step sample) σ ∧ Fair (Auto sample) σ ∧ (∀ T : Rat, ∃ j, T ≤ (σ j).now) ∧ ¬ Finished (σ 0) := by
  refine ⟨by unfold Good; decide, by decide, ?_⟩
  have h0 : Reach sample (enter sample false true 0) := .start false true 0
  have h1 := h0.step (.callerAccepted _ (by decide +kernel))
  have h2 := h1.step (.callerReturn _ 100 (by decide +kernel) (by decide +kernel))
  have st := Step.callback (cfg := sample) _ [5, 6] true (show 0 < (callerGot sample { touch (enter sample false true 0) with caller := .returning, pending := (enter sample false true 0).pending + 1 } sample.expected 100).pending by decide +kernel)
  generalize hs : callerGot sample { touch (enter sample false true 0) with caller := .returning, pending := (enter sample false true 0).pending + 1 } sample.expected 100 = s at h2 st
  generalize he : callback sample { s with pending := s.pending - 1 } [5, 6] true = e at st
  have e0 : e.now = 0 := by rw [← he, ← hs]; decide +kernel
  have ef : (∃ r, e.caller = .ret r) ∧ e.pending = 0 ∧ e.scheduled = 0 ∧ e.retrying = 0 ∧ e.returning = 0 := by
    rw [← he, ← hs]; exact ⟨⟨.ok, by decide +kernel⟩, by decide +kernel⟩
  have sp : s.pending = 1 := by rw [← hs]; decide +kernel
  let σ : Nat → Sys := fun j => match j with | 0 => s | j + 1 => { e with now := (j : Rat) }
  have s1 : σ 1 = e := by
    show { e with now := ((0 : Nat) : Rat) } = e
    have : ((0 : Nat) : Rat) = e.now := e0.symm
    rw [this]
  have fin : ∀ j, Finished (σ (j + 1)) := fun j => ef
  refine ⟨σ, ⟨h2, fun j => .inl ?_⟩, fun i all => ?_, fun T => ?_, ?_⟩
  · cases j with
    | zero => rw [s1]; exact st
    | succ j =>
      have : Step sample (σ (j + 1)) { σ (j + 1) with now := ((j + 1 : Nat) : Rat) } := .tick _ _ (by
        show ((j : Nat) : Rat) ≤ ((j + 1 : Nat) : Rat)
        exact_mod_cast Nat.le_succ j)
      exact this
  · exact absurd (all (i + 1) (by omega)) (finished_end (fin i))
  · refine ⟨T.ceil.toNat + 1, ?_⟩
    show T ≤ ((T.ceil.toNat : Nat) : Rat)
    have h1 : T ≤ (T.ceil : Rat) := Rat.le_ceil
    have h2 : (T.ceil : Rat) ≤ ((T.ceil.toNat : Int) : Rat) := by exact_mod_cast Int.self_le_toNat _
    have h3 : ((T.ceil.toNat : Int) : Rat) = ((T.ceil.toNat : Nat) : Rat) := by norm_cast
    rw [← h3]; exact Rat.le_trans h1 h2
  · rintro ⟨_, h, _⟩
    have : s.pending = 0 := h
    omega

end CUtil.Retry
