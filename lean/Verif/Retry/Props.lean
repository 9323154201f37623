import Verif.Retry.Model
import Verif.SyncWrapper.Props
set_option linter.unusedSimpArgs false
set_option linter.unusedVariables false
/-
C53: the asynchronous retry wrapper.
-/
namespace CUtil.Retry
open CUtil CUtil.SyncWrapper

/-! ### Specification -/

/-- The `i`th delay: 1, 2, 4, ... capped at ten seconds. -/
def delay (i : Nat) : Nat := min (2 ^ i) 10000

/-- The expected value is not one of those that are retried. -/
def Good (cfg : Cfg) : Prop := cfg.syncRetry cfg.expected = false

/-- The wrapper returned and nothing is left to happen. -/
def Finished (s : Sys) : Prop :=
  (∃ r, s.caller = .ret r) ∧ s.pending = 0 ∧ s.scheduled = 0 ∧ s.retrying = 0 ∧ s.returning = 0

/-! ### Invariant -/

def owners (s : Sys) : Nat := (if s.caller = .calling then 1 else 0) + s.pending + s.scheduled + s.retrying

def slept (s : Sys) : Nat := (s.sleeps.map Prod.snd).sum

structure Inv (cfg : Cfg) (s : Sys) : Prop where
  notBad : s.bad = false
  time : s.start ≤ s.now
  own : owners s = if s.alive then 1 else 0
  pool : s.pool = if s.alive then 1 else 0
  argsLive : s.alive = true → s.log = (copyArgs cfg.args 0 false).1 ∧ (copyArgs cfg.args 0 false).2.2 = false
  argsDead : s.alive = false → ∀ k, s.log.count (.freed k) = s.log.count (.copied k)
  userLive : s.alive = true → s.user = []
  userFail : ∀ r, s.caller = .ret r → r ≠ .ok → s.user = [] ∧ s.alive = false
  userDone : s.alive = false → s.caller = .returning ∨ s.caller = .ret .ok → s.user.length = 1
  userFinal : ∀ v, .final v ∈ s.user → s.received.getLast? = some v ∧ cfg.asyncRetry v = false
  userError : ∀ v, .error v ∈ s.user → v = errorValues cfg
  userTimeout : ∀ v, .timeout v ∈ s.user → v = timeoutValues cfg ∧ cfg.timeout < forever
  delays : s.sleeps.map Prod.snd = (List.range s.sleeps.length).map delay
  backoff : s.alive = true → s.backoff = delay s.sleeps.length
  fits : cfg.timeout < forever → ∀ p ∈ s.sleeps, p.1 + (p.2 : Rat) ≤ (cfg.timeout : Rat)
  slept : (CUtil.Retry.slept s : Rat) ≤ s.now - s.start
  sum : cfg.timeout < forever → CUtil.Retry.slept s ≤ cfg.timeout

theorem delay_next (n : Nat) : (if delay n * 2 > maxBackoff then maxBackoff else delay n * 2) = delay (n + 1) := by
  unfold delay
  have : (2 : Nat) ^ (n + 1) = 2 ^ n * 2 := Nat.pow_succ 2 n
  rw [this]
  show (if min (2 ^ n) 10000 * 2 > 10000 then 10000 else min (2 ^ n) 10000 * 2) = _
  split <;> omega

theorem freeFields_spec (args : List Arg) : ∀ (i : Nat),
    (∀ (k : Nat) (a : Arg), args[k]? = some a → (freeFields args i).count (.freed (i + k)) = if a.custom then 1 else 0) ∧
    (∀ k, k < i → (freeFields args i).count (.freed k) = 0) ∧ (∀ k, i + args.length ≤ k → (freeFields args i).count (.freed k) = 0) ∧
    (∀ k, (freeFields args i).count (.copied k) = 0) := by
  induction args with
  | nil => intro i; simp [freeFields]
  | cons a args ih =>
    intro i
    obtain ⟨h1, h2, h3, h4⟩ := ih (i + 1)
    have hadd : ∀ k, i + (k + 1) = i + 1 + k := fun k => by omega
    unfold freeFields
    cases hc : a.custom with
    | false =>
      simp only [Bool.false_eq_true, if_false]
      refine ⟨?_, fun k hk => h2 k (by omega), fun k hk => h3 k (by simp only [List.length_cons] at hk; omega), h4⟩
      intro k b hb
      cases k with
      | zero => simp only [List.getElem?_cons_zero, Option.some.injEq] at hb; subst hb; rw [Nat.add_zero, h2 i (by omega), hc]; simp
      | succ k => rw [hadd]; exact h1 k b (by simpa using hb)
    | true =>
      simp only [if_true]
      refine ⟨?_, ?_, ?_, ?_⟩
      · intro k b hb
        cases k with
        | zero => simp only [List.getElem?_cons_zero, Option.some.injEq] at hb; subst hb; rw [Nat.add_zero, List.count_cons_self, h2 i (by omega), hc]; simp
        | succ k => rw [hadd, List.count_cons_of_ne (by simp; omega)]; exact h1 k b (by simpa using hb)
      · intro k hk; rw [List.count_cons_of_ne (by simp; omega)]; exact h2 k (by omega)
      · intro k hk
        simp only [List.length_cons] at hk
        rw [List.count_cons_of_ne (by simp; omega)]; exact h3 k (by omega)
      · intro k; rw [List.count_cons_of_ne (by simp)]; exact h4 k

/-- The copies carry the numbers of the arguments. -/
theorem copyArgs_high (args : List Arg) : ∀ (i : Nat) (e : Bool) (k : Nat), i + args.length ≤ k → (copyArgs args i e).1.count (.copied k) = 0 := by
  induction args with
  | nil => intro i e k _; simp [copyArgs]
  | cons a args ih =>
    intro i e k hk
    simp only [List.length_cons] at hk
    have hne : i ≠ k := by omega
    unfold copyArgs
    cases a.custom <;> cases e <;> cases a.copyOk <;> simp [ih _ _ k (by omega : i + 1 + args.length ≤ k), List.count_cons, hne]

/-- When no copy failed, every argument with handlers was copied. -/
theorem isCopied_of_ok {args : List Arg} (h : (copyArgs args 0 false).2.2 = false) {k : Nat} {a : Arg} (ha : args[k]? = some a) :
    IsCopied args k ↔ a.custom = true := by
  have hs : ¬ SomeFails args := fun hf => by have := ((copyArgs_spec args 0).1).2 hf; rw [h] at this; cases this
  have hall : ∀ (j : Nat) (b : Arg), args[j]? = some b → b.custom = true → b.copyOk = true := by
    intro j b hb hbc
    cases hbo : b.copyOk with
    | true => rfl
    | false => exact absurd ⟨b, List.mem_of_getElem? hb, hbc, hbo⟩ hs
  constructor
  · rintro ⟨b, e1, e2, _⟩
    rw [ha] at e1; simp only [Option.some.injEq] at e1; subst e1; exact e2
  · intro hc
    exact ⟨a, ha, hc, hall k a ha hc, fun j b _ => hall j b⟩

theorem copied_count {args : List Arg} (h : (copyArgs args 0 false).2.2 = false) {k : Nat} {a : Arg} (ha : args[k]? = some a) :
    (copyArgs args 0 false).1.count (.copied k) = if a.custom then 1 else 0 := by
  obtain ⟨hlt, _⟩ := List.getElem?_eq_some_iff.1 ha
  obtain ⟨g1, g2⟩ := (copyArgs_spec args 0).2.1 k hlt
  rw [Nat.zero_add] at g1
  rw [g1]
  cases hc : a.custom with
  | true => rw [if_pos (g2.2 ((isCopied_of_ok h ha).2 hc))]; simp
  | false => rw [if_neg (fun hh => by have := (isCopied_of_ok h ha).1 (g2.1 hh); rw [hc] at this; cases this)]; simp

/-- Freeing every field frees what was copied. -/
theorem free_all {args : List Arg} (h : (copyArgs args 0 false).2.2 = false) (k : Nat) :
    ((copyArgs args 0 false).1 ++ freeFields args 0).count (.freed k) = ((copyArgs args 0 false).1 ++ freeFields args 0).count (.copied k) := by
  obtain ⟨f1, f2, f3, f4⟩ := freeFields_spec args 0
  simp only [List.count_append, copyArgs_no_freed, f4, Nat.zero_add, Nat.add_zero]
  cases ha : args[k]? with
  | none =>
    have hk : 0 + args.length ≤ k := by rw [Nat.zero_add]; exact List.getElem?_eq_none_iff.1 ha
    rw [f3 k hk, copyArgs_high args 0 false k hk]
  | some a =>
    have := f1 k a ha
    rw [Nat.zero_add] at this
    rw [this, copied_count h ha]

/-- Freeing those with `_free_needed` frees what was copied. -/
theorem free_failed (args : List Arg) (k : Nat) :
    ((copyArgs args 0 false).1 ++ freeFailed args (copyArgs args 0 false).2.1 0 true).count (.freed k) =
      ((copyArgs args 0 false).1 ++ freeFailed args (copyArgs args 0 false).2.1 0 true).count (.copied k) := by
  obtain ⟨h1, h2, h3⟩ := copyArgs_spec args 0
  obtain ⟨f1, f2, f3, f4⟩ := freeFailed_spec args (copyArgs args 0 false).2.1 0 true (copyArgs_flags_length args 0 false) (by
    intro k a hk ha
    obtain ⟨hlt, _⟩ := List.getElem?_eq_some_iff.1 ha
    obtain ⟨b, e1, e2, _⟩ := (h2 k hlt).2.1 hk
    rw [ha] at e1; simp only [Option.some.injEq] at e1; subst e1; exact e2)
  have f1 := f1 k
  rw [Nat.zero_add] at f1
  simp only [List.count_append, copyArgs_no_freed, f1, f3, Nat.zero_add, Nat.add_zero, true_and]
  by_cases hk : k < args.length
  · have := (h2 k hk).1
    rw [Nat.zero_add] at this
    rw [this]
  · have hk' : 0 + args.length ≤ k := by omega
    rw [copyArgs_high args 0 false k hk', if_neg]
    rw [List.getElem?_eq_none (by rw [copyArgs_flags_length]; omega)]
    simp

/-! ### The steps keep the invariant -/

theorem touch_alive {s : Sys} (h : s.alive = true) : touch s = s := by unfold touch; rw [if_pos h]

theorem inv_enter (cfg : Cfg) (null mallocOk : Bool) (t : Rat) : Inv cfg (enter cfg null mallocOk t) := by
  unfold enter
  have h0 : ((0 : Nat) : Rat) ≤ t - t := by grind
  cases null with
  | true =>
    refine ⟨rfl, by simp, by simp [owners], by simp, by simp, by simp, by simp, by simp, by simp, by simp, by simp, by simp, by simp, by simp, by simp, h0, by simp [CUtil.Retry.slept]⟩
  | false =>
    cases mallocOk with
    | false => refine ⟨rfl, by simp, by simp [owners], by simp, by simp, by simp, by simp, by simp, by simp, by simp, by simp, by simp, by simp, by simp, by simp, h0, by simp [CUtil.Retry.slept]⟩
    | true =>
      simp only [Bool.false_eq_true, if_false, Bool.true_eq_false]
      cases he : (copyArgs cfg.args 0 false).2.2 with
      | true =>
        simp only [if_true]
        refine ⟨rfl, by simp, by simp [owners], by simp, by simp, ?_, by simp, by simp, by simp, by simp, by simp, by simp, by simp, by simp, by simp, h0, by simp [CUtil.Retry.slept]⟩
        intro _ k
        exact free_failed cfg.args k
      | false =>
        simp only [Bool.false_eq_true, if_false]
        refine ⟨rfl, by simp, by simp [owners], by simp, ?_, by simp, by simp, by simp, by simp, by simp, by simp, by simp, by simp, ?_, by simp, h0, by simp [CUtil.Retry.slept]⟩
        · intro _; exact ⟨rfl, he⟩
        · intro _; simp [delay]

/-- A state between the taking of the only token and what its holder does: the invariant without owners. -/
structure Held (cfg : Cfg) (s : Sys) : Prop where
  notBad : s.bad = false
  time : s.start ≤ s.now
  alive : s.alive = true
  own : s.pending = 0 ∧ s.scheduled = 0 ∧ s.retrying = 0
  pool : s.pool = 1
  args : s.log = (copyArgs cfg.args 0 false).1 ∧ (copyArgs cfg.args 0 false).2.2 = false
  user : s.user = []
  delays : s.sleeps.map Prod.snd = (List.range s.sleeps.length).map delay
  backoff : s.backoff = delay s.sleeps.length
  fits : cfg.timeout < forever → ∀ p ∈ s.sleeps, p.1 + (p.2 : Rat) ≤ (cfg.timeout : Rat)
  slept : (CUtil.Retry.slept s : Rat) ≤ s.now - s.start
  sum : cfg.timeout < forever → CUtil.Retry.slept s ≤ cfg.timeout

theorem Inv.held {cfg : Cfg} {s : Sys} (h : Inv cfg s) (ho : 0 < owners s) : s.alive = true ∧ owners s = 1 := by
  have := h.own
  cases ha : s.alive with
  | true => rw [ha] at this; exact ⟨rfl, by simpa using this⟩
  | false => rw [ha] at this; simp at this; omega

/-- The end: the user is called, everything is freed. -/
theorem inv_finish {cfg : Cfg} {s : Sys} (h : Held cfg s) (u : UserCall) (hc : s.caller = .returning ∨ s.caller = .ret .ok)
    (hf : ∀ v, u = .final v → s.received.getLast? = some v ∧ cfg.asyncRetry v = false)
    (he : ∀ v, u = .error v → v = errorValues cfg)
    (ht : ∀ v, u = .timeout v → v = timeoutValues cfg ∧ cfg.timeout < forever) : Inv cfg (cleanUp cfg (callUser s u)) := by
  obtain ⟨o1, o2, o3⟩ := h.own
  have e : cleanUp cfg (callUser s u) = { s with user := s.user ++ [u], log := s.log ++ freeFields cfg.args 0, pool := s.pool - 1, alive := false } := by
    unfold cleanUp callUser
    dsimp only
    rw [touch_alive h.alive, touch_alive (s := { s with user := s.user ++ [u] }) h.alive]
  rw [e]
  have hnc : s.caller ≠ .calling := by rcases hc with hc | hc <;> rw [hc] <;> simp
  refine ⟨h.notBad, h.time, ?_, ?_, by simp, ?_, by simp, ?_, ?_, ?_, ?_, ?_, h.delays, by simp, h.fits, h.slept, h.sum⟩
  · simp [owners, hnc, o1, o2, o3]
  · simp [h.pool]
  · intro _ k; dsimp only; rw [h.args.1]; exact free_all h.args.2 k
  · intro r hr hne
    dsimp only at hr
    rcases hc with hc | hc
    · rw [hc] at hr; cases hr
    · rw [hc] at hr; cases hr; exact absurd rfl hne
  · intro _ _; dsimp only; rw [h.user]; rfl
  · intro v hv
    dsimp only at hv ⊢
    rw [h.user] at hv
    simp only [List.nil_append, List.mem_singleton] at hv
    exact hf v hv.symm
  · intro v hv
    dsimp only at hv ⊢
    rw [h.user] at hv
    simp only [List.nil_append, List.mem_singleton] at hv
    exact he v hv.symm
  · intro v hv
    dsimp only at hv ⊢
    rw [h.user] at hv
    simp only [List.nil_append, List.mem_singleton] at hv
    exact ht v hv.symm

theorem timedOut_forever {cfg : Cfg} {s : Sys} (h : timedOut cfg s = true) : cfg.timeout < forever := by
  unfold timedOut at h
  split at h
  · assumption
  · cases h

/-- A sleep that does not cross the timeout. -/
theorem held_sleep {cfg : Cfg} {s : Sys} (h : Held cfg s) {t : Rat} (ht : s.now + (s.backoff : Rat) ≤ t) (hto : timedOut cfg s = false) :
    Held cfg (sleep s t) := by
  have hfit : cfg.timeout < forever → (s.now - s.start) + (s.backoff : Rat) ≤ (cfg.timeout : Rat) := by
    intro hlt
    unfold timedOut at hto
    rw [if_pos hlt, decide_eq_false_iff_not] at hto
    exact Rat.not_lt.1 hto
  have hpos : (0 : Rat) ≤ (s.backoff : Rat) := by exact_mod_cast Nat.zero_le _
  have hsl : slept (sleep s t) = slept s + s.backoff := by simp [slept, sleep]
  have hcast : ((slept s + s.backoff : Nat) : Rat) = (slept s : Rat) + (s.backoff : Rat) := by grind
  have hsl' := h.slept
  refine ⟨h.notBad, ?_, h.alive, h.own, h.pool, h.args, h.user, ?_, ?_, ?_, ?_, ?_⟩
  · have := h.time
    show s.start ≤ t
    grind
  · show (s.sleeps ++ [(s.now - s.start, s.backoff)]).map Prod.snd = (List.range (s.sleeps ++ [(s.now - s.start, s.backoff)]).length).map delay
    rw [List.map_append, List.length_append, h.delays]
    simp [List.range_succ, h.backoff]
  · show (if s.backoff * 2 > maxBackoff then maxBackoff else s.backoff * 2) = delay (s.sleeps ++ [(s.now - s.start, s.backoff)]).length
    rw [h.backoff, delay_next]; simp
  · intro hlt p hp
    have hp : p ∈ s.sleeps ++ [(s.now - s.start, s.backoff)] := hp
    rcases List.mem_append.1 hp with hp | hp
    · exact h.fits hlt p hp
    · rw [List.mem_singleton] at hp; subst hp; exact hfit hlt
  · rw [hsl, hcast]
    show _ ≤ t - s.start
    grind
  · intro hlt
    rw [hsl]
    have h1 := hfit hlt
    have : ((slept s + s.backoff : Nat) : Rat) ≤ (cfg.timeout : Rat) := by rw [hcast]; grind
    exact_mod_cast this

/-- The caller's loop. -/
theorem inv_callerGot {cfg : Cfg} {s : Sys} (h : Held cfg s) (hc : s.caller = .calling) (r : Nat) (hr : r ≠ cfg.expected) {t : Rat}
    (ht : s.now + (s.backoff : Rat) ≤ t) : Inv cfg (callerGot cfg s r t) := by
  obtain ⟨o1, o2, o3⟩ := h.own
  have hfail : ∀ res : Result, res ≠ .ok → Inv cfg { s with pool := s.pool - 1, log := s.log ++ freeFailed cfg.args (copyArgs cfg.args 0 false).2.1 0 true, alive := false, caller := .ret res } := by
    intro res hres
    refine ⟨h.notBad, h.time, ?_, ?_, by simp, ?_, by simp, ?_, ?_, ?_, ?_, ?_, h.delays, by simp, h.fits, h.slept, h.sum⟩
    · simp [owners, o1, o2, o3]
    · simp [h.pool]
    · intro _ k; dsimp only; rw [h.args.1]; exact free_failed cfg.args k
    · intro _ _ _; exact ⟨h.user, rfl⟩
    · intro _ hh
      dsimp only at hh
      rcases hh with hh | hh
      · cases hh
      · cases hh; exact absurd rfl hres
    · intro v hv; dsimp only at hv; rw [h.user] at hv; cases hv
    · intro v hv; dsimp only at hv; rw [h.user] at hv; cases hv
    · intro v hv; dsimp only at hv; rw [h.user] at hv; cases hv
  unfold callerGot
  dsimp only
  simp only [touch_alive h.alive]
  cases hs : cfg.syncRetry r with
  | true =>
    rw [if_pos rfl]
    cases hto : timedOut cfg s with
    | true => rw [if_pos rfl]; exact hfail .timeout (by simp)
    | false =>
      rw [if_neg (by simp)]
      have h' := held_sleep h ht hto
      have e : ({ sleep s t with caller := .calling } : Sys) = sleep s t := by
        have : (sleep s t).caller = .calling := hc
        rw [← this]
      rw [e]
      refine ⟨h'.notBad, h'.time, ?_, ?_, fun _ => h'.args, ?_, fun _ => h'.user, ?_, ?_, ?_, ?_, ?_, h'.delays, fun _ => h'.backoff, h'.fits, h'.slept, h'.sum⟩
      · obtain ⟨p1, p2, p3⟩ := h'.own
        have : (sleep s t).caller = .calling := hc
        rw [h'.alive]; simp [owners, this, p1, p2, p3]
      · rw [h'.alive]; simp [h'.pool]
      · intro hh; rw [h'.alive] at hh; cases hh
      · intro r hr; have : (sleep s t).caller = .calling := hc; rw [this] at hr; cases hr
      · intro hh; rw [h'.alive] at hh; cases hh
      · intro v hv; rw [h'.user] at hv; cases hv
      · intro v hv; rw [h'.user] at hv; cases hv
      · intro v hv; rw [h'.user] at hv; cases hv
  | false =>
    rw [if_neg (by simp), if_pos hr]
    exact hfail .callError (by simp)

/-- The loop of a work item. -/
theorem inv_workGot {cfg : Cfg} {s : Sys} (h : Held cfg s) (hc : s.caller = .returning ∨ s.caller = .ret .ok) (r : Nat) (hr : r ≠ cfg.expected) {t : Rat}
    (ht : s.now + (s.backoff : Rat) ≤ t) : Inv cfg (workGot cfg s r t) := by
  unfold workGot
  dsimp only
  rw [touch_alive h.alive]
  cases hs : cfg.syncRetry r with
  | true =>
    rw [if_pos rfl]
    cases hto : timedOut cfg s with
    | true =>
      rw [if_pos rfl]
      exact inv_finish h _ hc (by intro v hv; cases hv) (by intro v hv; cases hv) (by intro v hv; cases hv; exact ⟨rfl, timedOut_forever hto⟩)
    | false =>
      rw [if_neg (by simp)]
      have h' := held_sleep h ht hto
      obtain ⟨o1, o2, o3⟩ := h.own
      have hnc : s.caller ≠ .calling := by rcases hc with hc | hc <;> rw [hc] <;> simp
      refine ⟨h'.notBad, h'.time, ?_, ?_, fun _ => h'.args, ?_, fun _ => h'.user, ?_, ?_, ?_, ?_, ?_, h'.delays, fun _ => h'.backoff, h'.fits, h'.slept, h'.sum⟩
      · have ha : (sleep s t).alive = true := h.alive
        show owners { sleep s t with retrying := s.retrying + 1 } = if (sleep s t).alive = true then 1 else 0
        rw [if_pos ha]
        simp [owners, sleep, hnc, o1, o2, o3]
      · show (sleep s t).pool = if (sleep s t).alive = true then 1 else 0
        rw [if_pos h'.alive, h'.pool]
      · intro hh; have hh : (sleep s t).alive = false := hh; rw [h'.alive] at hh; cases hh
      · intro r hr hne
        have hr : s.caller = .ret r := hr
        rcases hc with hc | hc
        · rw [hc] at hr; cases hr
        · rw [hc] at hr; cases hr; exact absurd rfl hne
      · intro hh; have hh : (sleep s t).alive = false := hh; rw [h'.alive] at hh; cases hh
      · intro v hv; have hv : _ ∈ (sleep s t).user := hv; rw [h'.user] at hv; cases hv
      · intro v hv; have hv : _ ∈ (sleep s t).user := hv; rw [h'.user] at hv; cases hv
      · intro v hv; have hv : _ ∈ (sleep s t).user := hv; rw [h'.user] at hv; cases hv
  | false =>
    rw [if_neg (by simp), if_pos hr]
    exact inv_finish h _ hc (by intro v hv; cases hv) (by intro v hv; cases hv; rfl) (by intro v hv; cases hv)

theorem inv_step {cfg : Cfg} (hg : Good cfg) {s s' : Sys} (h : Inv cfg s) (st : Step cfg s s') : Inv cfg s' := by
  -- whoever holds the token of a state
  have hheld : ∀ s0 : Sys, s0.alive = true → s0.bad = s.bad → s0.start = s.start → s0.now = s.now → s.alive = true → s0.pool = s.pool → s0.log = s.log → s0.user = s.user →
      s0.sleeps = s.sleeps → s0.backoff = s.backoff → s0.pending = 0 ∧ s0.scheduled = 0 ∧ s0.retrying = 0 → Held cfg s0 := by
    intro s0 e1 e2 e3 e4 ea e5 e6 e7 e8 e9 e10
    have hp := h.pool
    rw [if_pos ea] at hp
    refine ⟨by rw [e2]; exact h.notBad, by rw [e3, e4]; exact h.time, e1, e10, by rw [e5]; exact hp, by rw [e6]; exact h.argsLive ea, by rw [e7]; exact h.userLive ea,
      by rw [e8]; exact h.delays, by rw [e8, e9]; exact h.backoff ea, by rw [e8]; exact h.fits, ?_, ?_⟩
    · show (((s0.sleeps.map Prod.snd).sum : Nat) : Rat) ≤ _
      rw [e8, e3, e4]; exact h.slept
    · show _ → (s0.sleeps.map Prod.snd).sum ≤ _
      rw [e8]; exact h.sum
  -- a caller that is not in its loop, while the context lives, was accepted
  have hcaller : s.alive = true → s.caller ≠ .calling → s.caller = .returning ∨ s.caller = .ret .ok := by
    intro ha hne
    cases hc : s.caller with
    | calling => exact absurd hc hne
    | returning => exact Or.inl rfl
    | ret r =>
      by_cases hr : r = .ok
      · exact Or.inr (by rw [hr])
      · have := (h.userFail r hc hr).2; rw [ha] at this; cases this
  cases st with
  | tick t ht =>
    refine ⟨h.notBad, ?_, h.own, h.pool, h.argsLive, h.argsDead, h.userLive, h.userFail, h.userDone, h.userFinal, h.userError, h.userTimeout, h.delays, h.backoff, h.fits, ?_, h.sum⟩
    · have := h.time; show s.start ≤ t; grind
    · have := h.slept
      show (slept s : Rat) ≤ t - s.start
      grind
  | callerRefused r t hc hr ht =>
    obtain ⟨ha, ho⟩ := h.held (by simp [owners, hc]; omega)
    rw [touch_alive ha]
    refine inv_callerGot (hheld s ha rfl rfl rfl ha rfl rfl rfl rfl rfl ?_) hc r hr ht
    simp [owners, hc] at ho; omega
  | callerAccepted hc =>
    obtain ⟨ha, ho⟩ := h.held (by simp [owners, hc]; omega)
    rw [touch_alive ha]
    simp [owners, hc] at ho
    have hp := h.pool
    refine ⟨h.notBad, h.time, ?_, hp, h.argsLive, h.argsDead, h.userLive, (by intro r hr; cases hr), ?_, h.userFinal, h.userError, h.userTimeout, h.delays, h.backoff, h.fits, h.slept, h.sum⟩
    · simp [owners, ha]; omega
    · intro hh; dsimp only at hh; rw [ha] at hh; cases hh
  | callerReturn t hc ht =>
    have e : callerGot cfg s cfg.expected t = { s with caller := .ret .ok } := by
      unfold callerGot
      rw [hg]; simp
    rw [e]
    refine ⟨h.notBad, h.time, ?_, h.pool, h.argsLive, h.argsDead, h.userLive, ?_, ?_, h.userFinal, h.userError, h.userTimeout, h.delays, h.backoff, h.fits, h.slept, h.sum⟩
    · have := h.own; simp [owners, hc] at this ⊢; exact this
    · intro r hr hne; cases hr; exact absurd rfl hne
    · intro hh _; exact h.userDone hh (Or.inl hc)
  | callback values scheduleOk hp =>
    obtain ⟨ha, ho⟩ := h.held (by simp [owners]; omega)
    simp only [owners] at ho
    have hnc : s.caller ≠ .calling := by intro e; rw [if_pos e] at ho; omega
    rw [if_neg hnc] at ho
    unfold CUtil.Retry.callback
    dsimp only
    have hH : Held cfg { s with pending := s.pending - 1, received := s.received ++ [values] } :=
      hheld _ ha rfl rfl rfl ha rfl rfl rfl rfl rfl (by dsimp only; omega)
    rw [touch_alive (s := { s with pending := s.pending - 1, received := s.received ++ [values] }) ha]
    cases hv : cfg.asyncRetry values with
    | true =>
      rw [if_pos rfl]
      cases hto : timedOut cfg { s with pending := s.pending - 1, received := s.received ++ [values] } with
      | true =>
        rw [if_pos rfl]
        exact inv_finish hH _ (hcaller ha hnc) (by intro v hv; cases hv) (by intro v hv; cases hv) (by intro v hv; cases hv; exact ⟨rfl, timedOut_forever hto⟩)
      | false =>
        rw [if_neg (by simp)]
        cases scheduleOk with
        | true =>
          rw [if_pos rfl]
          have hul := h.userLive ha
          refine ⟨h.notBad, h.time, ?_, h.pool, h.argsLive, h.argsDead, h.userLive, h.userFail, h.userDone, ?_, h.userError, h.userTimeout, h.delays, h.backoff, h.fits, h.slept, h.sum⟩
          · simp [owners, hnc, ha]; omega
          · intro v hv; dsimp only at hv; rw [hul] at hv; cases hv
        | false =>
          rw [if_neg (by simp)]
          exact inv_finish hH _ (hcaller ha hnc) (by intro v hv; cases hv) (by intro v hv; cases hv; rfl) (by intro v hv; cases hv)
    | false =>
      rw [if_neg (by simp)]
      refine inv_finish hH _ (hcaller ha hnc) ?_ (by intro v hv; cases hv) (by intro v hv; cases hv)
      intro v hv'
      cases hv'
      exact ⟨by simp, hv⟩
  | work hp =>
    refine ⟨h.notBad, h.time, ?_, h.pool, h.argsLive, h.argsDead, h.userLive, h.userFail, h.userDone, h.userFinal, h.userError, h.userTimeout, h.delays, h.backoff, h.fits, h.slept, h.sum⟩
    have := h.own
    simp only [owners] at this ⊢
    omega
  | workRefused r t hp hr ht =>
    obtain ⟨ha, ho⟩ := h.held (by simp [owners]; omega)
    simp only [owners] at ho
    have hnc : s.caller ≠ .calling := by intro e; rw [if_pos e] at ho; omega
    rw [if_neg hnc] at ho
    rw [touch_alive (s := { s with retrying := s.retrying - 1 }) ha]
    exact inv_workGot (hheld { s with retrying := s.retrying - 1 } ha rfl rfl rfl ha rfl rfl rfl rfl rfl (by dsimp only; omega)) (hcaller ha hnc) r hr ht
  | workAccepted hp =>
    obtain ⟨ha, ho⟩ := h.held (by simp [owners]; omega)
    rw [touch_alive ha]
    refine ⟨h.notBad, h.time, ?_, h.pool, h.argsLive, h.argsDead, h.userLive, h.userFail, h.userDone, h.userFinal, h.userError, h.userTimeout, h.delays, h.backoff, h.fits, h.slept, h.sum⟩
    have := h.own
    simp only [owners] at this ⊢
    omega
  | workReturn t hp ht =>
    have e : workGot cfg { s with returning := s.returning - 1 } cfg.expected t = { s with returning := s.returning - 1 } := by
      unfold workGot
      rw [hg]; simp
    rw [e]
    exact ⟨h.notBad, h.time, h.own, h.pool, h.argsLive, h.argsDead, h.userLive, h.userFail, h.userDone, h.userFinal, h.userError, h.userTimeout, h.delays, h.backoff, h.fits, h.slept, h.sum⟩

theorem inv_of_reach {cfg : Cfg} (hg : Good cfg) {s : Sys} (h : Reach cfg s) : Inv cfg s := by
  induction h with
  | start null mallocOk t => exact inv_enter cfg null mallocOk t
  | step _ st ih => exact inv_step hg ih st

/-! ### Properties -/

/-- C53: the context is never used after it is freed; the user is called at most once at any time, never when the wrapper fails;
when everything is over, exactly once if the wrapper returned OK. -/
theorem called_exactly_once {cfg : Cfg} (hg : Good cfg) {s : Sys} (h : Reach cfg s) :
    s.bad = false ∧ s.user.length ≤ 1 ∧ (∀ r, s.caller = .ret r → r ≠ .ok → s.user = []) ∧
      (Finished s → s.caller = .ret .ok → s.user.length = 1) := by
  have hi := inv_of_reach hg h
  refine ⟨hi.notBad, ?_, fun r hr hne => (hi.userFail r hr hne).1, ?_⟩
  · cases ha : s.alive with
    | true => rw [hi.userLive ha]; simp
    | false =>
      cases hc : s.caller with
      | calling => have := hi.own; rw [ha] at this; simp [owners, hc] at this
      | returning => rw [hi.userDone ha (Or.inl hc)]; omega
      | ret r =>
        by_cases hr : r = .ok
        · rw [hi.userDone ha (Or.inr (by rw [hc, hr]))]; omega
        · rw [(hi.userFail r hc hr).1]; simp
  · rintro ⟨_, e1, e2, e3, _⟩ hc
    refine hi.userDone ?_ (Or.inr hc)
    cases ha : s.alive with
    | false => rfl
    | true => have := hi.own; rw [ha] at this; simp [owners, hc, e1, e2, e3] at this

/-- Nothing gets stuck: as long as not everything is over, something other than the clock can move. -/
theorem progress {cfg : Cfg} (hg : Good cfg) {s : Sys} (h : Reach cfg s) (hn : ¬ Finished s) :
    s.caller = .calling ∨ s.caller = .returning ∨ 0 < s.pending ∨ 0 < s.scheduled ∨ 0 < s.retrying ∨ 0 < s.returning := by
  cases hc : s.caller with
  | calling => exact Or.inl rfl
  | returning => exact Or.inr (Or.inl rfl)
  | ret r =>
    rcases Nat.eq_zero_or_pos s.pending with e1 | e1
    · rcases Nat.eq_zero_or_pos s.scheduled with e2 | e2
      · rcases Nat.eq_zero_or_pos s.retrying with e3 | e3
        · rcases Nat.eq_zero_or_pos s.returning with e4 | e4
          · exact absurd ⟨⟨r, hc⟩, e1, e2, e3, e4⟩ hn
          · simp [e4]
        · simp [e3]
      · simp [e2]
    · simp [e1]

/-- C53: at the end the context, the reference to the threadpool and every argument that was copied (and no other) have been
released, each exactly once. -/
theorem freed_exactly_once {cfg : Cfg} (hg : Good cfg) {s : Sys} (h : Reach cfg s) (hf : Finished s) :
    s.alive = false ∧ s.pool = 0 ∧ ∀ k, s.log.count (.freed k) = s.log.count (.copied k) := by
  have hi := inv_of_reach hg h
  obtain ⟨⟨r, hc⟩, e1, e2, e3, _⟩ := hf
  have ha : s.alive = false := by
    cases ha : s.alive with
    | false => rfl
    | true => have := hi.own; rw [ha] at this; simp [owners, hc, e1, e2, e3] at this
  refine ⟨ha, ?_, hi.argsDead ha⟩
  have := hi.pool; rw [ha] at this; simpa using this

/-- C53: until the end they are all there: the arguments with handlers were copied once and not freed. -/
theorem kept_until_end {cfg : Cfg} (hg : Good cfg) {s : Sys} (h : Reach cfg s)
    (hp : s.caller = .calling ∨ 0 < s.pending ∨ 0 < s.scheduled ∨ 0 < s.retrying) :
    s.alive = true ∧ s.pool = 1 ∧ s.user = [] ∧ ∀ (k : Nat) (a : Arg), cfg.args[k]? = some a →
      s.log.count (.copied k) = (if a.custom then 1 else 0) ∧ s.log.count (.freed k) = 0 := by
  have hi := inv_of_reach hg h
  obtain ⟨ha, _⟩ := hi.held (by
    unfold owners
    rcases hp with hp | hp | hp | hp
    · rw [if_pos hp]; omega
    · omega
    · omega
    · omega)
  obtain ⟨e1, e2⟩ := hi.argsLive ha
  refine ⟨ha, ?_, hi.userLive ha, ?_⟩
  · have := hi.pool; rw [ha] at this; simpa using this
  · intro k a hk
    rw [e1]
    exact ⟨copied_count e2 hk, copyArgs_no_freed _ _ _ _⟩

/-- C53: the delays are 1, 2, 4, ... capped at 10000; none starts that would end after the timeout, and together they stay within it. -/
theorem delays_spec {cfg : Cfg} (hg : Good cfg) {s : Sys} (h : Reach cfg s) :
    s.sleeps.map Prod.snd = (List.range s.sleeps.length).map (fun i => min (2 ^ i) 10000) ∧
      (cfg.timeout < 4294967295 → (∀ p ∈ s.sleeps, p.1 + (p.2 : Rat) ≤ (cfg.timeout : Rat)) ∧ (s.sleeps.map Prod.snd).sum ≤ cfg.timeout) := by
  have hi := inv_of_reach hg h
  exact ⟨hi.delays, fun ht => ⟨hi.fits ht, hi.sum ht⟩⟩

/-- What the user is told: the values of the last callback, if they are not to be retried; else the documented error values; the
timeout values only if there is a timeout. -/
theorem told {cfg : Cfg} (hg : Good cfg) {s : Sys} (h : Reach cfg s) :
    (∀ v, .final v ∈ s.user → s.received.getLast? = some v ∧ cfg.asyncRetry v = false) ∧
    (∀ v, .error v ∈ s.user → v = cfg.outs.map Out.errorValue) ∧
    (∀ v, .timeout v ∈ s.user → v = cfg.outs.map (fun o => if o.isEnum then o.timeoutValue.getD o.errorValue else o.errorValue) ∧ cfg.timeout < 4294967295) := by
  have hi := inv_of_reach hg h
  exact ⟨hi.userFinal, hi.userError, hi.userTimeout⟩

/-! ### Witness -/

/-- Two arguments with handlers, one without; result 7 retried at once, result 3 retried later; a timeout of 100 ms. -/
def sample : Cfg := ⟨[⟨true, true⟩, ⟨false, true⟩, ⟨true, true⟩], [⟨true, 1, some 2⟩, ⟨false, 9, none⟩], 100, 0, fun r => r == 7, fun v => v.head? == some 3⟩

example : Good sample := by unfold Good; decide

/-- Refused twice with 7 (sleeps of 1 and 2 ms), accepted, called back with a 3 before the call returned, scheduled, refused once
more (4 ms), accepted, called back with a 5. -/
example : ∃ s, Reach sample s ∧ Finished s ∧ s.caller = .ret .ok ∧ s.user = [.final [5, 6]] ∧ s.sleeps = [(0, 1), (1, 2), (3, 4)] ∧
    s.log = [.copied 0, .assign 1, .copied 2, .freed 0, .freed 2] := by
  have h0 : Reach sample (enter sample false true 0) := .start false true 0
  have h1 := h0.step (.callerRefused _ 7 1 (by decide +kernel) (by decide) (by decide +kernel))
  have h2 := h1.step (.callerRefused _ 7 3 (by decide +kernel) (by decide) (by decide +kernel))
  have h3 := h2.step (.callerAccepted _ (by decide +kernel))
  have h4 := h3.step (.callback _ [3, 0] true (by decide +kernel))
  have h5 := h4.step (.work _ (by decide +kernel))
  have h6 := h5.step (.workRefused _ 7 7 (by decide +kernel) (by decide) (by decide +kernel))
  have h7 := h6.step (.workAccepted _ (by decide +kernel))
  have h8 := h7.step (.callback _ [5, 6] true (by decide +kernel))
  have h9 := h8.step (.callerReturn _ 100 (by decide +kernel) (by decide +kernel))
  have h10 := h9.step (.workReturn _ 100 (by decide +kernel) (by decide +kernel))
  exact ⟨_, h10, ⟨⟨.ok, by decide +kernel⟩, by decide +kernel⟩, by decide +kernel, by decide +kernel, by decide +kernel, by decide +kernel⟩

/-- Called back with a 3 too late: the user gets the timeout values. SRS_ASYNC_RETRY_WRAPPER_02_003 says "the out_args as they were
received" but for the ENUM; the code passes the error value instead of the received 42. -/
theorem timeout_drops_values : ∃ s, Reach sample s ∧ Finished s ∧ s.received = [[3, 42]] ∧ s.user = [.timeout [2, 9]] := by
  have h0 : Reach sample (enter sample false true 0) := .start false true 0
  have h1 := h0.step (.callerAccepted _ (by decide +kernel))
  have h2 := h1.step (.callerReturn _ 100 (by decide +kernel) (by decide +kernel))
  have h3 := h2.step (.tick _ 150 (by decide +kernel))
  have h4 := h3.step (.callback _ [3, 42] true (by decide +kernel))
  exact ⟨_, h4, ⟨⟨.ok, by decide +kernel⟩, by decide +kernel⟩, by decide +kernel, by decide +kernel⟩

end CUtil.Retry
