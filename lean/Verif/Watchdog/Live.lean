import Verif.Live
import Verif.Watchdog.Props
set_option linter.unusedSimpArgs false
set_option linter.unusedVariables false
/-
C71: in every fair execution `watchdog_reset` and `watchdog_stop` return, and a watchdog that is left alone fires. For calls that do not overlap and a timer that waits for
its executions, as in the exact statements of C45.
-/
namespace CUtil.Watchdog
open CUtil.Conc CUtil.Live

/-- A thread in `watchdog_reset` or `watchdog_stop` makes a step. -/
def CallerMoves (t : Nat) (s s' : Sys) : Prop := Step ⟨true, true⟩ s s' ∧ s.pc t ≠ .out ∧ s'.pc t ≠ s.pc t

/-- An execution of the timer's callback makes a step (the end of a call of the user's callback is one). -/
def CallbackMoves (k : Nat) (s s' : Sys) : Prop := Step ⟨true, true⟩ s s' ∧ s.cb k ≠ .idle ∧ s'.cb k ≠ s.cb k

/-- The timer expires. -/
def Expires (s s' : Sys) : Prop := Step ⟨true, true⟩ s s' ∧ ∃ k, s.cb k = .idle ∧ s'.cb k = .start

/-- A fair execution: every thread that can go on all the time does so in the end, the timer expires unless it is cancelled, and the user's callback returns. -/
structure FairRun (v : Nat) (σ : Nat → Sys) : Prop where
  run : Run (Reach ⟨true, true⟩ v) (Step ⟨true, true⟩) σ
  caller : ∀ t, Fair (CallerMoves t) σ
  callback : ∀ k, Fair (CallbackMoves k) σ
  timer : Fair Expires σ

variable {v : Nat} {σ : Nat → Sys}

theorem FairRun.inv (h : FairRun v σ) (i : Nat) : InvE (σ i) := invE_reach rfl rfl (h.run.reach (fun _ _ r st => r.step st) i)

/-- Steps a call has left at most. -/
def left : Pc → Nat
  | .out => 0
  | .rClose => 9
  | .rDrain => 8
  | .rCancel => 7
  | .rWait => 6
  | .rCloseEnd => 5
  | .rOpen => 4
  | .rOpenEnd => 3
  | .rRestart => 2
  | .rRet _ => 1
  | .sClose => 7
  | .sDrain => 6
  | .sCloseEnd => 5
  | .sTimer => 4
  | .sWait => 3
  | .sDestroy => 2
  | .sFree => 1
  | .sDone => 0

theorem own_step {s s' : Sys} {t : Nat} (st : Step ⟨true, true⟩ s s') (h0 : s.pc t ≠ .out) (h : s'.pc t ≠ s.pc t) : left (s'.pc t) < left (s.pc t) := by
  cases st <;> simp only [upd_apply] at * <;> grind [left]

theorem stays {s s' : Sys} {t : Nat} {p : Pc} (st : Step ⟨true, true⟩ s s') (h0 : p ≠ .out) (h : s.pc t = p) : s'.pc t = p ∨ left (s'.pc t) < left p := by
  by_cases e : s'.pc t = s.pc t
  · exact .inl (e.trans h)
  · exact .inr (h ▸ own_step st (h ▸ h0) e)

/-- A place where nothing is waited for. -/
def Free (p : Pc) : Prop := p ≠ .rDrain ∧ p ≠ .rWait ∧ p ≠ .sDrain ∧ p ≠ .sWait ∧ p ≠ .sDone ∧ p ≠ .out

theorem free_moves (h : FairRun v σ) (t : Nat) (p : Pc) (hp : Free p) : LeadsTo σ (fun s => s.pc t = p) (fun s => left (s.pc t) < left p) :=
  ensures h.inv h.run.next (h.caller t) (fun s s' hi e st => stays st hp.2.2.2.2.2 e)
    (fun s hi e => by
      obtain ⟨p1, p2, p3, p4, p5, p6⟩ := hp
      have ne : s.pc t ≠ .out := e ▸ p6
      have mv : ∀ q, p ≠ q → (upd s.pc t q) t ≠ s.pc t := fun q hq => by rw [e, upd_self]; exact Ne.symm hq
      cases p with
      | out => exact absurd rfl p6
      | rDrain => exact absurd rfl p1
      | rWait => exact absurd rfl p2
      | sDrain => exact absurd rfl p3
      | sWait => exact absurd rfl p4
      | sDone => exact absurd rfl p5
      | rClose =>
        by_cases ho : s.sm = .opened
        · exact ⟨_, .rCloseOk s t e ho, ne, mv _ (by simp)⟩
        · exact ⟨_, .rCloseNo s t e ho, ne, mv _ (by simp)⟩
      | rCancel => exact ⟨_, .rCancel s t e, ne, mv _ (by simp)⟩
      | rCloseEnd => exact ⟨_, .rCloseEnd s t e, ne, mv _ (by simp)⟩
      | rOpen =>
        by_cases ho : s.sm = .created
        · exact ⟨_, .rOpenOk s t e ho, ne, mv _ (by simp)⟩
        · exact ⟨_, .rOpenNo s t e ho, ne, mv _ (by simp)⟩
      | rOpenEnd => exact ⟨_, .rOpenEnd s t e, ne, mv _ (by simp)⟩
      | rRestart => exact ⟨_, .rRestartOk s t e, ne, mv _ (by simp)⟩
      | rRet b => exact ⟨_, .rRet s t b e, ne, mv _ (by simp)⟩
      | sClose =>
        by_cases ho : s.sm = .opened
        · exact ⟨_, .sCloseOk s t e ho, ne, mv _ (by simp)⟩
        · exact ⟨_, .sCloseNo s t e ho, ne, mv _ (by simp)⟩
      | sCloseEnd => exact ⟨_, .sCloseEnd s t e, ne, mv _ (by simp)⟩
      | sTimer => exact ⟨_, .sTimer s t e, ne, mv _ (by simp)⟩
      | sDestroy => exact ⟨_, .sDestroy s t e, ne, mv _ (by simp)⟩
      | sFree => exact ⟨_, .sFree s t e, ne, mv _ (by simp)⟩)
    (fun s s' hi e ⟨st, h0, hm⟩ => e ▸ own_step st h0 hm)

/-- Steps an execution of the callback has left at most. -/
def leftC : Cb → Nat
  | .idle => 0
  | .start => 3
  | .granted => 2
  | .running => 1

set_option maxHeartbeats 4000000 in
theorem all_idle {s s' : Sys} {k : Nat} (hi : InvE s) (st : Step ⟨true, true⟩ s s') (hc : s.cb k ≠ .idle) (hc' : s'.cb k = .idle) (j : Nat) : s'.cb j = .idle := by
  have g := hi.un
  have g' := hi.ar
  cases st <;> simp only [upd_apply] at * <;> grind

/-- The thread waits for executions of the callback; which are to be over. -/
def WaitsAt (p : Pc) : Prop := p = .rDrain ∨ p = .rWait ∨ p = .sDrain ∨ p = .sWait

set_option maxHeartbeats 4000000 in
/-- While a call waits, the execution of the callback that there is comes to its end and there is no other. -/
theorem callback_ends (h : FairRun v σ) (t k : Nat) (p : Pc) (hp : WaitsAt p) :
    LeadsTo σ (fun s => s.pc t = p ∧ s.cb k ≠ .idle) (fun s => left (s.pc t) < left p ∨ (s.pc t = p ∧ ∀ j, s.cb j = .idle)) := by
  have p0 : p ≠ .out := by rcases hp with e | e | e | e <;> rw [e] <;> simp
  refine .rank (fun s => leftC (s.cb k)) fun n => ensures h.inv h.run.next (h.callback k) ?_ ?_ ?_
  · intro s s' hi ⟨⟨e, hc⟩, hn⟩ st
    rcases stays st p0 e with e' | hl
    · by_cases ec : s'.cb k = s.cb k
      · left; rw [ec]; exact ⟨⟨e', hc⟩, hn⟩
      · right
        have : leftC (s'.cb k) < n := by
          subst hn
          clear e' hp p0
          have g := hi.ar
          cases st <;> simp only [upd_apply] at * <;> grind [leftC]
        by_cases hi' : s'.cb k = .idle
        · exact .inl (.inr ⟨e', all_idle hi st hc hi'⟩)
        · exact .inr ⟨⟨e', hi'⟩, this⟩
    · exact .inr (.inl (.inl hl))
  · intro s hi ⟨⟨e, hc⟩, hn⟩
    cases ec : s.cb k with
    | idle => exact absurd ec hc
    | start =>
      by_cases ho : s.sm = .opened
      · exact ⟨_, .cbGranted s k ec ho, hc, by simp [ec]⟩
      · exact ⟨_, .cbRefused s k ec ho, hc, by simp [ec]⟩
    | granted => exact ⟨_, .cbCall s k ec, hc, by simp [ec]⟩
    | running => exact ⟨_, .cbEnd s k ec, hc, by simp [ec]⟩
  · intro s s' hi ⟨⟨e, hc⟩, hn⟩ ⟨st, _, hm⟩
    rcases stays st p0 e with e' | hl
    · have : leftC (s'.cb k) < n := by
        subst hn
        clear e' hp p0
        have g := hi.ar
        cases st <;> simp only [upd_apply] at * <;> grind [leftC]
      by_cases hi' : s'.cb k = .idle
      · exact .inl (.inr ⟨e', all_idle hi st hc hi'⟩)
      · exact .inr ⟨⟨e', hi'⟩, this⟩
    · exact .inl (.inl hl)

set_option maxHeartbeats 4000000 in
/-- In the draining state no execution is granted, so the wait ends once there is none. -/
theorem drain_ends (h : FairRun v σ) (t : Nat) (p : Pc) (hp : p = .rDrain ∨ p = .sDrain) :
    LeadsTo σ (fun s => s.pc t = p ∧ ∀ k, s.cb k ≠ .granted ∧ s.cb k ≠ .running) (fun s => left (s.pc t) < left p) :=
  ensures h.inv h.run.next (h.caller t)
    (fun s s' hi ⟨e, hc⟩ st => by
      rcases stays st (by rcases hp with e | e <;> rw [e] <;> simp) e with e' | hl
      · left
        refine ⟨e', ?_⟩
        have hsm : s.sm = .draining := by
          rw [hi.sm t (by rw [e]; rcases hp with e | e <;> rw [e] <;> simp), e]
          rcases hp with e | e <;> rw [e] <;> rfl
        clear e' e hp
        cases st <;> simp only [upd_apply] at * <;> grind
      · exact .inr hl)
    (fun s hi ⟨e, hc⟩ => by
      rcases hp with rfl | rfl
      · exact ⟨_, .rDrain s t e hc, by rw [e]; simp, by simp [e]⟩
      · exact ⟨_, .sDrain s t e hc, by rw [e]; simp, by simp [e]⟩)
    (fun s s' hi ⟨e, hc⟩ ⟨st, h0, hm⟩ => e ▸ own_step st h0 hm)

set_option maxHeartbeats 4000000 in
/-- The timer is cancelled, so no new execution starts and the wait ends once there is none. -/
theorem wait_ends (h : FairRun v σ) (t : Nat) (p : Pc) (hp : p = .rWait ∨ p = .sWait) (I : ∀ i, Inv ⟨true, true⟩ (σ i)) :
    LeadsTo σ (fun s => s.pc t = p ∧ ∀ k, s.cb k = .idle) (fun s => left (s.pc t) < left p) :=
  ensures (I := fun s => InvE s ∧ Inv ⟨true, true⟩ s) (fun i => ⟨h.inv i, I i⟩) h.run.next (h.caller t)
    (fun s s' hi ⟨e, hc⟩ st => by
      rcases stays st (by rcases hp with e | e <;> rw [e] <;> simp) e with e' | hl
      · left
        refine ⟨e', ?_⟩
        have ha : s.armed = none := by
          rcases hp with rfl | rfl
          · exact hi.1.cw t e
          · exact hi.2.wt t e
        clear e' e hp
        cases st <;> simp only [upd_apply] at * <;> grind
      · exact .inr hl)
    (fun s hi ⟨e, hc⟩ => by
      rcases hp with rfl | rfl
      · exact ⟨_, .rWait s t e (fun _ => hc), by rw [e]; simp, by simp [e]⟩
      · exact ⟨_, .sWait s t e (fun _ => hc), by rw [e]; simp, by simp [e]⟩)
    (fun s s' hi ⟨e, hc⟩ ⟨st, h0, hm⟩ => e ▸ own_step st h0 hm)

theorem waiting_moves (h : FairRun v σ) (t : Nat) (p : Pc) (hp : WaitsAt p) : LeadsTo σ (fun s => s.pc t = p) (fun s => left (s.pc t) < left p) := by
  have I : ∀ i, Inv ⟨true, true⟩ (σ i) := fun i => inv_reach (h.run.reach (fun _ _ r st => r.step st) i)
  have last : LeadsTo σ (fun s => s.pc t = p ∧ ∀ k, s.cb k = .idle) (fun s => left (s.pc t) < left p) := by
    rcases hp with e | e | e | e
    · exact fun i ⟨a, b⟩ => drain_ends h t p (.inl e) i ⟨a, fun k => by rw [b k]; simp⟩
    · exact wait_ends h t p (.inl e) I
    · exact fun i ⟨a, b⟩ => drain_ends h t p (.inr e) i ⟨a, fun k => by rw [b k]; simp⟩
    · exact wait_ends h t p (.inr e) I
  have none : ∀ k, LeadsTo σ (fun s => s.pc t = p ∧ s.cb k ≠ .idle) (fun s => left (s.pc t) < left p) := fun k =>
    (callback_ends h t k p hp).chain last
  intro i e
  by_cases hc : ∃ k, (σ i).cb k ≠ .idle
  · obtain ⟨k, hk⟩ := hc
    exact none k i ⟨e, hk⟩
  · exact last i ⟨e, fun k => by
      by_cases y : (σ i).cb k = .idle
      · exact y
      · exact absurd ⟨k, y⟩ hc⟩

/-- A call that has been made comes to its end. -/
theorem call_ends (h : FairRun v σ) (t : Nat) : LeadsTo σ (fun s => s.pc t ≠ .out ∧ s.pc t ≠ .sDone) (fun s => s.pc t = .out ∨ s.pc t = .sDone) := by
  refine .rank (fun s => left (s.pc t)) fun n i ⟨⟨h0, h1⟩, hn⟩ => ?_
  have : LeadsTo σ (fun s => s.pc t = (σ i).pc t) (fun s => left (s.pc t) < left ((σ i).pc t)) := by
    by_cases hw : WaitsAt ((σ i).pc t)
    · exact waiting_moves h t _ hw
    · refine free_moves h t _ ⟨?_, ?_, ?_, ?_, h1, h0⟩
      · exact fun e => hw (.inl e)
      · exact fun e => hw (.inr (.inl e))
      · exact fun e => hw (.inr (.inr (.inl e)))
      · exact fun e => hw (.inr (.inr (.inr e)))
  obtain ⟨j, hj, q⟩ := this i rfl
  refine ⟨j, hj, ?_⟩
  by_cases ho : (σ j).pc t = .out
  · exact .inl (.inl ho)
  · by_cases hd : (σ j).pc t = .sDone
    · exact .inl (.inr hd)
    · exact .inr ⟨⟨ho, hd⟩, hn ▸ q⟩

set_option maxHeartbeats 4000000 in
theorem kind_step {s s' : Sys} (st : Step ⟨true, true⟩ s s') (t : Nat) (h : s.pc t ≠ .out ∧ s.pc t ≠ .sDone) :
    (inStop (s.pc t) = true → s'.pc t ≠ .out ∧ inStop (s'.pc t) = true) ∧ (inStop (s.pc t) = false → s'.pc t ≠ .sDone ∧ inStop (s'.pc t) = false) := by
  cases st <;> simp only [upd_apply] at * <;> grind [inStop]

/-- **C71**: `watchdog_reset` returns. -/
theorem reset_returns (h : FairRun v σ) (t : Nat) : LeadsTo σ (fun s => s.pc t = .rClose) (fun s => s.pc t = .out) := by
  intro i e
  by_cases hq : ∃ j, i ≤ j ∧ (σ j).pc t = .out
  · exact hq
  · exfalso
    have all : ∀ k, (σ (i + k)).pc t ≠ .out ∧ (σ (i + k)).pc t ≠ .sDone ∧ inStop ((σ (i + k)).pc t) = false := by
      intro k
      induction k with
      | zero => simp [e, inStop]
      | succ k ih =>
        refine ⟨fun x => hq ⟨_, by omega, x⟩, ?_⟩
        rcases h.run.next (i + k) with st | e'
        · exact (kind_step st t ⟨ih.1, ih.2.1⟩).2 ih.2.2
        · rw [show i + (k + 1) = i + k + 1 from rfl, e']; exact ih.2
    obtain ⟨j, hj, q⟩ := call_ends h t i (by simp [e])
    obtain ⟨k, rfl⟩ := Nat.exists_eq_add_of_le hj
    have a := all k
    rcases q with q | q
    · exact a.1 q
    · exact a.2.1 q

/-- **C71**: `watchdog_stop` returns. -/
theorem stop_returns (h : FairRun v σ) (t : Nat) : LeadsTo σ (fun s => s.pc t = .sClose) (fun s => s.pc t = .sDone) := by
  intro i e
  by_cases hq : ∃ j, i ≤ j ∧ (σ j).pc t = .sDone
  · exact hq
  · exfalso
    have all : ∀ k, (σ (i + k)).pc t ≠ .out ∧ (σ (i + k)).pc t ≠ .sDone ∧ inStop ((σ (i + k)).pc t) = true := by
      intro k
      induction k with
      | zero => simp [e, inStop]
      | succ k ih =>
        rcases h.run.next (i + k) with st | e'
        · have a := (kind_step st t ⟨ih.1, ih.2.1⟩).1 ih.2.2
          exact ⟨a.1, fun x => hq ⟨_, by omega, x⟩, a.2⟩
        · rw [show i + (k + 1) = i + k + 1 from rfl, e']; exact ih
    obtain ⟨j, hj, q⟩ := call_ends h t i (by simp [e])
    obtain ⟨k, rfl⟩ := Nat.exists_eq_add_of_le hj
    have a := all k
    rcases q with q | q
    · exact a.1 q
    · exact a.2.1 q

/-- Nobody is in a call. -/
def Alone (s : Sys) : Prop := ∀ t, s.pc t = .out

set_option maxHeartbeats 4000000 in
/-- **C71**: once the timer has been started, the user's callback is called, unless `watchdog_reset` or `watchdog_stop` is called first. -/
theorem fires (h : FairRun v σ) (n : Nat) :
    LeadsTo σ (fun s => s.armed.isSome = true ∧ Alone s ∧ s.calls = n) (fun s => s.calls = n + 1 ∨ ∃ t, s.pc t ≠ .out) := by
  have a : LeadsTo σ (fun s => s.armed.isSome = true ∧ Alone s ∧ s.calls = n)
      (fun s => (s.calls = n + 1 ∨ ∃ t, s.pc t ≠ .out) ∨ ∃ k, s.cb k = .start ∧ Alone s ∧ s.calls = n) := by
    refine ensures h.inv h.run.next h.timer ?_ ?_ ?_
    · intro s s' hi ⟨ha, hl, hn⟩ st
      have g := hi.ar ha
      by_cases hl' : Alone s'
      · by_cases ha' : s'.armed.isSome = true
        · left
          refine ⟨ha', hl', ?_⟩
          cases st <;> simp only [upd_apply] at * <;> grind
        · right; right
          unfold Alone at *
          cases st with
          | expire k v h1 h2 => exact ⟨k, by simp, hl, hn⟩
          | _ => first | grind | (exfalso; simp only [upd_apply] at *; grind)
      · right; left; right
        unfold Alone at hl'
        exact Classical.not_forall.1 hl'
    · intro s hi ⟨ha, hl, hn⟩
      obtain ⟨w, hw⟩ := Option.isSome_iff_exists.1 ha
      exact ⟨_, .expire s 0 w hw ((hi.ar ha).2 0), 0, (hi.ar ha).2 0, by simp⟩
    · intro s s' hi ⟨ha, hl, hn⟩ ⟨st, k, hk, hk'⟩
      right
      unfold Alone at *
      refine ⟨k, hk', ?_⟩
      cases st <;> simp only [upd_apply] at * <;> grind
  have b : ∀ k, LeadsTo σ (fun s => s.cb k = .start ∧ Alone s ∧ s.calls = n)
      (fun s => (s.calls = n + 1 ∨ ∃ t, s.pc t ≠ .out) ∨ s.cb k = .granted ∧ s.calls = n) := by
    intro k
    refine ensures h.inv h.run.next (h.callback k) ?_ ?_ ?_
    · intro s s' hi ⟨ha, hl, hn⟩ st
      have g := hi.un
      have g' := hi.sm0 hl
      by_cases hl' : Alone s'
      · unfold Alone at hl hl' ⊢
        cases st <;> simp only [upd_apply] at * <;> grind
      · right; left; right
        unfold Alone at hl'
        exact Classical.not_forall.1 hl'
    · intro s hi ⟨ha, hl, hn⟩
      exact ⟨_, .cbGranted s k ha (hi.sm0 hl), by rw [ha]; simp, by simp [ha]⟩
    · intro s s' hi ⟨ha, hl, hn⟩ ⟨st, _, hm⟩
      right
      have g' := hi.sm0 hl
      cases st <;> simp only [upd_apply] at * <;> grind
  have c : ∀ k, LeadsTo σ (fun s => s.cb k = .granted ∧ s.calls = n) (fun s => s.calls = n + 1 ∨ ∃ t, s.pc t ≠ .out) := by
    intro k
    refine ensures h.inv h.run.next (h.callback k) ?_ ?_ ?_
    · intro s s' hi ⟨ha, hn⟩ st
      have g := hi.un
      cases st <;> simp only [upd_apply] at * <;> grind
    · intro s hi ⟨ha, hn⟩
      exact ⟨_, .cbCall s k ha, by rw [ha]; simp, by simp [ha]⟩
    · intro s s' hi ⟨ha, hn⟩ ⟨st, _, hm⟩
      left
      cases st <;> simp only [upd_apply] at * <;> grind
  refine a.chain fun i ⟨k, hk⟩ => ?_
  exact ((b k).chain (c k)) i hk

/-- Nothing has to happen any more. -/
def Quiet (s : Sys) : Prop := s.armed = none ∧ (∀ k, s.cb k = .idle) ∧ ∀ t, s.pc t = .out ∨ s.pc t = .sDone

set_option maxHeartbeats 4000000 in
/-- **C71**: such executions exist: every finite one that comes to rest is a part of one. -/
theorem fair_run_exists {s e : Sys} (h : Reach ⟨true, true⟩ v s) (p : Path (Step ⟨true, true⟩) s e) (q : Quiet e) :
    ∃ σ n, FairRun v σ ∧ σ 0 = s ∧ ∀ j, n ≤ j → σ j = e := by
  obtain ⟨σ, n, r, h0, hn⟩ := exists_run (Step := Step ⟨true, true⟩) (fun _ _ r st => Reach.step r st) h p
  obtain ⟨q1, q2, q3⟩ := q
  refine ⟨σ, n, ⟨r, fun t => fair_of_end hn ?_, fun k => fair_of_end hn ?_, fair_of_end hn ?_⟩, h0, hn⟩
  · rintro ⟨s', st, h1, h2⟩
    have := q3 t
    cases st <;> simp only [upd_apply] at * <;> grind
  · rintro ⟨s', st, h1, h2⟩
    exact h1 (q2 k)
  · rintro ⟨s', st, k, h1, h2⟩
    cases st <;> simp only [upd_apply] at * <;> grind

/-- An execution in which the callback is running when stop is called. -/
example : ∃ σ, FairRun 5 σ ∧ (σ 0).pc 1 = .sClose ∧ (σ 0).cb 0 = .running := by
  have h1 := (Reach.init (cfg := ⟨true, true⟩) (timeout := 5)).step (.expire _ 0 5 rfl rfl)
  have h2 := h1.step (.cbGranted _ 0 rfl rfl)
  have h3 := h2.step (.cbCall _ 0 rfl)
  have h4 := h3.step (.stop _ 1 (fun _ => rfl) rfl)
  have idle : ∀ k, upd (upd (upd (upd (fun _ => Cb.idle) 0 .start) 0 .granted) 0 .running) 0 .idle k = .idle := by
    intro k; simp only [upd_apply]; grind
  obtain ⟨σ, n, f, h0, -⟩ := fair_run_exists h4
    (.cons (.sCloseOk _ 1 rfl rfl) (.cons (.cbEnd _ 0 rfl) (.cons (.sDrain _ 1 rfl (fun k => by
      have := idle k; simp only [init] at *; rw [this]; simp)) (.cons (.sCloseEnd _ 1 rfl) (.cons (.sTimer _ 1 rfl)
      (.cons (.sWait _ 1 rfl (fun _ => idle)) (.cons (.sDestroy _ 1 rfl) (.cons (.sFree _ 1 rfl) (.nil _))))))))) ⟨rfl, idle, fun t => by
        simp only [upd_apply, init]; grind⟩
  exact ⟨σ, f, by rw [h0]; rfl, by rw [h0]; rfl⟩

/-- An execution in which the watchdog is left alone: it fires. -/
example : ∃ σ, FairRun 5 σ ∧ (σ 0).armed.isSome = true ∧ Alone (σ 0) ∧ (σ 0).calls = 0 := by
  have idle : ∀ k, upd (upd (upd (upd (fun _ => Cb.idle) 0 .start) 0 .granted) 0 .running) 0 .idle k = .idle := by
    intro k; simp only [upd_apply]; grind
  obtain ⟨σ, n, f, h0, -⟩ := fair_run_exists (Reach.init (cfg := ⟨true, true⟩) (timeout := 5))
    (.cons (.expire _ 0 5 rfl rfl) (.cons (.cbGranted _ 0 rfl rfl) (.cons (.cbCall _ 0 rfl) (.cons (.cbEnd _ 0 rfl) (.nil _))))) ⟨rfl, idle, fun t => .inl rfl⟩
  exact ⟨σ, f, by rw [h0]; rfl, by rw [h0]; exact fun _ => rfl, by rw [h0]; rfl⟩

end CUtil.Watchdog
