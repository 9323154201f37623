import Verif.Live
import Verif.Channel.Props
set_option linter.unusedSimpArgs false
set_option linter.unusedVariables false
/-
C72: in every fair execution every call on a channel returns, channel_close among them, and the callback of every request that was matched, cancelled or abandoned is called;
so all callbacks are called once a close was granted.  For careful callers and a threadpool that accepts all work, as in C44.
-/
namespace CUtil.Channel
open CUtil.Conc CUtil.Live

/-- Careful callers, and the threadpool accepts every work item. -/
abbrev cc : Cfg := ⟨true, true⟩

/-- A thread in a call, or running a work item, makes a step (the return of a user's callback is part of one). -/
def Moves (t : Nat) (s s' : Sys) : Prop := Step cc s s' ∧ s.pc t ≠ .out ∧ s'.pc t ≠ s.pc t

/-- The threadpool starts a work item. -/
def Starts (o : Nat) (s s' : Sys) : Prop := Step cc s s' ∧ s'.pend o < s.pend o

/-- A fair execution: every thread that can go on all the time does so in the end, the threadpool starts every work item, and nobody cancels while the list is
being taken by channel_close. -/
structure FairRun (σ : Nat → Sys) : Prop where
  run : Run (Reach cc) (Step cc) σ
  thread : ∀ t, Fair (Moves t) σ
  pool : ∀ o, Fair (Starts o) σ
  calm : ∀ i t u, (σ i).pc t = .cMove → aim ((σ i).pc u) = none

variable {σ : Nat → Sys}

theorem FairRun.reach (h : FairRun σ) (i : Nat) : Reach cc (σ i) := h.run.reach (fun _ _ r st => r.step st) i

/-- What stays true once it is. -/
theorem FairRun.later (h : FairRun σ) {P : Sys → Prop} (st : ∀ s s', Reach cc s → P s → Step cc s s' → P s') {i j : Nat} (hj : i ≤ j) (hp : P (σ i)) : P (σ j) := by
  obtain ⟨k, rfl⟩ := Nat.exists_eq_add_of_le hj
  induction k with
  | zero => exact hp
  | succ k ih =>
    have := ih (by omega)
    rcases h.run.next (i + k) with x | x
    · exact st _ _ (h.reach _) this x
    · rw [show i + (k + 1) = i + k + 1 from rfl, x]; exact this

/-- Steps a thread has left at most, but for the loop of channel_close. -/
def left : Pc → Nat
  | .out => 0
  | .rBegin _ _ => 4
  | .rLock _ _ => 3
  | .rEnd => 2
  | .rRet _ => 1
  | .xChan _ => 8
  | .xBegin _ => 7
  | .xLock _ => 6
  | .xRes _ _ => 5
  | .xSet _ _ => 4
  | .xSched _ _ => 3
  | .xEnd => 2
  | .oBegin => 3
  | .oSet => 2
  | .oEnd => 1
  | .cBegin => 20
  | .cMove => 19
  | .cHead => 18
  | .cTake _ => 17
  | .cRes _ => 26
  | .e1 _ _ => 25
  | .e2 _ _ _ => 24
  | .e3 _ _ _ => 23
  | .e4 _ _ _ => 22
  | .e5 _ _ _ => 21
  | .e6 _ _ => 20
  | .cWait => 2
  | .cEnd => 1

set_option maxHeartbeats 4000000 in
theorem own {s s' : Sys} {t : Nat} (st : Step cc s s') (h0 : s.pc t ≠ .out) (h : s'.pc t ≠ s.pc t) :
    left (s'.pc t) < left (s.pc t) ∨ ∃ o, s.pc t = .cTake o ∧ s'.pc t = .cRes o ∧ s'.loc = without s.loc o := by
  have hb := back_facts
  cases st <;> simp only [upd_apply] at * <;> grind [left]

/-- A thread in a call can go on, unless it waits. -/
theorem can_move {s : Sys} {t : Nat} (h0 : s.pc t ≠ .out) (hm : s.pc t = .cMove → ∀ u, aim (s.pc u) = none) (hw : s.pc t = .cWait → s.execs = 0) : Enabled (Moves t) s := by
  have go : ∀ s', Step cc s s' → s'.pc t ≠ s.pc t → Enabled (Moves t) s := fun s' st d => ⟨s', st, h0, d⟩
  cases e : s.pc t with
  | out => exact absurd e h0
  | rBegin k d =>
    by_cases ho : s.sm = .opened
    · exact go _ (.rGranted s t k d e ho) (by simp [e])
    · exact go _ (.rRefused s t k d e ho) (by simp [e])
  | rLock k d =>
    cases ho : s.isOpen with
    | false => exact go _ (.rNotOpen s t k d e ho) (by simp [e])
    | true => exact go _ (.rNoMem s t k d e ho) (by simp [e])
  | rEnd => exact go _ (.rEnd s t e) (by simp [e])
  | rRet r => exact go _ (.rRet s t r e) (by simp [e])
  | xChan o =>
    cases hc : s.chan o with
    | false => exact go _ (.xNull s t o e hc) (by simp [e])
    | true => exact go _ (.xChan s t o e hc) (by simp [e])
  | xBegin o =>
    by_cases ho : s.sm = .opened
    · exact go _ (.xGranted s t o e ho) (by simp [e])
    · exact go _ (.xRefused s t o e ho) (by simp [e])
  | xLock o =>
    by_cases h1 : o ∈ s.q
    · exact go _ (.xFoundQ s t o e h1) (by simp [e])
    · by_cases h2 : o ∈ s.loc
      · exact go _ (.xFoundLoc s t o e h1 h2) (by simp [e])
      · exact go _ (.xNotFound s t o e h1 h2) (by simp [e])
  | xRes o f =>
    by_cases hr : s.res o = .ok
    · exact go _ (.xResOk s t o f e hr) (by simp [e])
    · exact go _ (.xResNo s t o f e hr) (by simp [e])
  | xSet o f => exact go _ (.xSet s t o f e) (by simp [e])
  | xSched o f =>
    cases f with
    | false => exact go _ (.xNone s t o e) (by simp [e])
    | true => exact go _ (.xSchedOk s t o e) (by simp [e])
  | xEnd => exact go _ (.xEnd s t e) (by simp [e])
  | oBegin =>
    by_cases ho : s.sm = .closed
    · exact go _ (.oGranted s t e ho) (by simp [e])
    · exact go _ (.oRefused s t e ho) (by simp [e])
  | oSet => exact go _ (.oSet s t e) (by simp [e])
  | oEnd => exact go _ (.oEnd s t e) (by simp [e])
  | cBegin =>
    by_cases ho : s.sm = .opened
    · exact go _ (.cGranted s t e ho) (by simp [e])
    · exact go _ (.cRefused s t e ho) (by simp [e])
  | cMove => exact go _ (.cMove s t e (fun _ => hm e)) (by simp [e])
  | cHead =>
    cases hl : s.loc with
    | nil => exact go _ (.cNone s t e hl) (by simp [e])
    | cons o rest => exact go _ (.cHead s t o rest e hl) (by simp [e])
  | cTake o => exact go _ (.cTake s t o e) (by simp [e])
  | cRes o => exact go _ (.cRes s t o e) (by simp [e])
  | cWait => exact go _ (.cWait s t e (hw e)) (by simp [e])
  | cEnd => exact go _ (.cEnd s t e) (by simp [e])
  | e1 o k => exact go _ (.e1 s t o k e) (by simp [e])
  | e2 o r k => exact go _ (.e2 s t o r k e) (by simp [e])
  | e3 o r k => exact go _ (.e3 s t o r k e) (by simp [e])
  | e4 o r k =>
    cases ha : s.avail o with
    | none => exact go _ (.e4No s t o r k e ha) (by simp [e])
    | some a => exact go _ (.e4 s t o r k a e ha) (by simp [e])
  | e5 o r k =>
    cases ha : s.cons o with
    | none => exact go _ (.e5No s t o r k e ha) (by simp [e])
    | some a => exact go _ (.e5 s t o r k a e ha) (by simp [e])
  | e6 o k => exact go _ (.e6 s t o k e) (by cases k <;> simp [e, back])

/-- Only finitely many threads have ever called. -/
theorem finitely_many {s : Sys} (h : Reach cc s) : ∃ N, ∀ t, N ≤ t → s.pc t = .out := by
  induction h with
  | init => exact ⟨0, fun _ _ => rfl⟩
  | @step s s' h st ih =>
    obtain ⟨N, hN⟩ := ih
    have : ∀ (t : Nat) (v : Pc), ∀ u, max N (t + 1) ≤ u → upd s.pc t v u = .out := by
      intro t v u hu
      rw [upd_ne _ _ (by omega)]; exact hN u (by omega)
    cases st
    case release => exact ⟨N, hN⟩
    all_goals exact ⟨_, this _ _⟩

/-! ### The work of one thread -/

/-- One round of `ensures`: a thread that is at a place of `P`, whose own steps lead to `Q` or stay in `P` and whose `P` nobody else disturbs. -/
theorem thread_rank (h : FairRun σ) (t : Nat) {P Q : Sys → Prop} (μ : Sys → Nat)
    (busy : ∀ s, P s → s.pc t ≠ .out ∧ s.pc t ≠ .cWait)
    (others : ∀ s s', Reach cc s → P s → Step cc s s' → s'.pc t = s.pc t → (P s' ∧ μ s' = μ s) ∨ Q s')
    (own : ∀ s s', Reach cc s → P s → Step cc s s' → s'.pc t ≠ s.pc t → (P s' ∧ μ s' < μ s) ∨ Q s') : LeadsTo σ P Q := by
  refine .rank μ fun n => ensures (I := fun s => Reach cc s ∧ (s.pc t = .cMove → ∀ u, aim (s.pc u) = none))
    (fun i => ⟨h.reach i, fun e u => h.calm i t u e⟩) h.run.next (h.thread t) ?_ ?_ ?_
  · intro s s' hi ⟨hp, hn⟩ st
    by_cases e : s'.pc t = s.pc t
    · rcases others s s' hi.1 hp st e with ⟨a, b⟩ | q
      · exact .inl ⟨a, b.trans hn⟩
      · exact .inr (.inl q)
    · rcases own s s' hi.1 hp st e with ⟨a, b⟩ | q
      · exact .inr (.inr ⟨a, hn ▸ b⟩)
      · exact .inr (.inl q)
  · intro s hi ⟨hp, hn⟩
    exact can_move (busy s hp).1 hi.2 (fun e => absurd e (busy s hp).2)
  · intro s s' hi ⟨hp, hn⟩ ⟨st, _, e⟩
    rcases own s s' hi.1 hp st e with ⟨a, b⟩ | q
    · exact .inr ⟨a, hn ▸ b⟩
    · exact .inl q

/-- An execution begun by a call is ended. -/
theorem exec_ends (h : FairRun σ) (t : Nat) : LeadsTo σ (fun s => inExec (s.pc t) = true) (fun s => inExec (s.pc t) = false) := by
  refine thread_rank h t (fun s => left (s.pc t)) ?_ ?_ ?_
  · intro s hp; constructor <;> intro e <;> rw [e] at hp <;> simp [inExec] at hp
  · intro s s' _ hp st e
    exact .inl ⟨by rw [e]; exact hp, by rw [e]⟩
  · intro s s' _ hp st e
    cases hx : inExec (s'.pc t) with
    | false => exact .inr rfl
    | true =>
      left; refine ⟨rfl, ?_⟩
      rcases own st (fun y => by rw [y] at hp; simp [inExec] at hp) e with l | ⟨o, y, _⟩
      · exact l
      · rw [y] at hp; simp [inExec] at hp

/-- A cancel that found its operation gives it to the threadpool. -/
theorem cancel_schedules (h : FairRun σ) (t o : Nat) :
    LeadsTo σ (fun s => s.pc t = .xRes o true ∨ s.pc t = .xSet o true ∨ s.pc t = .xSched o true) (fun s => 0 < s.pend o) := by
  refine thread_rank h t (fun s => left (s.pc t)) ?_ ?_ ?_
  · intro s hp; constructor <;> intro e <;> simp [e] at hp
  · intro s s' _ hp st e
    exact .inl ⟨by rw [e]; exact hp, by rw [e]⟩
  · intro s s' _ hp st e
    cases st <;> simp only [upd_apply] at * <;> grind [left]

set_option maxHeartbeats 4000000 in
/-- The threadpool starts the work item. -/
theorem work_starts (h : FairRun σ) (o : Nat) : LeadsTo σ (fun s => 0 < s.pend o) (fun s => ∃ t, s.pc t = .e1 o .worker) := by
  refine ensures h.reach h.run.next (h.pool o) ?_ ?_ ?_
  · intro s s' hr hp st
    have hw : s'.pend o < s.pend o → ∃ t, s'.pc t = .e1 o .worker := by
      cases st with
      | work t o' h1 h2 =>
        intro hl
        by_cases e : o' = o
        · subst e; exact ⟨t, by simp⟩
        · simp only [upd_ne _ _ (Ne.symm e)] at hl; omega
      | _ => simp only [upd_apply] at *; grind
    by_cases hl : s'.pend o < s.pend o
    · exact .inr (hw hl)
    · left; omega
  · intro s hr hp
    obtain ⟨N, hN⟩ := finitely_many hr
    exact ⟨_, .work s N o (hN N (Nat.le_refl N)) hp, by simp only [upd_self]; omega⟩
  · intro s s' hr hp ⟨st, hl⟩
    cases st with
    | work t o' h1 h2 =>
      by_cases e : o' = o
      · subst e; exact ⟨t, by simp⟩
      · simp only [upd_ne _ _ (Ne.symm e)] at hl; omega
    | _ => simp only [upd_apply] at *; grind

/-- A thread that has begun to run an operation ends its executions. -/
theorem run_ends (h : FairRun σ) (t o : Nat) :
    LeadsTo σ (fun s => s.pc t = .cRes o ∨ (∃ k, s.pc t = .e1 o k) ∨ ∃ x k, s.pc t = .e2 o x k) (fun s => ∃ x k, s.pc t = .e3 o x k) := by
  refine thread_rank h t (fun s => left (s.pc t)) ?_ ?_ ?_
  · intro s hp; constructor <;> intro e <;> simp [e] at hp
  · intro s s' _ hp st e
    exact .inl ⟨by rw [e]; exact hp, by rw [e]⟩
  · intro s s' _ hp st e
    cases st <;> simp only [upd_apply] at * <;> grind [left]

/-- Whoever has an operation in their hands: its executions are ended in the end, by somebody. -/
theorem in_hands_ends (h : FairRun σ) (t o : Nat) : LeadsTo σ (fun s => pre (s.pc t) = some o) (fun s => ∃ u x k, s.pc u = .e3 o x k) := by
  have run : ∀ u, LeadsTo σ (fun s => s.pc u = .cRes o ∨ (∃ k, s.pc u = .e1 o k) ∨ ∃ x k, s.pc u = .e2 o x k) (fun s => ∃ u x k, s.pc u = .e3 o x k) :=
    fun u => (run_ends h u o).trans (.of_imp fun s ⟨x, k, e⟩ => ⟨u, x, k, e⟩)
  have sched : LeadsTo σ (fun s => 0 < s.pend o) (fun s => ∃ u x k, s.pc u = .e3 o x k) :=
    (work_starts h o).trans fun i ⟨u, e⟩ => run u i (.inr (.inl ⟨_, e⟩))
  intro i hp
  cases e : (σ i).pc t with
  | cRes o' => rw [e] at hp; simp only [pre, Option.some.injEq] at hp; subst hp; exact run t i (.inl e)
  | e1 o' k => rw [e] at hp; simp only [pre, Option.some.injEq] at hp; subst hp; exact run t i (.inr (.inl ⟨_, e⟩))
  | e2 o' x k => rw [e] at hp; simp only [pre, Option.some.injEq] at hp; subst hp; exact run t i (.inr (.inr ⟨_, _, e⟩))
  | xRes o' f =>
    cases f with
    | false => rw [e] at hp; simp [pre, mine] at hp
    | true => rw [e] at hp; simp only [pre, mine, Option.some.injEq] at hp; subst hp; exact ((cancel_schedules h t o').trans sched) i (.inl e)
  | xSet o' f =>
    cases f with
    | false => rw [e] at hp; simp [pre, mine] at hp
    | true => rw [e] at hp; simp only [pre, mine, Option.some.injEq] at hp; subst hp; exact ((cancel_schedules h t o').trans sched) i (.inr (.inl e))
  | xSched o' f =>
    cases f with
    | false => rw [e] at hp; simp [pre, mine] at hp
    | true => rw [e] at hp; simp only [pre, mine, Option.some.injEq] at hp; subst hp; exact ((cancel_schedules h t o').trans sched) i (.inr (.inr e))
  | _ => rw [e] at hp; simp [pre] at hp

/-! ### channel_close -/

/-- Who closes is there as long as the state says closing. -/
theorem closer_there {s : Sys} (h : Reach cc s) : s.sm = .closing → ∃ t, closer (s.pc t) = true := by
  induction h with
  | init => simp [init]
  | @step s s' h st ih =>
    intro hc
    have one := (sm h).one
    by_cases hc0 : s.sm = .closing
    · obtain ⟨t, ht⟩ := ih hc0
      refine ⟨t, ?_⟩
      have hb := back_facts
      cases st <;> simp only [upd_apply] at * <;> grind [closer]
    · clear ih
      cases st with
      | cGranted t h1 h2 => exact ⟨t, by simp [closer]⟩
      | _ => exact absurd hc (by first | exact hc0 | simp)

/-- What the loop of channel_close has still to do. -/
def rest (t : Nat) (s : Sys) : Nat := s.loc.length * 100 + left (s.pc t)

theorem without_length {l : List Nat} {o : Nat} (h : o ∈ l) : (without l o).length < l.length := by
  unfold without
  induction l with
  | nil => simp at h
  | cons x l ih =>
    by_cases e : x = o
    · subst e
      have := List.length_filter_le (fun y => decide (y ≠ x)) l
      rw [List.filter_cons_of_neg (by simp), List.length_cons]
      omega
    · have := ih (by rcases List.mem_cons.1 h with y | y; exact absurd y.symm e; exact y)
      simp only [List.filter_cons, ne_eq, e, not_false_eq_true, decide_true, if_true, List.length_cons] at this ⊢
      omega

set_option maxHeartbeats 4000000 in
/-- Nobody but who closes touches the list of the close. -/
theorem loc_kept {s s' : Sys} {t : Nat} (hr : Reach cc s) (hc : closer (s.pc t) = true) (st : Step cc s s') (e : s'.pc t = s.pc t) : s'.loc = s.loc := by
  have g := (sm hr).one
  have g2 := (pl hr).aim rfl
  have c1 : closer .cMove = true := rfl
  have c2 : ∀ o, closer (.cTake o) = true := fun _ => rfl
  have c3 : ∀ o, Channel.aim (.xLock o) = some o := fun _ => rfl
  cases st <;> first
    | rfl
    | (simp only [upd_apply] at *; grind)

/-- A step of who closes brings the loop nearer to its end. -/
theorem rest_less {s s' : Sys} {t : Nat} (hr : Reach cc s) (hc : closer (s.pc t) = true) (hm : s.pc t ≠ .cMove) (st : Step cc s s') (e : s'.pc t ≠ s.pc t) :
    rest t s' < rest t s := by
  have h0 : s.pc t ≠ .out := by intro y; rw [y] at hc; simp [closer] at hc
  unfold rest
  rcases own st h0 e with hl | ⟨o, h1, h2, h3⟩
  · have : s'.loc.length ≤ s.loc.length := by
      have w : ∀ o, (without s.loc o).length ≤ s.loc.length := fun o => List.length_filter_le _ _
      have g := (pl hr).aim rfl
      have c3 : ∀ o, Channel.aim (.xLock o) = some o := fun _ => rfl
      clear hl
      cases st <;> first
        | exact Nat.le_refl _
        | exact w _
        | (simp only [upd_apply] at *; grind)
    omega
  · have ht := (pl hr).t o t (by simp [good]) h1
    have hm := ((pl hr).l o (by simp [good])).1 ht
    have := without_length hm
    rw [h1, h2, h3]
    simp only [left]
    omega

/-- An operation in the list of the close is taken up. -/
theorem abandoned_taken (h : FairRun σ) (t o : Nat) : LeadsTo σ (fun s => closer (s.pc t) = true ∧ o ∈ s.loc) (fun s => pre (s.pc t) = some o) := by
  have ne : ∀ s, Reach cc s → closer (s.pc t) = true ∧ o ∈ s.loc → s.pc t ≠ .cMove ∧ s.pc t ≠ .cWait ∧ s.pc t ≠ .cEnd := by
    intro s hr ⟨hc, ho⟩
    refine ⟨fun e => ?_, fun e => ?_, fun e => ?_⟩
    · rw [((sm hr).mv t e).1] at ho; simp at ho
    · rw [((sm hr).wt t (.inl e)).1] at ho; simp at ho
    · rw [((sm hr).wt t (.inr e)).1] at ho; simp at ho
  have key : LeadsTo σ (fun s => Reach cc s ∧ closer (s.pc t) = true ∧ o ∈ s.loc) (fun s => pre (s.pc t) = some o) := by
    refine thread_rank h t (rest t) ?_ ?_ ?_
    · intro s ⟨hr, hp⟩
      refine ⟨fun e => ?_, (ne s hr hp).2.1⟩
      rw [e] at hp; simp [closer] at hp
    · intro s s' hr ⟨_, hc, ho⟩ st e
      have hl := loc_kept hr hc st e
      exact .inl ⟨⟨hr.step st, by rw [e]; exact hc, by rw [hl]; exact ho⟩, by simp only [rest, e, hl]⟩
    · intro s s' hr ⟨_, hc, ho⟩ st e
      have hn := ne s hr ⟨hc, ho⟩
      by_cases hq : pre (s'.pc t) = some o
      · exact .inr hq
      · left
        refine ⟨⟨hr.step st, ?_⟩, rest_less hr hc hn.1 st e⟩
        have hb := back_facts
        have g := (pl hr).aim rfl
        have c3 : ∀ o, Channel.aim (.xLock o) = some o := fun _ => rfl
        cases st <;> simp only [upd_apply] at * <;> grind [closer, mem_without, pre]
  exact fun i hp => key i ⟨h.reach i, hp⟩

/-! ### The callbacks -/

/-- The request is one of the operation. -/
def has (s : Sys) (o r : Nat) : Prop := s.avail o = some r ∨ s.cons o = some r

set_option maxHeartbeats 4000000 in
theorem has_step {s s' : Sys} (o r : Nat) (hr : Reach cc s) (hp : has s o r) (st : Step cc s s') : has s' o r := by
  have g1 := (qs hr).av
  have g2 := (qs hr).co
  unfold has at *
  cases st <;> first
    | exact hp
    | (simp only [upd_apply] at *; grind)

set_option maxHeartbeats 4000000 in
theorem about_ends (h : FairRun σ) (t r : Nat) : LeadsTo σ (fun s => aboutToCall s t r) (fun s => called s r) := by
  refine thread_rank h t (fun s => left (s.pc t)) ?_ ?_ ?_
  · intro s hp
    rcases hp with ⟨o, x, k, e | e, _⟩ | ⟨o, x, k, e, _⟩ <;> rw [e] <;> simp
  · intro s s' hr hp st e
    refine .inl ⟨?_, by rw [e]⟩
    have g2 := (qs hr).co
    rcases hp with ⟨o, x, k, y, z⟩ | ⟨o, x, k, y, z⟩
    · exact .inl ⟨o, x, k, by rw [e]; exact y, has_step o r hr z st⟩
    · refine .inr ⟨o, x, k, by rw [e]; exact y, ?_⟩
      clear y e
      cases st <;> first
        | exact z
        | (simp only [upd_apply] at *; grind)
  · intro s s' hr hp st e
    have hl : left (s'.pc t) < left (s.pc t) := by
      rcases own st (by rcases hp with ⟨o, x, k, y | y, _⟩ | ⟨o, x, k, y, _⟩ <;> rw [y] <;> simp) e with l | ⟨o, y, _⟩
      · exact l
      · rcases hp with ⟨o, x, k, z | z, _⟩ | ⟨o, x, k, z, _⟩ <;> rw [z] at y <;> simp at y
    rcases hp with ⟨o, x, k, y | y, z⟩ | ⟨o, x, k, y, z⟩
    · left; refine ⟨.inl ⟨o, x, k, .inr ?_, has_step o r hr z st⟩, hl⟩
      clear z hl
      cases st <;> simp only [upd_apply] at * <;> grind
    · have key : s'.pc t = .e5 o x k ∧ s'.cons o = s.cons o ∧ (s.avail o = some r → called s' r) := by
        clear hl z
        unfold called
        cases st <;> simp only [upd_apply, List.mem_cons] at * <;> grind
      rcases z with z | z
      · exact .inr (key.2.2 z)
      · exact .inl ⟨.inr ⟨o, x, k, key.1, key.2.1.trans z⟩, hl⟩
    · right
      clear hl
      unfold called
      cases st <;> simp only [upd_apply, List.mem_cons] at * <;> grind

/-- C72: the callback of a request that was matched, cancelled or abandoned is called. -/
theorem callback_called (h : FairRun σ) (r : Nat) :
    LeadsTo σ (fun s => r < s.nreq ∧ ∀ o ∈ s.q, s.avail o ≠ some r ∧ s.cons o ≠ some r) (fun s => called s r) := by
  have hands : ∀ o i, has (σ i) o r → (∃ j, i ≤ j ∧ ∃ u x k, (σ j).pc u = .e3 o x k) → ∃ j, i ≤ j ∧ called (σ j) r := by
    intro o i hh ⟨j, hj, u, x, k, e⟩
    have hh' := h.later (P := fun s => has s o r) (fun s s' hr hp st => has_step o r hr hp st) hj hh
    obtain ⟨m, hm, q⟩ := about_ends h u r j (.inl ⟨o, x, k, .inl e, hh'⟩)
    exact ⟨m, by omega, q⟩
  intro i ⟨hr, hq⟩
  rcases accounted_partial (cfg := cc) rfl rfl (h.reach i) r hr with hc | ⟨t, ht⟩ | ⟨o, ho, hp⟩
  · exact ⟨i, Nat.le_refl i, hc⟩
  · exact about_ends h t r i ht
  · refine hands o i ho ?_
    rcases hp with hp | hp | hp | ⟨t, hp⟩
    · exact absurd ho (by have := hq o hp; rintro (y | y); exact this.1 y; exact this.2 y)
    · have hc : (σ i).sm = .closing := by
        by_cases hc : (σ i).sm = .closing
        · exact hc
        · rw [((sm (h.reach i)).loc hc).1] at hp; simp at hp
      obtain ⟨t, ht⟩ := closer_there (h.reach i) hc
      exact ((abandoned_taken h t o).trans (in_hands_ends h t o)) i ⟨ht, hp⟩
    · obtain ⟨j, hj, u, e⟩ := work_starts h o i hp
      obtain ⟨m, hm, q⟩ := in_hands_ends h u o j (by show pre ((σ j).pc u) = some o; rw [e]; rfl)
      exact ⟨m, by omega, q⟩
    · exact in_hands_ends h t o i hp

/-! ### Calls return -/

/-- The loop of channel_close ends. -/
theorem loop_ends (h : FairRun σ) (t : Nat) :
    LeadsTo σ (fun s => closer (s.pc t) = true ∧ s.pc t ≠ .cMove ∧ s.pc t ≠ .cWait ∧ s.pc t ≠ .cEnd) (fun s => s.pc t = .cWait) := by
  refine thread_rank h t (rest t) ?_ ?_ ?_
  · intro s hp
    refine ⟨fun e => ?_, hp.2.2.1⟩
    rw [e] at hp; simp [closer] at hp
  · intro s s' hr hp st e
    have hl := loc_kept hr hp.1 st e
    exact .inl ⟨by rw [e]; exact hp, by simp only [rest, e, hl]⟩
  · intro s s' hr hp st e
    by_cases hq : s'.pc t = .cWait
    · exact .inr hq
    · left
      refine ⟨?_, rest_less hr hp.1 hp.2.1 st e⟩
      have hb := back_facts
      cases st <;> simp only [upd_apply] at * <;> grind [closer]

/-- While channel_close waits no execution begins. -/
theorem toks_shrink {s s' : Sys} {t : Nat} (hr : Reach cc s) (hw : s.pc t = .cWait) (st : Step cc s s') : s'.toks.Sublist s.toks := by
  have hc : s.sm = .closing := (sm hr).cl t (by rw [hw]; rfl)
  have ho : s.isOpen = false := ((sm hr).wt t (.inl hw)).2.2.2
  have d : ∀ l k, (drop l k).Sublist l := fun l k => List.filter_sublist
  have dr : ∀ l k, (dropReq l k).Sublist l := fun l k => by cases k with
    | none => exact List.Sublist.refl _
    | some k => exact d _ _
  cases st <;> first
    | exact List.Sublist.refl _
    | exact d _ _
    | exact (dr _ _).trans (dr _ _)
    | (exfalso; simp_all)

/-- … and those that have begun end. -/
theorem wait_shrinks (h : FairRun σ) (t n : Nat) :
    LeadsTo σ (fun s => (s.pc t = .cWait ∧ s.toks ≠ []) ∧ s.toks.length = n) (fun s => s.pc t = .cWait ∧ s.toks.length < n) := by
  intro i ⟨⟨hw, hne⟩, hn⟩
  by_cases hq : ∃ j, i ≤ j ∧ (σ j).pc t = .cWait ∧ (σ j).toks.length < n
  · exact hq
  · exfalso
    have all : ∀ j, i ≤ j → (σ j).pc t = .cWait ∧ (σ j).toks = (σ i).toks := by
      intro j hj
      obtain ⟨k, rfl⟩ := Nat.exists_eq_add_of_le hj
      clear hj
      induction k with
      | zero => exact ⟨hw, rfl⟩
      | succ k ih =>
        obtain ⟨a, b⟩ := ih
        rcases h.run.next (i + k) with st | e
        · have sub := toks_shrink (h.reach _) a st
          have pc' : (σ (i + k + 1)).pc t = .cWait := by
            have hx : (σ (i + k)).execs ≠ 0 := by
              rw [(tk rfl (h.reach (i + k))).len, b]
              exact fun y => hne (List.length_eq_zero_iff.1 y)
            generalize σ (i + k + 1) = s' at *
            generalize σ (i + k) = s at *
            clear sub
            cases st <;> simp only [upd_apply] at * <;> grind
          refine ⟨pc', ?_⟩
          have hl : ¬ (σ (i + k + 1)).toks.length < n := fun y => hq ⟨_, by omega, pc', y⟩
          have := sub.length_le
          rw [b, hn] at this
          rw [← b]
          exact sub.eq_of_length (by rw [b, hn]; omega)
        · rw [show i + (k + 1) = i + k + 1 from rfl, e]; exact ⟨a, b⟩
    obtain ⟨k, hk⟩ := List.exists_mem_of_ne_nil _ hne
    cases k with
    | thr u =>
      obtain ⟨j, hj, e⟩ := exec_ends h u i (((tk rfl (h.reach i)).thr u).1 hk)
      have := ((tk rfl (h.reach j)).thr u).1 (by rw [(all j hj).2]; exact hk)
      rw [e] at this; simp at this
    | req r =>
      obtain ⟨o, ho⟩ := owner (h.reach i) r ((tk rfl (h.reach i)).lt r hk)
      have hb : begun ((σ i).place o) = true := by
        rcases ho with ho | ho
        · exact ((tk rfl (h.reach i)).rA o r ho).2 hk
        · exact ((tk rfl (h.reach i)).rC o r ho).2 hk
      have gd : good cc (σ i) o = true := by simp [good]
      have wt := (sm (h.reach i)).wt t (.inl hw)
      have ends : ∃ j, i ≤ j ∧ ∃ u x k, (σ j).pc u = .e3 o x k := by
        cases hp : (σ i).place o with
        | queue => have := ((pl (h.reach i)).q o).1 hp; rw [wt.2.2.1] at this; simp at this
        | loc => have := ((pl (h.reach i)).l o gd).1 hp; rw [wt.1] at this; simp at this
        | sched =>
          obtain ⟨j, hj, u, e⟩ := work_starts h o i (((pl (h.reach i)).p o gd).1 hp)
          obtain ⟨m, hm, q⟩ := in_hands_ends h u o j (by show pre ((σ j).pc u) = some o; rw [e]; rfl)
          exact ⟨m, by omega, q⟩
        | run u => exact in_hands_ends h u o i (((pl (h.reach i)).r o u gd).1 hp)
        | lost => exact absurd hp (no_lost rfl (h.reach i) o)
        | fresh => rw [hp] at hb; simp [begun] at hb
        | fin u => rw [hp] at hb; simp [begun] at hb
        | done => rw [hp] at hb; simp [begun] at hb
      obtain ⟨j, hj, u, x, k, e⟩ := ends
      have hf := ((pl (h.reach j)).f o u (by simp [good])).2 (by rw [e]; rfl)
      have hh := h.later (P := fun s => has s o r) (fun s s' hr hp st => has_step o r hr hp st) hj ho
      have hk' : Tok.req r ∈ (σ j).toks := by rw [(all j hj).2]; exact hk
      have : begun ((σ j).place o) = true := by
        rcases hh with hh | hh
        · exact ((tk rfl (h.reach j)).rA o r hh).2 hk'
        · exact ((tk rfl (h.reach j)).rC o r hh).2 hk'
      rw [hf] at this; simp [begun] at this

theorem wait_ends (h : FairRun σ) (t : Nat) : LeadsTo σ (fun s => s.pc t = .cWait) (fun s => s.pc t = .cEnd) := by
  have a : LeadsTo σ (fun s => s.pc t = .cWait ∧ s.toks ≠ []) (fun s => s.pc t = .cWait ∧ s.toks = []) :=
    .rank (fun s => s.toks.length) fun n i hp => by
      obtain ⟨j, hj, e, hl⟩ := wait_shrinks h t n i hp
      refine ⟨j, hj, ?_⟩
      by_cases hn : (σ j).toks = []
      · exact .inl ⟨e, hn⟩
      · exact .inr ⟨⟨e, hn⟩, hl⟩
  have b : LeadsTo σ (fun s => s.pc t = .cWait ∧ s.toks = []) (fun s => s.pc t = .cEnd) := by
    refine ensures h.reach h.run.next (h.thread t) ?_ ?_ ?_
    · intro s s' hr ⟨hw, hn⟩ st
      by_cases e : s'.pc t = s.pc t
      · refine .inl ⟨by rw [e]; exact hw, ?_⟩
        have := (toks_shrink hr hw st)
        rw [hn] at this
        exact List.sublist_nil.1 this
      · right
        clear hn
        cases st <;> simp only [upd_apply] at * <;> grind
    · intro s hr ⟨hw, hn⟩
      have := (tk rfl hr).len
      rw [hn] at this
      exact can_move (by rw [hw]; simp) (fun e => by rw [hw] at e; simp at e) (fun _ => this)
    · intro s s' hr ⟨hw, hn⟩ ⟨st, _, e⟩
      clear hn
      cases st <;> simp only [upd_apply] at * <;> grind
  intro i hp
  by_cases hn : (σ i).toks = []
  · exact b i ⟨hp, hn⟩
  · exact (a.trans b) i ⟨hp, hn⟩

/-- C72: channel_close, once granted, returns, and then the channel is closed. -/
theorem close_returns (h : FairRun σ) (t : Nat) : LeadsTo σ (fun s => closer (s.pc t) = true) (fun s => s.pc t = .out ∧ s.sm = .closed) := by
  have c1 : LeadsTo σ (fun s => s.pc t = .cEnd) (fun s => s.pc t = .out ∧ s.sm = .closed) := by
    refine thread_rank h t (fun _ => 0) (fun s e => by rw [e]; simp) (fun s s' hr hp st e => .inl ⟨e.trans hp, rfl⟩) ?_
    intro s s' hr hp st e
    right
    cases st <;> simp only [upd_apply] at * <;> grind
  have c2 := (wait_ends h t).trans c1
  have c3 := (loop_ends h t).trans c2
  have c4 : LeadsTo σ (fun s => s.pc t = .cMove) (fun s => s.pc t = .cHead) := by
    refine thread_rank h t (fun _ => 0) (fun s e => by rw [e]; simp) (fun s s' hr hp st e => .inl ⟨e.trans hp, rfl⟩) ?_
    intro s s' hr hp st e
    right
    cases st <;> simp only [upd_apply] at * <;> grind
  have c5 := c4.trans (LeadsTo.trans (.of_imp fun s e => (by rw [e]; simp [closer] : closer (s.pc t) = true ∧ s.pc t ≠ .cMove ∧ s.pc t ≠ .cWait ∧ s.pc t ≠ .cEnd)) c3)
  intro i hp
  by_cases e1 : (σ i).pc t = .cMove
  · exact c5 i e1
  · by_cases e2 : (σ i).pc t = .cWait
    · exact c2 i e2
    · by_cases e3 : (σ i).pc t = .cEnd
      · exact c1 i e3
      · exact c3 i ⟨hp, e1, e2, e3⟩

/-- C72: every call returns: channel_pull, channel_push, the cancelling of an operation, channel_open and channel_close; and every work item ends. -/
theorem call_returns (h : FairRun σ) (t : Nat) : LeadsTo σ (fun s => s.pc t ≠ .out) (fun s => s.pc t = .out) := by
  have a : LeadsTo σ (fun s => s.pc t ≠ .out ∧ closer (s.pc t) = false) (fun s => s.pc t = .out ∨ closer (s.pc t) = true) := by
    refine thread_rank h t (fun s => left (s.pc t)) ?_ ?_ ?_
    · intro s hp
      refine ⟨hp.1, fun e => ?_⟩
      rw [e] at hp; simp [closer] at hp
    · intro s s' hr hp st e
      exact .inl ⟨by rw [e]; exact hp, by rw [e]⟩
    · intro s s' hr hp st e
      by_cases h0 : s'.pc t = .out
      · exact .inr (.inl h0)
      · cases hc : closer (s'.pc t) with
        | true => exact .inr (.inr rfl)
        | false =>
          left; refine ⟨⟨h0, rfl⟩, ?_⟩
          rcases own st hp.1 e with l | ⟨o, y, _⟩
          · exact l
          · have := hp.2; rw [y] at this; simp [closer] at this
  have b : LeadsTo σ (fun s => closer (s.pc t) = true) (fun s => s.pc t = .out) := (close_returns h t).trans (.of_imp fun s y => y.1)
  intro i hp
  cases hc : closer ((σ i).pc t) with
  | true => exact b i hc
  | false => exact (a.chain b) i ⟨hp, hc⟩

set_option maxHeartbeats 4000000 in
/-- The requests accepted stay accepted, and a request out of the list of the channel does not come back. -/
theorem gone_step {s s' : Sys} (r : Nat) (hr : Reach cc s) (hp : r < s.nreq ∧ ∀ o ∈ s.q, s.avail o ≠ some r ∧ s.cons o ≠ some r) (st : Step cc s s') :
    r < s'.nreq ∧ ∀ o ∈ s'.q, s'.avail o ≠ some r ∧ s'.cons o ≠ some r := by
  have nd := (qs hr).nd
  have lt := (qs hr).lt
  have hq : ∀ o rest, s.q = o :: rest → o ∈ s.q ∧ o ∉ rest ∧ ∀ x ∈ rest, x ∈ s.q := by
    intro o rest e; rw [e] at nd ⊢; simp only [List.nodup_cons] at nd; exact ⟨List.mem_cons_self, nd.1, fun x hx => List.mem_cons_of_mem _ hx⟩
  obtain ⟨h1, h2⟩ := hp
  cases st <;> first
    | exact ⟨h1, h2⟩
    | (simp only [upd_apply]; grind [mem_without])

/-- C72: once channel_close was granted, the callback of every request accepted before is called. -/
theorem all_called_after_close (h : FairRun σ) (r : Nat) : LeadsTo σ (fun s => s.sm = .closing ∧ r < s.nreq) (fun s => called s r) := by
  intro i ⟨hc, hr⟩
  obtain ⟨t, ht⟩ := closer_there (h.reach i) hc
  obtain ⟨j, hj, -, hs⟩ := close_returns h t i ht
  have hr' : r < (σ j).nreq := h.later (P := fun s => r < s.nreq) (fun s s' hr hp st => by
    cases st <;> first | exact hp | (simp only; omega)) hj hr
  obtain ⟨m, hm, q⟩ := callback_called h r j ⟨hr', by rw [((sm (h.reach j)).cls hs).1]; simp⟩
  exact ⟨m, by omega, q⟩

/-- Nobody is cancelling. -/
def NoCancel (s : Sys) : Prop := ∀ u, aim (s.pc u) = none

/-- C72: such executions exist: every finite one without cancels that comes to rest is a part of one. -/
theorem fair_run_exists {s e : Sys} (h : Reach cc s) (hc : NoCancel s) (p : Path (fun s s' => Step cc s s' ∧ NoCancel s') s e)
    (q1 : ∀ t, e.pc t = .out) (q2 : ∀ o, e.pend o = 0) : ∃ σ n, FairRun σ ∧ σ 0 = s ∧ ∀ j, n ≤ j → σ j = e := by
  obtain ⟨σ, n, r, h0, hn⟩ := exists_run (Reach := fun s => Reach cc s ∧ NoCancel s) (Step := fun s s' => Step cc s s' ∧ NoCancel s')
    (fun _ _ r st => ⟨Reach.step r.1 st.1, st.2⟩) ⟨h, hc⟩ p
  have rc := r.reach (fun _ _ r st => ⟨Reach.step r.1 st.1, st.2⟩)
  refine ⟨σ, n, ⟨⟨r.start.1, fun i => (r.next i).imp (fun x => x.1) id⟩, fun t => fair_of_end hn ?_, fun o => fair_of_end hn ?_, fun i t u _ => (rc i).2 u⟩, h0, hn⟩
  · rintro ⟨s', st, h1, h2⟩
    exact h1 (q1 t)
  · rintro ⟨s', st, hl⟩
    have := q2 o
    omega

/-- An execution in which channel_close is granted while a push waits. -/
example : ∃ σ, FairRun σ ∧ (σ 0).sm = .closing ∧ closer ((σ 0).pc 1) = true ∧ 0 < (σ 0).nreq ∧ ¬ called (σ 0) 0 := by
  have h1 := (reach_opened cc).step (.request _ 0 .push 7 rfl)
  have h2 := h1.step (.rGranted _ 0 .push 7 rfl rfl)
  have h3 := h2.step (.pushEnq _ 0 7 rfl rfl (by intro o r h; cases h))
  have h4 := h3.step (.rRet _ 0 _ rfl)
  have h5 := h4.step (.close _ 1 rfl)
  have h6 := h5.step (.cGranted _ 1 rfl rfl)
  have nc : ∀ u, aim (upd (upd (upd (upd (upd (upd opened.pc 0 (.rBegin .push 7)) 0 (.rLock .push 7)) 0 (.rRet (some 0))) 0 .out) 1 .cBegin) 1 .cMove u) = none := by
    intro u; simp only [upd_apply, opened, init]; grind [aim]
  obtain ⟨σ, n, f, h0, -⟩ := fair_run_exists h6 nc
    (.cons ⟨.cMove _ 1 rfl (fun _ => nc), by intro u; simp only [upd_apply, opened, init]; grind [aim]⟩
    (.cons ⟨.cHead _ 1 0 [] rfl rfl, by intro u; simp only [upd_apply, opened, init]; grind [aim]⟩
    (.cons ⟨.cTake _ 1 0 rfl, by intro u; simp only [upd_apply, opened, init]; grind [aim]⟩
    (.cons ⟨.cRes _ 1 0 rfl, by intro u; simp only [upd_apply, opened, init]; grind [aim]⟩
    (.cons ⟨.e1 _ 1 0 .closer rfl, by intro u; simp only [upd_apply, opened, init]; grind [aim]⟩
    (.cons ⟨.e2 _ 1 0 .abandoned .closer rfl, by intro u; simp only [upd_apply, opened, init]; grind [aim]⟩
    (.cons ⟨.e3 _ 1 0 .abandoned .closer rfl, by intro u; simp only [upd_apply, opened, init]; grind [aim]⟩
    (.cons ⟨.e4No _ 1 0 .abandoned .closer rfl rfl, by intro u; simp only [upd_apply, opened, init]; grind [aim]⟩
    (.cons ⟨.e5 _ 1 0 .abandoned .closer 0 rfl rfl, by intro u; simp only [upd_apply, opened, init]; grind [aim]⟩
    (.cons ⟨.e6 _ 1 0 .closer rfl, by intro u; simp only [upd_apply, opened, init, back]; grind [aim]⟩
    (.cons ⟨.cNone _ 1 rfl rfl, by intro u; simp only [upd_apply, opened, init, back]; grind [aim]⟩
    (.cons ⟨.cWait _ 1 rfl rfl, by intro u; simp only [upd_apply, opened, init, back]; grind [aim]⟩
    (.cons ⟨.cEnd _ 1 rfl, by intro u; simp only [upd_apply, opened, init, back]; grind [aim]⟩ (.nil _))))))))))))))
    (by intro u; simp only [upd_apply, opened, init, back]; grind) (fun _ => rfl)
  refine ⟨σ, f, by rw [h0], by rw [h0]; rfl, by rw [h0]; decide, ?_⟩
  rw [h0]
  rintro ⟨c, hc, -⟩
  cases hc

/-- An execution in which a pull has just met a push. -/
example : ∃ σ, FairRun σ ∧ 1 < (σ 0).nreq ∧ (∀ o ∈ (σ 0).q, (σ 0).avail o ≠ some 1 ∧ (σ 0).cons o ≠ some 1) ∧ ¬ called (σ 0) 1 := by
  have h1 := (reach_opened cc).step (.request _ 0 .push 7 rfl)
  have h2 := h1.step (.rGranted _ 0 .push 7 rfl rfl)
  have h3 := h2.step (.pushEnq _ 0 7 rfl rfl (by intro o r h; cases h))
  have h4 := h3.step (.rRet _ 0 _ rfl)
  have h5 := h4.step (.request _ 1 .pull 0 rfl)
  have h6 := h5.step (.rGranted _ 1 .pull 0 rfl rfl)
  have h7 := h6.step (.pullDeq _ 1 0 0 [] 0 rfl rfl rfl rfl rfl (fun _ u => by simp only [upd_apply, opened, init]; grind [aim]))
  obtain ⟨σ, n, f, h0, -⟩ := fair_run_exists h7 (by intro u; simp only [upd_apply, opened, init]; grind [aim])
    (.cons ⟨.rRet _ 1 _ rfl, by intro u; simp only [upd_apply, opened, init]; grind [aim]⟩
    (.cons ⟨.work _ 2 0 rfl (by decide), by intro u; simp only [upd_apply, opened, init]; grind [aim]⟩
    (.cons ⟨.e1 _ 2 0 .worker rfl, by intro u; simp only [upd_apply, opened, init]; grind [aim]⟩
    (.cons ⟨.e2 _ 2 0 .ok .worker rfl, by intro u; simp only [upd_apply, opened, init]; grind [aim]⟩
    (.cons ⟨.e3 _ 2 0 .ok .worker rfl, by intro u; simp only [upd_apply, opened, init]; grind [aim]⟩
    (.cons ⟨.e4 _ 2 0 .ok .worker 1 rfl rfl, by intro u; simp only [upd_apply, opened, init]; grind [aim]⟩
    (.cons ⟨.e5 _ 2 0 .ok .worker 0 rfl rfl, by intro u; simp only [upd_apply, opened, init]; grind [aim]⟩
    (.cons ⟨.e6 _ 2 0 .worker rfl, by intro u; simp only [upd_apply, opened, init, back]; grind [aim]⟩ (.nil _)))))))))
    (by intro u; simp only [upd_apply, opened, init, back]; grind) (by intro o; simp only [upd_apply, opened, init]; grind)
  refine ⟨σ, f, by rw [h0]; decide, (by rw [h0]; exact fun o ho => nomatch ho), ?_⟩
  rw [h0]
  rintro ⟨c, hc, -⟩
  cases hc

end CUtil.Channel
