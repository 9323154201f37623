import Verif.TpWorkerLife.Props
import Verif.Settle
set_option linter.unusedSimpArgs false
set_option linter.unusedVariables false
/-
C63: open, close and destroy return.
-/
namespace CUtil.TpWorkerLife
open CUtil.Conc CUtil.Live

variable {s s' : Sys} {σ : Nat → Sys}

/-- A step of a call after its beginning, or the end of a call of the worker function. -/
def Auto (s s' : Sys) : Prop := Step s s' ∧ ((∃ t, s.pc t ≠ .out ∧ s'.pc t ≠ s.pc t) ∨ ∃ i, s'.work i < s.work i)

/-- An open or a close was granted and is not over, or a destroy is going on. -/
def Busy (s : Sys) : Prop := s.gate = .opening ∨ s.gate = .closing ∨ (s.destroyed = true ∧ s.alive = true)

theorem reach_step : ∀ s s', Reach s → Step s s' → Reach s' := fun _ _ h st => h.step st

attribute [local grind =] opens closes ends inExec destroys hasPool hasItem preRef granted

theorem doing (h : Reach s) : s.destroyed = true → s.alive = true → ∃ t, destroys (s.pc t) = true := by
  induction h with
  | init => intro h; cases h
  | @step s s' h st ih =>
    have v := (inv_of_reach h).who
    intro hd ha
    cases st with
    | destroyClose t h hl hg => exact ⟨t, by simp [destroys]⟩
    | destroy t h hl hg => exact ⟨t, by simp [destroys]⟩
    | workEnds i h => exact ih hd ha
    | destroyFree t h => cases ha
    | closeEnd t d h =>
      obtain ⟨u, hu⟩ := ih hd ha
      have := v.alone u t hu
      by_cases e : u = t
      · subst e
        refine ⟨u, ?_⟩
        rw [h] at hu
        cases d <;> simp_all [destroys]
      · rw [this e] at h; cases h
    | closeGranted t d h _ | closeItem t d h _ | closePool t d h =>
      obtain ⟨u, hu⟩ := ih hd ha
      have := v.alone u t hu
      by_cases e : u = t
      · subst e
        refine ⟨u, ?_⟩
        rw [h] at hu
        cases d <;> simp_all [destroys]
      · rw [this e] at h; cases h
    | _ =>
      obtain ⟨u, hu⟩ := ih hd ha
      refine ⟨u, ?_⟩
      simp only [touch, upd_apply] at *
      grind

/-- The steps still to be made by a call. -/
def lv : Pc → Nat
  | .out => 0 | .oReset => 6 | .oPool => 5 | .oItem => 4 | .oDrop => 3 | .oFail => 2 | .oOk => 1 | .eRun => 3 | .eEnd => 1
  | .cWait _ => 8 | .cItem _ => 7 | .cPool _ => 6 | .cEnd _ => 5 | .dRef => 4 | .dSm => 3 | .dFree => 2

/-- The calls of the worker function waiting or running. -/
def works (s : Sys) : Nat := match s.item with | none => 0 | some i => s.work i

/-- Once an open, a close or a destroy is going on no call begins: every step is one of a call that brings it nearer to its end, or the end of a call of the worker function. -/
theorem moves (h : Reach s) (hb : Busy s) (st : Step s s') :
    (∃ t x, s.pc t ≠ .out ∧ s'.pc = upd s.pc t x ∧ lv x + works s' < lv (s.pc t) + works s) ∨ (s'.pc = s.pc ∧ works s' < works s) := by
  have v := inv_of_reach h
  obtain ⟨hw, hr, he, hn⟩ := v
  have new : s.work s.items = 0 := Classical.byContradiction fun e => Nat.lt_irrefl _ (hr.item _ (hr.work _ (Nat.pos_of_ne_zero e)))
  cases st with
  | openBegin t h hl hg => simp [Busy, hl, hg] at hb
  | execBegin t h hl hg => simp [Busy, hl, hg] at hb
  | closeBegin t h hl hg => simp [Busy, hl, hg] at hb
  | destroyClose t h hl hg => simp [Busy, hl, hg] at hb
  | destroy t h hl hg =>
    exfalso
    rcases hb with hb | hb | hb
    · have := hw.busy1 hb; rw [h] at this; cases this
    · have := hw.busy2 hb; rw [h] at this; cases this
    · rw [hl] at hb; cases hb.1
  | workEnds i h =>
    right
    refine ⟨rfl, ?_⟩
    have e := hr.work i h
    simp only [works, touch, e, upd_self]; omega
  | openItem t h => exact .inl ⟨t, _, by simp [h], rfl, by simp only [works, touch, new, h, lv]; omega⟩
  | execSchedule t h =>
    refine .inl ⟨t, _, by simp [h], rfl, ?_⟩
    cases e : s.item with
    | none => simp [works, touch, e, bump, h, lv]
    | some i => simp [works, touch, e, bump, h, lv]; omega
  | closeItem t d h hz =>
    refine .inl ⟨t, _, by simp [h], rfl, ?_⟩
    simp only [works, touch, h, lv]; omega
  | closeEnd t d h =>
    refine .inl ⟨t, _, by simp [h], rfl, ?_⟩
    cases d <;> simp [works, touch, h, lv]
  | _ => exact .inl ⟨_, _, by simp [*], rfl, by simp [works, touch, *, lv]⟩

theorem step_of (h : Reach s) (t : Nat) (h1 : s.pc t ≠ .out) (h2 : ∀ d, s.pc t = .cWait d → ∀ u, inExec (s.pc u) = false) (h3 : ∀ d, s.pc t = .cItem d → ∀ i, s.item = some i → s.work i = 0) : Enabled Auto s := by
  have go : ∀ {s' : Sys}, Step s s' → s'.pc t ≠ s.pc t → Enabled Auto s := fun st e => ⟨_, st, .inl ⟨t, h1, e⟩⟩
  cases hp : s.pc t with
  | out => exact absurd hp h1
  | oReset => exact go (.openReset s t hp) (by simp [hp])
  | oPool => exact go (.openPool s t hp) (by simp [hp])
  | oItem => exact go (.openItem s t hp) (by simp [hp])
  | oOk => exact go (.openOk s t hp) (by simp [hp])
  | oDrop => exact go (.openDrop s t hp) (by simp [hp])
  | oFail => exact go (.openFail s t hp) (by simp [hp])
  | eRun => exact go (.execQuiet s t hp) (by simp [hp])
  | eEnd => exact go (.execEnd s t hp) (by simp [hp])
  | cWait d => exact go (.closeGranted s t d hp (h2 d hp)) (by simp [hp])
  | cItem d => exact go (.closeItem s t d hp (h3 d hp)) (by simp [hp])
  | cPool d => exact go (.closePool s t d hp) (by simp [hp])
  | cEnd d => exact go (.closeEnd s t d hp) (by cases d <;> simp [hp])
  | dRef => exact go (.destroyRef s t hp) (by simp [hp])
  | dSm => exact go (.destroySm s t hp) (by simp [hp])
  | dFree => exact go (.destroyFree s t hp) (by simp [hp])

/-- C63: no call is stuck: an open, a close or a destroy can go on, or the schedule_process or the worker function it waits for can. -/
theorem never_stuck (h : Reach s) (hb : Busy s) : Enabled Auto s := by
  have v := inv_of_reach h
  have main : ∀ t, s.pc t ≠ .out → Enabled Auto s := fun t ht => by
    by_cases h1 : ∃ u, inExec (s.pc u) = true
    · obtain ⟨u, hu⟩ := h1
      exact step_of h u (fun e => by rw [e] at hu; cases hu) (fun d e => by rw [e] at hu; cases hu) (fun d e => by rw [e] at hu; cases hu)
    · by_cases h2 : ∃ i, 0 < s.work i
      · obtain ⟨i, hi⟩ := h2
        exact ⟨_, .workEnds s i hi, .inr ⟨i, by simp [touch]; omega⟩⟩
      · refine step_of h t ht (fun d _ u => ?_) (fun d _ i _ => ?_)
        · cases e : inExec (s.pc u) with
          | false => rfl
          | true => exact absurd ⟨u, e⟩ h1
        · exact Classical.byContradiction fun e => h2 ⟨i, by omega⟩
  rcases hb with hb | hb | ⟨hb, ha⟩
  · have := v.who.busy1 hb
    exact main s.owner fun e => by rw [e] at this; cases this
  · have := v.who.busy2 hb
    exact main s.owner fun e => by rw [e] at this; cases this
  · obtain ⟨t, ht⟩ := doing h hb ha
    exact main t fun e => by rw [e] at ht; cases ht

theorem leads {P Q : Sys → Prop} {m : Nat} (run : Run Reach Step σ) (f : Fair Auto σ) (hm : ∀ j t, m < t → (σ j).pc t = .out) (hP : ∀ s, P s → Busy s)
    (next : ∀ s s', Reach s → P s → Step s s' → P s' ∨ Q s') : LeadsTo σ P Q := by
  intro i hp
  refine Classical.byContradiction fun no => ?_
  have all : ∀ d, P (σ (i + d)) := by
    intro d
    induction d with
    | zero => exact hp
    | succ d ih =>
      rcases run.next (i + d) with st | e
      · exact (next _ _ (run.reach reach_step _) ih st).resolve_right fun q => no ⟨_, by omega, q⟩
      · show P (σ (i + d + 1)); rw [e]; exact ih
  have all' : ∀ j, i ≤ j → P (σ j) := fun j hj => by obtain ⟨d, rfl⟩ := Nat.le.dest hj; exact all d
  have key : ∀ j, i ≤ j → Step (σ j) (σ (j + 1)) → sumBy lv (σ (j + 1)).pc m + works (σ (j + 1)) < sumBy lv (σ j).pc m + works (σ j) := by
    intro j hj st
    rcases moves (run.reach reach_step j) (hP _ (all' j hj)) st with ⟨t, x, h1, h2, h3⟩ | ⟨h1, h2⟩
    · have := sumBy_upd lv (σ j).pc x (i := t) (n := m) (Nat.le_of_not_lt fun hl => h1 (hm j t hl))
      rw [h2]; omega
    · rw [h1]; omega
  obtain ⟨j, hj, ne⟩ := settles_on (i := i) (fun s => sumBy lv s.pc m + works s) (fun j hj a => key j hj a.1)
    (fun j hj => by
      rcases run.next j with st | e
      · exact Nat.le_of_lt (key j hj st)
      · rw [e]; exact Nat.le_refl _) f
  exact ne (never_stuck (run.reach reach_step j) (hP _ (all' j hj)))

/-- C63: a close returns: in every execution with finitely many threads in which the calls, taken together, go on if they can, and in which the worker function returns, a close that was granted comes to its end;
no call of schedule_process can keep it from it. -/
theorem close_returns {m : Nat} (run : Run Reach Step σ) (f : Fair Auto σ) (hm : ∀ j t, m < t → (σ j).pc t = .out) : LeadsTo σ (fun s => s.gate = .closing) fun s => s.gate = .created := by
  refine leads run f hm (fun s h => .inr (.inl h)) fun s s' r h st => ?_
  obtain ⟨_, v1, v2, _, _, _, _, _, _, _, _⟩ := (inv_of_reach r).who
  cases st <;> simp only [touch] at * <;> grind

/-- C63: an open returns, likewise. -/
theorem open_returns {m : Nat} (run : Run Reach Step σ) (f : Fair Auto σ) (hm : ∀ j t, m < t → (σ j).pc t = .out) : LeadsTo σ (fun s => s.gate = .opening) fun s => s.gate = .opened ∨ s.gate = .created := by
  refine leads run f hm (fun s h => .inl h) fun s s' r h st => ?_
  obtain ⟨_, v1, v2, _, _, _, _, _, _, _, _⟩ := (inv_of_reach r).who
  cases st <;> simp only [touch] at * <;> grind

/-- C63: a destroy returns, likewise; it waits for the calls of the worker function that are waiting or running. -/
theorem destroy_returns {m : Nat} (run : Run Reach Step σ) (f : Fair Auto σ) (hm : ∀ j t, m < t → (σ j).pc t = .out) : LeadsTo σ (fun s => s.destroyed = true ∧ s.alive = true) fun s => s.alive = false := by
  refine leads run f hm (fun s h => .inr (.inr h)) fun s s' r h st => ?_
  cases st <;> simp only [touch] at * <;> grind

theorem all_out (h : ∀ t, s.pc t = .out) (hw : ∀ i, s.work i = 0) : ¬ Enabled Auto s := by
  rintro ⟨s', _, ⟨t, e, _⟩ | ⟨i, e⟩⟩
  · exact e (h t)
  · rw [hw i] at e; omega

theorem destroying : ∃ s, Reach s ∧ s.pc = upd (fun _ => .out) 0 (.cWait true) ∧ s.gate = .closing ∧ s.destroyed = true ∧ s.alive = true ∧ s.item = some 0 ∧ s.work = upd (fun _ => 0) 0 1 := by
  have h1 := Reach.init.step (.openBegin _ 0 rfl rfl rfl)
  have h2 := h1.step (.openReset _ 0 rfl)
  have h3 := h2.step (.openPool _ 0 rfl)
  have h4 := h3.step (.openItem _ 0 rfl)
  have h5 := h4.step (.openOk _ 0 rfl)
  have h6 := h5.step (.execBegin _ 0 rfl rfl rfl)
  have h7 := h6.step (.execSchedule _ 0 rfl)
  have h8 := h7.step (.execEnd _ 0 rfl)
  have h9 := h8.step (.destroyClose _ 0 (by intro u; simp only [upd_apply, touch, init]; grind) rfl rfl)
  refine ⟨_, h9, ?_, rfl, rfl, rfl, rfl, rfl⟩
  funext u
  simp only [upd_apply, touch, init]
  grind

theorem destroyed_path (e1 : s.pc = upd (fun _ => .out) 0 (.cWait true)) (e2 : s.item = some 0) (e3 : s.work = upd (fun _ => 0) 0 1) :
    ∃ s', Path Step s s' ∧ (∀ t, s'.pc t = .out) ∧ ∀ i, s'.work i = 0 := by
  refine ⟨_, .cons (.closeGranted _ 0 true (by simp [e1]) (fun u => by simp only [e1, upd_apply]; split <;> rfl)) (.cons (.workEnds _ 0 (by simp [touch, e3])) (.cons (.closeItem _ 0 true (by simp [touch]) (fun i h => by
    simp [touch, e2] at h; subst h; simp [touch, e3])) (.cons (.closePool _ 0 true (by simp [touch])) (.cons (.closeEnd _ 0 true (by simp [touch])) (.cons (.destroyRef _ 0 (by simp [touch]))
    (.cons (.destroySm _ 0 (by simp [touch])) (.cons (.destroyFree _ 0 (by simp [touch])) (.nil _)))))))), fun t => ?_, fun i => ?_⟩
  · simp only [upd_apply, touch, e1]; grind
  · simp only [upd_apply, touch, e3]; grind

/-- There are such executions: an open worker whose function is to be called is destroyed. -/
example : ∃ σ, Run Reach Step σ ∧ Fair Auto σ ∧ (∀ j t, 0 < t → (σ j).pc t = .out) ∧ (σ 0).gate = .closing ∧ (σ 0).destroyed = true ∧ (σ 0).alive = true := by
  obtain ⟨s, h, e1, e2, e3, e4, e5, e6⟩ := destroying
  obtain ⟨s', p, o, w⟩ := destroyed_path e1 e5 e6
  obtain ⟨σ, n, run, h0, hn⟩ := exists_run (Step := Step) reach_step h p
  refine ⟨σ, run, fair_of_end hn (all_out o w), fun j => ?_, by rw [h0]; exact e2, by rw [h0]; exact e3, by rw [h0]; exact e4⟩
  have : (σ j).destroyed = true ∧ ∀ t, 0 < t → (σ j).pc t = .out := by
    induction j with
    | zero => rw [h0, e1, e3]; exact ⟨rfl, fun t ht => by simp only [upd_apply]; split <;> first | rfl | omega⟩
    | succ j ih =>
      rcases run.next j with st | e
      · generalize σ (j + 1) = u at st
        generalize σ j = v at st ih
        obtain ⟨i1, i2⟩ := ih
        cases st <;> simp only [touch, upd_apply] at * <;> grind
      · rw [e]; exact ih
  exact this.2

end CUtil.TpWorkerLife
