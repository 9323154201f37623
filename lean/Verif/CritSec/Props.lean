import Verif.CritSec.Model
set_option linter.unusedSimpArgs false
set_option linter.unusedVariables false
/-
C37: mutual exclusion, no lost wake-up.
-/
namespace CUtil.CritSec
open CUtil.Conc

/-- The thread is between its call of critical_section_enter and the return of it. -/
def Wants (p : Pc) : Prop := p = .trying ∨ (∃ v, p = .waiting v) ∨ p = .asleep

structure Inv (s : Sys) : Prop where
  taken : ∀ t, s.pc t = .inside → s.access = 1
  alone : ∀ t u, s.pc t = .inside → s.pc u = .inside → t = u
  free : s.access = 0 ∨ s.access = 1
  owner : s.access = 1 → ∃ t, s.pc t = .inside
  seen : ∀ t v, s.pc t = .waiting v → v = 1
  wakes : ∀ t, s.pc t = .asleep → s.access = 0 → ∃ u, s.pc u = .leaving ∨ s.pc u = .trying

theorem inv_init : Inv init := by
  refine ⟨?_, ?_, Or.inl rfl, ?_, ?_, ?_⟩ <;> simp [init]

theorem inv_step {s s' : Sys} (h : Inv s) (st : Step s s') : Inv s' := by
  obtain ⟨h1, h2, h3, h4, h5, h6⟩ := h
  cases st <;> constructor <;> simp only [upd] <;> grind

theorem inv_of_reach {s : Sys} (h : Reach s) : Inv s := by
  induction h with
  | init => exact inv_init
  | step _ st ih => exact inv_step ih st

/-! ### Properties -/

/-- C37, mutual exclusion: at most one thread is between the return of critical_section_enter and its critical_section_leave. -/
theorem mutual_exclusion {s : Sys} (h : Reach s) {t u : Nat} (ht : s.pc t = .inside) (hu : s.pc u = .inside) : t = u :=
  (inv_of_reach h).alone t u ht hu

/-- C37, no lost wake-up: when a thread sleeps and nobody is inside, some thread is about to try (and will get in) or about to wake
a sleeper. -/
theorem no_lost_wakeup {s : Sys} (h : Reach s) {t : Nat} (ht : s.pc t = .asleep) (hf : ∀ u, s.pc u ≠ .inside) :
    ∃ u, s.pc u = .leaving ∨ s.pc u = .trying := by
  have hi := inv_of_reach h
  refine hi.wakes t ht ?_
  rcases hi.free with h0 | h1
  · exact h0
  · obtain ⟨u, hu⟩ := hi.owner h1
    exact absurd hu (hf u)

/-- A thread that tries while nobody is inside gets in; one that tries while another is inside does not. -/
theorem try_outcome {s s' : Sys} (h : Reach s) {t : Nat} (ht : s.pc t = .trying) (st : Step s s') (hm : s'.pc t ≠ .trying) :
    s'.pc t = .inside ↔ ∀ u, s.pc u ≠ .inside := by
  have hi := inv_of_reach h
  have hother : ∀ (u : Nat) (v : Pc), s.pc u ≠ .trying → (upd s.pc u v) t = .trying := by
    intro u v hu
    rw [upd_ne _ _ (fun e => by subst e; exact hu ht)]; exact ht
  cases st with
  | enter u h => exact absurd (hother u _ (by rw [h]; simp)) hm
  | take u h hv =>
    by_cases e : t = u
    · subst e
      simp only [upd_self, true_iff]
      intro a ha; have := hi.taken a ha; omega
    · exact absurd ((upd_ne _ _ e).trans ht) hm
  | busy u h hv =>
    by_cases e : t = u
    · subst e
      simp only [upd_self, reduceCtorEq, false_iff]
      intro hall
      have h1 : s.access = 1 := by rcases hi.free with h0 | h1; exact absurd h0 hv; exact h1
      obtain ⟨a, ha⟩ := hi.owner h1
      exact hall a ha
    · exact absurd ((upd_ne _ _ e).trans ht) hm
  | sleep u v h hv => exact absurd (hother u _ (by rw [h]; simp)) hm
  | noSleep u v h hv => exact absurd (hother u _ (by rw [h]; simp)) hm
  | spurious u h => exact absurd (hother u _ (by rw [h]; simp)) hm
  | leave u h => exact absurd (hother u _ (by rw [h]; simp)) hm
  | wake u w h hw =>
    refine absurd ?_ hm
    show (upd (upd s.pc w .trying) u .out) t = .trying
    rw [upd_ne _ _ (fun e => by subst e; rw [ht] at h; cases h), upd_ne _ _ (fun e => by subst e; rw [ht] at hw; cases hw)]
    exact ht
  | wakeNone u h hu => exact absurd (hother u _ (by rw [h]; simp)) hm

/-- A thread that wants in and is not asleep can always move. -/
theorem progress {s : Sys} {t : Nat} (hw : Wants (s.pc t)) (ha : s.pc t ≠ .asleep) : ∃ s', Step s s' ∧ s'.pc t ≠ s.pc t := by
  rcases hw with hw | ⟨v, hw⟩ | hw
  · by_cases h0 : s.access = 0
    · exact ⟨_, .take s t hw h0, by simp [hw]⟩
    · exact ⟨_, .busy s t hw h0, by simp [hw]⟩
  · by_cases h0 : s.access = v
    · exact ⟨_, .sleep s t v hw h0, by simp [hw]⟩
    · exact ⟨_, .noSleep s t v hw h0, by simp [hw]⟩
  · exact absurd hw ha

/-! ### Witness: 0 enters, 1 falls asleep, 0 leaves (section free, 1 asleep), 0 wakes 1, 1 enters -/

example : ∃ s, Reach s ∧ s.pc 1 = .asleep ∧ (∀ u, s.pc u ≠ .inside) ∧ s.pc 0 = .leaving := by
  have h1 := Reach.init.step (.enter _ 0 rfl)
  have h2 := h1.step (.take _ 0 rfl rfl)
  have h3 := h2.step (.enter _ 1 rfl)
  have h4 := h3.step (.busy _ 1 rfl (by decide))
  have h5 := h4.step (.sleep _ 1 1 rfl rfl)
  have h6 := h5.step (.leave _ 0 rfl)
  refine ⟨_, h6, rfl, ?_, rfl⟩
  intro u
  simp only [upd, init]
  repeat' split
  all_goals simp

end CUtil.CritSec
