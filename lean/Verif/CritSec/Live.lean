import Verif.Live
import Verif.CritSec.Props
set_option linter.unusedSimpArgs false
set_option linter.unusedVariables false
/-
C70: in every fair execution in which those inside leave, somebody gets in as long as somebody wants to; but a particular thread may wait for ever.
-/
namespace CUtil.CritSec
open CUtil.Conc CUtil.Live

/-- The thread makes a step of its own: it is not woken. A thread inside calls critical_section_leave. -/
def Moves (t : Nat) (s s' : Sys) : Prop := Step s s' ∧ s.pc t ≠ .out ∧ s.pc t ≠ .asleep ∧ s'.pc t ≠ s.pc t

/-- A fair execution: every thread that can go on all the time does so in the end, and nobody stays inside for ever. -/
structure FairRun (σ : Nat → Sys) : Prop where
  run : Run Reach Step σ
  fair : ∀ t, Fair (Moves t) σ

variable {σ : Nat → Sys}

theorem FairRun.inv (h : FairRun σ) (i : Nat) : Inv (σ i) := inv_of_reach (h.run.reach (fun _ _ r st => r.step st) i)

/-- The section is free and nobody has entered since there were `n` entries. -/
def Free (n : Nat) (s : Sys) : Prop := s.access = 0 ∧ s.entries = n

set_option maxHeartbeats 4000000 in
theorem enters_trying (h : FairRun σ) (n t : Nat) : LeadsTo σ (fun s => s.pc t = .trying ∧ Free n s) (fun s => n < s.entries) :=
  ensures h.inv h.run.next (h.fair t)
    (fun s s' hi ⟨hp, ha, hn⟩ st => by
      have g1 := hi.taken
      cases st <;> simp only [upd_apply, Free] at * <;> grind)
    (fun s hi ⟨hp, ha, hn⟩ => ⟨_, .take s t hp ha, by rw [hp]; simp, by rw [hp]; simp, by simp [hp]⟩)
    (fun s s' hi ⟨hp, ha, hn⟩ ⟨st, _, _, hm⟩ => by
      cases st <;> simp only [upd_apply, Free] at * <;> grind)

set_option maxHeartbeats 4000000 in
theorem enters_waiting (h : FairRun σ) (n t v : Nat) : LeadsTo σ (fun s => s.pc t = .waiting v ∧ Free n s) (fun s => n < s.entries) :=
  (ensures h.inv h.run.next (h.fair t)
    (fun s s' hi ⟨hp, ha, hn⟩ st => by
      have g1 := hi.taken
      have g2 := hi.seen t v
      cases st <;> simp only [upd_apply, Free] at * <;> grind)
    (fun s hi ⟨hp, ha, hn⟩ => ⟨_, .noSleep s t v hp (by rw [hi.seen t v hp, ha]; simp), by rw [hp]; simp, by rw [hp]; simp, by simp [hp]⟩)
    (fun s s' hi ⟨hp, ha, hn⟩ ⟨st, _, _, hm⟩ => by
      have g2 := hi.seen t v
      cases st <;> simp only [upd_apply, Free] at * <;> grind)).chain (enters_trying h n t)

set_option maxHeartbeats 4000000 in
theorem enters_leaving (h : FairRun σ) (n t u : Nat) : LeadsTo σ (fun s => s.pc u = .leaving ∧ s.pc t = .asleep ∧ Free n s) (fun s => n < s.entries) := by
  have : LeadsTo σ (fun s => s.pc u = .leaving ∧ s.pc t = .asleep ∧ Free n s) (fun s => n < s.entries ∨ ∃ x, s.pc x = .trying ∧ Free n s) :=
    ensures h.inv h.run.next (h.fair u)
      (fun s s' hi ⟨hp, ht, ha, hn⟩ st => by
        have g1 := hi.taken
        cases st <;> simp only [upd_apply, Free] at * <;> grind)
      (fun s hi ⟨hp, ht, ha, hn⟩ => ⟨_, .wake s u t hp ht, by rw [hp]; simp, by rw [hp]; simp, by simp [hp]⟩)
      (fun s s' hi ⟨hp, ht, ha, hn⟩ ⟨st, _, _, hm⟩ => by
        cases st <;> simp only [upd_apply, Free] at * <;> grind)
  intro i hp
  obtain ⟨j, hj, hq | ⟨x, hx⟩⟩ := this i hp
  · exact ⟨j, hj, hq⟩
  · obtain ⟨k, hk, hr⟩ := enters_trying h n x j hx
    exact ⟨k, by omega, hr⟩

theorem enters_free (h : FairRun σ) (n t : Nat) : LeadsTo σ (fun s => Wants (s.pc t) ∧ Free n s) (fun s => n < s.entries) := by
  intro i ⟨hw, hf⟩
  rcases hw with hp | ⟨v, hp⟩ | hp
  · exact enters_trying h n t i ⟨hp, hf⟩
  · exact enters_waiting h n t v i ⟨hp, hf⟩
  · obtain ⟨u, hu | hu⟩ := (h.inv i).wakes t hp hf.1
    · exact enters_leaving h n t u i ⟨hu, hp, hf⟩
    · exact enters_trying h n u i ⟨hu, hf⟩

set_option maxHeartbeats 4000000 in
theorem enters_inside (h : FairRun σ) (n t u : Nat) : LeadsTo σ (fun s => s.pc u = .inside ∧ Wants (s.pc t) ∧ s.entries = n) (fun s => n < s.entries) :=
  (ensures h.inv h.run.next (h.fair u)
    (fun s s' hi ⟨hp, hw, hn⟩ st => by
      have g1 := hi.taken
      have g2 := hi.alone
      cases st <;> simp only [upd_apply, Free, Wants] at * <;> grind)
    (fun s hi ⟨hp, hw, hn⟩ => ⟨_, .leave s u hp, by rw [hp]; simp, by rw [hp]; simp, by simp [hp]⟩)
    (fun s s' hi ⟨hp, hw, hn⟩ ⟨st, _, _, hm⟩ => by
      have g1 := hi.taken
      have g2 := hi.alone
      cases st <;> simp only [upd_apply, Free, Wants] at * <;> grind)).chain (enters_free h n t)

/-- C70: as long as somebody wants in, somebody gets in. -/
theorem somebody_enters (h : FairRun σ) {i t : Nat} (hw : Wants ((σ i).pc t)) : ∃ j, i ≤ j ∧ (σ i).entries < (σ j).entries := by
  rcases (h.inv i).free with h0 | h1
  · exact enters_free h _ t i ⟨hw, h0, rfl⟩
  · obtain ⟨u, hu⟩ := (h.inv i).owner h1
    exact enters_inside h _ t u i ⟨hu, hw, rfl⟩

/-- C70: critical_section_leave returns. -/
theorem leave_returns (h : FairRun σ) (t : Nat) : LeadsTo σ (fun s => s.pc t = .leaving) (fun s => s.pc t = .out) :=
  ensures h.inv h.run.next (h.fair t)
    (fun s s' hi hp st => by cases st <;> simp only [upd_apply] at * <;> grind)
    (fun s hi hp => by
      by_cases hw : ∃ u, s.pc u = .asleep
      · obtain ⟨u, hu⟩ := hw
        exact ⟨_, .wake s t u hp hu, by rw [hp]; simp, by rw [hp]; simp, by simp [hp]⟩
      · exact ⟨_, .wakeNone s t hp (fun u y => hw ⟨u, y⟩), by rw [hp]; simp, by rw [hp]; simp, by simp [hp]⟩)
    (fun s s' hi hp ⟨st, _, _, hm⟩ => by cases st <;> simp only [upd_apply] at * <;> grind)

/-! ### A thread may wait for ever -/

/-- Two threads at the given places, the others out. -/
def two (a b : Pc) : Nat → Pc := fun u => if u = 0 then a else if u = 1 then b else .out

theorem two_0 (a b c : Pc) : upd (two a b) 0 c = two c b := by funext u; simp only [upd, two]; grind
theorem two_1 (a b c : Pc) : upd (two a b) 1 c = two a c := by funext u; simp only [upd, two]; grind

/-- Thread 0 leaves, wakes thread 1, and is back inside before thread 1 has tried; thread 1 goes to sleep again. `n` rounds are over; `k` is the place in the round. -/
def starving (n : Nat) : Nat → Sys
  | 0 => ⟨1, two .inside .asleep, n + 1⟩
  | 1 => ⟨0, two .leaving .asleep, n + 1⟩
  | 2 => ⟨0, two .out .trying, n + 1⟩
  | 3 => ⟨0, two .trying .trying, n + 1⟩
  | 4 => ⟨1, two .inside .trying, n + 2⟩
  | _ => ⟨1, two .inside (.waiting 1), n + 2⟩

/-- The endless execution. -/
def starve (i : Nat) : Sys := starving (i / 6) (i % 6)

theorem starving_step (n : Nat) :
    Step (starving n 0) (starving n 1) ∧ Step (starving n 1) (starving n 2) ∧ Step (starving n 2) (starving n 3) ∧ Step (starving n 3) (starving n 4) ∧
    Step (starving n 4) (starving n 5) ∧ Step (starving n 5) (starving (n + 1) 0) := by
  refine ⟨?_, ?_, ?_, ?_, ?_, ?_⟩
  · have := Step.leave (starving n 0) 0 rfl
    simpa only [starving, two_0, two_1] using this
  · have := Step.wake (starving n 1) 0 1 rfl rfl
    simpa only [starving, two_0, two_1] using this
  · have := Step.enter (starving n 2) 0 rfl
    simpa only [starving, two_0, two_1] using this
  · have := Step.take (starving n 3) 0 rfl rfl
    simpa only [starving, two_0, two_1] using this
  · have := Step.busy (starving n 4) 1 rfl (by simp [starving])
    simpa only [starving, two_0, two_1] using this
  · have := Step.sleep (starving n 5) 1 1 rfl rfl
    simpa only [starving, two_0, two_1] using this

theorem starve_reach : Reach (starve 0) := by
  have h1 := Reach.init.step (.enter _ 0 rfl)
  have h2 := h1.step (.take _ 0 rfl rfl)
  have h3 := h2.step (.enter _ 1 rfl)
  have h4 := h3.step (.busy _ 1 rfl (by decide))
  have h5 := h4.step (.sleep _ 1 1 rfl rfl)
  have e : upd (upd (upd (upd (upd init.pc 0 .trying) 0 .inside) 1 .trying) 1 (.waiting 1)) 1 .asleep = two .inside .asleep := by
    funext u; simp only [upd, two, init]; grind
  have : starve 0 = ⟨1, upd (upd (upd (upd (upd init.pc 0 .trying) 0 .inside) 1 .trying) 1 (.waiting 1)) 1 .asleep, 1⟩ := by
    rw [e]; rfl
  rw [this]; exact h5

theorem starve_next (i : Nat) : Step (starve i) (starve (i + 1)) := by
  obtain ⟨s0, s1, s2, s3, s4, s5⟩ := starving_step (i / 6)
  have : i % 6 = 0 ∨ i % 6 = 1 ∨ i % 6 = 2 ∨ i % 6 = 3 ∨ i % 6 = 4 ∨ i % 6 = 5 := by omega
  unfold starve
  rcases this with e | e | e | e | e | e
  · rw [e, show (i + 1) / 6 = i / 6 by omega, show (i + 1) % 6 = 1 by omega]; exact s0
  · rw [e, show (i + 1) / 6 = i / 6 by omega, show (i + 1) % 6 = 2 by omega]; exact s1
  · rw [e, show (i + 1) / 6 = i / 6 by omega, show (i + 1) % 6 = 3 by omega]; exact s2
  · rw [e, show (i + 1) / 6 = i / 6 by omega, show (i + 1) % 6 = 4 by omega]; exact s3
  · rw [e, show (i + 1) / 6 = i / 6 by omega, show (i + 1) % 6 = 5 by omega]; exact s4
  · rw [e, show (i + 1) / 6 = i / 6 + 1 by omega, show (i + 1) % 6 = 0 by omega]; exact s5

/-- Finding: the lock is not fair. There is a fair execution in which a thread wants in all the time and never gets in. -/
theorem starvation_possible : ∃ σ, FairRun σ ∧ ∀ i, Wants ((σ i).pc 1) := by
  have at' : ∀ i k, k < 6 → starve (6 * i + k) = starving i k := by
    intro i k hk
    unfold starve
    rw [show (6 * i + k) / 6 = i by omega, show (6 * i + k) % 6 = k by omega]
  refine ⟨starve, ⟨⟨starve_reach, fun i => .inl (starve_next i)⟩, fun t i hi => ?_⟩, fun i => ?_⟩
  · by_cases t0 : t = 0
    · subst t0
      refine ⟨6 * i, by omega, starve_next _, ?_⟩
      have e0 := at' i 0 (by omega)
      have e1 := at' i 1 (by omega)
      rw [Nat.add_zero] at e0
      rw [e0, e1]
      simp [starving, two]
    · by_cases t1 : t = 1
      · subst t1
        refine ⟨6 * i + 4, by omega, starve_next _, ?_⟩
        have e0 := at' i 4 (by omega)
        have e1 := at' i 5 (by omega)
        rw [show 6 * i + 4 + 1 = 6 * i + 5 from rfl, e0, e1]
        simp [starving, two]
      · obtain ⟨s', _, ho, _⟩ := hi i (Nat.le_refl i)
        refine absurd ?_ ho
        have : i % 6 = 0 ∨ i % 6 = 1 ∨ i % 6 = 2 ∨ i % 6 = 3 ∨ i % 6 = 4 ∨ i % 6 = 5 := by omega
        unfold starve
        rcases this with e | e | e | e | e | e <;> rw [e] <;> simp [starving, two, t0, t1]
  · have : i % 6 = 0 ∨ i % 6 = 1 ∨ i % 6 = 2 ∨ i % 6 = 3 ∨ i % 6 = 4 ∨ i % 6 = 5 := by omega
    unfold starve
    rcases this with e | e | e | e | e | e <;> rw [e] <;> simp [starving, two, Wants]

/-- The hypotheses of `somebody_enters` are met (also by the execution above). -/
example : ∃ σ, FairRun σ ∧ Wants ((σ 0).pc 1) := by
  obtain ⟨σ, f, h⟩ := starvation_possible
  exact ⟨σ, f, h 0⟩

end CUtil.CritSec
