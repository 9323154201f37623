import Verif.Lackey.Props
import Verif.WaitFree
/-
Notifications, init and deinit never block: what is in progress can always go on, whatever the others do, and is over after a few steps
of its own.  (What the targets of the dispatcher do is not part of it: the dispatch is two steps here.)
-/
namespace CUtil.Lackey
open CUtil.Conc CUtil.WaitFree

/-- The steps a notification still has to make, at most. -/
def left : NPc → Nat
  | .out | .ret _ => 0
  | .inside _ _ => 1
  | .use _ _ => 2
  | .get _ => 3
  | .read _ => 4

theorem move {calm : Bool} {s s' : Sys} (st : Step calm s s') (t : Nat) (hp : Busy (s.pc t)) (hm : s'.pc t ≠ s.pc t) : left (s'.pc t) < left (s.pc t) := by
  obtain ⟨h1, h2⟩ := hp
  cases st <;> simp only [upd_apply] at hm ⊢ <;> (try split at hm) <;> (try split) <;> simp_all [left]

/-- A notification under way can go on in every state, also while init or deinit is under way. -/
theorem notification_never_blocked {calm : Bool} {s : Sys} (t : Nat) (hp : Busy (s.pc t)) : ∃ s', Step calm s s' ∧ s'.pc t ≠ s.pc t := by
  obtain ⟨h1, h2⟩ := hp
  cases h : s.pc t with
  | out => exact absurd h h1
  | ret r => exact absurd h (h2 r)
  | read r =>
    cases hc : s.cell with
    | true => exact ⟨_, .callback s t r h hc, by simp⟩
    | false => exact ⟨_, .noCallback s t r h hc, by simp⟩
  | get r =>
    cases hd : s.disp with
    | none => exact ⟨_, .getNull s t r h hd, by simp⟩
    | some d => exact ⟨_, .get s t r d h hd, by simp⟩
  | use d r => exact ⟨_, .use s t r d h, by simp⟩
  | inside d r => exact ⟨_, .leave s t r d h, by simp⟩

/-- However many steps others make, the loader gets back from DllMain after at most four steps of the thread. -/
theorem notification_wait_free {calm : Bool} (σ : Nat → Sys) (hr : ∀ n, σ (n + 1) = σ n ∨ Step calm (σ n) (σ (n + 1))) (t i n : Nat)
    (hin : ∀ k, k < n → Busy ((σ (i + k)).pc t)) : changes (fun k => (σ k).pc t) i n ≤ 4 := by
  have := changes_le (fun k => (σ k).pc t) left i n (fun k hk hm => by
    rcases hr (i + k) with h | h
    · exact absurd (by simp only [h]) hm
    · exact move h t (hin k hk) hm)
  have h4 : left ((σ i).pc t) ≤ 4 := by cases (σ i).pc t <;> simp [left]
  omega

/-- A notification when nothing is initialised: one step. -/
example : ∃ σ : Nat → Sys, (∀ n, σ (n + 1) = σ n ∨ Step true (σ n) (σ (n + 1))) ∧ (∀ k, k < 1 → Busy ((σ k).pc 1)) ∧
    changes (fun k => (σ k).pc 1) 0 1 = 1 := by
  refine ⟨fun n => match n with | 0 => { init with pc := upd init.pc 1 (.read .attach) } | _ => { init with pc := upd (upd init.pc 1 (.read .attach)) 1 (.ret .attach) }, ?_, ?_, rfl⟩
  · intro n
    match n with
    | 0 => exact Or.inr (.noCallback _ 1 .attach rfl rfl)
    | _ + 1 => exact Or.inl rfl
  · intro k hk
    match k, hk with
    | 0, _ => exact ⟨(by intro hh; cases hh), (by intro r hh; cases hh)⟩

/-- The steps init or deinit still has to make, at most. -/
def mleft : MPc → Nat
  | .out => 0
  | .iSet | .dSet => 1
  | .iLackey | .dDrop => 2
  | .iStore _ | .dLackey => 3
  | .iCreate | .dState => 4
  | .iState => 5

theorem mmove {calm : Bool} {s s' : Sys} (st : Step calm s s') (hp : s.main ≠ .out) (hm : s'.main ≠ s.main) : mleft s'.main < mleft s.main := by
  cases st <;> simp_all [mleft]

/-- Init and deinit can go on in every state, also while notifications are under way: deinit does not wait for them (see
`deinit_races`). -/
theorem init_never_blocked {calm : Bool} {s : Sys} (hp : s.main ≠ .out) : ∃ s', Step calm s s' ∧ s'.main ≠ s.main := by
  cases h : s.main with
  | out => exact absurd h hp
  | iState =>
    cases hs : s.st with
    | true => exact ⟨_, .iAlready s h hs, by simp⟩
    | false => exact ⟨_, .iNotYet s h hs, by simp⟩
  | iCreate => exact ⟨_, .iCreateFails s h, by simp⟩
  | iStore d => exact ⟨_, .iStore s d h, by simp⟩
  | iLackey => exact ⟨_, .iLackey s h, by simp⟩
  | iSet => exact ⟨_, .iSet s h, by simp⟩
  | dState =>
    cases hs : s.st with
    | true => exact ⟨_, .dIsInit s h hs, by simp⟩
    | false => exact ⟨_, .dNotInit s h hs, by simp⟩
  | dLackey => exact ⟨_, .dLackey s h, by simp⟩
  | dDrop => exact ⟨_, .dDrop s h, by simp⟩
  | dSet => exact ⟨_, .dSet s h, by simp⟩

/-- However many steps others make, init and deinit make at most five of their own until they return. -/
theorem init_wait_free {calm : Bool} (σ : Nat → Sys) (hr : ∀ n, σ (n + 1) = σ n ∨ Step calm (σ n) (σ (n + 1))) (i n : Nat)
    (hin : ∀ k, k < n → (σ (i + k)).main ≠ .out) : changes (fun k => (σ k).main) i n ≤ 5 := by
  have := changes_le (fun k => (σ k).main) mleft i n (fun k hk hm => by
    rcases hr (i + k) with h | h
    · exact absurd (by simp only [h]) hm
    · exact mmove h (hin k hk) hm)
  have h5 : mleft (σ i).main ≤ 5 := by cases (σ i).main <;> simp [mleft]
  omega

/-- A deinit that finds nothing to do: one step. -/
example : ∃ σ : Nat → Sys, (∀ n, σ (n + 1) = σ n ∨ Step true (σ n) (σ (n + 1))) ∧ (∀ k, k < 1 → (σ k).main ≠ .out) ∧
    changes (fun k => (σ k).main) 0 1 = 1 := by
  refine ⟨fun n => match n with | 0 => { init with main := .dState } | _ => init, ?_, ?_, rfl⟩
  · intro n
    match n with
    | 0 => exact Or.inr (.dNotInit _ rfl rfl)
    | _ + 1 => exact Or.inl rfl
  · intro k hk
    match k, hk with
    | 0, _ => intro hh; cases hh

end CUtil.Lackey
