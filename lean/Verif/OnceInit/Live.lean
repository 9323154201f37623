import Verif.OnceInit.Props
import Verif.WaitFree
/-
The calls of the two modules with a global never block: a call in progress can always go on, whatever the others do, and returns after
a few steps of its own.
-/
namespace CUtil.OnceInit.Pool
open CUtil.Conc CUtil.WaitFree

/-- The steps a call still has to make, at most. -/
def left : Pc → Nat
  | .out => 0
  | .iRet _ | .gRet _ | .dBack => 1
  | .iOk | .iBack | .dDrop | .gInc _ => 2
  | .iStore _ | .dCas | .gLoad => 3
  | .iCreate | .gRead => 4
  | .iCas => 5

theorem move {excl s s'} (st : Step excl s s') (t : Nat) (hp : s.pc t ≠ .out) (hm : s'.pc t ≠ s.pc t) : left (s'.pc t) < left (s.pc t) := by
  cases st <;> simp only [upd_apply] at hm ⊢ <;> (try split at hm) <;> (try split) <;> simp_all [left]

/-- A call of init, deinit or get that is in progress can go on in every state, without waiting for another thread. -/
theorem never_blocked {excl : Bool} {s : Sys} (t : Nat) (hp : s.pc t ≠ .out) : ∃ s', Step excl s s' ∧ s'.pc t ≠ s.pc t := by
  cases h : s.pc t with
  | out => exact absurd h hp
  | iCas =>
    by_cases hs : s.st = .notInit
    · exact ⟨_, .iCasOk s t h hs, by simp [upd_apply]⟩
    · exact ⟨_, .iCasNo s t h hs, by simp [upd_apply]⟩
  | iCreate => exact ⟨_, .iCreateFail s t h, by simp [upd_apply]⟩
  | iStore p => exact ⟨_, .iStore s t p h, by simp [upd_apply]⟩
  | iOk => exact ⟨_, .iOk s t h, by simp [upd_apply]⟩
  | iBack => exact ⟨_, .iBack s t h, by simp [upd_apply]⟩
  | iRet b => exact ⟨_, .iRet s t b h, by simp [upd_apply]⟩
  | dCas =>
    by_cases hs : s.st = .ok
    · exact ⟨_, .dCasOk s t h hs, by simp [upd_apply]⟩
    · exact ⟨_, .dCasNo s t h hs, by simp [upd_apply]⟩
  | dDrop =>
    cases hg : s.g with
    | none => exact ⟨_, .dDropNull s t h hg, by simp [upd_apply]⟩
    | some p => exact ⟨_, .dDrop s t p h hg, by simp [upd_apply]⟩
  | dBack => exact ⟨_, .dBack s t h, by simp [upd_apply]⟩
  | gRead =>
    by_cases hs : s.st = .ok
    · exact ⟨_, .gReadOk s t h hs, by simp [upd_apply]⟩
    · exact ⟨_, .gReadNo s t h hs, by simp [upd_apply]⟩
  | gLoad =>
    cases hg : s.g with
    | none => exact ⟨_, .gLoadNull s t h hg, by simp [upd_apply]⟩
    | some p => exact ⟨_, .gLoad s t p h hg, by simp [upd_apply]⟩
  | gInc p => exact ⟨_, .gInc s t p h, by simp [upd_apply]⟩
  | gRet p => exact ⟨_, .gRet s t p h, by simp [upd_apply]⟩

/-- However many steps others make, a call makes at most five of its own until it returns. -/
theorem wait_free {excl : Bool} (σ : Nat → Sys) (hr : ∀ n, σ (n + 1) = σ n ∨ Step excl (σ n) (σ (n + 1))) (t i n : Nat)
    (hin : ∀ k, k < n → (σ (i + k)).pc t ≠ .out) : changes (fun k => (σ k).pc t) i n ≤ 5 := by
  have := changes_le (fun k => (σ k).pc t) left i n (fun k hk hm => by
    rcases hr (i + k) with h | h
    · exact absurd (by simp only [h]) hm
    · exact move h t (hin k hk) hm)
  have h5 : left ((σ i).pc t) ≤ 5 := by cases (σ i).pc t <;> simp [left]
  omega

/-- A successful init by thread 1: five steps. -/
example : ∃ σ : Nat → Sys, (∀ n, σ (n + 1) = σ n ∨ Step true (σ n) (σ (n + 1))) ∧ (∀ k, k < 5 → (σ k).pc 1 ≠ .out) ∧
    changes (fun k => (σ k).pc 1) 0 5 = 5 ∧ (σ 5).pc 1 = .out ∧ (σ 5).st = .ok := by
  let s0 : Sys := { init with pc := upd init.pc 1 .iCas }
  let s1 : Sys := { s0 with st := .initializing, pc := upd s0.pc 1 .iCreate }
  let s2 : Sys := { s1 with refs := upd s1.refs 0 1, fresh := 1, pc := upd s1.pc 1 (.iStore 0) }
  let s3 : Sys := { s2 with g := some 0, pc := upd s2.pc 1 .iOk }
  let s4 : Sys := { s3 with st := .ok, pc := upd s3.pc 1 (.iRet true) }
  let s5 : Sys := { s4 with pc := upd s4.pc 1 .out }
  refine ⟨fun n => match n with | 0 => s0 | 1 => s1 | 2 => s2 | 3 => s3 | 4 => s4 | _ => s5, ?_, ?_, ?_, rfl, rfl⟩
  · intro n
    match n with
    | 0 => exact Or.inr (.iCasOk s0 1 rfl rfl)
    | 1 => exact Or.inr (.iCreateOk s1 1 rfl)
    | 2 => exact Or.inr (.iStore s2 1 0 rfl)
    | 3 => exact Or.inr (.iOk s3 1 rfl)
    | 4 => exact Or.inr (.iRet s4 1 true rfl)
    | _ + 5 => exact Or.inl rfl
  · intro k hk
    match k, hk with
    | 0, _ | 1, _ | 2, _ | 3, _ | 4, _ => intro hh; cases hh
  · rfl

end CUtil.OnceInit.Pool

namespace CUtil.OnceInit.Notif
open CUtil.Conc CUtil.WaitFree

/-- The steps a call still has to make, at most. -/
def left : Pc → Nat
  | .out => 0
  | .iRet _ | .dSet => 1
  | .iSet | .iUndo | .dDrop => 2
  | .iLackey | .dLackey => 3
  | .iStore _ | .dCheck => 4
  | .iCreate => 5
  | .iCheck => 6

theorem move {serial s s'} (st : Step serial s s') (t : Nat) (hp : s.pc t ≠ .out) (hm : s'.pc t ≠ s.pc t) : left (s'.pc t) < left (s.pc t) := by
  cases st <;> simp only [upd_apply] at hm ⊢ <;> (try split at hm) <;> (try split) <;> simp_all [left]

/-- A call of init or deinit that is in progress can go on in every state, without waiting for another thread. -/
theorem never_blocked {serial : Bool} {s : Sys} (t : Nat) (hp : s.pc t ≠ .out) : ∃ s', Step serial s s' ∧ s'.pc t ≠ s.pc t := by
  cases h : s.pc t with
  | out => exact absurd h hp
  | iCheck =>
    cases hs : s.st with
    | true => exact ⟨_, .iCheckNo s t h hs, by simp [upd_apply]⟩
    | false => exact ⟨_, .iCheckOk s t h hs, by simp [upd_apply]⟩
  | iCreate => exact ⟨_, .iCreateFail s t h, by simp [upd_apply]⟩
  | iStore p => exact ⟨_, .iStore s t p h, by simp [upd_apply]⟩
  | iLackey =>
    cases hs : s.lackey with
    | true => exact ⟨_, .iLackeyNo s t h hs, by simp [upd_apply]⟩
    | false => exact ⟨_, .iLackeyOk s t h hs, by simp [upd_apply]⟩
  | iSet => exact ⟨_, .iSet s t h, by simp [upd_apply]⟩
  | iUndo => exact ⟨_, .iUndo s t h, by simp [upd_apply]⟩
  | iRet b => exact ⟨_, .iRet s t b h, by simp [upd_apply]⟩
  | dCheck =>
    cases hs : s.st with
    | true => exact ⟨_, .dCheckOk s t h hs, by simp [upd_apply]⟩
    | false => exact ⟨_, .dCheckNo s t h hs, by simp [upd_apply]⟩
  | dLackey => exact ⟨_, .dLackey s t h, by simp [upd_apply]⟩
  | dDrop => exact ⟨_, .dDrop s t h, by simp [upd_apply]⟩
  | dSet => exact ⟨_, .dSet s t h, by simp [upd_apply]⟩

/-- However many steps others make, a call makes at most six of its own until it returns. -/
theorem wait_free {serial : Bool} (σ : Nat → Sys) (hr : ∀ n, σ (n + 1) = σ n ∨ Step serial (σ n) (σ (n + 1))) (t i n : Nat)
    (hin : ∀ k, k < n → (σ (i + k)).pc t ≠ .out) : changes (fun k => (σ k).pc t) i n ≤ 6 := by
  have := changes_le (fun k => (σ k).pc t) left i n (fun k hk hm => by
    rcases hr (i + k) with h | h
    · exact absurd (by simp only [h]) hm
    · exact move h t (hin k hk) hm)
  have h6 : left ((σ i).pc t) ≤ 6 := by cases (σ i).pc t <;> simp [left]
  omega

/-- A deinit that finds nothing to do: one step. -/
example : ∃ σ : Nat → Sys, (∀ n, σ (n + 1) = σ n ∨ Step true (σ n) (σ (n + 1))) ∧ (∀ k, k < 1 → (σ k).pc 1 ≠ .out) ∧
    changes (fun k => (σ k).pc 1) 0 1 = 1 := by
  refine ⟨fun n => match n with | 0 => { init with pc := upd init.pc 1 .dCheck } | _ => { init with pc := upd (upd init.pc 1 .dCheck) 1 .out }, ?_, ?_, rfl⟩
  · intro n
    match n with
    | 0 => exact Or.inr (.dCheckNo _ 1 rfl rfl)
    | _ + 1 => exact Or.inl rfl
  · intro k hk
    match k, hk with
    | 0, _ => intro hh; cases hh

end CUtil.OnceInit.Notif
