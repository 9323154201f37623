import Verif.Lackey.Model
set_option linter.unusedSimpArgs false
set_option linter.unusedVariables false
/-
C74: thread notifications: which callback the lackey calls, what a thread that starts or ends dispatches, and that deinit must not overlap.
-/
namespace CUtil.Lackey
open CUtil.Conc

/-! ### The lackey alone -/

/-- The callbacks passed to init calls since the last deinit, the last call first. -/
def sinceDeinit (ops : List Op) : List Nat :=
  (ops.takeWhile (· ≠ .deinit)).filterMap fun
    | .init f => f
    | .deinit => none

/-- C74: after any calls of the lackey's functions, by any threads, in whatever order the exchanges take place: the callback in force is the first one that was given since the last deinit. -/
theorem in_force (ops : List Op) : after ops = (sinceDeinit ops).getLast? := by
  induction ops with
  | nil => rfl
  | cons op ops ih =>
    cases op with
    | deinit => rfl
    | init f =>
      cases f with
      | none => simpa [after, initCallback, sinceDeinit] using ih
      | some f =>
        have e : sinceDeinit (.init (some f) :: ops) = f :: sinceDeinit ops := by simp [sinceDeinit]
        rw [e, after, ih]
        cases h : (sinceDeinit ops).getLast? with
        | none => rw [List.getLast?_eq_none_iff] at h; simp [h, initCallback]
        | some g =>
          obtain ⟨l, hl⟩ := List.getLast?_eq_some_iff.mp h
          rw [hl, ← List.cons_append, List.getLast?_concat]
          rfl

/-- C74: an init succeeds exactly if it is given a callback and none was given since the last deinit. -/
theorem init_once (ops : List Op) (f : Option Nat) : (initCallback (after ops) f).2 = true ↔ f ≠ none ∧ sinceDeinit ops = [] := by
  rw [in_force]
  cases f with
  | none => simp [initCallback]
  | some f =>
    cases h : (sinceDeinit ops).getLast? with
    | none => rw [List.getLast?_eq_none_iff] at h; simp [h, initCallback]
    | some g =>
      obtain ⟨l, hl⟩ := List.getLast?_eq_some_iff.mp h
      simp [hl, initCallback]

/-- C74: when a thread starts or ends, the lackey calls the callback in force, if there is one, with the right reason, once, and lets the thread start. -/
theorem dll_main_spec (ops : List Op) (loggerOk : Bool) :
    dllMain (after ops) .threadAttach loggerOk = .returned true ((sinceDeinit ops).getLast?.map fun f => (f, .attach)) ∧
    dllMain (after ops) .threadDetach loggerOk = .returned true ((sinceDeinit ops).getLast?.map fun f => (f, .detach)) ∧
    dllMain (after ops) .processAttach loggerOk = .returned loggerOk none ∧
    dllMain (after ops) .processDetach loggerOk = .returned true none ∧
    dllMain (after ops) .unknown loggerOk = .terminated := by
  simp [dllMain, in_force]

example : after [.init (some 7), .init (some 3), .init none, .deinit, .init (some 1)] = some 3 := rfl
example : (initCallback (after [.deinit, .init (some 1)]) (some 2)).2 = true := rfl

/-! ### With the dispatcher -/

/-- Holds in every reachable state. -/
structure Inv (calm : Bool) (s : Sys) : Prop where
  cellOn : s.cell = true → s.main ≠ .iCreate ∧ (∀ d, s.main ≠ .iStore d) ∧ s.main ≠ .iLackey ∧ s.main ≠ .dDrop ∧ s.main ≠ .dSet
  cellSt : s.main = .out ∨ s.main = .iState ∨ s.main = .dState → s.cell = s.st
  stNo : s.main = .iCreate ∨ (∃ d, s.main = .iStore d) ∨ s.main = .iLackey ∨ s.main = .iSet → s.st = false
  dCell : s.main = .dLackey → s.cell = true
  iCell : s.main = .iSet → s.cell = true
  has : s.cell = true ∨ s.main = .iLackey ∨ s.main = .dDrop → ∃ d, s.disp = some d
  hasNot : s.main = .dSet ∨ s.main = .iCreate ∨ (∃ d, s.main = .iStore d) → s.disp = none
  hasNot2 : (s.main = .out ∨ s.main = .iState ∨ s.main = .dState) → s.st = false → s.disp = none
  live : ∀ d, s.disp = some d ∨ s.main = .iStore d → s.alive d = true ∧ d < s.fresh
  q : ∀ t, s.quiet t = true → s.main = .out
  qRead : ∀ t r, s.pc t = .read r → s.did t = []
  qGet : ∀ t r, s.pc t = .get r → s.did t = [] ∧ (s.quiet t = true → s.st = true)
  qUse : ∀ t r d, s.pc t = .use d r → s.did t = [] ∧ (s.quiet t = true → s.disp = some d)
  qIn : ∀ t r d, s.pc t = .inside d r → s.did t = [(d, r)] ∧ (s.quiet t = true → s.disp = some d)
  qRet : ∀ t r, s.pc t = .ret r → s.did t = [] ∨ ∃ d, s.did t = [(d, r)]
  qRetYes : ∀ t r, s.pc t = .ret r → s.quiet t = true → s.st = true → ∃ d, s.disp = some d ∧ s.did t = [(d, r)]
  qRetNo : ∀ t r, s.pc t = .ret r → s.quiet t = true → s.st = false → s.did t = []
  idle : ∀ t, s.pc t = .out → s.did t = []
  calmUse : calm = true → ∀ t r d, s.pc t = .use d r → s.disp = some d
  calmIn : calm = true → ∀ t r d, s.pc t = .inside d r → s.disp = some d
  calmDe : calm = true → Deinit s.main → ∀ t, ¬ Busy (s.pc t)
  good : calm = true → s.bad = false
  reason : ∀ t r, (s.pc t = .read r ∨ s.pc t = .get r ∨ (∃ d, s.pc t = .use d r) ∨ (∃ d, s.pc t = .inside d r) ∨ s.pc t = .ret r) → r = s.why t

set_option maxHeartbeats 16000000 in
theorem inv_step {calm : Bool} {s s' : Sys} (hi : Inv calm s) (st : Step calm s s') : Inv calm s' := by
  obtain ⟨h1, h2, h3, h4, h5, h6, h7, h8, h9, h10, h11, h12, h13, h14, h15, h16, h17, h18, h19, h20, h21, h22, h23⟩ := hi
  cases st <;> constructor <;> simp only [upd_apply, Busy, Deinit] at * <;> grind

theorem inv {calm : Bool} {s : Sys} (h : Reach calm s) : Inv calm s := by
  induction h with
  | init => constructor <;> simp [init, Deinit]
  | step _ st ih => exact inv_step ih st

/-- C74: a notification during which no init or deinit is under way is dispatched exactly once, with its reason, to the module's dispatcher, if the module is initialised; and not at all if it is not. -/
theorem notified {calm : Bool} {s : Sys} {t : Nat} {r : Reason} (h : Reach calm s) (hp : s.pc t = .ret r) (hq : s.quiet t = true) :
    (s.st = true → ∃ d, s.disp = some d ∧ s.did t = [(d, s.why t)]) ∧ (s.st = false → s.did t = []) := by
  rw [← (inv h).reason t r (by simp [hp])]
  exact ⟨(inv h).qRetYes t r hp hq, (inv h).qRetNo t r hp hq⟩

/-- C74: whatever overlaps, a notification is dispatched at most once, and with its reason. -/
theorem at_most_once {calm : Bool} {s : Sys} {t : Nat} {r : Reason} (h : Reach calm s) (hp : s.pc t = .ret r) : s.did t = [] ∨ ∃ d, s.did t = [(d, s.why t)] := by
  rw [← (inv h).reason t r (by simp [hp])]
  exact (inv h).qRet t r hp

/-- C74: if no thread starts or ends while deinit is under way, no notification uses a dispatcher that does not exist. -/
theorem calm_safe {s : Sys} (h : Reach true s) : s.bad = false := (inv h).good rfl

/-- C74: between calls the callback is registered with the DLL exactly if the module is initialised; and init never finds one registered when it
registers the module's (so this does not fail, as long as nobody else uses the DLL). -/
theorem callback_set {calm : Bool} {s : Sys} (h : Reach calm s) : (s.main = .out → (s.cell = true ↔ s.st = true)) ∧ (s.main = .iLackey → s.cell = false) := by
  refine ⟨fun hm => by rw [(inv h).cellSt (.inl hm)], fun hm => ?_⟩
  cases hc : s.cell with
  | false => rfl
  | true => exact absurd hm ((inv h).cellOn hc).2.2.1

/-- The module is initialised, with dispatcher 0. -/
theorem initialised (calm : Bool) : Reach calm ⟨true, true, some 0, upd (fun _ => false) 0 true, 1, .out, fun _ => .out, false, fun _ => [], fun _ => false, fun _ => .attach⟩ := by
  have h := Reach.init (calm := calm) |>.step (.iCall init rfl) |>.step (.iNotYet _ rfl rfl) |>.step (.iCreate _ rfl) |>.step (.iStore _ 0 rfl) |>.step (.iLackey _ rfl) |>.step (.iSet _ rfl)
  exact h

/-- The hypotheses can be met: a thread starts when the module is initialised. -/
example : ∃ s, Reach true s ∧ s.pc 5 = .ret .attach ∧ s.quiet 5 = true ∧ s.st = true ∧ s.did 5 = [(0, .attach)] ∧ s.why 5 = .attach := by
  have h := (initialised true).step (.notify _ 5 .attach (.inl rfl) (by simp [Deinit])) |>.step (.callback _ 5 .attach (by simp [upd]) rfl)
    |>.step (.get _ 5 .attach 0 (by simp [upd]) rfl) |>.step (.use _ 5 .attach 0 (by simp [upd])) |>.step (.leave _ 5 .attach 0 (by simp [upd]))
  exact ⟨_, h, by simp [upd], by simp [upd], rfl, by simp [upd], by simp [upd]⟩

/-- The module is initialised again after deinit (`callback_set`). -/
example : ∃ s, Reach true s ∧ s.main = .iLackey ∧ s.disp = some 1 ∧ s.cell = false := by
  have h := (initialised true).step (.dCall _ rfl (by simp [Busy])) |>.step (.dIsInit _ rfl rfl) |>.step (.dLackey _ rfl) |>.step (.dDrop _ rfl) |>.step (.dSet _ rfl)
    |>.step (.iCall _ rfl) |>.step (.iNotYet _ rfl rfl) |>.step (.iCreate _ rfl) |>.step (.iStore _ 1 rfl)
  exact ⟨_, h, rfl, rfl, rfl⟩

/-- Finding: a thread that starts while deinit is under way can use the dispatcher after it has been disposed of. -/
theorem deinit_races : ∃ s, Reach false s ∧ s.bad = true ∧ s.main = .out ∧ s.st = false := by
  have h := (initialised false).step (.notify _ 5 .attach (.inl rfl) (by simp)) |>.step (.callback _ 5 .attach (by simp [upd]) rfl)
    |>.step (.get _ 5 .attach 0 (by simp [upd]) rfl) |>.step (.dCall _ rfl (by simp)) |>.step (.dIsInit _ rfl rfl) |>.step (.dLackey _ rfl) |>.step (.dDrop _ rfl) |>.step (.dSet _ rfl)
    |>.step (.use _ 5 .attach 0 (by simp [upd]))
  exact ⟨_, h, by simp [upd], rfl, rfl⟩

/-- Finding: deinit can return while a notification that found the callback before is still to be dispatched. -/
theorem dispatch_after_deinit : ∃ s, Reach false s ∧ s.main = .out ∧ s.st = false ∧ s.did 5 = [] ∧ (∃ s', Step false s s' ∧ s'.did 5 = [(0, .attach)]) := by
  have h := (initialised false).step (.notify _ 5 .attach (.inl rfl) (by simp)) |>.step (.callback _ 5 .attach (by simp [upd]) rfl)
    |>.step (.get _ 5 .attach 0 (by simp [upd]) rfl) |>.step (.dCall _ rfl (by simp)) |>.step (.dIsInit _ rfl rfl) |>.step (.dLackey _ rfl) |>.step (.dDropShared _ rfl) |>.step (.dSet _ rfl)
  exact ⟨_, h, rfl, rfl, by simp [upd], _, .use _ 5 .attach 0 (by simp [upd]), by simp [upd]⟩

end CUtil.Lackey
