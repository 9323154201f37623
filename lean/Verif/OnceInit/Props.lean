import Verif.OnceInit.Model
/-
C46: one-time global initialisation.
-/
set_option linter.unusedSimpArgs false
set_option linter.unusedVariables false

namespace CUtil.OnceInit.Pool
open CUtil.Conc

/-- What the state says of a thread in the body. -/
def stOf : Pc → Option St
  | .iCreate | .iStore _ | .iOk | .iBack => some .initializing
  | .dDrop | .dBack => some .deinitializing
  | .out | .iCas | .iRet _ | .dCas | .gRead | .gLoad | .gInc _ | .gRet _ => none

structure Inv (s : Sys) : Prop where
  one : ∀ t u m n, stOf (s.pc t) = some m → stOf (s.pc u) = some n → t = u
  st : ∀ t m, stOf (s.pc t) = some m → s.st = m
  ex : s.st = .initializing ∨ s.st = .deinitializing → ∃ t, inBody (s.pc t) = true
  ok : s.st = .ok → ∃ p, s.g = some p
  nok : s.st = .notInit → s.g = none
  cr : ∀ t, s.pc t = .iCreate ∨ s.pc t = .iBack ∨ s.pc t = .dBack → s.g = none
  stg : ∀ t p, s.pc t = .iStore p → s.g = none ∧ p < s.fresh ∧ s.refs p = 1 ∧ s.held p = 0
  iok : ∀ t, s.pc t = .iOk ∨ s.pc t = .dDrop → ∃ p, s.g = some p
  lt : ∀ p, s.g = some p → p < s.fresh
  new : ∀ p, s.fresh ≤ p → s.refs p = 0 ∧ s.held p = 0
  pub : ∀ t p, s.pc t = .gInc p → p < s.fresh ∧ ∀ u, s.pc u ≠ .iStore p
  cnt : ∀ p, (∀ u, s.pc u ≠ .iStore p) → s.refs p = s.held p + (if s.g = some p then 1 else 0)

set_option maxHeartbeats 4000000 in
theorem inv_step {excl s s'} (h : Inv s) (st : Step excl s s') : Inv s' := by
  obtain ⟨h1, h2, h3, h4, h5, h6, h7, h8, h9, h10, h11, h12⟩ := h
  have hs : ∀ p, stOf p ≠ some .ok ∧ stOf p ≠ some .notInit ∧ (inBody p = true ↔ stOf p ≠ none) := by intro p; cases p <;> simp [stOf, inBody]
  cases st <;> constructor <;> simp only [upd] <;> grind [stOf, inBody]

theorem inv {excl s} (h : Reach excl s) : Inv s := by
  induction h with
  | init => constructor <;> simp [init, stOf]
  | step _ st ih => exact inv_step ih st

structure Excl (s : Sys) : Prop where
  ex : ∀ t u, inGet (s.pc t) = true → inDeinit (s.pc u) = false
  load : ∀ t, s.pc t = .gLoad → s.st = .ok
  inc : ∀ t p, s.pc t = .gInc p → s.g = some p ∧ s.st = .ok
  good : s.bad = false

set_option maxHeartbeats 4000000 in
theorem excl_step {s s'} (hi : Inv s) (h : Excl s) (st : Step true s s') : Excl s' := by
  obtain ⟨h1, h2, h3, h4, h5, h6, h7, h8, h9, h10, h11, h12⟩ := hi
  obtain ⟨g1, g2, g3, g4⟩ := h
  cases st <;> constructor <;> simp only [upd] <;> grind [stOf, inGet, inDeinit]

theorem excl_inv {s} (h : Reach true s) : Excl s := by
  induction h with
  | init => constructor <;> simp [init, inGet]
  | step hr st ih => exact excl_step (inv hr) ih st

/-! ### C46 -/

/-- C46: for all schedules of any number of init, deinit and get calls, at most one thread is ever inside the body of init or deinit. -/
theorem body_exclusive {excl s} (h : Reach excl s) (t u : Nat) (ht : inBody (s.pc t) = true) (hu : inBody (s.pc u) = true) : t = u := by
  have hs : ∀ p, inBody p = true → ∃ m, stOf p = some m := by intro p; cases p <;> simp [stOf, inBody]
  obtain ⟨m, hm⟩ := hs _ ht
  obtain ⟨n, hn⟩ := hs _ hu
  exact (inv h).one t u m n hm hn

/-- C46: an init that starts its body found no pool: it is refused unless every earlier init has failed or been undone; so between a successful init and
the next deinit every other init fails. -/
theorem init_refused {excl s s'} (h : Reach excl s) (hg : s.st = .ok) (t : Nat) (hp : s.pc t = .iCas) (st : Step excl s s') (hm : s'.pc t ≠ s.pc t) :
    s'.pc t = .iRet false ∧ s'.st = .ok ∧ s'.g = s.g := by
  cases st <;> simp only [upd] at hm ⊢ <;> grind

/-- C46: whenever the state says that it is initialised there is a pool, and it has not been disposed of; otherwise there is no pool (except that one
call of init or deinit may be under way).  So a failed init leaves nothing behind. -/
theorem initialised_iff_pool {excl s} (h : Reach excl s) :
    (s.st = .ok → ∃ p, s.g = some p ∧ 0 < s.refs p) ∧ (s.st = .notInit → s.g = none) := by
  have hi := inv h
  refine ⟨fun hk => ?_, hi.nok⟩
  obtain ⟨p, hp⟩ := hi.ok hk
  refine ⟨p, hp, ?_⟩
  have := hi.cnt p (fun u hu => by have := (hi.stg u p hu).1; simp [hp] at this)
  simp [hp] at this
  omega

/-- C46: no leak: once the module is back in its initial state the only references left are the ones users hold. -/
theorem no_leak {excl s} (h : Reach excl s) (hk : s.st = .notInit) (p : Nat) : s.refs p = s.held p := by
  have hi := inv h
  have hg := hi.nok hk
  have := hi.cnt p (fun u hu => by have := hi.st u .initializing (by rw [hu]; rfl); simp [hk] at this)
  simpa [hg] using this

/-- C46: if the callers never let get overlap deinit, get returns the pool of the initialised module, alive, and nothing ever touches a disposed pool. -/
theorem get_partial {s} (h : Reach true s) :
    s.bad = false ∧ (∀ t p, s.pc t = .gInc p → s.g = some p ∧ 0 < s.refs p) := by
  have hi := inv h
  have he := excl_inv h
  refine ⟨he.good, fun t p ht => ?_⟩
  have hg := (he.inc t p ht).1
  have := hi.cnt p (hi.pub t p ht).2
  simp [hg] at this
  exact ⟨hg, by omega⟩

/-- C46 is false without that: get may see the initialised state and read the pointer, deinit dispose of the pool, and get then take a reference to the
disposed pool and return it. -/
theorem get_race : ∃ s, Reach false s ∧ s.bad = true ∧ s.st = .notInit ∧ s.pc 1 = .gRet (some 0) := by
  have h0 : Reach false _ := Reach.init
  have h1 := h0.step (.init _ 0 (by simp [init]))
  have h2 := h1.step (.iCasOk _ 0 (by simp) (by simp [init]))
  have h3 := h2.step (.iCreateOk _ 0 (by simp))
  have h4 := h3.step (.iStore _ 0 0 (by simp [init]))
  have h5 := h4.step (.iOk _ 0 (by simp))
  have h6 := h5.step (.iRet _ 0 true (by simp))
  have h7 := h6.step (.get _ 1 (by simp [upd, init]) (by simp))
  have h8 := h7.step (.gReadOk _ 1 (by simp) (by simp))
  have h9 := h8.step (.gLoad _ 1 0 (by simp) (by simp))
  have h10 := h9.step (.deinit _ 0 (by simp [upd]) (by simp))
  have h11 := h10.step (.dCasOk _ 0 (by simp) (by simp))
  have h12 := h11.step (.dDrop _ 0 0 (by simp) (by simp))
  have h13 := h12.step (.dBack _ 0 (by simp))
  have h14 := h13.step (.gInc _ 1 0 (by simp [upd]))
  exact ⟨_, h14, by simp [upd, init], rfl, by simp⟩

/-- After a successful init get returns the pool. -/
example : ∃ s, Reach true s ∧ s.pc 1 = .gRet (some 0) ∧ s.st = .ok ∧ s.refs 0 = 2 ∧ s.held 0 = 1 := by
  have h0 : Reach true _ := Reach.init
  have h1 := h0.step (.init _ 0 (by simp [init]))
  have h2 := h1.step (.iCasOk _ 0 (by simp) (by simp [init]))
  have h3 := h2.step (.iCreateOk _ 0 (by simp))
  have h4 := h3.step (.iStore _ 0 0 (by simp [init]))
  have h5 := h4.step (.iOk _ 0 (by simp))
  have h6 := h5.step (.iRet _ 0 true (by simp))
  have h7 := h6.step (.get _ 1 (by simp [upd, init]) (by intro _ u; simp only [upd, init]; grind [inDeinit]))
  have h8 := h7.step (.gReadOk _ 1 (by simp) (by simp))
  have h9 := h8.step (.gLoad _ 1 0 (by simp) (by simp))
  have h10 := h9.step (.gInc _ 1 0 (by simp [upd]))
  exact ⟨_, h10, by simp, rfl, by simp [upd, init], by simp [upd, init]⟩

/-- Two inits at once: the second one meets the hypotheses of `init_refused` once the first has finished. -/
example : ∃ s, Reach true s ∧ s.st = .ok ∧ s.pc 1 = .iCas := by
  have h0 : Reach true _ := Reach.init
  have h1 := h0.step (.init _ 0 (by simp [init]))
  have h2 := h1.step (.init _ 1 (by simp [init, upd]))
  have h3 := h2.step (.iCasOk _ 0 (by simp [upd]) (by simp [init]))
  have h4 := h3.step (.iCreateOk _ 0 (by simp))
  have h5 := h4.step (.iStore _ 0 0 (by simp [init]))
  have h6 := h5.step (.iOk _ 0 (by simp))
  exact ⟨_, h6, rfl, by simp [upd]⟩

end CUtil.OnceInit.Pool

namespace CUtil.OnceInit.Notif
open CUtil.Conc

theorem dropObj_apply (a : Nat → Bool) (g : Option Nat) (p : Nat) : dropObj a g p = true ↔ a p = true ∧ g ≠ some p := by
  cases g with
  | none => simp [dropObj]
  | some q =>
    by_cases h : p = q
    · subst h; simp [dropObj, upd]
    · have : ¬ q = p := fun e => h e.symm
      simp [dropObj, upd, h, this]

/-- The calls of one thread at a time, and what holds at each place. -/
structure Inv (s : Sys) : Prop where
  one : ∀ t u, s.pc t ≠ .out → s.pc u ≠ .out → t = u
  idle : (∀ t, s.pc t = .out) → (s.st = true → s.lackey = true ∧ s.foreign = false ∧ s.g ≠ none) ∧ (s.st = false → s.lackey = s.foreign ∧ s.g = none)
  chk : ∀ t, (s.pc t = .iCheck ∨ s.pc t = .dCheck ∨ (∃ b, s.pc t = .iRet b)) →
    (s.st = true → s.lackey = true ∧ s.foreign = false ∧ s.g ≠ none) ∧ (s.st = false → s.lackey = s.foreign ∧ s.g = none)
  cre : ∀ t, s.pc t = .iCreate → s.st = false ∧ s.lackey = s.foreign ∧ s.g = none
  sto : ∀ t p, s.pc t = .iStore p → s.st = false ∧ s.lackey = s.foreign ∧ s.g = none ∧ s.alive p = true
  lac : ∀ t, s.pc t = .iLackey → s.st = false ∧ s.lackey = s.foreign ∧ s.g ≠ none
  set : ∀ t, s.pc t = .iSet → s.lackey = true ∧ s.foreign = false ∧ s.g ≠ none
  und : ∀ t, s.pc t = .iUndo → s.st = false ∧ s.lackey = s.foreign ∧ s.g ≠ none
  ret : ∀ t, s.pc t = .iRet true → s.st = true
  dla : ∀ t, s.pc t = .dLackey → s.st = true ∧ s.lackey = true ∧ s.foreign = false
  ddr : ∀ t, s.pc t = .dDrop → s.lackey = s.foreign
  dse : ∀ t, s.pc t = .dSet → s.lackey = s.foreign ∧ s.g = none
  alv : ∀ p, s.g = some p → s.alive p = true
  own : ∀ p, s.alive p = true → s.g = some p ∨ ∃ t, s.pc t = .iStore p
  lt : ∀ p, s.alive p = true → p < s.fresh
  frg : s.foreign = true → s.lackey = true

set_option maxHeartbeats 4000000 in
theorem inv_step {s s'} (h : Inv s) (st : Step true s s') : Inv s' := by
  obtain ⟨h1, h2, h3, h4, h5, h6, h7, h8, h9, h10, h11, h12, h13, h14, h15, h16⟩ := h
  cases st <;> constructor <;> simp only [upd] <;> grind [dropObj_apply]

theorem inv {s} (h : Reach true s) : Inv s := by
  induction h with
  | init => constructor <;> simp [init]
  | step _ st ih => exact inv_step ih st

/-- C46 for the thread notifications, when calls are made one at a time: a successful init leaves a live dispatcher and the module's callback set. -/
theorem init_partial {s} (h : Reach true s) (t : Nat) (hr : s.pc t = .iRet true) :
    s.st = true ∧ s.lackey = true ∧ s.foreign = false ∧ ∃ p, s.g = some p ∧ s.alive p = true := by
  have hi := inv h
  have hs := hi.ret t hr
  obtain ⟨hl, hf, hg⟩ := (hi.chk t (.inr (.inr ⟨_, hr⟩))).1 hs
  obtain ⟨p, hp⟩ := Option.ne_none_iff_exists'.1 hg
  exact ⟨hs, hl, hf, p, hp, hi.alv p hp⟩

/-- … and while it is not initialised, between calls, no dispatcher exists and the only callback that can be
set is somebody else's: neither a failed init, including one refused because of somebody else's callback, nor deinit leaves anything. -/
theorem no_leak_partial {s} (h : Reach true s) (hq : ∀ t, s.pc t = .out) (hs : s.st = false) :
    s.lackey = s.foreign ∧ s.g = none ∧ ∀ p, s.alive p = false := by
  have hi := inv h
  obtain ⟨hl, hg⟩ := (hi.idle hq).2 hs
  refine ⟨hl, hg, fun p => ?_⟩
  cases ha : s.alive p with
  | false => rfl
  | true =>
    rcases hi.own p ha with h1 | ⟨t, h1⟩
    · simp [hg] at h1
    · simp [hq t] at h1

/-- … and an init while it is initialised fails and changes nothing. -/
theorem second_init_partial {s s'} (t : Nat) (hp : s.pc t = .iCheck) (hs : s.st = true) (st : Step true s s') (hr : Reach true s) :
    s' = { s with pc := upd s.pc t (.iRet false) } := by
  have h1 := (inv hr).one
  have h2 := (inv hr).chk t (.inl hp)
  cases st <;> grind

/-- C46 is false for the thread notifications when two inits run at once: the state is read and written without any protection, both go through, the
first returns 0, and the second, refused by the lackey, throws away the dispatcher: the module is initialised without a dispatcher, and the dispatcher
of the first is leaked. -/
theorem two_inits : ∃ s, Reach false s ∧ s.pc 0 = .iRet true ∧ s.pc 1 = .iRet false ∧ s.st = true ∧ s.lackey = true ∧ s.g = none ∧ s.alive 0 = true := by
  have h0 : Reach false _ := Reach.init
  have h1 := h0.step (.init _ 0 (by simp [init]) (by simp))
  have h2 := h1.step (.init _ 1 (by simp [init, upd]) (by simp))
  have h3 := h2.step (.iCheckOk _ 0 (by simp [upd]) (by simp [init]))
  have h4 := h3.step (.iCheckOk _ 1 (by simp [upd]) (by simp [init]))
  have h5 := h4.step (.iCreateOk _ 0 (by simp [upd]))
  have h6 := h5.step (.iStore _ 0 0 (by simp [init]))
  have h7 := h6.step (.iLackeyOk _ 0 (by simp) (by simp [init]))
  have h8 := h7.step (.iSet _ 0 (by simp))
  have h9 := h8.step (.iCreateOk _ 1 (by simp [upd]))
  have h10 := h9.step (.iStore _ 1 1 (by simp [init]))
  have h11 := h10.step (.iLackeyNo _ 1 (by simp) (by simp))
  have h12 := h11.step (.iUndo _ 1 (by simp))
  exact ⟨_, h12, by simp [upd], by simp, rfl, rfl, rfl, by simp [upd, init, dropObj]⟩

/-- init, then a second init, refused, one call at a time. -/
example : ∃ s, Reach true s ∧ s.pc 1 = .iCheck ∧ s.st = true ∧ s.g = some 0 := by
  have h0 : Reach true _ := Reach.init
  have h1 := h0.step (.init _ 0 (by simp [init]) (by simp [init]))
  have h2 := h1.step (.iCheckOk _ 0 (by simp [upd]) (by simp [init]))
  have h3 := h2.step (.iCreateOk _ 0 (by simp [upd]))
  have h4 := h3.step (.iStore _ 0 0 (by simp [init]))
  have h5 := h4.step (.iLackeyOk _ 0 (by simp) (by simp [init]))
  have h6 := h5.step (.iSet _ 0 (by simp))
  have h7 := h6.step (.iRet _ 0 true (by simp))
  have h8 := h7.step (.init _ 1 (by simp [upd, init]) (by intro _ u; simp only [upd, init]; grind))
  exact ⟨_, h8, by simp, rfl, rfl⟩

/-- An init refused by the lackey, somebody else having set a callback: nothing is left. -/
example : ∃ s, Reach true s ∧ s.pc 0 = .iRet false ∧ s.st = false ∧ s.foreign = true ∧ s.fresh = 1 ∧ s.alive 0 = false := by
  have h0 : Reach true _ := Reach.init
  have h1 := h0.step (.other _ (by simp [init]))
  have h2 := h1.step (.init _ 0 (by simp [init]) (by simp [init]))
  have h3 := h2.step (.iCheckOk _ 0 (by simp [upd]) (by simp [init]))
  have h4 := h3.step (.iCreateOk _ 0 (by simp [upd]))
  have h5 := h4.step (.iStore _ 0 0 (by simp [init]))
  have h6 := h5.step (.iLackeyNo _ 0 (by simp) (by simp))
  have h7 := h6.step (.iUndo _ 0 (by simp))
  exact ⟨_, h7, by simp, rfl, rfl, rfl, by simp [dropObj]⟩

end CUtil.OnceInit.Notif
