import Verif.TpWorkerLife.Model
set_option linter.unusedSimpArgs false
set_option linter.unusedVariables false
/-
C63: the life of a threadpool worker.
-/
namespace CUtil.TpWorkerLife
open CUtil.Conc

/-! ### Invariant -/

/-- The thread is opening. -/
def opens : Pc → Bool
  | .oReset | .oPool | .oItem | .oOk | .oDrop | .oFail => true
  | _ => false
/-- The thread is closing. -/
def closes : Pc → Bool
  | .cWait _ | .cItem _ | .cPool _ | .cEnd _ => true
  | _ => false
/-- The thread is destroying, the object is closed. -/
def ends : Pc → Bool
  | .dRef | .dSm | .dFree => true
  | _ => false
/-- The thread is in destroy. -/
def destroys : Pc → Bool
  | .dRef | .dSm | .dFree | .cWait true | .cItem true | .cPool true | .cEnd true => true
  | _ => false
/-- The threadpool is there in this state of the one that opens or closes. -/
def hasPool : Pc → Bool
  | .oItem | .oOk | .oDrop | .cWait _ | .cItem _ | .cPool _ => true
  | _ => false
/-- The close was granted: the calls of schedule_process are over. -/
def granted : Pc → Bool
  | .cItem _ | .cPool _ | .cEnd _ => true
  | _ => false
def hasItem : Pc → Bool
  | .oOk | .cWait _ | .cItem _ => true
  | _ => false

/-- The thread is in destroy and the engine and the sm are still there. -/
def preRef : Pc → Bool
  | .dRef | .cWait true | .cItem true | .cPool true | .cEnd true => true
  | _ => false

/-- Who is where. -/
structure Who (s : Sys) : Prop where
  /-- the one that opens or closes -/
  one : ∀ t, (opens (s.pc t) = true ∨ closes (s.pc t) = true) → t = s.owner
  opening : ∀ t, opens (s.pc t) = true → s.gate = .opening
  closing : ∀ t, closes (s.pc t) = true → s.gate = .closing
  busy1 : s.gate = .opening → opens (s.pc s.owner) = true
  busy2 : s.gate = .closing → closes (s.pc s.owner) = true
  exec : ∀ t, inExec (s.pc t) = true → s.gate = .opened ∨ s.gate = .closing
  granted : ∀ t u, granted (s.pc t) = true → inExec (s.pc u) = false
  ending : ∀ t, ends (s.pc t) = true → s.gate = .created
  alone : ∀ t u, destroys (s.pc t) = true → t ≠ u → s.pc u = .out
  destroying : ∀ t, destroys (s.pc t) = true → s.destroyed = true
  dead : s.alive = false → s.gate = .created ∧ s.destroyed = true
  out : ∀ t, s.alive = false → s.pc t = .out

/-- The threadpools and work items. -/
structure Res (s : Sys) : Prop where
  pool : ∀ i, s.pool = some i → i < s.pools
  item : ∀ i, s.item = some i → i < s.items
  poolRel : ∀ i, i < s.pools → s.poolRel i = if s.pool = some i then 0 else 1
  itemRel : ∀ i, i < s.items → s.itemRel i = if s.item = some i then 0 else 1
  poolNew : ∀ i, s.pools ≤ i → s.poolRel i = 0
  itemNew : ∀ i, s.items ≤ i → s.itemRel i = 0
  openPool : s.gate = .opened → s.pool ≠ none ∧ s.item ≠ none
  closedPool : s.gate = .created → s.pool = none ∧ s.item = none
  opPool : (opens (s.pc s.owner) = true ∨ closes (s.pc s.owner) = true) →
    (s.pool ≠ none ↔ hasPool (s.pc s.owner) = true) ∧ (s.item ≠ none ↔ hasItem (s.pc s.owner) = true)
  work : ∀ i, 0 < s.work i → s.item = some i

/-- The engine and the gate. -/
structure Eng (s : Sys) : Prop where
  dead : s.alive = false → s.engine = 0 ∧ s.smLive = false
  before : s.destroyed = false → s.engine = 1 ∧ s.smLive = true
  atRef : ∀ t, preRef (s.pc t) = true → s.engine = 1 ∧ s.smLive = true
  atSm : ∀ t, s.pc t = .dSm → s.engine = 0 ∧ s.smLive = true
  atFree : ∀ t, s.pc t = .dFree → s.engine = 0 ∧ s.smLive = false

structure Inv (s : Sys) : Prop where
  who : Who s
  res : Res s
  eng : Eng s
  notBad : s.bad = false

theorem inv_init : Inv init := by
  refine ⟨?_, ?_, ?_, rfl⟩ <;> constructor <;> simp [init, opens, closes, ends, inExec, destroys, hasPool, hasItem, preRef, granted]

theorem cls (p : Pc) : (ends p = true → destroys p = true ∧ opens p = false ∧ closes p = false ∧ inExec p = false) ∧
    (preRef p = true → destroys p = true) ∧ (granted p = true → closes p = true) ∧ (opens p = true → closes p = false ∧ inExec p = false) ∧
    (closes p = true → inExec p = false ∧ opens p = false) ∧ (destroys p = true → ends p = true ∨ closes p = true) := by
  cases p with
  | cWait d | cItem d | cPool d | cEnd d => cases d <;> decide
  | _ => decide

theorem bump_apply (h : Option Nat) (f : Nat → Nat) (i : Nat) : bump h f i = if h = some i then f i + 1 else f i := by
  cases h with
  | none => simp [bump]
  | some k => simp only [bump, upd, Option.some.injEq]; split <;> split <;> simp_all

theorem uses_iff (h : Option Nat) (f : Nat → Nat) : uses h f = true ↔ h ≠ none ∧ ∀ i, h = some i → f i = 0 := by
  cases h <;> simp [uses]

attribute [local grind =] opens closes ends inExec destroys hasPool hasItem preRef granted

set_option maxHeartbeats 4000000 in
theorem who_step {s s' : Sys} (h : Who s) (st : Step s s') : Who s' := by
  obtain ⟨h1, h2, h3, h4, h5, h6, h7, h8, h9, h10, h11, h12⟩ := h
  have hc := fun t => cls (s.pc t)
  have hq : s.gate = .created ∨ s.gate = .opening ∨ s.gate = .opened ∨ s.gate = .closing := by cases s.gate <;> simp
  cases st with
  | destroy t h hl hg =>
    have ho := h s.owner
    constructor <;> simp only [upd] <;> grind
  | _ => clear hq; constructor <;> simp only [upd, touch] <;> grind

set_option maxHeartbeats 4000000 in
theorem res_step {s s' : Sys} (hw : Who s) (h : Res s) (st : Step s s') : Res s' := by
  obtain ⟨h1, h2, h3, h4, h5, h6, h7, h8, h9, h10⟩ := h
  have w1 := hw.one
  have w2 := hw.busy1
  have w3 := hw.busy2
  have w4 := hw.opening
  have w5 := hw.closing
  have w6 := hw.exec
  have w7 := hw.alone
  have w8 := hw.ending
  cases st <;> constructor <;> simp only [upd, touch, bump_apply] <;> grind

set_option maxHeartbeats 4000000 in
theorem eng_step {s s' : Sys} (hw : Who s) (h : Eng s) (st : Step s s') : Eng s' := by
  obtain ⟨h1, h2, h3, h4, h5⟩ := h
  have w1 := hw.alone
  have w2 := hw.destroying
  have hc := fun t => cls (s.pc t)
  cases st <;> constructor <;> simp only [upd, touch] <;> grind

theorem bad_step {s s' : Sys} (h : Inv s) (st : Step s s') : s'.bad = false := by
  have ha : ∀ t, s.pc t ≠ .out → s.alive = true := by
    intro t ht
    cases h' : s.alive with
    | true => rfl
    | false => exact absurd (h.who.out t h') ht
  have hb := h.notBad
  have hp : ∀ t, s.pc t = .oItem ∨ s.pc t = .eRun → uses s.pool s.poolRel = true := by
    intro t ht
    rw [uses_iff]
    refine ⟨?_, fun i hi => by rw [h.res.poolRel i (h.res.pool i hi), if_pos hi]⟩
    rcases ht with ht | ht
    · have := h.who.one t (Or.inl (by rw [ht]; rfl))
      rw [this] at ht
      exact (h.res.opPool (Or.inl (by rw [ht]; rfl))).1.2 (by rw [ht]; rfl)
    · rcases h.who.exec t (by rw [ht]; rfl) with hg | hg
      · exact (h.res.openPool hg).1
      · have hk := h.who.busy2 hg
        refine (h.res.opPool (Or.inr hk)).1.2 ?_
        cases hq : s.pc s.owner with
        | cWait d => rfl
        | cItem d | cPool d | cEnd d => have := h.who.granted s.owner t (by rw [hq]; rfl); rw [ht] at this; cases this
        | _ => rw [hq] at hk; cases hk
  have hi : ∀ t, s.pc t = .eRun → uses s.item s.itemRel = true := by
    intro t ht
    rw [uses_iff]
    refine ⟨?_, fun i hi => by rw [h.res.itemRel i (h.res.item i hi), if_pos hi]⟩
    rcases h.who.exec t (by rw [ht]; rfl) with hg | hg
    · exact (h.res.openPool hg).2
    · have hk := h.who.busy2 hg
      refine (h.res.opPool (Or.inr hk)).2.2 ?_
      cases hq : s.pc s.owner with
      | cWait d => rfl
      | cItem d | cPool d | cEnd d => have := h.who.granted s.owner t (by rw [hq]; rfl); rw [ht] at this; cases this
      | _ => rw [hq] at hk; cases hk
  cases st with
  | openBegin | execBegin | closeBegin | destroyClose | destroy => exact hb
  | workEnds i hw =>
    have : s.alive = true := by
      cases h' : s.alive with
      | true => rfl
      | false =>
        have := (h.res.closedPool (h.who.dead h').1).2
        rw [h.res.work i hw] at this; cases this
    simp [touch, hb, this]
  | openItem t ht | openItemFails t ht => simp [hb, ha t (by rw [ht]; simp), hp t (Or.inl ht)]
  | execSchedule t ht => simp [hb, ha t (by rw [ht]; simp), hp t (Or.inr ht), hi t ht]
  | destroyRef t ht => simp [hb, ha t (by rw [ht]; simp), (h.eng.atRef t (by rw [ht]; rfl)).1]
  | destroySm t ht => simp [hb, ha t (by rw [ht]; simp), (h.eng.atSm t ht).2]
  | openReset t ht | openPool t ht | openPoolFails t ht | openOk t ht | openDrop t ht | openFail t ht | execQuiet t ht | execEnd t ht | destroyFree t ht =>
    simp [touch, hb, ha t (by rw [ht]; simp)]
  | closeGranted t d ht | closeItem t d ht | closePool t d ht | closeEnd t d ht => simp [touch, hb, ha t (by rw [ht]; simp)]

theorem inv_step {s s' : Sys} (h : Inv s) (st : Step s s') : Inv s' :=
  ⟨who_step h.who st, res_step h.who h.res st, eng_step h.who h.eng st, bad_step h st⟩

theorem inv_of_reach {s : Sys} (h : Reach s) : Inv s := by
  induction h with
  | init => exact inv_init
  | step _ st ih => exact inv_step ih st

/-! ### Properties -/

/-- C63: no call and no work uses the object after its end, or a missing or released threadpool or work item; the reference to the
execution engine and the gate are given up once. -/
theorem safe {s : Sys} (h : Reach s) : s.bad = false := (inv_of_reach h).notBad

/-- C63: every threadpool and every work item ever created is given up exactly once, but the one of each held at the moment, which
is not given up. -/
theorem released_once {s : Sys} (h : Reach s) :
    (∀ i, i < s.pools → s.poolRel i = if s.pool = some i then 0 else 1) ∧ (∀ i, i < s.items → s.itemRel i = if s.item = some i then 0 else 1) :=
  ⟨(inv_of_reach h).res.poolRel, (inv_of_reach h).res.itemRel⟩

/-- C63: while the object is open both are held; when it is not (never opened, failed to open, closed) neither is. -/
theorem held_iff_open {s : Sys} (h : Reach s) :
    (s.gate = .opened → (∃ i, s.pool = some i) ∧ ∃ i, s.item = some i) ∧ (s.gate = .created → s.pool = none ∧ s.item = none) := by
  have hi := (inv_of_reach h).res
  exact ⟨fun hg => ⟨Option.ne_none_iff_exists'.1 (hi.openPool hg).1, Option.ne_none_iff_exists'.1 (hi.openPool hg).2⟩, hi.closedPool⟩

/-- C63: when the object is not open, no work is waiting or running: the worker function is not called after close or destroy. -/
theorem closed_quiet {s : Sys} (h : Reach s) (hg : s.gate = .created) (i : Nat) : s.work i = 0 := by
  have hi := (inv_of_reach h).res
  rcases Nat.eq_zero_or_pos (s.work i) with e | e
  · exact e
  · have := hi.work i e
    rw [(hi.closedPool hg).2] at this; cases this

/-- C63: when open makes the state IDLE, no work is waiting or running and no call of schedule_process is in progress: the system in
Verif/TpWorker starts anew. -/
theorem open_starts_anew {s : Sys} (h : Reach s) (t : Nat) (ht : s.pc t = .oReset) :
    (∀ i, s.work i = 0) ∧ (∀ u, inExec (s.pc u) = false) ∧ s.pool = none ∧ s.item = none := by
  have hi := inv_of_reach h
  have ho := hi.who.one t (Or.inl (by rw [ht]; rfl))
  rw [ho] at ht
  have hk := hi.res.opPool (Or.inl (by rw [ht]; rfl))
  have hg := hi.who.opening s.owner (by rw [ht]; rfl)
  have e1 : s.pool = none := by
    cases e : s.pool with
    | none => rfl
    | some i => have := hk.1.1 (by rw [e]; simp); rw [ht] at this; cases this
  have e2 : s.item = none := by
    cases e : s.item with
    | none => rfl
    | some i => have := hk.2.1 (by rw [e]; simp); rw [ht] at this; cases this
  refine ⟨fun i => ?_, fun u => ?_, e1, e2⟩
  · rcases Nat.eq_zero_or_pos (s.work i) with e | e
    · exact e
    · have := hi.res.work i e
      rw [e2] at this; cases this
  · cases e : inExec (s.pc u) with
    | false => rfl
    | true => rcases hi.who.exec u e with e | e <;> rw [hg] at e <;> cases e

/-- C63: after destroy nothing is left: the structure, the gate, the reference to the engine, every threadpool and work item. -/
theorem destroy_leaves_nothing {s : Sys} (h : Reach s) (hd : s.alive = false) :
    s.engine = 0 ∧ s.smLive = false ∧ (∀ i, i < s.pools → s.poolRel i = 1) ∧ (∀ i, i < s.items → s.itemRel i = 1) ∧ ∀ i, s.work i = 0 := by
  have hi := inv_of_reach h
  have hg := (hi.who.dead hd).1
  have hc := hi.res.closedPool hg
  refine ⟨(hi.eng.dead hd).1, (hi.eng.dead hd).2, fun i hlt => ?_, fun i hlt => ?_, closed_quiet h hg⟩
  · rw [hi.res.poolRel i hlt, hc.1]; simp
  · rw [hi.res.itemRel i hlt, hc.2]; simp

/-- C63: create fails exactly for a NULL engine or function, or no memory; then nothing is left; else there is one structure, one gate and
one reference to the engine. -/
theorem create_spec (engineNull funcNull mallocOk smOk : Bool) :
    ((create engineNull funcNull mallocOk smOk).1 = none ↔ engineNull = true ∨ funcNull = true ∨ mallocOk = false ∨ smOk = false) ∧
    (create engineNull funcNull mallocOk smOk).2 = if (create engineNull funcNull mallocOk smOk).1 = none then (0, 0, 0) else (1, 1, 1) := by
  cases engineNull <;> cases funcNull <;> cases mallocOk <;> cases smOk <;> decide

/-! ### Witness -/

/-- Opened (the first time the work item could not be created), scheduled, destroyed while open. -/
example : ∃ s, Reach s ∧ s.alive = false ∧ s.pools = 2 ∧ s.items = 1 ∧ s.destroyed = true := by
  have quiet : ∀ {s : Sys}, Reach s → (∀ u, s.pc u = .out) → Reach { s with pc := fun _ => .out } := by
    intro s h hp
    have : s = { s with pc := fun _ => .out } := by
      have e : s.pc = fun _ => .out := funext hp
      rw [← e]
    rw [← this]; exact h
  have h0 := Reach.init
  have h1 := h0.step (.openBegin _ 3 rfl rfl rfl)
  have h2 := h1.step (.openReset _ 3 rfl)
  have h3 := h2.step (.openPool _ 3 rfl)
  have h4 := h3.step (.openItemFails _ 3 rfl)
  have h5 := h4.step (.openDrop _ 3 rfl)
  have h6 := h5.step (.openFail _ 3 rfl)
  have q6 : Reach ⟨.created, fun _ => .out, none, none, 1, 0, upd (fun _ => 0) 0 1, fun _ => 0, fun _ => 0, 1, true, true, false, 3, false⟩ :=
    quiet h6 (by intro u; simp only [upd, touch, init]; grind)
  have h7 := q6.step (.openBegin _ 4 rfl rfl rfl)
  have h8 := h7.step (.openReset _ 4 rfl)
  have h9 := h8.step (.openPool _ 4 rfl)
  have h10 := h9.step (.openItem _ 4 rfl)
  have h11 := h10.step (.openOk _ 4 rfl)
  have q11 : Reach ⟨.opened, fun _ => .out, some 1, some 0, 2, 1, upd (fun _ => 0) 0 1, fun _ => 0, fun _ => 0, 1, true, true, false, 4, false⟩ :=
    quiet h11 (by intro u; simp only [upd, touch]; grind)
  have h12 := q11.step (.execBegin _ 5 rfl rfl rfl)
  have h13 := h12.step (.execSchedule _ 5 rfl)
  have h14 := h13.step (.execEnd _ 5 rfl)
  have q14 : Reach ⟨.opened, fun _ => .out, some 1, some 0, 2, 1, upd (fun _ => 0) 0 1, fun _ => 0, upd (fun _ => 0) 0 1, 1, true, true, false, 4, false⟩ :=
    quiet h14 (by intro u; simp only [upd, touch]; grind)
  have h15 := q14.step (.destroyClose _ 6 (fun _ => rfl) rfl rfl)
  have h16 := h15.step (.workEnds _ 0 (by decide))
  have h17 := h16.step (.closeGranted _ 6 true rfl (by intro u; simp only [upd, touch]; split <;> rfl))
  have h18 := h17.step (.closeItem _ 6 true rfl (by intro i hi; cases hi; rfl))
  have h19 := h18.step (.closePool _ 6 true rfl)
  have h20 := h19.step (.closeEnd _ 6 true rfl)
  have h21 := h20.step (.destroyRef _ 6 rfl)
  have h22 := h21.step (.destroySm _ 6 rfl)
  have h23 := h22.step (.destroyFree _ 6 rfl)
  exact ⟨_, h23, rfl, rfl, rfl, rfl⟩

end CUtil.TpWorkerLife
