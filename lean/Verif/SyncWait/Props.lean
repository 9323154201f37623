import Verif.Live
import Verif.SyncWait.Model
import Verif.SyncWrapper.Props
set_option linter.unusedSimpArgs false
set_option linter.unusedVariables false
/-
C73: what C52 says of the synchronous wrapper holds under every interleaving of the caller and the thread that calls the callback; the context on the
caller's stack is not used after the function has returned, as long as the wait does not fail; the function returns.
-/
namespace CUtil.SyncWait
open CUtil CUtil.SyncWrapper CUtil.Live

variable {cfg : Cfg} {s s' : Sys}

/-- The callback has not yet exchanged. -/
def Busy : Cb → Prop
  | .due | .start | .copying _ | .freeing _ | .set => True
  | _ => False

/-- The copying so far and what is still to come make up the whole. -/
def CopyOk (cfg : Cfg) (s : Sys) (i : Nat) : Prop :=
  s.error ≠ none ∧
  s.log ++ (copyArgs (cfg.args.drop i) i (err s)).1 = (copyArgs cfg.args 0 false).1 ∧
  s.flags ++ (copyArgs (cfg.args.drop i) i (err s)).2.1 = (copyArgs cfg.args 0 false).2.1 ∧
  (copyArgs (cfg.args.drop i) i (err s)).2.2 = (copyArgs cfg.args 0 false).2.2

/-- The freeing so far and what is still to come make up the whole. -/
def FreeOk (cfg : Cfg) (s : Sys) (i : Nat) : Prop :=
  s.error = some (callback cfg.args).2 ∧ s.flags = (copyArgs cfg.args 0 false).2.1 ∧
  s.log ++ freeFailed (cfg.args.drop i) (s.flags.drop i) i (err s) = (callback cfg.args).1

theorem copy_begin : CopyOk cfg { s with cb := .copying 0, error := some false, flags := [], log := [], bad := b } 0 := by
  refine ⟨by simp, ?_, ?_, ?_⟩ <;> simp [err]

theorem copy_next {i : Nat} {a : Arg} (ha : cfg.args[i]? = some a) (h : CopyOk cfg s i) :
    (a.custom = false → CopyOk cfg { s with cb := .copying (i + 1), log := s.log ++ [.assign i], flags := s.flags ++ [false], bad := b } (i + 1)) ∧
    (a.custom = true → err s = true → CopyOk cfg { s with cb := .copying (i + 1), flags := s.flags ++ [false], bad := b } (i + 1)) ∧
    (a.custom = true → err s = false → a.copyOk = true →
      CopyOk cfg { s with cb := .copying (i + 1), log := s.log ++ [.copied i], flags := s.flags ++ [true], bad := b } (i + 1)) ∧
    (a.custom = true → err s = false → a.copyOk = false →
      CopyOk cfg { s with cb := .copying (i + 1), log := s.log ++ [.copyFailed i], flags := s.flags ++ [false], error := some true, bad := b } (i + 1)) := by
  obtain ⟨hi, rfl⟩ := List.getElem?_eq_some_iff.mp ha
  obtain ⟨h0, h1, h2, h3⟩ := h
  rw [List.drop_eq_getElem_cons hi] at h1 h2 h3
  unfold CopyOk
  generalize (copyArgs cfg.args 0 false).1 = r1 at *
  generalize (copyArgs cfg.args 0 false).2.1 = r2 at *
  generalize (copyArgs cfg.args 0 false).2.2 = r3 at *
  unfold copyArgs at h1 h2 h3
  refine ⟨fun hc => ⟨h0, ?_⟩, fun hc he => ⟨h0, ?_⟩, fun hc he ho => ⟨h0, ?_⟩, fun hc he ho => ⟨by simp, ?_⟩⟩
  · simp only [hc, Bool.false_eq_true, if_false] at h1 h2 h3
    exact ⟨by rw [List.append_assoc]; exact h1, by rw [List.append_assoc]; exact h2, h3⟩
  · simp only [hc, he] at h1 h2 h3
    have : (s.error == some true) = true := he
    simpa [err, this] using And.intro h1 (And.intro h2 h3)
  · simp only [hc, he, ho] at h1 h2 h3
    have : (s.error == some true) = false := he
    simpa [err, this] using And.intro h1 (And.intro h2 h3)
  · simp only [hc, he, ho] at h1 h2 h3
    simpa [err] using And.intro h1 (And.intro h2 h3)

theorem copy_end {i : Nat} (ha : cfg.args[i]? = none) (h : CopyOk cfg s i) : FreeOk cfg { s with cb := .freeing 0 } 0 := by
  obtain ⟨h0, h1, h2, h3⟩ := h
  rw [List.drop_eq_nil_of_le (List.getElem?_eq_none_iff.mp ha)] at h1 h2 h3
  simp only [copyArgs, List.append_nil] at h1 h2 h3
  have e : s.error = some (callback cfg.args).2 := by
    simp only [callback, ← h3, err]
    cases hh : s.error with
    | none => exact absurd hh h0
    | some v => cases v <;> rfl
  refine ⟨e, h2, ?_⟩
  simp only [List.drop_zero, h1, h2, err, e, callback]
  cases (copyArgs cfg.args 0 false).2.2 <;> rfl

theorem free_next {i : Nat} {a : Arg} (ha : cfg.args[i]? = some a) (h : FreeOk cfg s i) :
    ((a.custom = true ∧ err s = true ∧ s.flags[i]? = some true) → FreeOk cfg { s with cb := .freeing (i + 1), log := s.log ++ [.freed i], bad := b } (i + 1)) ∧
    (¬ (a.custom = true ∧ err s = true ∧ s.flags[i]? = some true) → FreeOk cfg { s with cb := .freeing (i + 1), bad := b } (i + 1)) := by
  obtain ⟨hi, rfl⟩ := List.getElem?_eq_some_iff.mp ha
  obtain ⟨h0, h1, h2⟩ := h
  have hf : i < s.flags.length := by rw [h1, copyArgs_flags_length]; exact hi
  rw [List.drop_eq_getElem_cons hi, List.drop_eq_getElem_cons hf] at h2
  unfold freeFailed at h2
  have e : err s = (s.error == some true) := rfl
  refine ⟨fun ⟨hc, he, hfl⟩ => ⟨h0, h1, ?_⟩, fun hn => ⟨h0, h1, ?_⟩⟩
  · have : s.flags[i] = true := by rw [List.getElem?_eq_getElem hf] at hfl; simpa using hfl
    simp only [hc, he, this, Bool.and_self, if_true] at h2
    show (s.log ++ [.freed i]) ++ freeFailed _ _ _ (err s) = _
    rw [he, List.append_assoc]
    exact h2
  · have : ¬ (cfg.args[i].custom = true ∧ err s = true ∧ s.flags[i] = true) := by
      rw [List.getElem?_eq_getElem hf] at hn; simpa using hn
    show s.log ++ freeFailed _ _ _ (err s) = _
    rw [← h2]
    by_cases hc : cfg.args[i].custom = true
    · have h' : (err s && s.flags[i]) = false := by
        cases h5 : err s <;> cases h6 : s.flags[i] <;> grind
      simp only [hc, h', if_true]
      simp
    · simp [hc]

theorem free_end {i : Nat} (ha : cfg.args[i]? = none) (h : FreeOk cfg s i) : s.error = some (callback cfg.args).2 ∧ s.log = (callback cfg.args).1 := by
  obtain ⟨h0, h1, h2⟩ := h
  rw [List.drop_eq_nil_of_le (List.getElem?_eq_none_iff.mp ha)] at h2
  exact ⟨h0, by simpa [freeFailed] using h2⟩

/-- Holds in every reachable state. -/
structure Inv (cfg : Cfg) (s : Sys) : Prop where
  fresh : s.cb = .none ∨ s.cb = .due ∨ s.cb = .start → s.log = []
  early : s.caller = .check ∨ s.caller = .init → s.cb = .none
  begun : s.caller = .call ∨ s.caller = .test ∨ s.caller = .wait ∨ s.caller = .asleep ∨ s.caller = .read → s.complete ≠ none ∧ s.frame = true
  made : s.caller = .init → s.frame = true
  accepted : s.caller = .test ∨ s.caller = .wait ∨ s.caller = .asleep ∨ s.caller = .read → s.cb ≠ .none
  isNull : s.caller = .check ∨ cfg.null = (s.caller == .ret .invalidArgs)
  copying : ∀ i, s.cb = .copying i → CopyOk cfg s i
  freeing : ∀ i, s.cb = .freeing i → FreeOk cfg s i
  after : s.cb = .set ∨ s.cb = .wake ∨ s.cb = .done → s.error = some (callback cfg.args).2 ∧ s.log = (callback cfg.args).1
  compl : s.complete = some true ↔ s.cb = .wake ∨ s.cb = .done
  readDone : s.caller = .read → s.complete = some true
  retOk : s.caller = .ret .ok → (callback cfg.args).2 = false ∧ s.complete = some true
  retErr : s.caller = .ret .callbackCopyArgError → (callback cfg.args).2 = true ∧ s.complete = some true
  refused : s.caller = .ret .callError ∨ s.caller = .ret .invalidArgs → s.cb = .none
  other : s.caller = .ret .otherError → cfg.waitFails = true
  good : cfg.waitFails = false → s.bad = false
  alive : cfg.waitFails = false → s.cb ≠ .none → s.cb ≠ .wake → s.cb ≠ .done → s.frame = true
  sleeps : s.caller = .asleep → s.cb ≠ .done

set_option maxHeartbeats 8000000 in
theorem inv_step (hi : Inv cfg s) (st : Step cfg s s') : Inv cfg s' := by
  cases st with
  | noError h =>
    have e := hi.fresh (by simp [h])
    have : CopyOk cfg { s with cb := .copying 0, error := some false, flags := [], bad := touch s } 0 := by
      have := copy_begin (cfg := cfg) (s := s) (b := touch s)
      rwa [← e] at this
    obtain ⟨h1, h2, h3, h4, h5, h6, h7, h8, h9, h10, h11, h12, h13, h14, h15, h16, h17, h18⟩ := hi
    constructor <;> simp only [touch] at * <;> grind
  | assign i a h ha hc =>
    have := (copy_next (b := touch s) ha (hi.copying i h)).1 hc
    obtain ⟨h1, h2, h3, h4, h5, h6, h7, h8, h9, h10, h11, h12, h13, h14, h15, h16, h17, h18⟩ := hi
    constructor <;> simp only [touch] at * <;> grind
  | skip i a h ha hc he =>
    have := (copy_next (b := touch s) ha (hi.copying i h)).2.1 hc he
    obtain ⟨h1, h2, h3, h4, h5, h6, h7, h8, h9, h10, h11, h12, h13, h14, h15, h16, h17, h18⟩ := hi
    constructor <;> simp only [touch] at * <;> grind
  | copy i a h ha hc he ho =>
    have := (copy_next (b := touch s) ha (hi.copying i h)).2.2.1 hc he ho
    obtain ⟨h1, h2, h3, h4, h5, h6, h7, h8, h9, h10, h11, h12, h13, h14, h15, h16, h17, h18⟩ := hi
    constructor <;> simp only [touch] at * <;> grind
  | copyFails i a h ha hc he ho =>
    have := (copy_next (b := touch s) ha (hi.copying i h)).2.2.2 hc he ho
    obtain ⟨h1, h2, h3, h4, h5, h6, h7, h8, h9, h10, h11, h12, h13, h14, h15, h16, h17, h18⟩ := hi
    constructor <;> simp only [touch] at * <;> grind
  | copyEnd i h ha =>
    have := copy_end ha (hi.copying i h)
    obtain ⟨h1, h2, h3, h4, h5, h6, h7, h8, h9, h10, h11, h12, h13, h14, h15, h16, h17, h18⟩ := hi
    constructor <;> simp only [touch] at * <;> grind
  | free i a h ha hc =>
    have := (free_next (b := touch s) ha (hi.freeing i h)).1 hc
    obtain ⟨h1, h2, h3, h4, h5, h6, h7, h8, h9, h10, h11, h12, h13, h14, h15, h16, h17, h18⟩ := hi
    constructor <;> simp only [touch] at * <;> grind
  | noFree i a h ha hc =>
    have := (free_next (b := touch s) ha (hi.freeing i h)).2 hc
    obtain ⟨h1, h2, h3, h4, h5, h6, h7, h8, h9, h10, h11, h12, h13, h14, h15, h16, h17, h18⟩ := hi
    constructor <;> simp only [touch] at * <;> grind
  | freeEnd i h ha =>
    have := free_end ha (hi.freeing i h)
    obtain ⟨h1, h2, h3, h4, h5, h6, h7, h8, h9, h10, h11, h12, h13, h14, h15, h16, h17, h18⟩ := hi
    constructor <;> simp only [touch] at * <;> grind
  | _ =>
    obtain ⟨h1, h2, h3, h4, h5, h6, h7, h8, h9, h10, h11, h12, h13, h14, h15, h16, h17, h18⟩ := hi
    constructor <;> simp only [touch, err, CopyOk, FreeOk] at * <;> grind

theorem inv (h : Reach cfg s) : Inv cfg s := by
  induction h with
  | init => constructor <;> simp [start]
  | step _ st ih => exact inv_step ih st

/-! ### What has happened when the function has returned -/

/-- C73: whenever the function has returned, and from then on, its result and what was done to the out arguments are what the sequential reading (C52) says; with
`SyncWrapper.wrapper_spec` this is: OK exactly when every argument was copied, and then each of them once, and nothing is left over otherwise. -/
theorem returns_as_sequential {r : Result} (h : Reach cfg s) (hr : s.caller = .ret r) (ho : r ≠ .otherError) :
    ∃ expected, wrapper cfg.args cfg.null expected true = (r, some s.log) := by
  have hi := inv h
  cases r with
  | otherError => exact absurd rfl ho
  | invalidArgs =>
    have hn : cfg.null = true := by
      rcases hi.isNull with h1 | h1
      · rw [hr] at h1; cases h1
      · rw [h1, hr]; rfl
    exact ⟨true, by rw [wrapper, if_pos hn, hi.fresh (.inl (hi.refused (.inr hr)))]⟩
  | callError =>
    have hn : cfg.null = false := by
      rcases hi.isNull with h1 | h1
      · rw [hr] at h1; cases h1
      · rw [h1, hr]; rfl
    exact ⟨false, by rw [wrapper, hn, hi.fresh (.inl (hi.refused (.inl hr)))]; rfl⟩
  | ok =>
    have hn : cfg.null = false := by
      rcases hi.isNull with h1 | h1
      · rw [hr] at h1; cases h1
      · rw [h1, hr]; rfl
    obtain ⟨h1, h2⟩ := hi.retOk hr
    obtain ⟨_, h3⟩ := hi.after (by rcases hi.compl.mp h2 with h | h <;> simp [h])
    refine ⟨true, ?_⟩
    simp [wrapper, hn, h1, h3]
  | callbackCopyArgError =>
    have hn : cfg.null = false := by
      rcases hi.isNull with h1 | h1
      · rw [hr] at h1; cases h1
      · rw [h1, hr]; rfl
    obtain ⟨h1, h2⟩ := hi.retErr hr
    obtain ⟨_, h3⟩ := hi.after (by rcases hi.compl.mp h2 with h | h <;> simp [h])
    refine ⟨true, ?_⟩
    simp [wrapper, hn, h1, h3]

/-- C73: the function returns CALL_ERROR or INVALID_ARGS only if the callback is never called. -/
theorem refused_never_called (h : Reach cfg s) (hr : s.caller = .ret .callError ∨ s.caller = .ret .invalidArgs) : s.cb = .none :=
  (inv h).refused hr

/-- C73: as long as the wait does not fail, the context is never used when it does not exist, no field of it is read before it was written, and the result
OTHER_ERROR does not occur. -/
theorem context_safe (hw : cfg.waitFails = false) (h : Reach cfg s) : s.bad = false ∧ s.caller ≠ .ret .otherError :=
  ⟨(inv h).good hw, fun hr => by have := (inv h).other hr; rw [hw] at this; cases this⟩

/-- One argument with a copy handler that succeeds. -/
def one : Cfg := ⟨false, false, [⟨true, true⟩]⟩

/-- The hypotheses can be met: the callback runs on another thread while the caller sleeps; the function returns OK when the copy has been made. -/
theorem one_returns : ∃ s, Reach one s ∧ s.caller = .ret .ok ∧ s.log = [.copied 0] ∧ s.cb = .done := by
  have h1 := Reach.init (cfg := one) |>.step (.valid start rfl rfl) |>.step (.init _ rfl) |>.step (.accept _ rfl rfl) |>.step (.return_ _ rfl (by simp))
    |>.step (.incomplete _ rfl (by simp)) |>.step (.sleep _ rfl rfl) |>.step (.called _ rfl) |>.step (.noError _ rfl)
    |>.step (.copy _ 0 ⟨true, true⟩ rfl rfl rfl rfl rfl) |>.step (.copyEnd _ 1 rfl rfl) |>.step (.noFree _ 0 ⟨true, true⟩ rfl rfl (by simp [err])) |>.step (.freeEnd _ 1 rfl rfl)
    |>.step (.set _ rfl) |>.step (.wake _ rfl rfl) |>.step (.complete _ rfl rfl) |>.step (.result _ rfl)
  exact ⟨_, h1, rfl, rfl, rfl⟩

/-- Finding: the wake may be made on the address of the context after the function has returned (only the address is used, not the memory). -/
theorem wake_after_return : ∃ s, Reach one s ∧ s.caller = .ret .ok ∧ s.frame = false ∧ s.cb = .wake := by
  have h1 := Reach.init (cfg := one) |>.step (.valid start rfl rfl) |>.step (.init _ rfl) |>.step (.accept _ rfl rfl) |>.step (.return_ _ rfl (by simp))
    |>.step (.called _ rfl) |>.step (.noError _ rfl)
    |>.step (.copy _ 0 ⟨true, true⟩ rfl rfl rfl rfl rfl) |>.step (.copyEnd _ 1 rfl rfl) |>.step (.noFree _ 0 ⟨true, true⟩ rfl rfl (by simp [err])) |>.step (.freeEnd _ 1 rfl rfl)
    |>.step (.set _ rfl) |>.step (.complete _ rfl rfl) |>.step (.result _ rfl)
  exact ⟨_, h1, rfl, rfl, rfl⟩

/-- Finding: when the wait fails, the function returns OTHER_ERROR while the callback is still to come; the callback then writes to a context that does not exist any more. -/
theorem late_callback : ∃ s, Reach ⟨false, true, []⟩ s ∧ s.caller = .ret .otherError ∧ s.bad = true := by
  have h1 := Reach.init (cfg := ⟨false, true, []⟩) |>.step (.valid start rfl rfl) |>.step (.init _ rfl) |>.step (.accept _ rfl rfl) |>.step (.return_ _ rfl (by simp))
    |>.step (.incomplete _ rfl (by simp)) |>.step (.waitFails _ (.inl rfl) rfl) |>.step (.called _ rfl) |>.step (.noError _ rfl)
  exact ⟨_, h1, rfl, rfl⟩

/-! ### The function returns -/

/-- The caller makes a step of its own (it is not woken); the asynchronous function returns. -/
def CallerMoves (cfg : Cfg) (s s' : Sys) : Prop := Step cfg s s' ∧ s.caller ≠ .asleep ∧ s'.caller ≠ s.caller

/-- The thread that calls the callback goes on. -/
def CbMoves (cfg : Cfg) (s s' : Sys) : Prop := Step cfg s s' ∧ s.cb ≠ .none ∧ s'.cb ≠ s.cb

/-- Every thread that can go on goes on; a callback that is due is called; the copy handlers return. -/
structure FairRun (cfg : Cfg) (σ : Nat → Sys) : Prop where
  run : Run (Reach cfg) (Step cfg) σ
  caller : Fair (CallerMoves cfg) σ
  cb : Fair (CbMoves cfg) σ

variable {σ : Nat → Sys}

theorem FairRun.inv (h : FairRun cfg σ) (i : Nat) : Inv cfg (σ i) := SyncWait.inv (h.run.reach (fun _ _ r st => r.step st) i)

/-- The steps the callback still has to make. -/
def left (cfg : Cfg) : Cb → Nat
  | .none => 0
  | .due => 2 * cfg.args.length + 7
  | .start => 2 * cfg.args.length + 6
  | .copying i => cfg.args.length + (cfg.args.length - i) + 5
  | .freeing i => (cfg.args.length - i) + 4
  | .set => 3
  | .wake => 2
  | .done => 0

set_option maxHeartbeats 4000000 in
theorem cb_moves (cfg : Cfg) (s : Sys) (h0 : s.cb ≠ .none) (h1 : s.cb ≠ .done) : ∃ s', CbMoves cfg s s' := by
  unfold CbMoves
  cases hc : s.cb with
  | none => exact absurd hc h0
  | done => exact absurd hc h1
  | due => exact ⟨_, .called s hc, by simp, by simp⟩
  | start => exact ⟨_, .noError s hc, by simp, by simp⟩
  | set => exact ⟨_, .set s hc, by simp, by simp⟩
  | wake =>
    by_cases ha : s.caller = .asleep
    · exact ⟨_, .wake s hc ha, by simp, by simp⟩
    · exact ⟨_, .wakeNone s hc ha, by simp, by simp⟩
  | copying i =>
    cases ha : cfg.args[i]? with
    | none => exact ⟨_, .copyEnd s i hc ha, by simp, by simp⟩
    | some a =>
      by_cases hcu : a.custom = true
      · by_cases he : err s = true
        · exact ⟨_, .skip s i a hc ha hcu he, by simp, by simp⟩
        · by_cases ho : a.copyOk = true
          · exact ⟨_, .copy s i a hc ha hcu (by simpa using he) ho, by simp, by simp⟩
          · exact ⟨_, .copyFails s i a hc ha hcu (by simpa using he) (by simpa using ho), by simp, by simp⟩
      · exact ⟨_, .assign s i a hc ha (by simpa using hcu), by simp, by simp⟩
  | freeing i =>
    cases ha : cfg.args[i]? with
    | none => exact ⟨_, .freeEnd s i hc ha, by simp, by simp⟩
    | some a =>
      by_cases hf : a.custom = true ∧ err s = true ∧ s.flags[i]? = some true
      · exact ⟨_, .free s i a hc ha hf, by simp, by simp⟩
      · exact ⟨_, .noFree s i a hc ha hf, by simp, by simp⟩

set_option maxHeartbeats 4000000 in
/-- The callback only goes forward. -/
theorem cb_left (st : Step cfg s s') (h0 : s.cb ≠ .none) : s'.cb ≠ .none ∧ (s'.cb = s.cb ∨ left cfg s'.cb < left cfg s.cb) := by
  cases st with
  | assign i a h ha | skip i a h ha | copy i a h ha | copyFails i a h ha | free i a h ha | noFree i a h ha =>
    have := (List.getElem?_eq_some_iff.mp ha).1
    simp only [h, left]
    exact ⟨by simp, .inr (by omega)⟩
  | _ => simp only [left] at * <;> grind [left]

/-- The callback comes to its end. -/
theorem cb_done (h : FairRun cfg σ) : LeadsTo σ (fun s => s.cb ≠ .none) (fun s => s.cb = .done) := by
  refine LeadsTo.rank (fun s => left cfg s.cb) fun n => ?_
  by_cases hn : n = 0
  · refine .of_imp fun s hs => .inl ?_
    obtain ⟨h0, h1⟩ := hs
    cases hc : s.cb <;> simp only [hc, left] at h1 h0 <;> first | rfl | contradiction | omega
  · refine ensures h.inv h.run.next h.cb ?_ ?_ ?_
    · intro s s' hi ⟨h0, h1⟩ st
      obtain ⟨h2, h3 | h3⟩ := cb_left st h0
      · exact .inl ⟨h2, by rw [h3]; exact h1⟩
      · exact .inr (.inr ⟨h2, by omega⟩)
    · intro s hi ⟨h0, h1⟩
      exact cb_moves cfg s h0 (fun hd => hn (by rw [← h1, hd]; rfl))
    · intro s s' hi ⟨h0, h1⟩ ⟨st, _, hm⟩
      obtain ⟨h2, h3 | h3⟩ := cb_left st h0
      · exact absurd h3 hm
      · exact .inr ⟨h2, by omega⟩

/-- The function has returned. -/
def Returned (s : Sys) : Prop := ∃ r, s.caller = .ret r

/-- The steps the caller still has to make once the callback has come to its end. -/
def togo : Caller → Nat
  | .check => 9
  | .init => 8
  | .call => 7
  | .wait => 6
  | .test => 5
  | .read => 4
  | .asleep => 10
  | .ret _ => 0

set_option maxHeartbeats 4000000 in
theorem end_returns (h : FairRun cfg σ) : LeadsTo σ (fun s => s.cb = .done ∧ ¬ Returned s) Returned := by
  refine LeadsTo.rank (fun s => togo s.caller) fun n => ?_
  refine ensures2 h.inv h.run.next h.caller ?_ ?_ ?_
  · intro s s' hi hi' ⟨⟨h0, hr⟩, h1⟩ st
    have g1 := hi.compl
    have g2 := hi.sleeps
    cases st <;> simp only [Returned] at * <;> grind [togo]
  · intro s hi ⟨⟨h0, hr⟩, h1⟩
    have hcm : s.complete = some true := hi.compl.mpr (.inr h0)
    cases hc : s.caller with
    | check | init => have := hi.early (by simp [hc]); rw [h0] at this; cases this
    | call => exact ⟨_, .return_ s hc (by simp [h0]), by simp [hc], by simp [hc]⟩
    | test => exact ⟨_, .complete s hc hcm, by simp [hc], by simp [hc]⟩
    | wait => exact ⟨_, .noSleep s hc (by simp [hcm]), by simp [hc], by simp [hc]⟩
    | asleep => exact absurd h0 (hi.sleeps hc)
    | read => exact ⟨_, .result s hc, by simp [hc], by simp [hc]⟩
    | ret r => exact absurd ⟨r, hc⟩ hr
  · intro s s' hi hi' ⟨⟨h0, hr⟩, h1⟩ ⟨st, ha, hm⟩
    have g1 := hi.compl
    cases st <;> simp only [Returned] at * <;> grind [togo]

theorem accepted_returns (h : FairRun cfg σ) : LeadsTo σ (fun s => s.cb ≠ .none) Returned := by
  intro i hi
  obtain ⟨j, hj, hd⟩ := cb_done h i hi
  by_cases hr : Returned (σ j)
  · exact ⟨j, hj, hr⟩
  · obtain ⟨k, hk, hr⟩ := end_returns h j ⟨hd, hr⟩
    exact ⟨k, by omega, hr⟩

set_option maxHeartbeats 4000000 in
theorem call_returns (h : FairRun cfg σ) : LeadsTo σ (fun s => s.caller = .call ∧ s.cb = .none) Returned :=
  (ensures (Q := fun s => Returned s ∨ s.cb ≠ .none) h.inv h.run.next h.caller
    (fun s s' hi ⟨h0, h1⟩ st => by cases st <;> simp only [Returned] at * <;> grind)
    (fun s hi ⟨h0, h1⟩ => ⟨_, .refuse s h0 h1, by simp [h0], by simp [h0]⟩)
    (fun s s' hi ⟨h0, h1⟩ ⟨st, _, hm⟩ => by cases st <;> simp only [Returned] at * <;> grind)).chain (accepted_returns h)

set_option maxHeartbeats 4000000 in
theorem init_returns (h : FairRun cfg σ) : LeadsTo σ (fun s => s.caller = .init) Returned :=
  (ensures (Q := fun s => s.caller = .call ∧ s.cb = .none) h.inv h.run.next h.caller
    (fun s s' hi h0 st => by have g := hi.early; cases st <;> simp only at * <;> grind)
    (fun s hi h0 => ⟨_, .init s h0, by simp [h0], by simp [h0]⟩)
    (fun s s' hi h0 ⟨st, _, hm⟩ => by have g := hi.early; cases st <;> simp only at * <;> grind)).trans (call_returns h)

set_option maxHeartbeats 4000000 in
theorem check_returns (h : FairRun cfg σ) : LeadsTo σ (fun s => s.caller = .check) Returned :=
  (ensures (Q := fun s => Returned s ∨ s.caller = .init) h.inv h.run.next h.caller
    (fun s s' hi h0 st => by have g := hi.early; cases st <;> simp only [Returned] at * <;> grind)
    (fun s hi h0 => by
      by_cases hn : cfg.null = true
      · exact ⟨_, .invalid s h0 hn, by simp [h0], by simp [h0]⟩
      · exact ⟨_, .valid s h0 (by simpa using hn), by simp [h0], by simp [h0]⟩)
    (fun s s' hi h0 ⟨st, _, hm⟩ => by have g := hi.early; cases st <;> simp only [Returned] at * <;> grind)).chain (init_returns h)

/-- C73: in every fair execution the function returns (if the asynchronous function does, and calls the callback when it has accepted the call). -/
theorem returns (h : FairRun cfg σ) (i : Nat) : ∃ j, i ≤ j ∧ ∃ r, (σ j).caller = .ret r := by
  by_cases hc : (σ i).cb = .none
  · cases hp : (σ i).caller with
    | check => exact check_returns h i hp
    | init => exact init_returns h i hp
    | call => exact call_returns h i ⟨hp, hc⟩
    | test | wait | asleep | read => exact absurd hc ((h.inv i).accepted (by simp [hp]))
    | ret r => exact ⟨i, Nat.le_refl i, r, hp⟩
  · exact accepted_returns h i hc

/-- Fair executions exist: every finite execution in which the function has returned and the callback is not due or over can be continued to a fair one. -/
theorem fair_run_exists {s e : Sys} (h : Reach cfg s) (p : Path (Step cfg) s e) (hr : Returned e) (hd : e.cb = .none ∨ e.cb = .done) :
    ∃ σ, FairRun cfg σ ∧ σ 0 = s ∧ ∃ n, σ n = e := by
  obtain ⟨σ, n, r, h0, hn⟩ := exists_run (Step := Step cfg) (fun _ _ r st => r.step st) h p
  obtain ⟨r', hr'⟩ := hr
  refine ⟨σ, ⟨r, fair_of_end hn ?_, fair_of_end hn ?_⟩, h0, n, hn n (Nat.le_refl n)⟩
  · rintro ⟨s', st, _, hm⟩
    cases st <;> simp only at * <;> grind
  · rintro ⟨s', st, hc, hm⟩
    cases st <;> simp only at * <;> grind

example : ∃ σ, FairRun one σ ∧ ∃ n, (σ n).caller = .ret .ok := by
  obtain ⟨s, h, h1, _, h2⟩ := one_returns
  obtain ⟨σ, hf, _, n, hn⟩ := fair_run_exists h (.nil s) ⟨.ok, h1⟩ (.inr h2)
  exact ⟨σ, hf, n, by rw [hn]; exact h1⟩

end CUtil.SyncWait
