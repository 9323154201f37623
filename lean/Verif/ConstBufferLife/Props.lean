import Verif.ConstBufferLife.Lemmas
set_option linter.unusedSimpArgs false
/-
Lifetime and window properties of CONSTBUFFER (C18, C19), over every interleaving of client
operations (`Reachable`).
-/
namespace CUtil.ConstBufferLife
open CUtil Spec

/-- C18: nothing a client is allowed to do touches a released object, releases one twice or
drives a count below zero. -/
theorem lifetime_safe {s : Sys} (h : Reachable s) (op : Op) (ha : Allowed s op) : C.Defined (exec s op) := by
  obtain ⟨s', h1, _⟩ := (Inv.reachable h).step op ha
  exact ⟨s', h1⟩

/-- C18: while a reference to a buffer is owned, its content can be read and is what it was
created with. -/
theorem owned_content {s : Sys} (h : Reachable s) {b : Nat} (hb : 0 < s.held b) :
    content s.heap b = C.ok (s.view b) := by
  have hi := Inv.reachable h
  obtain ⟨o, e, hl, _⟩ := hi.live hb
  exact (hi.content e hl).1

/-- C18: no operation changes what an owned buffer contains. -/
theorem content_immutable {s s' : Sys} (h : Reachable s) (op : Op) (ha : Allowed s op) (he : exec s op = C.ok s')
    {b : Nat} (hb : 0 < s.held b) : s'.view b = s.view b := by
  have hi := Inv.reachable h
  have hlt : b < s.heap.objs.length := by
    obtain ⟨o, e, _, _⟩ := hi.live hb; exact lt_of_get e
  have fresh : ∀ (hp : Heap) (v : List UInt8), (gain s (some s.heap.objs.length, hp) v).view b = s.view b := by
    intro hp v; simp only [gain]; rw [upd_ne _ _ (by omega)]
  have crt : ∀ (k : Kind) (src : Source) (alloc : Bool) (v : List UInt8) (r : Option Nat × Heap),
      create s.heap k src alloc = C.ok r → (gain s r v).view b = s.view b := by
    intro k src alloc v r hr
    unfold create at hr
    cases hbk : src.block with
    | none =>
      rw [hbk] at hr; dsimp only at hr
      by_cases h0 : src.size ≠ 0
      · rw [if_pos h0] at hr; cases hr; rfl
      · rw [if_neg h0] at hr
        cases alloc with
        | false => cases hr; rfl
        | true => rw [if_neg (by simp)] at hr; cases hr; exact fresh _ _
    | some m =>
      rw [hbk] at hr; dsimp only at hr
      cases alloc with
      | false => cases hr; rfl
      | true =>
        rw [if_neg (by simp)] at hr
        by_cases hm : m.length < src.size
        · rw [if_pos hm] at hr; cases hr
        · rw [if_neg hm] at hr; cases hr; exact fresh _ _
  cases op with
  | create k src alloc =>
    simp only [exec, C.bind_eq_ok, C.pure_eq, C.ok.injEq] at he
    obtain ⟨r, h1, rfl⟩ := he
    exact crt k src alloc _ r h1
  | window x off size alloc =>
    simp only [exec, C.bind_eq_ok, C.pure_eq, C.ok.injEq] at he
    obtain ⟨r, h1, rfl⟩ := he
    obtain ⟨hx, ho, hs⟩ := ha
    obtain ⟨o, e, hl, hc⟩ := hi.live hx
    obtain ⟨hsz, _⟩ := hi.static.dat x _ (shapes_get e)
    rw [createWindow_eq e hl hsz off size ho hs alloc] at h1
    by_cases c1 : o.size < off + size
    · rw [if_pos c1] at h1; cases h1; rfl
    rw [if_neg c1] at h1
    by_cases c2 : off = 0 ∧ size = o.size
    · rw [if_pos c2] at h1; cases h1
      simp only [gain]
      by_cases hbx : b = x
      · subst hbx
        rw [upd_self, c2.1, c2.2]; simp only [slice, List.drop_zero]
        exact List.take_of_length_le (Nat.le_of_eq (hi.content e hl).2)
      · rw [upd_ne _ _ hbx]
    · rw [if_neg c2] at h1
      cases alloc with
      | false => cases h1; rfl
      | true => rw [if_neg (by simp)] at h1; cases h1; exact fresh _ _
  | windowCopy x off size alloc =>
    simp only [exec, C.bind_eq_ok, C.pure_eq, C.ok.injEq] at he
    obtain ⟨r, h1, rfl⟩ := he
    unfold createWindowCopy at h1
    simp only [C.bind_eq_ok] at h1
    obtain ⟨o, _, h2⟩ := h1
    by_cases c1 : off > o.size
    · rw [if_pos c1] at h2; cases h2; rfl
    rw [if_neg c1] at h2
    by_cases c2 : off > 4294967295 - size
    · rw [if_pos c2] at h2; cases h2; rfl
    rw [if_neg c2] at h2
    by_cases c3 : (off + size) % 2 ^ 32 > o.size
    · rw [if_pos c3] at h2; cases h2; rfl
    rw [if_neg c3] at h2
    simp only [C.bind_eq_ok] at h2
    obtain ⟨bytes, _, h3⟩ := h2
    exact crt _ _ _ _ r h3
  | incRef x =>
    simp only [exec, C.bind_eq_ok, C.pure_eq, C.ok.injEq] at he
    obtain ⟨r, _, rfl⟩ := he; rfl
  | decRef x =>
    simp only [exec, C.bind_eq_ok, C.pure_eq, C.ok.injEq] at he
    obtain ⟨r, _, rfl⟩ := he; rfl
  | finish x =>
    simp only [exec, C.bind_eq_ok, C.pure_eq, C.ok.injEq] at he
    obtain ⟨r, _, rfl⟩ := he; rfl

/-- C18: nothing is released more than once. -/
theorem released_at_most_once {s : Sys} (h : Reachable s) (b c : Nat) :
    s.heap.log.count (.objFree b) ≤ 1 ∧ s.heap.log.count (.memFree b) ≤ 1 ∧ s.heap.log.count (.customFree b c) ≤ 1 := by
  have hi := (Inv.reachable h).lg
  rw [hi.obj, hi.mem, hi.cust]
  refine ⟨?_, ?_, ?_⟩ <;> split <;> omega

/-- C18: once any part of `b` has been released (its memory, its custom free function, the
object), no client owns `b` nor any window reaching back to `b`. -/
theorem released_only_when_unowned {s : Sys} (h : Reachable s) {b : Nat}
    (hr : .objFree b ∈ s.heap.log ∨ .memFree b ∈ s.heap.log ∨ ∃ c, .customFree b c ∈ s.heap.log)
    {w : Nat} (hw : Below s w b) : s.held w = 0 := by
  have hi := Inv.reachable h
  have key : ∀ K, freedP s.heap.objs K b = true → s.held w = 0 := by
    intro K hf
    rcases Nat.eq_zero_or_pos (s.held w) with h0 | h0
    · exact h0
    · obtain ⟨o, e, hl, _⟩ := hi.live h0
      obtain ⟨q, h1, h2⟩ := hi.below hw o e hl
      unfold freedP at hf
      rw [h1] at hf; simp [h2] at hf
  have nz : ∀ (ev : Event) (K : Kind → Bool), ev ∈ s.heap.log →
      s.heap.log.count ev = (if freedP s.heap.objs K b then 1 else 0) → freedP s.heap.objs K b = true := by
    intro ev K hm hc
    have := List.count_pos_iff.2 hm
    rw [hc] at this
    cases hf : freedP s.heap.objs K b with
    | true => rfl
    | false => rw [hf] at this; simp at this
  rcases hr with hr | hr | ⟨c, hr⟩
  · exact key _ (nz _ _ hr (hi.lg.obj b))
  · exact key _ (nz _ _ hr (hi.lg.mem b))
  · exact key _ (nz _ _ hr (hi.lg.cust b c))

/-- C18: when no release is under way, a buffer to which no client owns a reference, directly or
through windows, has been released exactly once: the object, the moved memory, the custom free
function with its context. -/
theorem released_when_unowned {s : Sys} (h : Reachable s) (hq : Quiet s) {b : Nat} {o : Obj}
    (e : s.heap.objs[b]? = some o) (hn : ∀ w, Below s w b → s.held w = 0) :
    s.heap.log.count (.objFree b) = 1 ∧
    s.heap.log.count (.memFree b) = (if o.kind = .moved then 1 else 0) ∧
    ∀ c, s.heap.log.count (.customFree b c) = if o.kind = .customFree c then 1 else 0 := by
  have hi := Inv.reachable h
  have hf : o.phase = .freed := by
    cases hp : o.phase with
    | freed => rfl
    | dying => exact absurd hp (hq o (List.mem_of_getElem? e))
    | live =>
      obtain ⟨w, h1, h2⟩ := hi.owner hq _ b o rfl e hp
      have := hn w h2; omega
  have fp : ∀ K, freedP s.heap.objs K b = K o.kind := by
    intro K; unfold freedP; rw [e]; simp [hf]
  refine ⟨by rw [hi.lg.obj, fp]; rfl, by rw [hi.lg.mem, fp]; simp, fun c => by rw [hi.lg.cust, fp]; simp⟩

/-- C18: no leak.  When all references are released and no release is under way, every object
ever created has been freed. -/
theorem no_leak {s : Sys} (h : Reachable s) (hq : Quiet s) (hn : ∀ b, s.held b = 0) :
    ∀ b, b < s.heap.objs.length → s.heap.log.count (.objFree b) = 1 := by
  intro b hb
  exact (released_when_unowned h hq (List.getElem?_eq_getElem hb) (fun w _ => hn w)).1

/-- C18: releases come to an end: each `finish` step leaves one fewer unreleased object. -/
theorem finish_progress {s s' : Sys} (h : Reachable s) {b : Nat} (ha : Allowed s (.finish b))
    (he : exec s (.finish b) = C.ok s') :
    s'.heap.objs.countP (fun o => o.phase ≠ .freed) + 1 = s.heap.objs.countP (fun o => o.phase ≠ .freed) := by
  have hi := Inv.reachable h
  obtain ⟨o, e, hp⟩ := ha
  simp only [exec, C.bind_eq_ok, C.pure_eq, C.ok.injEq] at he
  obtain ⟨hp', h1, rfl⟩ := he
  have hnf : o.phase ≠ .freed := by rw [hp]; simp
  have cset : ∀ (objs : List Obj) (i : Nat) (x y : Obj), objs[i]? = some x →
      (objs.set i y).countP (fun o => o.phase ≠ .freed) + (if x.phase ≠ .freed then 1 else 0) =
      objs.countP (fun o => o.phase ≠ .freed) + (if y.phase ≠ .freed then 1 else 0) := by
    intro objs i x y hx
    have hl := lt_of_get hx
    rw [List.countP_set hl]
    have hxe : objs[i] = x := by rw [List.getElem?_eq_getElem hl] at hx; exact Option.some.inj hx
    rw [hxe]
    by_cases hf : x.phase ≠ .freed
    · have : 0 < objs.countP (fun o => o.phase ≠ .freed) :=
        List.countP_pos_iff.2 ⟨x, hxe ▸ List.getElem_mem hl, by simp [hf]⟩
      simp only [decide_eq_true_eq, if_pos hf] at *; omega
    · simp only [decide_eq_true_eq, if_neg hf] at *; omega
  have c1 := cset s.heap.objs b o { o with phase := .freed } e
  rw [if_pos hnf, if_neg (by simp)] at c1
  unfold finish at h1
  rw [e] at h1
  simp only [hp, ne_eq, not_true_eq_false, if_false] at h1
  cases hk : o.kind with
  | copied => rw [hk] at h1; cases h1; simpa using c1
  | moved => rw [hk] at h1; cases h1; simpa using c1
  | customFree c => rw [hk] at h1; cases h1; simpa using c1
  | window p =>
    rw [hk] at h1
    obtain ⟨hlt, q, eq, hql, _⟩ := hi.parent_live e hk hnf
    have hq0 := (hi.dyn p q eq).2.1 hql
    dsimp only at h1
    rw [decrement_eq eq hql hq0, C.ok_bind] at h1
    cases h1
    simp only [put]
    have hq' : ({ q with count := q.count - 1, phase := if q.count = 1 then Phase.dying else .live } : Obj).phase ≠ .freed := by
      by_cases h1 : q.count = 1 <;> simp [h1]
    generalize ({ q with count := q.count - 1, phase := if q.count = 1 then Phase.dying else .live } : Obj) = q' at hq' ⊢
    have c2 := cset s.heap.objs p q q' eq
    have hqn : q.phase ≠ .freed := by rw [hql]; simp
    rw [if_pos hqn, if_pos hq'] at c2
    have c3 := cset (s.heap.objs.set p q') b o
      { o with phase := .freed } (by rw [List.getElem?_set, if_neg (by omega)]; exact e)
    rw [if_pos hnf, if_neg (by simp)] at c3
    omega

/-- A sample history: a custom-free buffer of four bytes and a window of it; the original is
released first. -/
def sample : C Sys := do
  let s ← exec Sys.init (.create (.customFree 77) ⟨some [1, 2, 3, 4], 4⟩ true)
  let s ← exec s (.window 0 1 2 true)
  exec s (.decRef 0)

example : ∃ s, sample = C.ok s ∧ s.held 0 = 0 ∧ s.held 1 = 1 ∧ s.view 1 = [2, 3] ∧ s.heap.log = [] ∧
    content s.heap 1 = C.ok [2, 3] ∧
    (∃ s', (do let s ← exec s (.decRef 1)
               let s ← exec s (.finish 1)
               exec s (.finish 0)) = C.ok s' ∧ s'.heap.log = [.objFree 0, .customFree 0 77, .objFree 1]) :=
  ⟨_, rfl, rfl, rfl, rfl, rfl, by decide +kernel, _, rfl, rfl⟩

/-- The sample history is made of allowed steps. -/
example : ∃ s, Reachable s ∧ 0 < s.held 1 ∧ s.view 1 = [2, 3] := by
  refine ⟨_, .step (.decRef 0) (.step (.window 0 1 2 true)
    (.step (.create (.customFree 77) ⟨some [1, 2, 3, 4], 4⟩ true) .init ?_ rfl) ?_ rfl) ?_ rfl, ?_, rfl⟩
  · exact ⟨by simp, by decide, by intro m hm; cases hm; decide⟩
  · exact ⟨by decide, by decide, by decide⟩
  · show 0 < _; decide
  · decide

/-- C19: a window is granted exactly when offset plus size (as numbers, without wrap-around) fit
in the buffer, whatever the 32 bit arguments; its content is that slice.  The whole buffer is
returned as the same handle, every other window is a new one. -/
theorem window_result {s : Sys} (h : Reachable s) {b : Nat} (hb : 0 < s.held b) (off size : Nat)
    (ho : off < 2 ^ 32) (hs : size < 2 ^ 32) (alloc : Bool) :
    ((s.view b).length < off + size → createWindow s.heap b off size alloc = C.ok (none, s.heap)) ∧
    (off + size ≤ (s.view b).length → alloc = true → ∃ r hp, createWindow s.heap b off size alloc = C.ok (some r, hp) ∧
      content hp r = C.ok (((s.view b).drop off).take size) ∧
      (r = b ↔ off = 0 ∧ size = (s.view b).length)) := by
  have hi := Inv.reachable h
  obtain ⟨o, e, hl, hc⟩ := hi.live hb
  obtain ⟨hsz, _⟩ := hi.static.dat b _ (shapes_get e)
  have hlen := (hi.content e hl).2
  have hbl := lt_of_get e
  obtain ⟨r, hr, hinv⟩ := inv_window hi hb off size ho hs alloc
  have heq := createWindow_eq e hl hsz off size ho hs alloc
  constructor
  · intro hlt; rw [heq, if_pos (by omega)]
  · intro hle ha; subst ha
    rw [if_neg (by omega)] at heq
    by_cases h4 : off = 0 ∧ size = o.size
    · rw [if_pos h4] at heq
      rw [heq] at hr; cases hr
      refine ⟨_, _, heq, ?_, by rw [hlen]; simp [h4]⟩
      have hh : 0 < (gain s (some b, put s.heap b { o with count := o.count + 1 }) (slice (s.view b) off size)).held b := by
        simp [gain]
      obtain ⟨o', e', hl', _⟩ := hinv.live hh
      have := (hinv.content e' hl').1
      simp only [gain, upd_self] at this
      exact this
    · rw [if_neg h4, if_neg (by simp)] at heq
      rw [heq] at hr; cases hr
      refine ⟨_, _, heq, ?_, ?_⟩
      · have hh : 0 < (gain s (some s.heap.objs.length, { objs := s.heap.objs.set b { o with count := o.count + 1 } ++
            [⟨⟨.window b, o.root, o.off + off, size, []⟩, 1, .live⟩], log := s.heap.log }) (slice (s.view b) off size)).held
            s.heap.objs.length := by simp [gain]
        obtain ⟨o', e', hl', _⟩ := hinv.live hh
        have := (hinv.content e' hl').1
        simp only [gain, upd_self] at this
        exact this
      · rw [hlen]; constructor
        · intro h5; omega
        · intro h5; exact absurd h5 h4

/-- C19: without memory, a proper window gives NULL and changes nothing. -/
theorem window_no_memory {s : Sys} (h : Reachable s) {b : Nat} (hb : 0 < s.held b) (off size : Nat)
    (ho : off < 2 ^ 32) (hs : size < 2 ^ 32) (hp : ¬ (off = 0 ∧ size = (s.view b).length)) :
    createWindow s.heap b off size false = C.ok (none, s.heap) := by
  have hi := Inv.reachable h
  obtain ⟨o, e, hl, hc⟩ := hi.live hb
  obtain ⟨hsz, _⟩ := hi.static.dat b _ (shapes_get e)
  have hlen := (hi.content e hl).2
  rw [createWindow_eq e hl hsz off size ho hs false]
  rw [hlen] at hp
  by_cases h1 : o.size < off + size
  · rw [if_pos h1]
  · rw [if_neg h1, if_neg hp, if_pos rfl]

/-- C19: windows compose by adding their offsets. -/
theorem window_of_window (v : List UInt8) (o1 n1 o2 n2 : Nat) (h2 : o2 + n2 ≤ n1) :
    slice (slice v o1 n1) o2 n2 = slice v (o1 + o2) n2 := by
  simp only [slice]
  rw [List.drop_take, List.take_take, List.drop_drop, Nat.min_eq_left (by omega)]

/-- C19: the copying variant grants the same windows and gives an independent buffer. -/
theorem window_copy_result {s : Sys} (h : Reachable s) {b : Nat} (hb : 0 < s.held b) (off size : Nat)
    (ho : off < 2 ^ 32) (hs : size < 2 ^ 32) (alloc : Bool) :
    ((s.view b).length < off + size → createWindowCopy s.heap b off size alloc = C.ok (none, s.heap)) ∧
    (off + size ≤ (s.view b).length → alloc = true → ∃ r hp, createWindowCopy s.heap b off size alloc = C.ok (some r, hp) ∧
      r ≠ b ∧ content hp r = C.ok (((s.view b).drop off).take size) ∧
      ∃ o, hp.objs[r]? = some o ∧ o.kind = .copied) := by
  have hi := Inv.reachable h
  obtain ⟨o, e, hl, hc⟩ := hi.live hb
  obtain ⟨hsz, _⟩ := hi.static.dat b _ (shapes_get e)
  obtain ⟨hct, hlen⟩ := hi.content e hl
  have hbl := lt_of_get e
  simp only [Nat.reducePow] at ho hs
  constructor
  · intro hlt
    unfold createWindowCopy
    rw [get_ok.2 ⟨e, hl⟩, C.ok_bind]
    by_cases h2 : off > o.size
    · rw [if_pos h2]
    · rw [if_neg h2]
      by_cases h3 : off > 4294967295 - size
      · rw [if_pos h3]
      · rw [if_neg h3, if_pos (by simp only [Nat.reducePow]; omega)]
  · intro hle ha; subst ha
    obtain ⟨r, hr, hinv⟩ := inv_windowCopy hi hb off size ho hs true
    have heq : createWindowCopy s.heap b off size true = C.ok (some s.heap.objs.length,
        { s.heap with objs := s.heap.objs ++ [⟨⟨.copied, s.heap.objs.length, 0, size, ((s.view b).drop off).take size⟩, 1, .live⟩] }) := by
      unfold createWindowCopy
      rw [get_ok.2 ⟨e, hl⟩, C.ok_bind, if_neg (by omega), if_neg (by omega), if_neg (by simp only [Nat.reducePow]; omega),
        hct, C.ok_bind]
      unfold create
      dsimp only
      rw [if_neg (by simp), if_neg (by simp; omega)]
    rw [heq] at hr; cases hr
    refine ⟨_, _, heq, by omega, ?_, ⟨_, List.getElem?_concat_length, rfl⟩⟩
    have hh : 0 < (gain s (some s.heap.objs.length, { s.heap with objs := s.heap.objs ++
        [⟨⟨.copied, s.heap.objs.length, 0, size, ((s.view b).drop off).take size⟩, 1, .live⟩] })
        (slice (s.view b) off size)).held s.heap.objs.length := by simp [gain]
    obtain ⟨o', e', hl', _⟩ := hinv.live hh
    have := (hinv.content e' hl').1
    simp only [gain, upd_self] at this
    exact this

example : ∃ s, exec Sys.init (.create .copied ⟨some [1, 2, 3, 4], 4⟩ true) = C.ok s ∧ 0 < s.held 0 ∧
    (s.view 0).length = 4 := ⟨_, rfl, by decide, rfl⟩

end CUtil.ConstBufferLife
