import Verif.ArrayLife.Lemmas
/-
Lifetime of arrays of buffers, under every interleaving of the calls.
-/
namespace CUtil.ArrayLife
open CUtil

/-- Nothing a client that uses only what it holds does is undefined: no buffer and no array is touched after it has been released, in whatever order the steps of the calls come. -/
theorem lifetime_safe {s : Sys} (h : Reachable s) {op : Op} (ha : Allowed s op) : C.Defined (exec s op) := by
  obtain ⟨t, e, _⟩ := exec_ok (reach_inv h) ha
  exact ⟨t, e⟩

/-- What the client holds, and all that can be reached from it, is alive. -/
theorem held_alive {s : Sys} (h : Reachable s) {x y : Nat} (hx : 0 < s.held x) (hb : Below s.heap x y) :
    (∃ o, s.heap.objs[y]? = some o ∧ o.phase = .live ∧ 0 < o.count) ∧ .objFree y ∉ s.heap.log ∧ .blockFree y ∉ s.heap.log := by
  have I := reach_inv h
  have key : 0 < s.held y + kids s.heap.objs y := by
    induction hb with
    | refl => omega
    | next _ e hz ih =>
      obtain ⟨o', e', hl, _⟩ := live_of I ih
      rw [e] at e'; cases e'
      have := kids_pos e (x := _) (by simpa [refs, hl] using hz)
      omega
  obtain ⟨o, e, hl, _, hc⟩ := live_of I key
  have hlg := I.lg y
  simp [frd, frdMoved, e, hl, List.count_eq_zero] at hlg
  exact ⟨⟨o, e, hl, by omega⟩, hlg⟩

/-- An array the client holds can be read; its elements are buffers, and alive. -/
theorem held_readable {s : Sys} (h : Reachable s) {a : Nat} (ha : HasArr s a) :
    ∃ l, cellsOf s.heap a = C.ok l ∧ ∀ b ∈ l, IsBuf s.heap b ∧ ∃ o, s.heap.objs[b]? = some o ∧ o.phase = .live := by
  have I := reach_inv h
  obtain ⟨l, hc, e⟩ := arr_ok I ha
  refine ⟨l, e, fun b hb => ?_⟩
  obtain ⟨z, p, o, eo, _, hk⟩ := cellsAt_isB I hc b hb
  have hp := (cells_ok I hc (by have := ha.1; omega)).2 b hb
  obtain ⟨o', eo', hl, _⟩ := live_of I (x := b) (by omega)
  rw [eo] at eo'; cases eo'
  exact ⟨⟨o, z, p, eo, hk⟩, o, eo, hl⟩

/-- Whatever happens, an array holds the same buffers as long as the client holds it. -/
theorem contents_fixed {s t : Sys} (h : Reachable s) (st : Steps s t) {a : Nat} {l : List Nat} (hs : HasArr s a) (e : cellsOf s.heap a = C.ok l) (ht : 0 < t.held a) : cellsOf t.heap a = C.ok l := by
  have I := reach_inv h
  obtain ⟨I', L⟩ := steps_inv I st
  obtain ⟨l', hc, e'⟩ := arr_ok I hs
  rw [e] at e'; cases e'
  exact (cells_ok I' (hc.mono L.keep) (by omega)).1

/-- The buffers `created_contents` leaves out of an array made by constbuffer_array_remove_empty_buffers are those of size zero. -/
theorem empty_buffers (s : Heap) (b : Nat) : isEmptyBuf s b = true ↔ ∃ o parent, s.objs[b]? = some o ∧ o.kind = .buf 0 parent := by
  unfold isEmptyBuf
  constructor
  · intro h
    split at h
    · rename_i o e
      split at h
      · rename_i parent k; exact ⟨o, parent, e, k⟩
      · cases h
    · cases h
  · rintro ⟨o, parent, e, k⟩
    rw [e]; simp only; rw [k]; rfl

/-- A new array holds what it has to: `R a` is what the array `a` holds when the call is made. When the call is over, however long it takes and whatever happens in the meantime, the cells of the new array
are the buffers wanted, or new ones that are parts of them, in order. -/
theorem created_contents {s s' t : Sys} (h : Reachable s) {c : Call} (ha : Allowed s (.start c)) (e : exec s (.start c) = C.ok s') (st : Steps s' t)
    {R : Nat → List Nat} (hR : ∀ a l, cellsOf s.heap a = C.ok l → R a = l) {o : Obj} (eo : t.heap.objs[s.heap.objs.length]? = some o) (hl : o.phase = .live) :
    ∃ cells, cellsOf t.heap s.heap.objs.length = C.ok cells ∧ cells.length = (want R (isEmptyBuf s.heap) c).length ∧ ∀ q ∈ cells.zip (want R (isEmptyBuf s.heap) c), MadeOf t.heap q.1 q.2 := by
  have I := reach_inv h
  obtain ⟨heap, f⟩ := s
  obtain ⟨p, todo, rot, e1, hg, hk, hp, I1⟩ := start_ok I ha hR
  simp only [exec, e1, C.ok_bind] at e
  cases e
  obtain ⟨I', L⟩ := steps_inv (s := ⟨{ heap with objs := heap.objs ++ [p] }, f⟩) I1 st
  obtain ⟨o', eo', g, _, _, hk'⟩ := L heap.objs.length p (by simp)
  simp only at eo
  rw [eo] at eo'; cases eo'
  obtain ⟨cells, hk'⟩ := hk' ⟨[], hk⟩
  obtain ⟨h1, h2⟩ := (I'.st _ o eo).live hl cells hk'
  rw [h1, g, hg] at h2
  refine ⟨cells, by simp [cellsOf, get, eo, hl, hk'], h2.1, fun q hq => ?_⟩
  have := h2.2 q hq
  obtain ⟨c, b, _ | z⟩ := q
  · exact this
  · obtain ⟨o, e, _, hk⟩ := this
    exact ⟨o, e, hk⟩

/-- While a creating function runs, what it has put into the new array so far is alive. -/
theorem building_alive {s : Sys} (h : Reachable s) {x : Nat} {o : Obj} {todo : List Item} {rot : Bool} (e : s.heap.objs[x]? = some o) (hp : o.phase = .building todo rot) :
    ∃ cells, o.kind = .arr cells ∧ ∀ b ∈ cells, ∃ p, s.heap.objs[b]? = some p ∧ p.phase = .live := by
  have I := reach_inv h
  obtain ⟨cells, hk, _⟩ := (I.st x o e).building _ _ hp
  refine ⟨cells, hk, fun b hb => ?_⟩
  obtain ⟨p, ep, hl, _⟩ := live_of I (x := b) (by have := kids_pos e (x := b) (by simpa [refs, hp, hk, content] using hb); omega)
  exact ⟨p, ep, hl⟩

/-- Nothing is freed twice, and the block given to create_with_move_buffers is freed when, and only when, its array is. -/
theorem freed_once {s : Sys} (h : Reachable s) (x : Nat) :
    s.heap.log.count (.objFree x) ≤ 1 ∧ s.heap.log.count (.blockFree x) ≤ s.heap.log.count (.objFree x) ∧
    (0 < s.heap.log.count (.objFree x) ↔ ∃ o, s.heap.objs[x]? = some o ∧ o.phase = .freed) ∧
    (0 < s.heap.log.count (.blockFree x) ↔ ∃ o cells, s.heap.objs[x]? = some o ∧ o.phase = .freed ∧ o.kind = .moved cells) := by
  have hl := (reach_inv h).lg x
  rw [hl.1, hl.2]
  cases e : s.heap.objs[x]? with
  | none => simp [frd, frdMoved, e]
  | some o =>
    by_cases hp : o.phase = .freed
    · cases hk : o.kind <;> simp [frd, frdMoved, e, hp, hk, isMoved]
    · simp [frd, frdMoved, e, hp]

theorem no_live {s : Sys} (I : Inv s.heap s.held) (hq : Quiet s) (h0 : ∀ x, s.held x = 0) {x : Nat} {o : Obj} (e : s.heap.objs[x]? = some o) : o.phase ≠ .live := by
  have up : ∀ (x : Nat) (o : Obj), s.heap.objs[x]? = some o → o.phase = .live → ∃ (y : Nat) (p : Obj), s.heap.objs[y]? = some p ∧ p.phase = .live ∧ x ∈ content p.kind := by
    intro x o e hl
    have hb := I.bal x
    have hp := I.ph x o e
    simp only [cntOf, bldOf, e, Option.map_some, Option.getD_some, h0, bld_live hl] at hb
    simp [dead, hl] at hp
    obtain ⟨y, p, ep, hx⟩ := of_kids_pos (objs := s.heap.objs) (x := x) (by omega)
    rcases hq p (List.mem_of_getElem? ep) with h | h
    · exact ⟨y, p, ep, h, by simpa [refs, h] using hx⟩
    · simp [refs, h] at hx
  have noArr : ∀ (n x : Nat) (o : Obj), s.heap.objs.length - x = n → s.heap.objs[x]? = some o → (∀ z p, o.kind ≠ .buf z p) → o.phase ≠ .live := by
    intro n
    induction n using Nat.strongRecOn with
    | ind n ih =>
      intro x o hn e hk hl
      obtain ⟨y, p, ep, hpl, hx⟩ := up x o e hl
      have hs := (I.st y p ep).kind
      have notB : ¬ IsB s.heap.objs x := by
        rintro ⟨z, q, o', e', _, hk'⟩
        rw [e] at e'; cases e'
        exact hk z q hk'
      cases hpk : p.kind with
      | buf z q =>
        rw [hpk] at hs hx
        cases q with
        | none => simp [content] at hx
        | some q => simp [content] at hx; subst hx; exact notB hs.2
      | arr cells => rw [hpk] at hs hx; exact notB (hs x hx)
      | moved cells => rw [hpk] at hs hx; exact notB (hs x hx)
      | view orig root st m =>
        rw [hpk] at hs hx
        simp [content] at hx; subst hx
        have h1 := hs.1
        have h2 := lt_of_get ep
        exact ih (s.heap.objs.length - y) (by omega) y p rfl ep (by simp [hpk]) hpl
  have noBuf : ∀ (n x : Nat) (o : Obj), s.heap.objs.length - x = n → s.heap.objs[x]? = some o → o.phase ≠ .live := by
    intro n
    induction n using Nat.strongRecOn with
    | ind n ih =>
      intro x o hn e hl
      obtain ⟨y, p, ep, hpl, hx⟩ := up x o e hl
      have hs := (I.st y p ep).kind
      cases hpk : p.kind with
      | buf z q =>
        rw [hpk] at hs hx
        cases q with
        | none => simp [content] at hx
        | some q =>
          simp [content] at hx; subst hx
          have h1 := hs.1
          have h2 := lt_of_get ep
          exact ih (s.heap.objs.length - y) (by omega) y p rfl ep hpl
      | _ => exact noArr _ y p rfl ep (by simp [hpk]) hpl
  exact noBuf _ x o rfl e

/-- When no call is in progress and the client holds nothing, everything has been freed, exactly once. -/
theorem no_leak {s : Sys} (h : Reachable s) (hq : Quiet s) (h0 : ∀ x, s.held x = 0) {x : Nat} {o : Obj} (e : s.heap.objs[x]? = some o) :
    o.phase = .freed ∧ s.heap.log.count (.objFree x) = 1 ∧ ∀ cells, o.kind = .moved cells → s.heap.log.count (.blockFree x) = 1 := by
  have I := reach_inv h
  have hf : o.phase = .freed := (hq o (List.mem_of_getElem? e)).resolve_left (no_live I hq h0 e)
  have hl := I.lg x
  refine ⟨hf, by rw [hl.1]; simp [frd, e, hf], fun cells hk => by rw [hl.2]; simp [frdMoved, e, hf, hk, isMoved]⟩

theorem work_set : ∀ {objs : List Obj} {log log' : List Event} {y : Nat} {o : Obj} (o' : Obj) (_ : objs[y]? = some o), work ⟨objs.set y o', log⟩ + work ⟨[o], []⟩ = work ⟨objs, log'⟩ + work ⟨[o'], []⟩
  | [], _, _, _, _, _, h => by simp at h
  | p :: objs, _, _, 0, o, o', h => by
    simp at h; subst h
    simp [work]; omega
  | p :: objs, log, log', y + 1, o, o', h => by
    have := work_set (objs := objs) (log := log) (log' := log') (y := y) o' (by simpa using h)
    simp [work] at this ⊢; omega

/-- Each step of a thread that destroys an object makes the rest smaller by one. -/
theorem release_progress {s t : Sys} (h : Reachable s) {x : Nat} (ha : Allowed s (.release x)) (e : exec s (.release x) = C.ok t) : work t.heap + 1 = work s.heap := by
  have I := reach_inv h
  obtain ⟨heap, f⟩ := s
  obtain ⟨o, i, eo, hp⟩ := ha
  simp only at eo I
  simp only [exec, release, eo, hp] at e
  cases hy : (content o.kind)[i]? with
  | none =>
    simp only [hy, C.ok_bind] at e
    cases e
    have := work_set (log := freeEvents x o.kind ++ heap.log) (log' := heap.log) { o with phase := .freed } eo
    have hd := List.getElem?_eq_none_iff.1 hy
    simp only [work, hp, List.map_cons, List.map_nil, List.sum_cons, List.sum_nil] at this ⊢
    omega
  | some y =>
    simp only [hy] at e
    have hi := lt_of_get hy
    have h1 := work_set (log := heap.log) (log' := heap.log) { o with phase := .dying (i + 1) } eo
    cases hd : decrement (put heap x { o with phase := .dying (i + 1) }) y with
    | ub => rw [hd] at e; cases e
    | ok h' =>
      rw [hd] at e
      simp only [C.ok_bind] at e
      cases e
      simp only [decrement, get] at hd
      cases ey : (put heap x { o with phase := .dying (i + 1) }).objs[y]? with
      | none => simp [ey] at hd
      | some p =>
        simp only [ey] at hd
        by_cases hl : p.phase = .live
        · simp only [hl, if_true, C.ok_bind] at hd
          split at hd
          · cases hd
          · cases hd
            have h2 := work_set (log := heap.log) (log' := heap.log) { p with count := p.count - 1, phase := if p.count = 1 then .dying 0 else .live } ey
            have h3 : work ⟨[{ p with count := p.count - 1, phase := if p.count = 1 then .dying 0 else .live }], []⟩ = work ⟨[p], []⟩ := by
              by_cases hc : p.count = 1 <;> simp [work, hc, hl]
            rw [h3] at h2
            simp only [put] at h2 ⊢
            simp only [work, hp, List.map_cons, List.map_nil, List.sum_cons, List.sum_nil] at h1 h2 ⊢
            omega
        · simp [hl] at hd

theorem releases_steps {n : Nat} {s t : Sys} (r : Releases n s t) : Steps s t ∧ t.held = s.held := by
  induction r with
  | refl => exact ⟨.refl _, rfl⟩
  | step x _ ha e ih =>
    refine ⟨.step _ ih.1 ha e, ?_⟩
    rw [← ih.2]
    simp only [exec] at e
    obtain ⟨h, _, e⟩ := (C.bind_eq_ok).1 e
    cases e; rfl

theorem steps_trans {s t u : Sys} (h : Steps s t) (h' : Steps t u) : Steps s u := by
  induction h' with
  | refl => exact h
  | step op _ ha e ih => exact .step op ih ha e

theorem releases_work {n : Nat} {s t : Sys} (h : Reachable s) (r : Releases n s t) : work t.heap + n = work s.heap := by
  induction r with
  | refl => rfl
  | step x r ha e ih =>
    have := release_progress (steps_trans h (releases_steps r).1) ha e
    have := ih h
    omega

theorem release_none {s t : Sys} {x : Nat} (hn : NoneBuilding s) (e : exec s (.release x) = C.ok t) : NoneBuilding t := by
  have key : ∀ (objs : List Obj) (x : Nat) (o' : Obj), (∀ o ∈ objs, ∀ todo rot, o.phase ≠ .building todo rot) → (∀ todo rot, o'.phase ≠ .building todo rot) → ∀ o ∈ objs.set x o', ∀ todo rot, o.phase ≠ .building todo rot := by
    intro objs x o' h h' o ho
    rcases List.mem_or_eq_of_mem_set ho with ho | rfl
    · exact h o ho
    · exact h'
  simp only [exec] at e
  obtain ⟨h, e1, e⟩ := (C.bind_eq_ok).1 e
  cases e
  simp only [release] at e1
  split at e1
  · cases e1
  · rename_i o eo
    split at e1
    · split at e1
      · simp only [decrement, get] at e1
        obtain ⟨p, e2, e1⟩ := (C.bind_eq_ok).1 e1
        split at e1
        · cases e1
        · cases e1
          refine key _ _ _ (key _ _ _ hn (by simp)) ?_
          intro todo rot
          dsimp only
          split <;> simp
      · cases e1
        exact key _ _ _ hn (by simp)
    · cases e1

/-- The threads that destroy objects come to an end: there are never more than `work` of their steps to make, they can always be made, and then no call is in progress. If the client holds nothing by then
everything has been freed. -/
theorem releases_end {s : Sys} (h : Reachable s) (hn : NoneBuilding s) :
    (∃ n t, Releases n s t ∧ Quiet t) ∧ (∀ n t, Releases n s t → n ≤ work s.heap) ∧
    (∀ n t, Releases n s t → Quiet t → (∀ x, s.held x = 0) → ∀ x, x < t.heap.objs.length → t.heap.log.count (.objFree x) = 1) := by
  refine ⟨?_, fun n t r => by have := releases_work h r; omega, fun n t r hq h0 x hx => ?_⟩
  · suffices ∀ k s, work s.heap = k → Reachable s → NoneBuilding s → ∃ n t, Releases n s t ∧ Quiet t from this _ s rfl h hn
    have front : ∀ {n : Nat} {s t u : Sys} {x : Nat}, Allowed s (.release x) → exec s (.release x) = C.ok t → Releases n t u → Releases (n + 1) s u := by
      intro n s t u x ha e r
      induction r with
      | refl => exact .step x (.refl _) ha e
      | step y _ ha' e' ih => exact .step y (ih e) ha' e'
    intro k
    induction k using Nat.strongRecOn with
    | ind k ih =>
      intro s hk h hn
      by_cases hq : Quiet s
      · exact ⟨0, s, .refl _, hq⟩
      · simp only [Quiet, Classical.not_forall] at hq
        obtain ⟨o, ho, hne⟩ := hq
        obtain ⟨x, hx⟩ := List.getElem?_of_mem ho
        have : ∃ i, o.phase = .dying i := by
          cases hp : o.phase with
          | dying i => exact ⟨i, rfl⟩
          | building t r => exact (hn o ho t r hp).elim
          | live => exact (hne (Or.inl hp)).elim
          | freed => exact (hne (Or.inr hp)).elim
        obtain ⟨i, hp⟩ := this
        have ha : Allowed s (.release x) := ⟨o, i, hx, hp⟩
        obtain ⟨t, e⟩ := lifetime_safe h ha
        have hw := release_progress h ha e
        obtain ⟨n, u, r, hu⟩ := ih (work t.heap) (by omega) t rfl (.step _ h ha e) (release_none hn e)
        exact ⟨n + 1, u, front ha e r, hu⟩
  · obtain ⟨st, hh⟩ := releases_steps r
    obtain ⟨o, e⟩ : ∃ o, t.heap.objs[x]? = some o := ⟨_, List.getElem?_eq_getElem hx⟩
    exact (no_leak (steps_trans h st) hq (by rw [hh]; exact h0) e).2.1

/-! ### A run: two buffers, an array of both, a view of its second cell; then the client releases all but the view -/

theorem run_of {s t u : Sys} (h : Steps s t) (op : Op) (ha : Allowed t op) (e : exec t op = C.ok u) : Steps s u := .step op h ha e

def r1 : Sys := ⟨⟨[⟨.buf 3 none, 1, .live, [], []⟩, ⟨.buf 0 none, 1, .live, [], []⟩], []⟩, plus (plus (fun _ => 0) 0) 1⟩
theorem r1_reach : Reachable r1 := run_of (run_of (.refl _) (.newBuf 3) trivial rfl) (.newBuf 0) trivial rfl

/-- The call of constbuffer_array_create has its memory, and nothing in it yet. -/
def r2 : Sys := ⟨⟨[⟨.buf 3 none, 1, .live, [], []⟩, ⟨.buf 0 none, 1, .live, [], []⟩, ⟨.arr [], 1, .building [⟨.handle 0, false⟩, ⟨.handle 1, false⟩] false, [], [(0, none), (1, none)]⟩], []⟩, plus (plus (fun _ => 0) 0) 1⟩

theorem r1_allowed : Allowed r1 (.start (.create [0, 1])) := by
  intro b hb
  simp at hb
  rcases hb with rfl | rfl
  · exact ⟨by decide, _, 3, none, rfl, rfl⟩
  · exact ⟨by decide, _, 0, none, rfl, rfl⟩

theorem r1_start : exec r1 (.start (.create [0, 1])) = C.ok r2 := rfl
theorem r2_reach : Reachable r2 := run_of r1_reach _ r1_allowed r1_start

def r3 : Sys := ⟨⟨[⟨.buf 3 none, 2, .live, [], []⟩, ⟨.buf 0 none, 2, .live, [], []⟩, ⟨.arr [0, 1], 1, .live, [(0, none), (1, none)], [(0, none), (1, none)]⟩], []⟩, plus (plus (plus (fun _ => 0) 0) 1) 2⟩

theorem r2_r3 : Steps r2 r3 :=
  run_of (run_of (run_of (.refl _) (.fill 2 true) ⟨_, _, _, _, rfl, rfl, Nat.zero_lt_one⟩ rfl) (.fill 2 true) ⟨_, _, _, _, rfl, rfl, Nat.zero_lt_one⟩ rfl) (.done 2) ⟨_, _, rfl, rfl⟩ rfl

theorem r3_reach : Reachable r3 := steps_trans r2_reach r2_r3

/-- The view is made, and the client releases the two buffers and the array. -/
def r4 : Sys := ⟨⟨[⟨.buf 3 none, 1, .live, [], []⟩, ⟨.buf 0 none, 1, .live, [], []⟩, ⟨.arr [0, 1], 1, .live, [(0, none), (1, none)], [(0, none), (1, none)]⟩, ⟨.view 2 2 1 1, 1, .live, [], []⟩], []⟩,
  minus (minus (minus (plus (plus (plus (plus (fun _ => 0) 0) 1) 2) 3) 0) 1) 2⟩

theorem r3_arr : HasArr r3 2 := ⟨by decide, _, rfl, by simp⟩

theorem r4_reach : Reachable r4 :=
  run_of (run_of (run_of (run_of r3_reach (.createView 2 1 1) r3_arr rfl) (.decRef 0) (show 0 < _ by decide) rfl) (.decRef 1) (show 0 < _ by decide) rfl) (.decRef 2) (show 0 < _ by decide) rfl

/-- Both buffers are gone from the client's hands, and still there. -/
example : r4.held 0 = 0 ∧ r4.held 1 = 0 ∧ r4.held 2 = 0 ∧ 0 < r4.held 3 ∧ cellsOf r4.heap 3 = C.ok [1] ∧ Below r4.heap 3 0 :=
  ⟨by decide, by decide, by decide, by decide, rfl, .next (o := ⟨.arr [0, 1], 1, .live, [(0, none), (1, none)], [(0, none), (1, none)]⟩) (.next (z := 2) (.refl 3) rfl (by decide)) rfl (by decide)⟩

example : ∃ o, r4.heap.objs[0]? = some o ∧ o.phase = .live ∧ 0 < o.count :=
  (held_alive r4_reach (x := 3) (y := 0) (by decide)
    (.next (o := ⟨.arr [0, 1], 1, .live, [(0, none), (1, none)], [(0, none), (1, none)]⟩) (.next (z := 2) (.refl 3) rfl (by decide)) rfl (by decide))).1

example : HasArr r4 3 := ⟨by decide, _, rfl, by simp⟩

/-- The hypotheses of `created_contents`; an array it makes without the empty buffer, too. -/
example : Allowed r1 (.start (.create [0, 1])) ∧ exec r1 (.start (.create [0, 1])) = C.ok r2 ∧ Steps r2 r3 ∧ (r3.heap.objs[r1.heap.objs.length]?.map (·.phase)) = some .live :=
  ⟨r1_allowed, r1_start, r2_r3, rfl⟩

example : Allowed r3 (.start (.removeEmpty 2)) ∧ want (fun _ => [0, 1]) (isEmptyBuf r3.heap) (.removeEmpty 2) = [(0, none)] := ⟨r3_arr, rfl⟩

/-- The whole of the first buffer but one byte, and the second: a new buffer, and the second itself. -/
example : Allowed r3 (.start (.offsetAndCount 2 0 2 false 2 true 0)) ∧ want (fun _ => [0, 1]) (isEmptyBuf r3.heap) (.offsetAndCount 2 0 2 false 2 true 0) = [(0, some 2), (1, none)] :=
  ⟨⟨r3_arr, by decide, by intro l h; cases h; decide⟩, rfl⟩

/-- The client releases the view, too; then it takes seven steps until everything is freed: the view gives back the array and is freed, the array gives back both buffers and is freed, and both buffers are freed. -/
def r5 : Sys := ⟨⟨[⟨.buf 3 none, 1, .live, [], []⟩, ⟨.buf 0 none, 1, .live, [], []⟩, ⟨.arr [0, 1], 1, .live, [(0, none), (1, none)], [(0, none), (1, none)]⟩, ⟨.view 2 2 1 1, 0, .dying 0, [], []⟩], []⟩,
  minus r4.held 3⟩

theorem r5_reach : Reachable r5 := run_of r4_reach (.decRef 3) (show 0 < _ by decide) rfl

example : NoneBuilding r5 ∧ (∀ x, r5.held x = 0) ∧ work r5.heap = 7 := by
  refine ⟨?_, fun x => ?_, by decide⟩
  · intro o ho
    simp [r5] at ho
    rcases ho with rfl | rfl | rfl | rfl <;> simp
  · simp only [r5, r4, minus, plus]
    grind

example : ∃ n t, Releases n r5 t ∧ Quiet t ∧ n ≤ 7 ∧ t.heap.log.count (.objFree 0) = 1 := by
  have hn : NoneBuilding r5 := by
    intro o ho
    simp [r5] at ho
    rcases ho with rfl | rfl | rfl | rfl <;> simp
  have h0 : ∀ x, r5.held x = 0 := fun x => by simp only [r5, r4, minus, plus]; grind
  obtain ⟨⟨n, t, r, q⟩, h2, h3⟩ := releases_end r5_reach hn
  have hw : work r5.heap = 7 := by decide
  refine ⟨n, t, r, q, by have := h2 n t r; omega, h3 n t r q h0 0 ?_⟩
  obtain ⟨o, e, _⟩ := (steps_inv (reach_inv r5_reach) (releases_steps r).1).2 0 _ rfl
  exact lt_of_get e

/-- Without the rule that a caller holds what it uses the calls are undefined: the array of a released view. -/
example : exec r5 (.getBuffer 3 0) = C.ub := rfl

end CUtil.ArrayLife
