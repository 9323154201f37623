import Verif.ChannelHeap.Model
import Verif.DList.Props
set_option linter.unusedSimpArgs false
set_option linter.unusedVariables false
/-
C64: the lists of a channel, on the heap.
-/
namespace CUtil.ChannelHeap
open CUtil CUtil.DList

theorem adjs_tail {h : Heap} {x : Nat} {l : List Nat} (a : Adjs h (x :: l)) : Adjs h l := by
  cases l with
  | nil => trivial
  | cons y r => exact a.2.2

/-- The loop of `DList_ForEach` with `copy_entry`: the entries visited (`a`) are in the list on the stack, the others (`b`) still lead from one
to the next and to the head. -/
theorem move_loop (head stack : Nat) : ∀ (b : List Nat) (h : Heap) (a : List Nat) (fuel : Nat), Rep h stack a → Adjs h (b ++ [head]) →
    (stack :: (a ++ (b ++ [head]))).Nodup → (∀ p ∈ b, h.alive p = true) → b.length < fuel →
    ∃ h', forEachLoop copyEntry h stack head ((b ++ [head]).head (by simp)) fuel = C.ok ((h', stack), true, b.map (fun e => (e, false, some true))) ∧
      Rep h' stack (a ++ b) ∧ Frame h h' (stack :: (a ++ b)) := by
  intro b
  induction b with
  | nil =>
    intro h a fuel r _ _ _ hf
    cases fuel with
    | zero => simp at hf
    | succ n =>
      refine ⟨h, by simp [forEachLoop], by simpa using r, ⟨rfl, fun _ _ => rfl, fun _ _ => rfl⟩⟩
  | cons e b ih =>
    intro h a fuel r hadj hnd hal hf
    cases fuel with
    | zero => simp at hf
    | succ n =>
      have hne : e ≠ head := by
        intro x; subst x
        rw [List.nodup_cons, List.nodup_append] at hnd
        have := hnd.2.2.1
        simp at this
      have hea : e ∉ stack :: a := by
        rw [List.nodup_cons, List.nodup_append] at hnd
        intro x
        rcases List.mem_cons.1 x with x | x
        · exact hnd.1 (by simp [x])
        · exact hnd.2.2.2 e x e (by simp) rfl
      have hae := hal e (by simp)
      obtain ⟨h1, e1, r1, f1⟩ := insertTailList_spec h stack e a r hea hae
      have hnd' : (stack :: (a ++ [e] ++ (b ++ [head]))).Nodup := by
        have : stack :: (a ++ [e] ++ (b ++ [head])) = stack :: (a ++ (e :: b ++ [head])) := by simp
        rw [this]; exact hnd
      have hdis : ∀ p ∈ b ++ [head], p ∉ stack :: (a ++ [e]) := by
        intro p hp x
        rw [List.nodup_cons, List.nodup_append] at hnd'
        rcases List.mem_cons.1 x with x | x
        · exact hnd'.1 (by rw [← x]; exact List.mem_append_right _ hp)
        · exact hnd'.2.2.2 p x p hp rfl
      have hadj1 : Adjs h1 (b ++ [head]) := by
        refine adjs_frame _ (fun p hp => f1.f p (hdis p ?_)) (fun p hp => f1.b p (hdis p ?_)) (adjs_tail hadj)
        · exact List.dropLast_subset _ hp
        · exact List.mem_of_mem_tail hp
      obtain ⟨h2, e2, r2, f2⟩ := ih h1 (a ++ [e]) n r1 hadj1 hnd' (fun p hp => by rw [f1.alive]; exact hal p (List.mem_cons_of_mem _ hp)) (by simp at hf; omega)
      refine ⟨h2, ?_, by simpa using r2, ⟨by rw [f2.alive, f1.alive], ?_, ?_⟩⟩
      · have hnext : h.f e = (b ++ [head]).head (by simp) := by
          cases b with
          | nil => exact hadj.1
          | cons y b => exact hadj.1
        have hce : copyEntry stack h e = C.ok (h1, stack, false, some true) := by
          unfold copyEntry; rw [e1, C.ok_bind]; rfl
        simp only [List.cons_append, List.head_cons]
        unfold forEachLoop
        rw [if_neg hne, getF_of hae, C.ok_bind, hce, C.ok_bind]
        dsimp only
        rw [if_neg (by simp), hnext, e2, C.ok_bind]
        rfl
      · intro p hp
        rw [f2.f p (by simpa using hp), f1.f p (by simp at hp ⊢; exact ⟨hp.1, hp.2.1, hp.2.2.1⟩)]
      · intro p hp
        rw [f2.b p (by simpa using hp), f1.b p (by simp at hp ⊢; exact ⟨hp.1, hp.2.1, hp.2.2.1⟩)]

/-- C64: closing moves every waiting operation, in order, to the list on the stack, and leaves the channel's list empty. -/
theorem move_all (h : Heap) (head stack : Nat) (es : List Nat) (r : Rep h head es) (hs : stack ∉ head :: es) (ha : h.alive stack = true) (fuel : Nat)
    (hf : es.length < fuel) :
    ∃ h', moveAll fuel h head stack = C.ok h' ∧ Rep h' head [] ∧ Rep h' stack es ∧ Frame h h' (head :: stack :: es) := by
  obtain ⟨h1, e1, r1, f1⟩ := initialize_spec h stack ha
  have rh : Rep h1 head es := rep_frame r f1 (fun p hp x => by simp at x; exact hs (x ▸ hp))
  have hnd : (stack :: ([] ++ (es ++ [head]))).Nodup := by
    have := r.nodup
    rw [List.nodup_cons] at this
    simp only [List.nil_append, List.nodup_cons, List.nodup_append]
    simp only [List.mem_cons, not_or] at hs
    refine ⟨by simp [hs.1, hs.2], this.2, by simp, ?_⟩
    intro x hx y hy e
    simp at hy
    exact this.1 (by rw [← hy, ← e]; exact hx)
  obtain ⟨h2, e2, r2, f2⟩ := move_loop head stack es h1 [] fuel r1 (adjs_tail rh.ring) hnd (fun p hp => rh.alive p (List.mem_cons_of_mem _ hp)) hf
  have hah : h2.alive head = true := by rw [f2.alive]; exact rh.alive head (by simp)
  obtain ⟨h3, e3, r3, f3⟩ := initialize_spec h2 head hah
  refine ⟨h3, ?_, r3, ?_, ⟨by rw [f3.alive, f2.alive, f1.alive], ?_, ?_⟩⟩
  · unfold moveAll
    rw [e1, C.ok_bind]
    unfold forEach
    have hx : h1.f head = (es ++ [head]).head (by simp) := by
      have := rh.ring
      cases es with
      | nil => exact this.1
      | cons y es => exact this.1
    dsimp only
    rw [getF_of (rh.alive head (by simp)), C.ok_bind, hx, e2, C.ok_bind]
    exact e3
  · have : Rep h2 stack es := by simpa using r2
    refine rep_frame this f3 (fun p hp x => ?_)
    simp at x
    subst x
    simp only [List.mem_cons, not_or] at hs
    rcases List.mem_cons.1 hp with x | x
    · exact hs.1 x.symm
    · have := r.nodup; rw [List.nodup_cons] at this; exact this.1 x
  · intro p hp
    simp at hp
    rw [f3.f p (by simp [hp.1]), f2.f p (by simp [hp.2]), f1.f p (by simp [hp.2.1])]
  · intro p hp
    simp at hp
    rw [f3.b p (by simp [hp.1]), f2.b p (by simp [hp.2]), f1.b p (by simp [hp.2.1])]

/-- Taking the entries off the list on the stack. -/
theorem drain_spec (kept : Nat → Bool) (stack : Nat) : ∀ (es : List Nat) (h : Heap) (fuel : Nat), Rep h stack es → es.length < fuel →
    ∃ h', drain kept h stack fuel = C.ok (h', es) ∧ Rep h' stack [] ∧ (∀ p, p ∉ stack :: es → h'.f p = h.f p ∧ h'.b p = h.b p ∧ h'.alive p = h.alive p) := by
  intro es
  induction es with
  | nil =>
    intro h fuel r hf
    cases fuel with
    | zero => simp at hf
    | succ n =>
      obtain ⟨h', e, r', f1, f2, f3⟩ := removeHeadList_spec h stack [] r
      exact ⟨h', by simp [drain, e], r', fun p _ => by rw [f1, f2, f3]; exact ⟨rfl, rfl, rfl⟩⟩
  | cons e es ih =>
    intro h fuel r hf
    cases fuel with
    | zero => simp at hf
    | succ n =>
      obtain ⟨h1, e1, r1, f1⟩ := removeHeadList_spec h stack (e :: es) r
      have hnd := r.nodup
      have hne : e ≠ stack := by intro x; subst x; simp at hnd
      have hnot : e ∉ stack :: es := by
        simp only [List.nodup_cons, List.mem_cons, not_or] at hnd
        simp only [List.mem_cons, not_or]
        exact ⟨hne, hnd.2.1⟩
      have r1' : Rep { h1 with alive := fun p => h1.alive p && (p != e || kept e) } stack es := by
        refine ⟨?_, r1.nodup, fun p hp => ?_⟩
        · exact adjs_frame (h := h1) _ (fun _ _ => rfl) (fun _ _ => rfl) r1.ring
        · have : p ≠ e := fun x => hnot (x ▸ hp)
          simp [r1.alive p hp, this]
      obtain ⟨h2, e2, r2, f2⟩ := ih _ n r1' (by simp at hf; omega)
      refine ⟨h2, ?_, r2, ?_⟩
      · simp only [drain, e1, C.ok_bind, if_neg hne, e2]
        rfl
      · intro p hp
        simp only [List.mem_cons, not_or] at hp
        obtain ⟨g1, g2, g3⟩ := f2 p (by simp [hp])
        have k := f1
        refine ⟨by rw [g1]; exact f1.f p (by simp [hp]), by rw [g2]; exact f1.b p (by simp [hp]), ?_⟩
        rw [g3]
        simp [hp.2.1, f1.alive]

/-- C64: channel_close executes the callbacks of exactly the waiting operations, in order, uses none of them after its callbacks, and leaves
the channel's list empty. -/
theorem close_takes_all (kept : Nat → Bool) (h : Heap) (head stack : Nat) (es : List Nat) (r : Rep h head es) (hs : stack ∉ head :: es)
    (fuel : Nat) (hf : es.length < fuel) :
    ∃ h', abandon kept fuel h head stack = C.ok (h', es) ∧ Rep h' head [] ∧
      (∀ p, p ∉ stack :: head :: es → h'.f p = h.f p ∧ h'.b p = h.b p ∧ h'.alive p = h.alive p) := by
  have hs' := hs
  simp only [List.mem_cons, not_or] at hs'
  have r0 : Rep { h with alive := fun p => p == stack || h.alive p } head es :=
    ⟨adjs_frame (h := h) _ (fun _ _ => rfl) (fun _ _ => rfl) r.ring, r.nodup, fun p hp => by simp [r.alive p hp]⟩
  obtain ⟨h1, e1, r1, r2, fr⟩ := move_all _ head stack es r0 hs (by simp) fuel hf
  obtain ⟨h2, e2, _, f2⟩ := drain_spec kept stack es h1 fuel r2 hf
  have hh : head ∉ stack :: es := by
    simp only [List.mem_cons, not_or]
    have := r.nodup; rw [List.nodup_cons] at this
    exact ⟨fun x => hs'.1 x.symm, this.1⟩
  obtain ⟨g1, g2, g3⟩ := f2 head hh
  refine ⟨{ h2 with alive := fun p => h2.alive p && p != stack }, ?_, ⟨?_, by simp, ?_⟩, ?_⟩
  · unfold abandon
    dsimp only
    rw [e1, C.ok_bind, e2, C.ok_bind]
    rfl
  · have := r1.ring
    simp only [List.nil_append, Adjs] at this ⊢
    rw [g1, g2]; exact this
  · intro p hp
    simp at hp; subst hp
    have : p ≠ stack := fun x => hs'.1 x.symm
    simp [this, g3, r1.alive p (by simp)]
  · intro p hp
    simp only [List.mem_cons, not_or] at hp
    obtain ⟨k1, k2, k3⟩ := f2 p (by simp [hp])
    have a := fr.f p (by simp [hp])
    have b := fr.b p (by simp [hp])
    have c := fr.alive
    refine ⟨by rw [k1, a], by rw [k2, b], ?_⟩
    show (h2.alive p && p != stack) = h.alive p
    rw [k3, c]
    have : (p == stack) = false := by simp [hp.1]
    simp [this, bne]

/-- The entries of a list pass the test of `cancel_op`. -/
theorem linked_of {h : Heap} {head e : Nat} {a b : List Nat} (r : Rep h head (a ++ e :: b)) : isLinked h e = C.ok true := by
  obtain ⟨a', p, n, b', ea, eb, ha, hb, h1, h2, h3, h4⟩ := rep_split r
  obtain ⟨n1, n2, n3, n4, n5, n6⟩ := nodup_facts r.nodup
  have hnm : n ∈ head :: (a ++ b) := by
    have := first_mem eb
    simp only [List.mem_append, List.mem_singleton, List.mem_cons] at this ⊢
    grind
  have hne : n ≠ e := fun x => n4 (x ▸ hnm)
  have han : h.alive n = true := r.alive n (by
    simp only [List.mem_append, List.mem_cons] at hnm ⊢
    grind)
  unfold isLinked
  rw [getF_of (r.alive e (by simp)), C.ok_bind, h3, if_neg hne, getB_of han, C.ok_bind, h4]
  simp

/-- C64: for an operation in a list, cancel finds that it is, and takes exactly it off. -/
theorem cancel_waiting (h : Heap) (head e : Nat) (a b : List Nat) (r : Rep h head (a ++ e :: b)) :
    ∃ h', unlink h e = C.ok (h', true) ∧ Rep h' head (a ++ b) ∧ Frame h h' (head :: (a ++ b)) := by
  obtain ⟨h', e1, r', f'⟩ := removeEntryList_spec h head e a b r
  obtain ⟨a', p, n, b', ea, eb, ha, hb, h1, h2, h3, h4⟩ := rep_split r
  have hl := linked_of r
  refine ⟨h', ?_, r', f'⟩
  unfold unlink
  rw [hl, C.ok_bind, if_pos rfl, e1, C.ok_bind]
  rfl

/-- C64: for an operation that was taken off a list (by a request that matches it, or by another cancel), cancel finds that it is not in one,
as long as the entry after it is where it was. -/
theorem cancel_taken_partial (h : Heap) (head e : Nat) (a b : List Nat) (r : Rep h head (a ++ e :: b)) :
    ∃ h' x, removeEntryList h e = C.ok (h', x) ∧ unlink h' e = C.ok (h', false) := by
  obtain ⟨h', e1, r', f'⟩ := removeEntryList_spec h head e a b r
  obtain ⟨a', p, n, b', ea, eb, ha, hb, h1, h2, h3, h4⟩ := rep_split r
  obtain ⟨n1, n2, n3, n4, n5, n6⟩ := nodup_facts r.nodup
  refine ⟨h', _, e1, ?_⟩
  have hae : h'.alive e = true := by rw [f'.alive]; exact r.alive e (by simp)
  have hfe : h'.f e = n := by rw [f'.f e n4, h3]
  have hnm : n ∈ head :: (a ++ b) := by
    have := first_mem eb
    simp only [List.mem_append, List.mem_singleton, List.mem_cons] at this ⊢
    grind
  have hpm := last_mem ea
  have hne : n ≠ e := fun x => n4 (x ▸ hnm)
  have hpe : p ≠ e := by
    intro x
    apply n4; rw [← x]
    simp only [List.mem_append, List.mem_cons] at hpm ⊢
    grind
  have hbn : h'.b n = p := by
    have hr := r'.ring
    have : head :: (a ++ b ++ [head]) = a' ++ p :: n :: b' := by
      have : head :: (a ++ b ++ [head]) = (head :: a) ++ (b ++ [head]) := by simp
      rw [this, ea, eb]; simp
    rw [this, adjs_append] at hr
    exact hr.2.2.1
  have han : h'.alive n = true := r'.alive n hnm
  unfold unlink isLinked
  rw [getF_of hae, C.ok_bind, hfe, if_neg hne, getB_of han, C.ok_bind, hbn]
  have : decide (e = p) = false := by simp [Ne.symm hpe]
  rw [this]
  rfl

/-! ### Cancelling an operation that is not waiting any more -/

/-- C64 is false of an operation that was matched: two pushes wait, two pulls match them, the second operation is finished and released by its
users. The user who still has the handle of the first cancels it: the test reads the memory of the second. -/
theorem cancel_after_match_undefined (h : Heap) (r : Rep h 1 [2, 3]) :
    ∃ h' h'', removeHeadList h 1 = C.ok (h', 2) ∧ removeHeadList h' 1 = C.ok (h'', 3) ∧ h''.alive 2 = true ∧
      unlink { h'' with alive := fun p => h''.alive p && p != 3 } 2 = C.ub := by
  obtain ⟨h', e1, r1, f1⟩ := removeHeadList_spec h 1 [2, 3] r
  obtain ⟨h'', e2, r2, f2⟩ := removeHeadList_spec h' 1 [3] r1
  have a2 : h''.alive 2 = true := by rw [f2.alive, f1.alive]; exact r.alive 2 (by simp)
  have hf : h''.f 2 = 3 := by
    rw [f2.f 2 (by simp), f1.f 2 (by simp)]
    have := r.ring
    simp only [List.cons_append, List.nil_append, Adjs] at this
    exact this.2.2.1
  refine ⟨h', h'', e1, e2, a2, ?_⟩
  unfold unlink isLinked getF getB
  simp [a2, hf]

/-! ### Witness -/

/-- Three operations wait; the second is cancelled (twice), the others are abandoned in order. -/
example : ∃ h', (do
    let (h, _) ← run heap0 [.init 1, .insertTail 1 2, .insertTail 1 3, .insertTail 1 4]
    let (h, x) ← unlink h 3
    let (h, y) ← unlink h 3
    let (h, es) ← abandon (fun _ => false) 10 h 1 30
    pure ((x, y, es), h.alive 2, h.f 1)) = C.ok ((true, false, [2, 4]), false, h') := ⟨1, by decide⟩

example : ∃ h : Heap, Rep h 1 [2, 3, 4] ∧ 9 ∉ [1, 2, 3, 4] :=
  ⟨⟨fun _ => true, fun p => if p = 4 then 1 else p + 1, fun p => if p = 1 then 4 else p - 1⟩, ⟨by simp [Adjs], by simp, fun _ _ => rfl⟩, by decide⟩

end CUtil.ChannelHeap
