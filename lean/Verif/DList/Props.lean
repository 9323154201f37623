import Verif.DList.Lemmas
set_option linter.unusedSimpArgs false
set_option linter.unusedVariables false
/-
C27: the doubly linked list is a circular sequence.  C28: traversal.
`Rep h head es`: the ring at `head` has exactly the elements `es`, in order, `Flink` and `Blink` inverse to each other.
`Frame h h' ps`: nothing but the links of `ps` changed.
-/
namespace CUtil.DList

/-- A ring none of whose entries was touched is unchanged. -/
theorem rep_frame {h h' : Heap} {head : Nat} {es ps : List Nat} (r : Rep h head es) (fr : Frame h h' ps) (hd : ∀ p ∈ head :: es, p ∉ ps) :
    Rep h' head es := by
  refine ⟨?_, r.nodup, fun p hp => by rw [fr.alive]; exact r.alive p hp⟩
  refine adjs_frame _ ?_ ?_ r.ring
  · intro p hp
    apply fr.f; apply hd
    have : head :: (es ++ [head]) = (head :: es) ++ [head] := rfl
    rw [this, List.dropLast_concat] at hp
    exact hp
  · intro p hp
    apply fr.b; apply hd
    simp only [List.tail_cons, List.mem_append, List.mem_cons, List.not_mem_nil, or_false] at hp ⊢
    exact hp.symm

/-- **C27**: initialising gives the empty list. -/
theorem initialize_spec (h : Heap) (head : Nat) (ha : h.alive head = true) :
    ∃ h', initializeListHead h head = C.ok h' ∧ Rep h' head [] ∧ Frame h h' [head] := by
  unfold initializeListHead
  rw [setB_of ha, C.ok_bind, setF_of (by exact ha)]
  refine ⟨_, rfl, ⟨?_, by simp, by simpa using ha⟩, ⟨rfl, ?_, ?_⟩⟩
  · simp [Adjs, upd_self]
  · intro p hp; exact upd_ne _ _ _ _ (by simpa using hp)
  · intro p hp; exact upd_ne _ _ _ _ (by simpa using hp)

/-- **C27**: the emptiness test. -/
theorem isListEmpty_spec (h : Heap) (head : Nat) (es : List Nat) (r : Rep h head es) :
    isListEmpty h head = C.ok (decide (es = [])) := by
  unfold isListEmpty
  rw [getF_of (r.alive head (by simp)), C.ok_bind]
  have hr := r.ring
  have hn := r.nodup
  cases es with
  | nil => simp [Adjs] at hr; simp [hr]
  | cons x es =>
    simp only [List.cons_append, Adjs] at hr
    rw [hr.1]
    rw [List.nodup_cons] at hn
    have : x ≠ head := fun e => hn.1 (by simp [e])
    simp [this]

/-- **C27**: removing an entry removes exactly that one; the result says whether the rest is empty. -/
theorem removeEntryList_spec (h : Heap) (head e : Nat) (a b : List Nat) (r : Rep h head (a ++ e :: b)) :
    ∃ h', removeEntryList h e = C.ok (h', decide (a ++ b = [])) ∧ Rep h' head (a ++ b) ∧ Frame h h' (head :: (a ++ b)) := by
  obtain ⟨a', p, n, b', ea, eb, ha, hb, h1, h2, h3, h4⟩ := rep_split r
  obtain ⟨n1, n2, n3, n4, n5, n6⟩ := nodup_facts r.nodup
  have hpm := last_mem ea
  have hnm := first_mem eb
  have hp' : p ∈ head :: (a ++ b) := by
    simp only [List.mem_cons, List.mem_append] at hpm ⊢
    rcases hpm with hpm | hpm <;> simp [hpm]
  have hn' : n ∈ head :: (a ++ b) := by
    simp only [List.mem_cons, List.mem_append, List.not_mem_nil, or_false] at hnm ⊢
    rcases hnm with hnm | hnm <;> simp [hnm]
  have al : ∀ q, q ∈ head :: (a ++ b) → h.alive q = true := by
    intro q hq
    apply r.alive
    simp only [List.mem_cons, List.mem_append] at hq ⊢
    rcases hq with hq | hq | hq <;> simp [hq]
  unfold removeEntryList
  rw [getF_of (r.alive e (by simp)), C.ok_bind, getB_of (r.alive e (by simp)), C.ok_bind, h3, h2, setF_of (al p hp'), C.ok_bind,
    setB_of (by exact al n hn'), C.ok_bind]
  refine ⟨⟨h.alive, upd h.f p n, upd h.b n p⟩, ?_, ⟨?_, n3, al⟩, ⟨rfl, ?_, ?_⟩⟩
  · have : decide (n = p) = decide (a ++ b = []) := by
      apply decide_eq_decide.mpr
      constructor
      · intro e
        have hp1 := n5 p hpm
        have hn1 := n6 n hnm
        subst e
        have hnh : n = head := by
          rcases List.mem_cons.mp hpm with h | h
          · exact h
          · exact absurd h hn1
        have hb0 : b = [] := by
          cases b with
          | nil => rfl
          | cons x b =>
            simp only [List.cons_append, List.cons.injEq] at eb
            exact absurd (by rw [← eb.1]; simp) hp1
        have ha0 : a = [] := by
          rcases List.eq_nil_or_concat a with h | ⟨l, x, rfl⟩
          · exact h
          · rw [List.concat_eq_append] at ea
            have : head :: (l ++ [x]) = (head :: l) ++ [x] := rfl
            rw [this] at ea
            have := List.append_inj_right' ea rfl
            simp at this
            exact absurd (by rw [← this]; simp) hn1
        rw [ha0, hb0]; rfl
      · intro hab
        have ha0 : a = [] := (List.append_eq_nil_iff.mp hab).1
        have hb0 : b = [] := (List.append_eq_nil_iff.mp hab).2
        subst ha0; subst hb0
        have h5 : p = head := by simpa using hpm
        have h6 : n = head := by simpa using hnm
        omega
    rw [this]; rfl
  · have := bridge (h := h) (h' := ⟨h.alive, upd h.f p n, upd h.b n p⟩) ea eb ha hb (fun q hq => upd_ne _ _ _ _ hq) (fun q hq => upd_ne _ _ _ _ hq)
      (upd_self _ _ _) (upd_self _ _ _) (n5 p hpm) (n6 n hnm) n1 n2
    simpa using this
  · intro q hq; exact upd_ne _ _ _ _ (fun e => hq (e ▸ hp'))
  · intro q hq; exact upd_ne _ _ _ _ (fun e => hq (e ▸ hn'))

/-- **C27**: taking the first element; an empty list gives its own head back and is unchanged. -/
theorem removeHeadList_spec (h : Heap) (head : Nat) (es : List Nat) (r : Rep h head es) :
    match es with
    | [] => ∃ h', removeHeadList h head = C.ok (h', head) ∧ Rep h' head [] ∧ h'.f = h.f ∧ h'.b = h.b ∧ h'.alive = h.alive
    | e :: rest => ∃ h', removeHeadList h head = C.ok (h', e) ∧ Rep h' head rest ∧ Frame h h' (head :: rest) := by
  cases es with
  | nil =>
    have hr := r.ring
    simp only [List.nil_append, Adjs, and_true] at hr
    have ha := r.alive head (by simp)
    unfold removeHeadList
    rw [getF_of ha, C.ok_bind, hr.1, getF_of ha, C.ok_bind, hr.1, setF_of ha, C.ok_bind, setB_of (by exact ha), C.ok_bind]
    have e1 : upd h.f head head = h.f := by
      funext q; by_cases hq : q = head
      · rw [hq, upd_self, hr.1]
      · exact upd_ne _ _ _ _ hq
    have e2 : upd h.b head head = h.b := by
      funext q; by_cases hq : q = head
      · rw [hq, upd_self, hr.2]
      · exact upd_ne _ _ _ _ hq
    rw [e1, e2]
    exact ⟨_, rfl, r, rfl, rfl, rfl⟩
  | cons e rest =>
    have r' : Rep h head ([] ++ e :: rest) := r
    obtain ⟨a', p, n, b', ea, eb, ha, hb, h1, h2, h3, h4⟩ := rep_split r'
    obtain ⟨n1, n2, n3, n4, n5, n6⟩ := nodup_facts r'.nodup
    have hp : p = head := by simpa using last_mem ea
    subst hp
    have hnm := first_mem eb
    have hn' : n ∈ p :: rest := by
      simp only [List.mem_cons, List.mem_append, List.not_mem_nil, or_false] at hnm ⊢
      exact hnm.symm
    have al : ∀ q, q ∈ p :: rest → h.alive q = true := by
      intro q hq
      apply r.alive
      simp only [List.mem_cons] at hq ⊢
      rcases hq with hq | hq <;> simp [hq]
    unfold removeHeadList
    rw [getF_of (r.alive p (by simp)), C.ok_bind, h1, getF_of (r.alive e (by simp)), C.ok_bind, h3, setF_of (al p (by simp)), C.ok_bind,
      setB_of (by exact al n hn'), C.ok_bind]
    refine ⟨_, rfl, ⟨?_, n3, al⟩, ⟨rfl, ?_, ?_⟩⟩
    · exact bridge (h := h) (h' := ⟨h.alive, upd h.f p n, upd h.b n p⟩) ea eb ha hb (fun q hq => upd_ne _ _ _ _ hq) (fun q hq => upd_ne _ _ _ _ hq)
        (upd_self _ _ _) (upd_self _ _ _) (n5 p (by simp)) (n6 n hnm) n1 n2
    · intro q hq; exact upd_ne _ _ _ _ (fun e => hq (by simp [e]))
    · intro q hq; exact upd_ne _ _ _ _ (fun e => hq (e ▸ hn'))

/-- **C27**: taking the last element. -/
theorem removeTailList_spec (h : Heap) (head e : Nat) (rest : List Nat) (r : Rep h head (rest ++ [e])) :
    ∃ h', removeTailList h head = C.ok (h', e) ∧ Rep h' head rest ∧ Frame h h' (head :: rest) := by
  have r' : Rep h head (rest ++ e :: []) := r
  obtain ⟨a', p, n, b', ea, eb, ha, hb, h1, h2, h3, h4⟩ := rep_split r'
  obtain ⟨n1, n2, n3, n4, n5, n6⟩ := nodup_facts r'.nodup
  have hn : n = head := by simpa using (first_mem eb)
  subst hn
  have hpm := last_mem ea
  rw [List.append_nil] at n3
  have al : ∀ q, q ∈ n :: rest → h.alive q = true := by
    intro q hq
    apply r.alive
    simp only [List.mem_cons, List.mem_append] at hq ⊢
    rcases hq with hq | hq <;> simp [hq]
  unfold removeTailList
  rw [getB_of (r.alive n (by simp)), C.ok_bind, h4, getB_of (r.alive e (by simp)), C.ok_bind, h2, setB_of (al n (by simp)), C.ok_bind,
    setF_of (by exact al p hpm), C.ok_bind]
  refine ⟨_, rfl, ⟨?_, n3, al⟩, ⟨rfl, ?_, ?_⟩⟩
  · exact bridge (h := h) (h' := ⟨h.alive, upd h.f p n, upd h.b n p⟩) ea eb ha hb (fun q hq => upd_ne _ _ _ _ hq) (fun q hq => upd_ne _ _ _ _ hq)
      (upd_self _ _ _) (upd_self _ _ _) (n5 p hpm) (n6 n (by simp)) n1 n2
  · intro q hq; exact upd_ne _ _ _ _ (fun e => hq (e ▸ hpm))
  · intro q hq; exact upd_ne _ _ _ _ (fun e => hq (by simp [e]))

/-- **C27**: an empty list gives its own head back. -/
theorem removeTailList_empty (h : Heap) (head : Nat) (r : Rep h head []) :
    ∃ h', removeTailList h head = C.ok (h', head) ∧ Rep h' head [] ∧ h'.f = h.f ∧ h'.b = h.b ∧ h'.alive = h.alive := by
  have hr := r.ring
  simp only [List.nil_append, Adjs, and_true] at hr
  have ha := r.alive head (by simp)
  unfold removeTailList
  rw [getB_of ha, C.ok_bind, hr.2, getB_of ha, C.ok_bind, hr.2, setB_of ha, C.ok_bind, setF_of (by exact ha), C.ok_bind]
  have e1 : upd h.f head head = h.f := by
    funext q; by_cases hq : q = head
    · rw [hq, upd_self, hr.1]
    · exact upd_ne _ _ _ _ hq
  have e2 : upd h.b head head = h.b := by
    funext q; by_cases hq : q = head
    · rw [hq, upd_self, hr.2]
    · exact upd_ne _ _ _ _ hq
  rw [e1, e2]
  exact ⟨_, rfl, r, rfl, rfl, rfl⟩

/-- The last entry of the ring before the head. -/
theorem rep_last {h : Heap} {head : Nat} {es : List Nat} (r : Rep h head es) :
    ∃ a' p, head :: es = a' ++ [p] ∧ Adjs h (head :: es) ∧ h.f p = head ∧ h.b head = p := by
  obtain ⟨a', p, ea⟩ := snoc_of head es
  have hr := r.ring
  have e1 : head :: (es ++ [head]) = a' ++ p :: head :: [] := by
    have : head :: (es ++ [head]) = (head :: es) ++ [head] := rfl
    rw [this, ea]; simp
  rw [e1, adjs_append] at hr
  exact ⟨a', p, ea, by rw [ea]; exact hr.1, hr.2.1, hr.2.2.1⟩

/-- **C27**: inserting at the tail an entry that is in neither ring position. -/
theorem insertTailList_spec (h : Heap) (head e : Nat) (es : List Nat) (r : Rep h head es) (he : e ∉ head :: es) (hae : h.alive e = true) :
    ∃ h', insertTailList h head e = C.ok h' ∧ Rep h' head (es ++ [e]) ∧ Frame h h' (head :: (es ++ [e])) := by
  obtain ⟨a', p, ea, ha, h1, h2⟩ := rep_last r
  have hpm := last_mem ea
  have hpe : p ≠ e := fun x => he (x ▸ hpm)
  have hhe : head ≠ e := fun x => he (by simp [x])
  unfold insertTailList
  rw [getB_of (r.alive head (by simp)), C.ok_bind, h2, setF_of hae, C.ok_bind, setB_of (by exact hae), C.ok_bind,
    setF_of (by exact r.alive p hpm), C.ok_bind, setB_of (by exact r.alive head (by simp))]
  have hnd := r.nodup
  have hnd' : (head :: (es ++ [e])).Nodup := by
    have : head :: (es ++ [e]) = (head :: es) ++ [e] := rfl
    rw [this, List.nodup_append]
    refine ⟨hnd, by simp, ?_⟩
    intro x hx y hy e'
    simp at hy; subst hy; subst e'; exact he hx
  refine ⟨_, rfl, ⟨?_, hnd', ?_⟩, ⟨rfl, ?_, ?_⟩⟩
  · have e1 : head :: (es ++ [e] ++ [head]) = a' ++ p :: e :: head :: [] := by
      have : head :: (es ++ [e] ++ [head]) = (head :: es) ++ [e, head] := by simp
      rw [this, ea]; simp
    rw [e1, adjs_append]
    dsimp only
    refine ⟨?_, upd_self _ _ _, ?_, ?_, ?_, trivial⟩
    · rw [← ea]
      refine adjs_frame _ ?_ ?_ ha
      · intro q hq
        dsimp only
        rw [upd_ne, upd_ne]
        · intro x; subst x; exact he (List.dropLast_subset _ hq)
        · intro x; subst x
          rw [ea] at hq hnd
          rw [List.dropLast_concat] at hq
          rw [List.nodup_append] at hnd
          exact hnd.2.2 q hq q (by simp) rfl
      · intro q hq
        dsimp only
        rw [List.tail_cons] at hq
        rw [upd_ne, upd_ne]
        · intro x; subst x; exact he (by simp [hq])
        · intro x; subst x; rw [List.nodup_cons] at hnd; exact hnd.1 hq
    · rw [upd_ne _ _ _ _ (Ne.symm hhe), upd_self]
    · dsimp only; rw [upd_ne _ _ _ _ (Ne.symm hpe), upd_self]
    · exact upd_self _ _ _
  · intro q hq
    dsimp only
    have : head :: (es ++ [e]) = (head :: es) ++ [e] := rfl
    rw [this] at hq
    rcases List.mem_append.mp hq with hq | hq
    · exact r.alive q hq
    · simp at hq; rw [hq]; exact hae
  · intro q hq
    dsimp only
    have hq1 : q ≠ e := fun x => hq (by simp [x])
    have hq2 : q ≠ p := fun x => hq (by
      rw [x]
      rcases List.mem_cons.mp hpm with h | h <;> simp [h])
    rw [upd_ne _ _ _ _ hq2, upd_ne _ _ _ _ hq1]
  · intro q hq
    dsimp only
    have hq1 : q ≠ e := fun x => hq (by simp [x])
    have hq2 : q ≠ head := fun x => hq (by simp [x])
    rw [upd_ne _ _ _ _ hq2, upd_ne _ _ _ _ hq1]

/-- **C27**: inserting at the head. -/
theorem insertHeadList_spec (h : Heap) (head e : Nat) (es : List Nat) (r : Rep h head es) (he : e ∉ head :: es) (hae : h.alive e = true) :
    ∃ h', insertHeadList h head e = C.ok h' ∧ Rep h' head (e :: es) ∧ Frame h h' (head :: e :: es) := by
  obtain ⟨n, b', eb⟩ := cons_of es head
  have hr := r.ring
  rw [eb] at hr
  simp only [Adjs] at hr
  obtain ⟨h1, h2, h3⟩ := hr
  have hnm := first_mem eb
  have hnm' : n ∈ head :: es := by
    simp only [List.mem_append, List.mem_cons, List.not_mem_nil, or_false] at hnm ⊢
    exact hnm.symm
  have hne : n ≠ e := fun x => he (x ▸ hnm')
  have hhe : head ≠ e := fun x => he (by simp [x])
  have hnd := r.nodup
  unfold insertHeadList
  rw [setB_of hae, C.ok_bind, getF_of (by exact r.alive head (by simp)), C.ok_bind]
  dsimp only
  rw [h1, setF_of (by exact hae), C.ok_bind, getF_of (by exact r.alive head (by simp)), C.ok_bind]
  dsimp only
  rw [upd_ne _ _ _ _ hhe, h1, setB_of (by exact r.alive n hnm'), C.ok_bind, setF_of (by exact r.alive head (by simp))]
  have hnd' : (head :: e :: es).Nodup := by
    rw [List.nodup_cons] at hnd ⊢
    simp only [List.mem_cons, not_or] at he ⊢
    exact ⟨⟨hhe, hnd.1⟩, List.nodup_cons.mpr ⟨he.2, hnd.2⟩⟩
  refine ⟨_, rfl, ⟨?_, hnd', ?_⟩, ⟨rfl, ?_, ?_⟩⟩
  · have e1 : head :: (e :: es ++ [head]) = head :: e :: n :: b' := by rw [List.cons_append, eb]
    rw [e1]
    simp only [Adjs]
    refine ⟨upd_self _ _ _, ?_, ?_, upd_self _ _ _, ?_⟩
    · rw [upd_ne _ _ _ _ (Ne.symm hne), upd_self]
    · rw [upd_ne _ _ _ _ (Ne.symm hhe), upd_self]
    · refine adjs_frame _ ?_ ?_ h3
      · intro q hq
        rw [dropLast_of eb] at hq
        dsimp only
        rw [upd_ne, upd_ne]
        · intro x; subst x; exact he (by simp [hq])
        · intro x; subst x; rw [List.nodup_cons] at hnd; exact hnd.1 hq
      · intro q hq
        dsimp only
        have hd : (es ++ [head]).Nodup := by
          rw [List.nodup_cons] at hnd
          rw [List.nodup_append]
          refine ⟨hnd.2, by simp, ?_⟩
          intro x hx y hy e'
          simp at hy; subst hy; subst e'; exact hnd.1 hx
        have hq' : q ∈ es ++ [head] := by rw [eb]; simp only [List.tail_cons] at hq; simp [hq]
        rw [upd_ne, upd_ne]
        · intro x; subst x; apply he; simp only [List.mem_append, List.mem_cons, List.not_mem_nil, or_false] at hq' ⊢; exact hq'.symm
        · intro x; subst x; rw [eb, List.nodup_cons] at hd; exact hd.1 hq
  · intro q hq
    dsimp only
    rcases List.mem_cons.mp hq with hq | hq
    · rw [hq]; exact r.alive head (by simp)
    · rcases List.mem_cons.mp hq with hq | hq
      · rw [hq]; exact hae
      · exact r.alive q (by simp [hq])
  · intro q hq
    dsimp only
    have hq1 : q ≠ e := fun x => hq (by simp [x])
    have hq2 : q ≠ head := fun x => hq (by simp [x])
    rw [upd_ne _ _ _ _ hq2, upd_ne _ _ _ _ hq1]
  · intro q hq
    dsimp only
    have hq1 : q ≠ e := fun x => hq (by simp [x])
    have hq2 : q ≠ n := fun x => hq (by
      rw [x]
      rcases List.mem_cons.mp hnm' with h | h <;> simp [h])
    rw [upd_ne _ _ _ _ hq2, upd_ne _ _ _ _ hq1]

/-- **C27**: appending a ring: the entry given for it becomes an element, followed by its elements. -/
theorem appendTailList_spec (h : Heap) (head w : Nat) (es ws : List Nat) (r : Rep h head es) (r2 : Rep h w ws)
    (hd : ∀ p ∈ head :: es, p ∉ w :: ws) :
    ∃ h', appendTailList h head w = C.ok h' ∧ Rep h' head (es ++ w :: ws) ∧ Frame h h' (head :: (es ++ w :: ws)) := by
  obtain ⟨a', p, ea, ha, h1, h2⟩ := rep_last r
  obtain ⟨c', q, ec, hc, h3, h4⟩ := rep_last r2
  have hpm := last_mem ea
  have hqm := last_mem ec
  have hhw : head ≠ w := fun e => hd head (by simp) (by simp [e])
  have hpq : p ≠ q := fun e => hd p hpm (e ▸ hqm)
  have n1 := r.nodup
  have n2 := r2.nodup
  unfold appendTailList
  rw [getB_of (r.alive head (by simp)), C.ok_bind, C.ok_bind, h2, setF_of (r.alive p hpm), C.ok_bind,
    getB_of (by exact r2.alive w (by simp)), C.ok_bind]
  dsimp only
  rw [h4, setB_of (by exact r.alive head (by simp)), C.ok_bind, getB_of (by exact r2.alive w (by simp)), C.ok_bind]
  dsimp only
  rw [upd_ne _ _ _ _ (Ne.symm hhw), h4, setF_of (by exact r2.alive q hqm), C.ok_bind, setB_of (by exact r2.alive w (by simp))]
  have hnd : (head :: (es ++ w :: ws)).Nodup := by
    have : head :: (es ++ w :: ws) = (head :: es) ++ (w :: ws) := rfl
    rw [this, List.nodup_append]
    exact ⟨n1, n2, fun x hx y hy e => hd x hx (e ▸ hy)⟩
  refine ⟨_, rfl, ⟨?_, hnd, ?_⟩, ⟨rfl, ?_, ?_⟩⟩
  · have e1 : head :: (es ++ w :: ws ++ [head]) = a' ++ p :: w :: (ws ++ [head]) := by
      have : head :: (es ++ w :: ws ++ [head]) = (head :: es) ++ w :: (ws ++ [head]) := by simp
      rw [this, ea]; simp
    rw [e1, adjs_append]
    dsimp only
    have e2 : w :: (ws ++ [head]) = c' ++ q :: head :: [] := by
      have : w :: (ws ++ [head]) = (w :: ws) ++ [head] := rfl
      rw [this, ec]; simp
    refine ⟨?_, ?_, upd_self _ _ _, ?_⟩
    · rw [← ea]
      refine adjs_frame _ ?_ ?_ ha
      · intro x hx
        dsimp only
        have hxm : x ∈ head :: es := List.dropLast_subset _ hx
        rw [upd_ne, upd_ne]
        · intro e; subst e
          rw [ea] at hx n1
          rw [List.dropLast_concat] at hx
          rw [List.nodup_append] at n1
          exact n1.2.2 x hx x (by simp) rfl
        · intro e; subst e; exact hd x hxm hqm
      · intro x hx
        rw [List.tail_cons] at hx
        dsimp only
        rw [upd_ne, upd_ne]
        · intro e; subst e; rw [List.nodup_cons] at n1; exact n1.1 hx
        · intro e; subst e; exact hd x (by simp [hx]) (by simp)
    · rw [upd_ne _ _ _ _ hpq, upd_self]
    · rw [e2, adjs_append]
      refine ⟨?_, upd_self _ _ _, ?_, trivial⟩
      · rw [← ec]
        refine adjs_frame _ ?_ ?_ hc
        · intro x hx
          dsimp only
          have hxm : x ∈ w :: ws := List.dropLast_subset _ hx
          rw [upd_ne, upd_ne]
          · intro e; subst e; exact hd x hpm hxm
          · intro e; subst e
            rw [ec] at hx n2
            rw [List.dropLast_concat] at hx
            rw [List.nodup_append] at n2
            exact n2.2.2 x hx x (by simp) rfl
        · intro x hx
          rw [List.tail_cons] at hx
          dsimp only
          rw [upd_ne, upd_ne]
          · intro e; subst e; exact hd x (by simp) (by simp [hx])
          · intro e; subst e; rw [List.nodup_cons] at n2; exact n2.1 hx
      · dsimp only; rw [upd_ne _ _ _ _ hhw, upd_self]
  · intro x hx
    dsimp only
    have : head :: (es ++ w :: ws) = (head :: es) ++ (w :: ws) := rfl
    rw [this] at hx
    rcases List.mem_append.mp hx with hx | hx
    · exact r.alive x hx
    · exact r2.alive x hx
  · intro x hx
    dsimp only
    have : head :: (es ++ w :: ws) = (head :: es) ++ (w :: ws) := rfl
    rw [this] at hx
    simp only [List.mem_append, not_or] at hx
    rw [upd_ne _ _ _ x (fun e => hx.2 (by rw [e]; exact hqm)), upd_ne _ _ _ x (fun e => hx.1 (by rw [e]; exact hpm))]
  · intro x hx
    dsimp only
    rw [upd_ne _ _ _ _ (fun e => hx (by simp [e])), upd_ne _ _ _ _ (fun e => hx (by simp [e]))]

/-- Changing one list and nothing outside it and the free entries leaves the others alone. -/
theorem ok_set {h h' : Heap} {W : World} {a : Nat} {es es' ps : List Nat} (ok : Ok h W) (hw : W a = some es ∨ (W a = none ∧ es = [] ∧ Free W a))
    (r : Rep h' a es') (fr : Frame h h' ps) (hps : ∀ p ∈ ps, p ∈ a :: es ∨ Free W p) (hes : ∀ p ∈ es', p ∈ es ∨ Free W p) :
    Ok h' (W.set a (some es')) := by
  have key : ∀ b fs, b ≠ a → W b = some fs → ∀ p, (p ∈ a :: es ∨ Free W p) → p ∉ b :: fs := by
    intro b fs hb e p hp hm
    rcases hp with hp | hp
    · rcases hw with hw | ⟨-, h2, h3⟩
      · exact ok.apart a es b fs hw e (Ne.symm hb) p hp hm
      · subst h2
        simp at hp; subst hp
        exact h3 b fs e hm
    · exact hp b fs e hm
  constructor
  · intro b fs e
    unfold World.set at e
    by_cases hb : b = a
    · rw [if_pos hb] at e; cases e; rw [hb]; exact r
    · rw [if_neg hb] at e
      refine rep_frame (ok.rep b fs e) fr ?_
      intro p hp hp2
      exact key b fs hb e p (hps p hp2) hp
  · intro b fs c gs hb hc hbc p hp hp2
    unfold World.set at hb hc
    by_cases h1 : b = a
    · have h2 : c ≠ a := fun e => hbc (h1.trans e.symm)
      rw [if_pos h1] at hb; cases hb
      rw [if_neg h2] at hc
      refine key c gs h2 hc p ?_ hp2
      rcases List.mem_cons.mp hp with e | hp
      · exact Or.inl (by rw [e, h1]; simp)
      · rcases hes p hp with h | h
        · exact Or.inl (by simp [h])
        · exact Or.inr h
    · rw [if_neg h1] at hb
      by_cases h2 : c = a
      · rw [if_pos h2] at hc; cases hc
        refine key b fs h1 hb p ?_ hp
        rcases List.mem_cons.mp hp2 with e | hp
        · exact Or.inl (by rw [e, h2]; simp)
        · rcases hes p hp with h | h
          · exact Or.inl (by simp [h])
          · exact Or.inr h
      · rw [if_neg h2] at hc
        exact ok.apart b fs c gs hb hc hbc p hp hp2

/-- **C27**, one call, whatever other lists there are: no undefined behaviour, the documented answer, the documented effect on the list,
and every other list untouched. -/
theorem call_outcome {h : Heap} {W W' : World} {op : Op} {ans : Ans} (ok : Ok h W) (m : Means h W op W' ans) :
    ∃ h', exec h op = C.ok (h', ans) ∧ Ok h' W' ∧ h'.alive = h.alive := by
  cases m with
  | init a ha hf =>
    obtain ⟨h', e, r, fr⟩ := initialize_spec h a ha
    have hn : W a = none := by
      cases hw : W a with
      | none => rfl
      | some es => exact absurd (by simp) (hf a es hw)
    refine ⟨h', by simp only [exec, e, C.ok_bind]; rfl, ok_set ok (Or.inr ⟨hn, rfl, hf⟩) r fr (fun p hp => Or.inl hp) (by simp), fr.alive⟩
  | isEmpty a es hw =>
    refine ⟨h, ?_, ok, rfl⟩
    simp only [exec, isListEmpty_spec h a es (ok.rep a es hw), C.ok_bind]
    cases es <;> rfl
  | insertTail a e es hw ha hf =>
    obtain ⟨h', e1, r, fr⟩ := insertTailList_spec h a e es (ok.rep a es hw) (hf a es hw) ha
    refine ⟨h', by simp only [exec, e1, C.ok_bind]; rfl, ok_set ok (Or.inl hw) r fr ?_ ?_, fr.alive⟩
    · intro p hp
      simp only [List.mem_cons, List.mem_append, List.not_mem_nil, or_false] at hp ⊢
      rcases hp with hp | hp | hp
      · exact Or.inl (Or.inl hp)
      · exact Or.inl (Or.inr hp)
      · exact Or.inr (hp ▸ hf)
    · intro p hp
      simp only [List.mem_cons, List.mem_append, List.not_mem_nil, or_false] at hp
      rcases hp with hp | hp
      · exact Or.inl hp
      · exact Or.inr (hp ▸ hf)
  | insertHead a e es hw ha hf =>
    obtain ⟨h', e1, r, fr⟩ := insertHeadList_spec h a e es (ok.rep a es hw) (hf a es hw) ha
    refine ⟨h', by simp only [exec, e1, C.ok_bind]; rfl, ok_set ok (Or.inl hw) r fr ?_ ?_, fr.alive⟩
    · intro p hp
      simp only [List.mem_cons] at hp ⊢
      rcases hp with hp | hp | hp
      · exact Or.inl (Or.inl hp)
      · exact Or.inr (hp ▸ hf)
      · exact Or.inl (Or.inr hp)
    · intro p hp
      simp only [List.mem_cons] at hp
      rcases hp with hp | hp
      · exact Or.inr (hp ▸ hf)
      · exact Or.inl hp
  | removeEntry a e es hw he =>
    obtain ⟨u, v, huv⟩ := List.append_of_mem he
    subst huv
    have r0 := ok.rep a _ hw
    have hnu : e ∉ u := by
      have := (nodup_facts r0.nodup).2.2.2.1
      simp only [List.mem_cons, List.mem_append, not_or] at this
      exact this.2.1
    have her : (u ++ e :: v).erase e = u ++ v := by rw [List.erase_append_right _ hnu, List.erase_cons_head]
    obtain ⟨h', e1, r, fr⟩ := removeEntryList_spec h a e u v r0
    rw [her]
    refine ⟨h', ?_, ok_set ok (Or.inl hw) r fr ?_ ?_, fr.alive⟩
    · simp only [exec, e1, C.ok_bind]
      have : decide (u ++ v = []) = (u ++ v).isEmpty := by cases u ++ v <;> rfl
      rw [this]; rfl
    · intro p hp
      left
      simp only [List.mem_cons, List.mem_append] at hp ⊢
      rcases hp with hp | hp | hp <;> simp [hp]
    · intro p hp
      left
      simp only [List.mem_cons, List.mem_append] at hp ⊢
      rcases hp with hp | hp <;> simp [hp]
  | removeHead a e es hw =>
    obtain ⟨h', e1, r, fr⟩ := removeHeadList_spec h a (e :: es) (ok.rep a _ hw)
    refine ⟨h', by simp only [exec, e1, C.ok_bind]; rfl, ok_set ok (Or.inl hw) r fr ?_ ?_, fr.alive⟩
    · intro p hp
      left
      simp only [List.mem_cons] at hp ⊢
      rcases hp with hp | hp <;> simp [hp]
    · intro p hp; left; simp [hp]
  | removeHeadEmpty a hw =>
    obtain ⟨h', e1, r, e2, e3, e4⟩ := removeHeadList_spec h a [] (ok.rep a _ hw)
    have : h' = h := by cases h'; cases h; simp_all
    subst this
    exact ⟨h', by simp only [exec, e1, C.ok_bind]; rfl, ok, rfl⟩
  | removeTail a e es hw =>
    obtain ⟨h', e1, r, fr⟩ := removeTailList_spec h a e es (ok.rep a _ hw)
    refine ⟨h', by simp only [exec, e1, C.ok_bind]; rfl, ok_set ok (Or.inl hw) r fr ?_ ?_, fr.alive⟩
    · intro p hp
      left
      simp only [List.mem_cons, List.mem_append] at hp ⊢
      rcases hp with hp | hp <;> simp [hp]
    · intro p hp; left; simp [hp]
  | removeTailEmpty a hw =>
    obtain ⟨h', e1, r, e2, e3, e4⟩ := removeTailList_empty h a (ok.rep a _ hw)
    have : h' = h := by cases h'; cases h; simp_all
    subst this
    exact ⟨h', by simp only [exec, e1, C.ok_bind]; rfl, ok, rfl⟩
  | append a w es ws ha hw haw =>
    obtain ⟨h', e1, r, fr⟩ := appendTailList_spec h a w es ws (ok.rep a _ ha) (ok.rep w _ hw) (ok.apart a es w ws ha hw haw)
    have ok0 : Ok h (W.set w none) := by
      constructor
      · intro b fs e
        unfold World.set at e
        by_cases hb : b = w
        · rw [if_pos hb] at e; exact absurd e (by simp)
        · rw [if_neg hb] at e; exact ok.rep b fs e
      · intro b fs c gs hb hc
        unfold World.set at hb hc
        by_cases h1 : b = w
        · rw [if_pos h1] at hb; exact absurd hb (by simp)
        · by_cases h2 : c = w
          · rw [if_pos h2] at hc; exact absurd hc (by simp)
          · rw [if_neg h1] at hb; rw [if_neg h2] at hc; exact ok.apart b fs c gs hb hc
    have hfree : ∀ p ∈ w :: ws, Free (W.set w none) p := by
      intro p hp b fs e hm
      unfold World.set at e
      by_cases hb : b = w
      · rw [if_pos hb] at e; exact absurd e (by simp)
      · rw [if_neg hb] at e; exact ok.apart w ws b fs hw e (Ne.symm hb) p hp hm
    have ha' : (W.set w none) a = some es := by unfold World.set; rw [if_neg haw]; exact ha
    refine ⟨h', by simp only [exec, e1, C.ok_bind]; rfl, ok_set ok0 (Or.inl ha') r fr ?_ ?_, fr.alive⟩
    · intro p hp
      have : a :: (es ++ w :: ws) = (a :: es) ++ (w :: ws) := rfl
      rw [this] at hp
      rcases List.mem_append.mp hp with hp | hp
      · exact Or.inl hp
      · exact Or.inr (hfree p hp)
    · intro p hp
      rcases List.mem_append.mp hp with hp | hp
      · exact Or.inl hp
      · exact Or.inr (hfree p hp)

theorem means_alive {h h' : Heap} (e : h'.alive = h.alive) {W W' : World} {op : Op} {ans : Ans} (m : Means h W op W' ans) : Means h' W op W' ans := by
  cases m with
  | init a ha hf => exact .init a (by rw [e]; exact ha) hf
  | isEmpty a es hw => exact .isEmpty a es hw
  | insertTail a x es hw ha hf => exact .insertTail a x es hw (by rw [e]; exact ha) hf
  | insertHead a x es hw ha hf => exact .insertHead a x es hw (by rw [e]; exact ha) hf
  | removeEntry a x es hw he => exact .removeEntry a x es hw he
  | removeHead a x es hw => exact .removeHead a x es hw
  | removeHeadEmpty a hw => exact .removeHeadEmpty a hw
  | removeTail a x es hw => exact .removeTail a x es hw
  | removeTailEmpty a hw => exact .removeTailEmpty a hw
  | append a w es ws ha hw haw => exact .append a w es ws ha hw haw

/-- **C27**, whole histories: any sequence of permitted calls on any number of lists gives the documented answers and leaves exactly the
documented lists. -/
theorem history_outcome {h : Heap} : ∀ {W W' : World} {ops : List Op} {anss : List Ans} {h0 : Heap}, h0.alive = h.alive → Ok h0 W → History h W ops W' anss →
    ∃ h', run h0 ops = C.ok (h', anss) ∧ Ok h' W' := by
  intro W W' ops
  induction ops generalizing W with
  | nil =>
    intro anss h0 ha ok hs
    cases hs
    exact ⟨h0, rfl, ok⟩
  | cons op ops ih =>
    intro anss h0 ha ok hs
    cases hs with
    | cons _ _ W1 ans _ _ anss' m hs =>
      obtain ⟨h1, e1, ok1, ha1⟩ := call_outcome ok (means_alive ha m)
      obtain ⟨h2, e2, ok2⟩ := ih (h0 := h1) (by rw [ha1, ha]) ok1 hs
      refine ⟨h2, ?_, ok2⟩
      simp only [run, e1, C.ok_bind, e2]
      rfl

/-- From entries with arbitrary contents: a new list, three insertions, a removal, and another list appended. -/
def heap0 : Heap := ⟨fun p => decide (p < 20), fun _ => 77, fun _ => 99⟩

example : ∃ h', run heap0 [.init 1, .insertTail 1 2, .insertHead 1 3, .insertTail 1 4, .removeEntry 2, .init 5, .insertTail 5 6,
      .append 1 5, .removeTail 1, .removeHead 1, .isEmpty 1] =
    C.ok (h', [.nothing, .nothing, .nothing, .nothing, .bool false, .nothing, .nothing, .nothing, .entry 6, .entry 3, .bool false]) ∧
    h'.f 1 = 4 ∧ h'.f 4 = 5 ∧ h'.f 5 = 1 ∧ h'.b 1 = 5 ∧ h'.b 5 = 4 ∧ h'.b 4 = 1 := ⟨_, rfl, by decide +kernel⟩

example : Ok heap0 (fun _ => none) := ⟨by simp, by simp⟩

example : ∃ W' anss, History heap0 (fun _ => none) [.init 1, .insertTail 1 2, .removeEntry 2] W' anss ∧ anss = [.nothing, .nothing, .bool true] := by
  refine ⟨_, _, .cons _ _ _ _ _ _ _ (.init 1 rfl (by simp [Free])) (.cons _ _ _ _ _ _ _ (.insertTail 1 2 [] rfl rfl ?_)
    (.cons _ _ _ _ _ _ _ (.removeEntry 1 2 [2] rfl (by simp)) (.nil _))), rfl⟩
  intro a es e
  by_cases h : a = 1
  · subst h; simp [World.set] at e; subst e; simp
  · simp [World.set, h] at e

/-! ## C28 -/

/-- The loop, from any point of a list. -/
theorem forEachLoop_spec (act : Action σ) (head : Nat) (hp : Polite act head) : ∀ (after : List Nat) (h : Heap) (s : σ) (before : List Nat) (fuel : Nat),
    Rep h head (before ++ after) → after.length < fuel →
    ∃ h' s' ok calls es', forEachLoop act h s head ((after ++ [head]).head (by simp)) fuel = C.ok ((h', s'), ok, calls) ∧
      Visits after ok calls ∧ Rep h' head es' := by
  intro after
  induction after with
  | nil =>
    intro h s before fuel r hf
    cases fuel with
    | zero => simp at hf
    | succ fuel =>
      refine ⟨h, s, true, [], before, ?_, .done, by simpa using r⟩
      simp [forEachLoop]
  | cons e after ih =>
    intro h s before fuel r hf
    cases fuel with
    | zero => simp at hf
    | succ fuel =>
      obtain ⟨a', p, n, b', ea, eb, ha, hb, h1, h2, h3, h4⟩ := rep_split r
      have hne : e ≠ head := by
        have := (nodup_facts r.nodup).2.2.2.1
        exact fun x => this (by simp [x])
      have hn : (after ++ [head]).head (by simp) = n := by simp only [eb, List.head_cons]
      obtain ⟨h', s', failed, cont, before', e1, r', hc⟩ := hp s h before e after r
      simp only [List.cons_append, List.head_cons]
      unfold forEachLoop
      rw [if_neg hne, getF_of (r.alive e (by simp)), C.ok_bind, h3, e1, C.ok_bind]
      cases failed with
      | true =>
        exact ⟨h', s', false, [(e, true, cont)], before' ++ after, rfl, .failed e after cont, r'⟩
      | false =>
        cases cont with
        | none => exact absurd rfl (hc rfl)
        | some c =>
          cases c with
          | false => exact ⟨h', s', true, [(e, false, some false)], before' ++ after, rfl, .stopped e after, r'⟩
          | true =>
            obtain ⟨h2', s2, ok, calls, es', e2, hv, r2⟩ := ih h' s' before' fuel r' (by simp at hf; omega)
            rw [hn] at e2
            refine ⟨h2', s2, ok, (e, false, some true) :: calls, es', ?_, .next e after ok calls hv, r2⟩
            simp only [Bool.false_eq_true, if_false]
            rw [e2]
            rfl

/-- **C28**: whatever the action does within its contract - it may remove the element it is given - the elements are visited each once and in
order, up to the first failure or request to stop; the call fails exactly if an action failed. -/
theorem forEach_spec (act : Action σ) (head : Nat) (hp : Polite act head) (h : Heap) (s : σ) (es : List Nat) (fuel : Nat) (r : Rep h head es)
    (hf : es.length < fuel) :
    ∃ h' s' ok calls es', forEach fuel h (some head) (some act) s = C.ok ((h', s'), ok, calls) ∧ Visits es ok calls ∧ Rep h' head es' := by
  have hr := r.ring
  obtain ⟨n, b', eb⟩ := cons_of es head
  rw [eb] at hr
  simp only [Adjs] at hr
  have hn : (es ++ [head]).head (by simp) = n := by simp only [eb, List.head_cons]
  obtain ⟨h', s', ok, calls, es', e1, hv, r'⟩ := forEachLoop_spec act head hp es h s [] fuel r hf
  refine ⟨h', s', ok, calls, es', ?_, hv, r'⟩
  unfold forEach
  dsimp only
  rw [getF_of (r.alive head (by simp)), C.ok_bind, hr.1, ← hn]
  exact e1

/-- What `Visits` says, spelt out: the calls went to the first elements, in order, each once; -/
theorem visits_prefix {es : List Nat} {ok : Bool} {calls : List (Nat × Bool × Option Bool)} (v : Visits es ok calls) :
    calls.map (·.1) = es.take calls.length := by
  induction v with
  | done => rfl
  | failed => simp
  | stopped => simp
  | next e es ok calls _ ih => simp [ih]

/-- the result is failure exactly if some call failed; -/
theorem visits_ok {es : List Nat} {ok : Bool} {calls : List (Nat × Bool × Option Bool)} (v : Visits es ok calls) :
    ok = true ↔ ∀ c ∈ calls, c.2.1 = false := by
  induction v with
  | done => simp
  | failed => simp
  | stopped => simp
  | next e es ok calls _ ih => simp [ih]

/-- elements are left out only after a failure or a request to stop, which is the last call; -/
theorem visits_complete {es : List Nat} {ok : Bool} {calls : List (Nat × Bool × Option Bool)} (v : Visits es ok calls) (h : calls.length < es.length) :
    ∃ c, calls.getLast? = some c ∧ (c.2.1 = true ∨ c.2.2 = some false) := by
  induction v with
  | done => simp at h
  | failed e es c => exact ⟨_, rfl, Or.inl rfl⟩
  | stopped e es => exact ⟨_, rfl, Or.inr rfl⟩
  | next e es ok calls _ ih =>
    simp only [List.length_cons] at h
    obtain ⟨c, h1, h2⟩ := ih (by omega)
    refine ⟨c, ?_, h2⟩
    cases calls with
    | nil => simp at h1
    | cons x xs => rw [List.getLast?_cons_cons]; exact h1

/-- and every call before the last succeeded and said to go on. -/
theorem visits_continue {es : List Nat} {ok : Bool} {calls : List (Nat × Bool × Option Bool)} (v : Visits es ok calls) :
    ∀ c ∈ calls.dropLast, c.2.1 = false ∧ c.2.2 = some true := by
  induction v with
  | done => simp
  | failed => simp
  | stopped => simp
  | next e es ok calls _ ih =>
    cases calls with
    | nil => simp
    | cons x xs =>
      intro c hc
      rw [List.dropLast_cons₂] at hc
      rcases List.mem_cons.mp hc with rfl | hc
      · simp
      · exact ih c hc

/-- **C28**: no head or no action: failure, nothing is called. -/
theorem forEach_refusals (fuel : Nat) (h : Heap) (head : Option Nat) (act : Option (Action σ)) (s : σ) (hn : head = none ∨ act = none) :
    forEach fuel h head act s = C.ok ((h, s), false, []) := by
  rcases hn with rfl | rfl
  · rfl
  · cases head <;> rfl

/-- An action that removes its entry, and frees it, counting; it asks to stop after `k`. -/
def removing (k : Nat) : Action Nat := fun s h e => do
  let (h, _) ← removeEntryList h e
  C.ok (⟨fun p => h.alive p && decide (p ≠ e), h.f, h.b⟩, s + 1, false, some (decide (s + 1 < k)))

/-- It keeps the contract. -/
theorem removing_polite (k head : Nat) : Polite (removing k) head := by
  intro s h before e after r
  obtain ⟨h', e1, r', fr⟩ := removeEntryList_spec h head e before after r
  refine ⟨⟨fun p => h'.alive p && decide (p ≠ e), h'.f, h'.b⟩, s + 1, false, some (decide (s + 1 < k)), before, ?_, ?_, by simp⟩
  · unfold removing
    rw [e1, C.ok_bind]
  · refine ⟨?_, r'.nodup, ?_⟩
    · exact adjs_frame (h := h') _ (fun _ _ => rfl) (fun _ _ => rfl) r'.ring
    · intro p hp
      have h1 := r'.alive p hp
      have h2 := (nodup_facts r.nodup).2.2.2.1
      have : p ≠ e := fun x => h2 (x ▸ hp)
      simp [h1, this]

/-- **C28**: removing and freeing every element while iterating is fine. -/
theorem removing_all (h : Heap) (head : Nat) (es : List Nat) (r : Rep h head es) (k : Nat) :
    ∃ h' s' ok calls es', forEach (es.length + 1) h (some head) (some (removing k)) 0 = C.ok ((h', s'), ok, calls) ∧ Visits es ok calls ∧ Rep h' head es' :=
  forEach_spec (removing k) head (removing_polite k head) h 0 es _ r (by omega)

example : ∃ h', (do let (h, _) ← run heap0 [.init 1, .insertTail 1 2, .insertTail 1 3, .insertTail 1 4]; forEach 10 h (some 1) (some (removing 2)) 0) =
    C.ok ((h', 2), true, [(2, false, some true), (3, false, some false)]) ∧ h'.f 1 = 4 := ⟨_, rfl, by decide +kernel⟩

/-- **Finding (C28 side condition)**: an action that succeeds without storing into `*continueProcessing` makes the loop read an
indeterminate value: the variable is not initialised (doublylinkedlist.c:152). -/
theorem forEach_unset_ub : ∃ h : Heap, Rep h 1 [2] ∧ forEach 3 h (some 1) (some (fun s h _ => C.ok (h, s, false, none))) () = C.ub :=
  ⟨⟨fun _ => true, fun p => if p = 1 then 2 else 1, fun p => if p = 1 then 2 else 1⟩, ⟨by simp [Adjs], by decide, by simp⟩, rfl⟩

end CUtil.DList
