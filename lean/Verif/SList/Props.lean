import Verif.SList.Lemmas
set_option linter.unusedSimpArgs false
set_option linter.unusedVariables false
/-
C26: the singly linked list is a sequence.  Vocabulary: Spec.lean (`Rep h l ns`: the list `l` over the heap `h` represents `ns`;
`Step`: nothing else is touched, removed elements are freed, nothing leaks).
-/
namespace CUtil.SList

theorem rep_nil (h : Heap) : Rep h ⟨none, none⟩ [] := ⟨rfl, rfl, trivial, List.nodup_nil⟩

theorem head_none {h : Heap} {l : LIST} {ns : Seq} (r : Rep h l ns) : l.head = none ↔ ns = [] := by
  rw [r.head]
  cases ns with
  | nil => simp [first]
  | cons x ns => simp [first]

/-- **C26**: creating. -/
theorem create_spec (a : Bool) (h : Heap) : (create a = none ∧ a = false) ∨ ∃ l, create a = some l ∧ a = true ∧ Rep h l [] := by
  cases a with
  | false => exact Or.inl ⟨rfl, rfl⟩
  | true => exact Or.inr ⟨_, rfl, rfl, rep_nil h⟩

theorem not_mem_of_fresh {h : Heap} {l : LIST} {ns : Seq} (r : Rep h l ns) {p : Nat} (hp : h p = none) : p ∉ ns.map (·.1) := by
  intro hm
  obtain ⟨n, e⟩ := links_mem r.links hm
  rw [hp] at e; cases e

/-- **C26**: adding at the tail. -/
theorem add_spec (h : Heap) (l : LIST) (ns : Seq) (item : Nat) (alloc : Alloc) (ha : Proper alloc) (r : Rep h l ns) :
    match alloc h with
    | none => add h (some l) (some item) alloc = C.ok (h, some l, none)
    | some p => ∃ h' l', add h (some l) (some item) alloc = C.ok (h', some l', some p) ∧ Rep h' l' (ns ++ [(p, some item)]) ∧
        Step h ns h' (ns ++ [(p, some item)]) := by
  simp only [add]
  cases hal : alloc h with
  | none => rfl
  | some p =>
    dsimp only
    have hp := ha h p hal
    have hpn := not_mem_of_fresh r hp
    have hnd : ((ns ++ [(p, some item)]).map (·.1)).Nodup := by
      rw [List.map_append, List.nodup_append]
      refine ⟨r.nodup, by simp, ?_⟩
      intro a h1 b h2 e
      simp at h2
      subst h2; subst e
      exact hpn h1
    have hstep : ∀ g : Heap, (∀ q, q ≠ p → q ∉ ns.map (·.1) → g q = h q) → Step h ns g (ns ++ [(p, some item)]) := by
      intro g hg
      refine ⟨?_, ?_, ?_⟩
      · intro q h1 h2
        refine hg q ?_ h1
        intro e; apply h2; simp [e]
      · intro q h1 h2
        exfalso; apply h2; rw [List.map_append]; exact List.mem_append_left _ h1
      · intro q h1 h2
        rw [List.map_append] at h2
        rcases List.mem_append.mp h2 with h2 | h2
        · exact absurd h2 h1
        · simp at h2; rw [h2]; exact hp
    rcases snoc_cases ns with rfl | ⟨ns', ⟨t, y⟩, rfl⟩
    · rw [(head_none r).mpr rfl]
      dsimp only
      exact ⟨_, _, rfl, ⟨rfl, rfl, ⟨upd_self _ _ _, trivial⟩, hnd⟩, hstep _ (fun q h1 _ => upd_ne _ _ _ _ h1)⟩
    · have hne : l.head ≠ none := fun e => by simpa using (head_none r).mp e
      cases hh : l.head with
      | none => exact absurd hh hne
      | some hd =>
        dsimp only
        rw [r.tail, last_snoc]
        dsimp only
        have hl := r.links
        rw [links_append] at hl
        obtain ⟨hl0, ht⟩ := hl
        simp only [Links, first, and_true] at ht
        have htp : t ≠ p := fun e => hpn (by simp [e])
        have ht' : upd h p (some ⟨some item, none⟩) t = some ⟨y, none⟩ := by rw [upd_ne _ _ _ _ htp]; exact ht
        rw [setNext_of ht', C.ok_bind]
        have hnd0 := r.nodup
        rw [List.map_append, List.nodup_append] at hnd0
        refine ⟨_, _, rfl, ⟨?_, ?_, ?_, hnd⟩, hstep _ ?_⟩
        · have := r.head
          rw [hh] at this
          rw [this]
          cases ns' <;> rfl
        · rw [last_snoc]
        · rw [links_append, links_append]
          refine ⟨⟨?_, ?_⟩, ?_⟩
          · refine links_frame ns' _ ?_ hl0
            intro q hq
            rw [upd_ne, upd_ne]
            · intro e; apply hpn; rw [List.map_append]; exact List.mem_append_left _ (e ▸ hq)
            · exact hnd0.2.2 q hq t (by simp)
          · simp only [Links, first, and_true]
            rw [upd_self]
          · simp only [Links, first, and_true]
            rw [upd_ne _ _ _ _ (Ne.symm htp), upd_self]
        · intro q h1 h2
          rw [upd_ne, upd_ne _ _ _ _ h1]
          intro e; apply h2; simp [e]

/-- **C26**: adding at the head. -/
theorem addHead_spec (h : Heap) (l : LIST) (ns : Seq) (item : Item) (alloc : Alloc) (ha : Proper alloc) (r : Rep h l ns) :
    match alloc h with
    | none => addHead h (some l) item alloc = C.ok (h, some l, none)
    | some p => ∃ h' l', addHead h (some l) item alloc = C.ok (h', some l', some p) ∧ Rep h' l' ((p, item) :: ns) ∧
        Step h ns h' ((p, item) :: ns) := by
  simp only [addHead]
  cases hal : alloc h with
  | none => rfl
  | some p =>
    dsimp only
    have hp := ha h p hal
    have hpn := not_mem_of_fresh r hp
    have hnd : (((p, item) :: ns).map (·.1)).Nodup := by
      rw [List.map_cons, List.nodup_cons]
      exact ⟨hpn, r.nodup⟩
    have hstep : ∀ v, Step h ns (upd h p v) ((p, item) :: ns) := by
      intro v
      refine ⟨?_, ?_, ?_⟩
      · intro q h1 h2
        refine upd_ne _ _ _ _ ?_
        intro e; apply h2; simp [e]
      · intro q h1 h2
        exfalso; apply h2; rw [List.map_cons]; exact List.mem_cons_of_mem _ h1
      · intro q h1 h2
        rw [List.map_cons] at h2
        rcases List.mem_cons.mp h2 with h2 | h2
        · rw [h2]; exact hp
        · exact absurd h2 h1
    cases hh : l.head with
    | none =>
      have := (head_none r).mp hh
      subst this
      exact ⟨_, _, rfl, ⟨rfl, rfl, ⟨upd_self _ _ _, trivial⟩, hnd⟩, hstep _⟩
    | some q =>
      have hne : ns ≠ [] := fun e => by rw [(head_none r).mpr e] at hh; cases hh
      dsimp only
      refine ⟨_, _, rfl, ⟨rfl, ?_, ?_, hnd⟩, hstep _⟩
      · rw [last_cons_ne _ _ hne]; exact r.tail
      · simp only [Links]
        refine ⟨?_, links_frame ns none (fun x hx => upd_ne _ _ _ _ (fun e => hpn (e ▸ hx))) r.links⟩
        rw [upd_self, ← hh, r.head]

theorem erase_not_mem (ns : Seq) (p : Nat) (h : p ∉ ns.map (·.1)) : erase ns p = ns := by
  unfold erase
  rw [List.filter_eq_self]
  intro x hx
  have : x.1 ≠ p := fun e => h (e ▸ List.mem_map_of_mem hx)
  simpa using this

theorem removeLoop_spec (item : Nat) : ∀ (post : Seq) (pre : Seq) (h : Heap) (l : LIST) (n : Nat), Rep h l (pre ++ post) → post.length < n →
    item ∉ pre.map (·.1) →
    ∃ h' l', removeLoop h l item (first post none) (last pre) n = C.ok (h', l', decide (item ∈ post.map (·.1))) ∧
      Rep h' l' (erase (pre ++ post) item) ∧ Step h (pre ++ post) h' (erase (pre ++ post) item) := by
  intro post
  induction post with
  | nil =>
    intro pre h l n r hn hp
    obtain ⟨n, rfl⟩ : ∃ k, n = k + 1 := ⟨n - 1, by simp at hn; omega⟩
    rw [erase_not_mem _ _ (by simpa using hp)]
    exact ⟨h, l, by simp [removeLoop, first], r, Step.refl _ _⟩
  | cons x post ih =>
    obtain ⟨c, x⟩ := x
    intro pre h l n r hn hp
    obtain ⟨n, rfl⟩ : ∃ k, n = k + 1 := ⟨n - 1, by omega⟩
    have hl := r.links
    rw [links_append] at hl
    simp only [Links] at hl
    simp only [removeLoop, first]
    rw [load_of hl.2.1, C.ok_bind]
    by_cases hc : c = item
    · rw [if_pos hc]
      obtain ⟨h', l', e, r', s'⟩ := unlink_spec h l pre post c x r
      dsimp only
      rw [e, C.ok_bind]
      have hnd := r.nodup
      simp only [List.map_append, List.map_cons] at hnd
      rw [List.nodup_append, List.nodup_cons] at hnd
      have he : erase (pre ++ (c, x) :: post) item = pre ++ post := by
        have e1 : erase (pre ++ (c, x) :: post) item = erase pre item ++ erase post item := by
          unfold erase
          rw [List.filter_append, List.filter_cons_of_neg (by simp [hc])]
        rw [e1, erase_not_mem _ _ hp, erase_not_mem _ _ (by rw [← hc]; exact hnd.2.1.1)]
      rw [he]
      exact ⟨h', l', by simp [hc], r', s'⟩
    · rw [if_neg hc]
      have e1 : pre ++ (c, x) :: post = (pre ++ [(c, x)]) ++ post := by simp
      rw [e1] at r
      obtain ⟨h', l', e, r', s'⟩ := ih (pre ++ [(c, x)]) h l n r (by simp at hn; omega) (by
        simp only [List.map_append, List.mem_append, List.map_cons, List.map_nil, List.mem_singleton, not_or]
        exact ⟨hp, fun e => hc e.symm⟩)
      rw [last_snoc] at e
      dsimp only at e ⊢
      rw [e1]
      refine ⟨h', l', ?_, r', s'⟩
      rw [e]
      simp [Ne.symm hc, fun h : item = c => hc h.symm]

/-- **C26**: removing an element by its handle; a handle that is not in the list is refused and nothing changes. -/
theorem remove_spec (h : Heap) (l : LIST) (ns : Seq) (p n : Nat) (r : Rep h l ns) (hn : ns.length < n) :
    ∃ h' l', remove n h (some l) (some p) = C.ok (h', some l', decide (p ∈ ns.map (·.1))) ∧ Rep h' l' (erase ns p) ∧
      Step h ns h' (erase ns p) := by
  simp only [remove]
  rw [r.head]
  obtain ⟨h', l', e, r', s'⟩ := removeLoop_spec p ns [] h l n r hn (by simp)
  have : last ([] : Seq) = none := rfl
  rw [this] at e
  rw [e, C.ok_bind]
  exact ⟨h', l', rfl, r', s'⟩

theorem findLoop_spec (mf : σ → Nat → Item → Bool × σ) (h : Heap) : ∀ (ns : Seq) (s : σ) (n : Nat), Links h ns none → ns.length < n →
    findLoop mf h s (first ns none) n = C.ok (findSpec mf s ns) := by
  intro ns
  induction ns with
  | nil =>
    intro s n _ hn
    obtain ⟨n, rfl⟩ : ∃ k, n = k + 1 := ⟨n - 1, by simp at hn; omega⟩
    rfl
  | cons x ns ih =>
    intro s n hl hn
    obtain ⟨n, rfl⟩ : ∃ k, n = k + 1 := ⟨n - 1, by omega⟩
    simp only [Links] at hl
    simp only [findLoop, first]
    rw [load_of hl.1, C.ok_bind]
    simp only [findSpec]
    by_cases hm : (mf s x.1 x.2).1 = true
    · rw [if_pos hm, if_pos hm]
    · rw [if_neg hm, if_neg hm]
      exact ih _ n hl.2 (by simp at hn; omega)

/-- **C26**: find returns the first element that matches, asking no element after it. -/
theorem find_spec (mf : σ → Nat → Item → Bool × σ) (s : σ) (h : Heap) (l : LIST) (ns : Seq) (n : Nat) (r : Rep h l ns) (hn : ns.length < n) :
    find n h (some l) (some mf) s = C.ok (findSpec mf s ns) := by
  simp only [find]
  rw [r.head]
  exact findLoop_spec mf h ns s n r.links hn

theorem foreachLoop_spec (af : σ → Item → Bool × σ) (h : Heap) : ∀ (ns : Seq) (s : σ) (n : Nat), Links h ns none → ns.length < n →
    foreachLoop af h s (first ns none) n = C.ok (foreachSpec af s ns) := by
  intro ns
  induction ns with
  | nil =>
    intro s n _ hn
    obtain ⟨n, rfl⟩ : ∃ k, n = k + 1 := ⟨n - 1, by simp at hn; omega⟩
    rfl
  | cons x ns ih =>
    intro s n hl hn
    obtain ⟨n, rfl⟩ : ∃ k, n = k + 1 := ⟨n - 1, by omega⟩
    simp only [Links] at hl
    simp only [foreachLoop, first]
    rw [load_of hl.1, C.ok_bind]
    simp only [foreachSpec]
    by_cases hm : (af s x.2).1 = true
    · rw [if_pos hm, if_pos hm]
      exact ih _ n hl.2 (by simp at hn; omega)
    · rw [if_neg hm, if_neg hm]

/-- **C26**: foreach calls the action on the elements in order until it says stop. -/
theorem foreach_spec (af : σ → Item → Bool × σ) (s : σ) (h : Heap) (l : LIST) (ns : Seq) (n : Nat) (r : Rep h l ns) (hn : ns.length < n) :
    foreach n h (some l) (some af) s = C.ok (foreachSpec af s ns, true) := by
  simp only [foreach]
  rw [r.head, foreachLoop_spec af h ns s n r.links hn, C.ok_bind]
  rfl

theorem removeIfLoop_spec {σ : Type} (cf : Condition σ) : ∀ (post pre : Seq) (h : Heap) (l : LIST) (s : σ) (n : Nat), Rep h l (pre ++ post) → post.length < n →
    ∃ h' l', removeIfLoop cf h l s (first post none) (last pre) n = C.ok (h', l', (removeIfSpec cf s post).2) ∧
      Rep h' l' (pre ++ (removeIfSpec cf s post).1) ∧ Step h (pre ++ post) h' (pre ++ (removeIfSpec cf s post).1) := by
  intro post
  induction post with
  | nil =>
    intro pre h l s n r hn
    obtain ⟨n, rfl⟩ : ∃ k, n = k + 1 := ⟨n - 1, by simp at hn; omega⟩
    exact ⟨h, l, by simp [removeIfLoop, first, removeIfSpec], r, Step.refl _ _⟩
  | cons x post ih =>
    obtain ⟨c, x⟩ := x
    intro pre h l s n r hn
    obtain ⟨n, rfl⟩ : ∃ k, n = k + 1 := ⟨n - 1, by omega⟩
    have hl := r.links
    rw [links_append] at hl
    simp only [Links] at hl
    simp only [removeIfLoop, first, removeIfSpec]
    rw [load_of hl.2.1, C.ok_bind]
    dsimp only
    by_cases h1 : (cf s x).1 = true
    · rw [if_pos h1, if_pos h1]
      obtain ⟨h', l', e, r', s'⟩ := unlink_spec h l pre post c x r
      rw [e, C.ok_bind]
      dsimp only
      by_cases h2 : (cf s x).2.1 = true
      · rw [if_pos h2, if_pos h2]
        obtain ⟨h2', l2', e2, r2, s2⟩ := ih pre h' l' (cf s x).2.2 n r' (by simp at hn; omega)
        exact ⟨h2', l2', e2, r2, s'.trans s2⟩
      · rw [if_neg h2, if_neg h2]
        exact ⟨h', l', rfl, r', s'⟩
    · rw [if_neg h1, if_neg h1]
      by_cases h2 : (cf s x).2.1 = true
      · rw [if_pos h2, if_pos h2]
        have e1 : pre ++ (c, x) :: post = (pre ++ [(c, x)]) ++ post := by simp
        rw [e1] at r
        obtain ⟨h2', l2', e2, r2, s2⟩ := ih (pre ++ [(c, x)]) h l (cf s x).2.2 n r (by simp at hn; omega)
        rw [last_snoc] at e2
        have e3 : pre ++ (c, x) :: (removeIfSpec cf (cf s x).2.2 post).1 = (pre ++ [(c, x)]) ++ (removeIfSpec cf (cf s x).2.2 post).1 := by simp
        rw [e1, e3]
        exact ⟨h2', l2', e2, r2, s2⟩
      · rw [if_neg h2, if_neg h2]
        exact ⟨h, l, rfl, r, Step.refl _ _⟩

/-- **C26**: remove_if removes exactly the elements the condition says, in order, until it says stop. -/
theorem removeIf_spec {σ : Type} (cf : Condition σ) (s : σ) (h : Heap) (l : LIST) (ns : Seq) (n : Nat) (r : Rep h l ns) (hn : ns.length < n) :
    ∃ h' l', removeIf n h (some l) (some cf) s = C.ok (h', some l', (removeIfSpec cf s ns).2, true) ∧ Rep h' l' (removeIfSpec cf s ns).1 ∧
      Step h ns h' (removeIfSpec cf s ns).1 := by
  simp only [removeIf]
  rw [r.head]
  obtain ⟨h', l', e, r', s'⟩ := removeIfLoop_spec cf ns [] h l s n r hn
  have : last ([] : Seq) = none := rfl
  rw [this] at e
  rw [e, C.ok_bind]
  exact ⟨h', l', rfl, r', s'⟩

/-- A condition that always continues keeps the elements it does not select. -/
theorem removeIfSpec_pure (P : Item → Bool) (ns : Seq) :
    (removeIfSpec (fun (_ : Unit) x => (P x, true, ())) () ns).1 = ns.filter (fun x => !P x.2) := by
  induction ns with
  | nil => rfl
  | cons x ns ih =>
    simp only [removeIfSpec, if_true]
    rw [ih]
    cases h : P x.2 with
    | true => rw [if_pos rfl, List.filter_cons_of_neg (by simp [h])]
    | false => rw [if_neg (by simp), List.filter_cons_of_pos (by simp [h])]

/-- A match function without state finds the first element that satisfies it. -/
theorem findSpec_pure (P : Item → Bool) (ns : Seq) :
    (findSpec (fun (_ : Unit) _ x => (P x, ())) () ns).1 = (ns.find? (fun x => P x.2)).map (·.1) := by
  induction ns with
  | nil => rfl
  | cons x ns ih =>
    simp only [findSpec]
    cases h : P x.2 with
    | true => rw [if_pos rfl, List.find?_cons_of_pos (by simp [h])]; rfl
    | false => rw [if_neg (by simp), List.find?_cons_of_neg (by simp [h])]; exact ih

/-- An action that always continues is called on every element in order. -/
theorem foreachSpec_pure (ns : Seq) : foreachSpec (fun (s : List Item) x => (true, s ++ [x])) [] ns = ns.map (·.2) := by
  have : ∀ (ns : Seq) (s : List Item), foreachSpec (fun (s : List Item) x => (true, s ++ [x])) s ns = s ++ ns.map (·.2) := by
    intro ns
    induction ns with
    | nil => intro s; simp [foreachSpec]
    | cons x ns ih => intro s; simp only [foreachSpec, if_true]; rw [ih]; simp
  simpa using this ns []

/-- **C26**: walking with get_head_item, get_next_item and item_get_value visits the elements in order. -/
theorem walk_spec (h : Heap) (l : LIST) (ns : Seq) (r : Rep h l ns) :
    getHeadItem (some l) = first ns none ∧
    ∀ pre p x post, ns = pre ++ (p, x) :: post → getNextItem h (some p) = C.ok (first post none) ∧ itemGetValue h (some p) = C.ok x := by
  refine ⟨r.head, ?_⟩
  rintro pre p x post rfl
  have hl := r.links
  rw [links_append] at hl
  simp only [Links] at hl
  constructor
  · simp only [getNextItem]; rw [load_of hl.2.1]; rfl
  · simp only [itemGetValue]; rw [load_of hl.2.1]; rfl

theorem destroyLoop_spec : ∀ (ns : Seq) (h : Heap) (n : Nat), Links h ns none → (ns.map (·.1)).Nodup → ns.length < n →
    ∃ h', destroyLoop h (first ns none) n = C.ok h' ∧ Step h ns h' [] := by
  intro ns
  induction ns with
  | nil =>
    intro h n _ _ hn
    obtain ⟨n, rfl⟩ : ∃ k, n = k + 1 := ⟨n - 1, by simp at hn; omega⟩
    exact ⟨h, rfl, Step.refl _ _⟩
  | cons x ns ih =>
    intro h n hl hd hn
    obtain ⟨n, rfl⟩ : ∃ k, n = k + 1 := ⟨n - 1, by omega⟩
    simp only [Links] at hl
    rw [List.map_cons, List.nodup_cons] at hd
    simp only [destroyLoop, first]
    rw [load_of hl.1, C.ok_bind, free_of hl.1, C.ok_bind]
    obtain ⟨h', e, s⟩ := ih (upd h x.1 none) n (links_frame ns none (fun p hp => upd_ne _ _ _ _ (fun e => hd.1 (e ▸ hp))) hl.2) hd.2
      (by simp at hn; omega)
    refine ⟨h', e, ?_⟩
    refine Step.trans (n1 := ns) ⟨?_, ?_, ?_⟩ s
    · intro p h1 h2
      refine upd_ne _ _ _ _ ?_
      intro e; apply h1; simp [e]
    · intro p h1 h2
      rw [List.map_cons] at h1
      rcases List.mem_cons.mp h1 with h1 | h1
      · rw [h1]; exact upd_self _ _ _
      · exact absurd h1 h2
    · intro p h1 h2
      exfalso; apply h1; rw [List.map_cons]; exact List.mem_cons_of_mem _ h2

/-- **C26**: destroying frees every element once and touches nothing else. -/
theorem destroy_spec (h : Heap) (l : LIST) (ns : Seq) (n : Nat) (r : Rep h l ns) (hn : ns.length < n) :
    ∃ h', destroy n h (some l) = C.ok h' ∧ (∀ p ∈ ns.map (·.1), h' p = none) ∧ ∀ p, p ∉ ns.map (·.1) → h' p = h p := by
  obtain ⟨h', e, s⟩ := destroyLoop_spec ns h n r.links r.nodup hn
  simp only [destroy]
  rw [r.head]
  exact ⟨h', e, fun p hp => s.freed p hp (by simp), fun p hp => s.frame p hp (by simp)⟩

/-- **C26**: NULL arguments are refused and change nothing. -/
theorem refusals (n : Nat) (h : Heap) (l : Option LIST) (item : Item) (alloc : Alloc) (p : Option Nat) (s : σ) :
    add h none item alloc = C.ok (h, none, none) ∧ add h l none alloc = C.ok (h, l, none) ∧
    addHead h none item alloc = C.ok (h, none, none) ∧
    remove n h none p = C.ok (h, none, false) ∧ remove n h l none = C.ok (h, l, false) ∧
    getHeadItem none = none ∧ getNextItem h none = C.ok none ∧ itemGetValue h none = C.ok none ∧
    (∀ mf, find (σ := σ) n h none mf s = C.ok (none, s)) ∧ find (σ := σ) n h l none s = C.ok (none, s) ∧
    destroy n h none = C.ok h ∧
    (∀ cf, removeIf (σ := σ) n h none cf s = C.ok (h, none, s, false)) ∧ removeIf (σ := σ) n h l none s = C.ok (h, l, s, false) ∧
    (∀ af, foreach (σ := σ) n h none af s = C.ok (s, false)) ∧ foreach (σ := σ) n h l none s = C.ok (s, false) := by
  refine ⟨rfl, ?_, rfl, rfl, ?_, rfl, rfl, rfl, fun mf => rfl, ?_, rfl, fun cf => rfl, ?_, fun af => rfl, ?_⟩ <;> cases l <;> rfl

/-! ### Histories -/

/-- The calls that change a list. -/
inductive Call where
  | add (item : Nat) (alloc : Alloc)
  | addHead (item : Item) (alloc : Alloc)
  | remove (p : Nat)
  | removeIf (cf : Nat → Item → Bool × Bool × Nat) (s : Nat)

/-- The allocators involved return free addresses. -/
def Call.Ok : Call → Prop
  | .add _ a => Proper a
  | .addHead _ a => Proper a
  | _ => True

/-- What each call reports: the new handle, or success. -/
inductive Out where
  | handle (p : Option Nat)
  | done (ok : Bool)
deriving DecidableEq, Repr

def exec (n : Nat) (h : Heap) (l : Option LIST) : Call → C (Heap × Option LIST × Out)
  | .add item a => do let (h, l, p) ← SList.add h l (some item) a; pure (h, l, .handle p)
  | .addHead item a => do let (h, l, p) ← SList.addHead h l item a; pure (h, l, .handle p)
  | .remove p => do let (h, l, ok) ← SList.remove n h l (some p); pure (h, l, .done ok)
  | .removeIf cf s => do let (h, l, _, ok) ← SList.removeIf n h l (some cf) s; pure (h, l, .done ok)

/-- The corresponding operation on sequences; a new element gets whatever handle the call reports. -/
def Allowed (ns : Seq) : Call → Out → Seq → Prop
  | .add item _, .handle (some p), ns' => p ∉ ns.map (·.1) ∧ ns' = ns ++ [(p, some item)]
  | .add _ a, .handle none, ns' => (∃ h, a h = none) ∧ ns' = ns
  | .addHead item _, .handle (some p), ns' => p ∉ ns.map (·.1) ∧ ns' = (p, item) :: ns
  | .addHead _ a, .handle none, ns' => (∃ h, a h = none) ∧ ns' = ns
  | .remove p, .done ok, ns' => ok = decide (p ∈ ns.map (·.1)) ∧ ns' = erase ns p
  | .removeIf cf s, .done ok, ns' => ok = true ∧ ns' = (removeIfSpec cf s ns).1
  | _, _, _ => False

/-- **C26**: any call on any list. -/
theorem call_outcome (h : Heap) (l : LIST) (ns : Seq) (c : Call) (n : Nat) (r : Rep h l ns) (hc : c.Ok) (hn : ns.length < n) :
    ∃ h' l' out ns', exec n h (some l) c = C.ok (h', some l', out) ∧ Rep h' l' ns' ∧ Step h ns h' ns' ∧ Allowed ns c out ns' := by
  cases c with
  | add item a =>
    have := add_spec h l ns item a hc r
    cases ha : a h with
    | none =>
      rw [ha] at this
      exact ⟨h, l, .handle none, ns, by simp only [exec]; rw [this, C.ok_bind]; rfl, r, Step.refl _ _, ⟨h, ha⟩, rfl⟩
    | some p =>
      rw [ha] at this
      obtain ⟨h', l', e, r', s'⟩ := this
      exact ⟨h', l', .handle (some p), _, by simp only [exec]; rw [e, C.ok_bind]; rfl, r', s', not_mem_of_fresh r (hc h p ha), rfl⟩
  | addHead item a =>
    have := addHead_spec h l ns item a hc r
    cases ha : a h with
    | none =>
      rw [ha] at this
      exact ⟨h, l, .handle none, ns, by simp only [exec]; rw [this, C.ok_bind]; rfl, r, Step.refl _ _, ⟨h, ha⟩, rfl⟩
    | some p =>
      rw [ha] at this
      obtain ⟨h', l', e, r', s'⟩ := this
      exact ⟨h', l', .handle (some p), _, by simp only [exec]; rw [e, C.ok_bind]; rfl, r', s', not_mem_of_fresh r (hc h p ha), rfl⟩
  | remove p =>
    obtain ⟨h', l', e, r', s'⟩ := remove_spec h l ns p n r hn
    exact ⟨h', l', .done _, _, by simp only [exec]; rw [e, C.ok_bind]; rfl, r', s', rfl, rfl⟩
  | removeIf cf s =>
    obtain ⟨h', l', e, r', s'⟩ := removeIf_spec cf s h l ns n r hn
    exact ⟨h', l', .done true, _, by simp only [exec]; rw [e, C.ok_bind]; rfl, r', s', rfl, rfl⟩

def run (n : Nat) (h : Heap) (l : Option LIST) : List Call → C (Heap × Option LIST × List Out)
  | [] => C.ok (h, l, [])
  | c :: cs => do
    let (h, l, o) ← exec n h l c
    let (h, l, os) ← run n h l cs
    pure (h, l, o :: os)

inductive Run : Seq → List Call → List Out → Seq → Prop
  | nil (ns) : Run ns [] [] ns
  | cons {ns c o ns1 cs os ns2} : Allowed ns c o ns1 → Run ns1 cs os ns2 → Run ns (c :: cs) (o :: os) ns2

theorem erase_length (ns : Seq) (p : Nat) : (erase ns p).length ≤ ns.length := List.length_filter_le _ _

theorem removeIfSpec_length {σ : Type} (cf : Condition σ) (ns : Seq) : ∀ s, (removeIfSpec cf s ns).1.length ≤ ns.length := by
  induction ns with
  | nil => intro s; exact Nat.le_refl _
  | cons x ns ih =>
    intro s
    simp only [removeIfSpec]
    have : (if (cf s x.2).2.1 = true then removeIfSpec cf (cf s x.2).2.2 ns else (ns, (cf s x.2).2.2)).1.length ≤ ns.length := by
      split
      · exact ih _
      · exact Nat.le_refl _
    split
    · simp only [List.length_cons]; omega
    · simp only [List.length_cons]; omega

theorem allowed_length {ns c o ns'} (a : Allowed ns c o ns') : ns'.length ≤ ns.length + 1 := by
  cases c <;> cases o <;> simp only [Allowed] at a
  · rename_i p; cases p <;> simp only [Allowed] at a <;> rw [a.2] <;> simp
  · rename_i p; cases p <;> simp only [Allowed] at a <;> rw [a.2] <;> simp
  · rw [a.2]; have := erase_length ns; exact Nat.le_succ_of_le (this _)
  · rw [a.2]; exact Nat.le_succ_of_le (removeIfSpec_length _ _ _)

/-- **C26**: every history of calls, with any allocation outcomes and any conditions, is a history of the corresponding operations on
sequences: defined throughout (so nothing dangling is ever dereferenced or freed twice), with nothing leaked. -/
theorem history_outcome (cs : List Call) : ∀ (h : Heap) (l : LIST) (ns : Seq) (n : Nat), Rep h l ns → (∀ c ∈ cs, c.Ok) →
    ns.length + cs.length < n →
    ∃ h' l' os ns', run n h (some l) cs = C.ok (h', some l', os) ∧ Rep h' l' ns' ∧ Step h ns h' ns' ∧ Run ns cs os ns' := by
  induction cs with
  | nil => intro h l ns n r _ _; exact ⟨h, l, [], ns, rfl, r, Step.refl _ _, .nil _⟩
  | cons c cs ih =>
    intro h l ns n r hok hn
    simp only [List.length_cons] at hn
    obtain ⟨h1, l1, o, n1, e1, r1, s1, a1⟩ := call_outcome h l ns c n r (hok c (by simp)) (by omega)
    have := allowed_length a1
    obtain ⟨h2, l2, os, n2, e2, r2, s2, a2⟩ := ih h1 l1 n1 n r1 (fun c hc => hok c (by simp [hc])) (by omega)
    refine ⟨h2, l2, o :: os, n2, ?_, r2, s1.trans s2, .cons a1 a2⟩
    simp only [run]
    rw [e1, C.ok_bind]
    dsimp only
    rw [e2, C.ok_bind]
    rfl

/- A concrete history: add, add, add_head, remove the middle, remove_if the last: one element left, tail correct for a further add. -/
def fixed (p : Nat) : Alloc := fun h => match h p with | none => some p | some _ => none

theorem fixed_proper (p : Nat) : Proper (fixed p) := by
  intro h q e
  unfold fixed at e
  split at e
  · cases e; assumption
  · cases e

example : ∃ h' l', run 10 (fun _ => none) (create true)
    [.add 1 (fixed 100), .add 2 (fixed 200), .addHead (some 3) (fixed 300), .add 4 (fixed 100), .remove 100, .removeIf (fun s x => (x = some 2, true, s)) 0,
     .remove 200, .add 5 (fixed 100)] =
    C.ok (h', l', [.handle (some 100), .handle (some 200), .handle (some 300), .handle none, .done true, .done true, .done false, .handle (some 100)]) ∧
    l' = some ⟨some 300, some 100⟩ ∧ h' 300 = some ⟨some 3, some 100⟩ ∧ h' 100 = some ⟨some 5, none⟩ ∧ h' 200 = none := by
  refine ⟨_, _, rfl, rfl, rfl, rfl, rfl⟩

end CUtil.SList
