import Verif.SList.Spec
set_option linter.unusedSimpArgs false
set_option linter.unusedVariables false
/- Helper lemmas for C26. -/
namespace CUtil.SList


theorem upd_self (h : Heap) (p : Nat) (v : Option Node) : upd h p v p = v := by simp [upd]
theorem upd_ne (h : Heap) (p q : Nat) (v : Option Node) (hn : q ≠ p) : upd h p v q = h q := by simp [upd, hn]

theorem load_of {h : Heap} {p : Nat} {n : Node} (e : h p = some n) : load h p = C.ok n := by unfold load; rw [e]

theorem setNext_of {h : Heap} {p : Nat} {n : Node} (e : h p = some n) (v : Option Nat) :
    setNext h p v = C.ok (upd h p (some ⟨n.item, v⟩)) := by
  unfold setNext; rw [load_of e]; rfl

theorem free_of {h : Heap} {p : Nat} {n : Node} (e : h p = some n) : free h p = C.ok (upd h p none) := by
  unfold free; rw [load_of e]; rfl

theorem links_append (h : Heap) (a b : Seq) (e : Option Nat) : Links h (a ++ b) e ↔ Links h a (first b e) ∧ Links h b e := by
  induction a with
  | nil => simp [Links]
  | cons x a ih =>
    rw [List.cons_append]
    simp only [Links]
    rw [ih]
    cases a with
    | nil => simp [first, and_assoc]
    | cons y a => simp [first, and_assoc]

theorem links_frame {h h' : Heap} (ns : Seq) (e : Option Nat) (hf : ∀ p ∈ ns.map (·.1), h' p = h p) (hl : Links h ns e) : Links h' ns e := by
  induction ns with
  | nil => trivial
  | cons x ns ih =>
    simp only [Links] at hl ⊢
    exact ⟨by rw [hf _ (by simp)]; exact hl.1, ih (fun p hp => hf p (by simp only [List.map_cons, List.mem_cons]; exact Or.inr hp)) hl.2⟩

theorem last_append (a b : Seq) : last (a ++ b) = match last b with | some p => some p | none => last a := by
  unfold last
  rw [List.getLast?_append]
  cases b.getLast? <;> rfl

theorem last_snoc (a : Seq) (x : Nat × Item) : last (a ++ [x]) = some x.1 := by simp [last]

theorem last_cons_ne (a : Seq) (x : Nat × Item) (h : a ≠ []) : last (x :: a) = last a := by
  cases a with
  | nil => exact absurd rfl h
  | cons y a => simp [last, List.getLast?_cons_cons]

theorem first_append (a b : Seq) (e : Option Nat) : first (a ++ b) e = first a (first b e) := by cases a <;> rfl

theorem last_mem {a : Seq} {p : Nat} (h : last a = some p) : p ∈ a.map (·.1) := by
  unfold last at h
  rw [Option.map_eq_some_iff] at h
  obtain ⟨x, hx, e⟩ := h
  rw [← e]
  exact List.mem_map_of_mem (List.mem_of_getLast? hx)

theorem links_mem {h : Heap} {ns : Seq} {e : Option Nat} (hl : Links h ns e) {p : Nat} (hp : p ∈ ns.map (·.1)) : ∃ n, h p = some n := by
  induction ns with
  | nil => simp at hp
  | cons x ns ih =>
    simp only [List.map_cons, List.mem_cons] at hp
    simp only [Links] at hl
    rcases hp with rfl | hp
    · exact ⟨_, hl.1⟩
    · exact ih hl.2 hp

theorem Step.refl (h : Heap) (ns : Seq) : Step h ns h ns :=
  ⟨fun _ _ _ => rfl, fun p h1 h2 => absurd h1 h2, fun p h1 h2 => absurd h2 h1⟩

theorem Step.trans {h : Heap} {ns : Seq} {h1 : Heap} {n1 : Seq} {h2 : Heap} {n2 : Seq} (s1 : Step h ns h1 n1) (s2 : Step h1 n1 h2 n2)
    : Step h ns h2 n2 where
  frame := by
    intro p h0 h2'
    by_cases hm : p ∈ n1.map (·.1)
    · rw [s2.freed p hm h2', s1.fresh p h0 hm]
    · rw [s2.frame p hm h2', s1.frame p h0 hm]
  freed := by
    intro p h0 h2'
    by_cases hm : p ∈ n1.map (·.1)
    · exact s2.freed p hm h2'
    · rw [s2.frame p hm h2', s1.freed p h0 hm]
  fresh := by
    intro p h0 h2'
    by_cases hm : p ∈ n1.map (·.1)
    · exact s1.fresh p h0 hm
    · rw [← s1.frame p h0 hm]; exact s2.fresh p hm h2'

theorem snoc_cases (a : Seq) : a = [] ∨ ∃ b x, a = b ++ [x] := by
  by_cases h : a = []
  · exact Or.inl h
  · exact Or.inr ⟨a.dropLast, a.getLast h, (List.dropLast_concat_getLast h).symm⟩

/-- Removing one element. -/
theorem unlink_spec (h : Heap) (l : LIST) (pre post : Seq) (c : Nat) (x : Item) (r : Rep h l (pre ++ (c, x) :: post)) :
    ∃ h' l', unlink h l (last pre) c (first post none) = C.ok (h', l') ∧ Rep h' l' (pre ++ post) ∧
      Step h (pre ++ (c, x) :: post) h' (pre ++ post) := by
  obtain ⟨hh, ht, hl, hn⟩ := r
  rw [links_append] at hl
  obtain ⟨hl1, hl2⟩ := hl
  simp only [Links] at hl2
  obtain ⟨hc, hl2⟩ := hl2
  simp only [List.map_append, List.map_cons] at hn
  have hn' := hn
  rw [List.nodup_append] at hn
  obtain ⟨n1, n2, n3⟩ := hn
  rw [List.nodup_cons] at n2
  have hcpre : c ∉ pre.map (·.1) := fun hx => n3 c hx c (by simp) rfl
  have hnd : ((pre ++ post).map (·.1)).Nodup := by
    rw [List.map_append]
    exact List.Sublist.nodup (by simp) hn'
  have htail : (if some c = l.tail then last pre else l.tail) = last (pre ++ post) := by
    rw [ht]
    by_cases hp : post = []
    · subst hp
      rw [last_snoc, if_pos rfl, List.append_nil]
    · have e : last (pre ++ (c, x) :: post) = last post := by
        rw [last_append, last_cons_ne _ _ hp]
        cases hlp : last post with
        | none => simp [last] at hlp; exact absurd hlp hp
        | some q => rfl
      have e2 : last (pre ++ post) = last post := by
        rw [last_append]
        cases hlp : last post with
        | none => simp [last] at hlp; exact absurd hlp hp
        | some q => rfl
      rw [e, e2, if_neg]
      intro hcp
      exact n2.1 (last_mem hcp.symm)
  have hfree : ∀ g : Heap, g c = none → (∀ p ∈ (pre ++ post).map (·.1), g p ≠ none) → (∀ p, p ∉ (pre ++ post).map (·.1) → p ≠ c → g p = h p) →
      Step h (pre ++ (c, x) :: post) g (pre ++ post) := by
    intro g g1 g2 g3
    refine ⟨?_, ?_, ?_⟩
    · intro p hp hp'
      apply g3 p hp'
      intro e; subst e; apply hp; simp
    · intro p hp hp'
      have : p = c := by
        simp only [List.map_append, List.map_cons, List.mem_append, List.mem_cons] at hp hp'
        rcases hp with hp | hp | hp
        · exact absurd (Or.inl hp) hp'
        · exact hp
        · exact absurd (Or.inr hp) hp'
      rw [this]; exact g1
    · intro p hp hp'
      exfalso; apply hp
      simp only [List.map_append, List.map_cons, List.mem_append, List.mem_cons] at hp' ⊢
      rcases hp' with hp' | hp'
      · exact Or.inl hp'
      · exact Or.inr (Or.inr hp')
  have hmem : ∀ (g : Heap) , Links g (pre ++ post) none → ∀ p ∈ (pre ++ post).map (·.1), g p ≠ none := by
    intro g hg p hp e
    obtain ⟨n, en⟩ := links_mem hg hp
    rw [en] at e; cases e
  unfold unlink bypass
  rcases snoc_cases pre with rfl | ⟨pre', ⟨q, y⟩, rfl⟩
  · have : last ([] : Seq) = none := rfl
    rw [this]
    simp only
    rw [C.ok_bind]
    dsimp only
    rw [free_of hc, C.ok_bind]
    have hlinks : Links (upd h c none) ([] ++ post) none := by
      refine links_frame post none ?_ hl2
      intro p hp
      exact upd_ne _ _ _ _ (fun e => n2.1 (e ▸ hp))
    refine ⟨_, _, rfl, ⟨?_, ?_, hlinks, hnd⟩, hfree _ (upd_self _ _ _) (hmem _ hlinks) (fun p _ hp => upd_ne _ _ _ _ hp)⟩
    · split <;> rfl
    · rw [← htail]
      split <;> rfl
  · rw [last_snoc]
    simp only
    rw [links_append] at hl1
    obtain ⟨hl0, hq⟩ := hl1
    simp only [Links, first, and_true] at hq
    have hqc : q ≠ c := fun e => hcpre (by simp [e])
    rw [setNext_of hq, C.ok_bind, C.pure_eq, C.ok_bind]
    dsimp only
    have hc' : upd h q (some ⟨y, first post none⟩) c = some ⟨x, first post none⟩ := by rw [upd_ne _ _ _ _ (Ne.symm hqc)]; exact hc
    rw [free_of hc', C.ok_bind]
    simp only [List.map_append, List.map_cons, List.map_nil] at n1 n3
    rw [List.nodup_append] at n1
    have hlinks : Links (upd (upd h q (some ⟨y, first post none⟩)) c none) (pre' ++ [(q, y)] ++ post) none := by
      rw [links_append, links_append]
      refine ⟨⟨?_, ?_⟩, ?_⟩
      · refine links_frame pre' _ ?_ hl0
        intro p hp
        rw [upd_ne, upd_ne]
        · exact n1.2.2 p hp q (by simp)
        · intro e; exact hcpre (by rw [List.map_append]; exact List.mem_append_left _ (e ▸ hp))
      · simp only [Links, and_true, first]
        rw [upd_ne _ _ _ _ hqc, upd_self]
      · refine links_frame post _ ?_ hl2
        intro p hp
        rw [upd_ne, upd_ne]
        · intro e; exact n3 q (by simp) p (by simp [hp]) e.symm
        · intro e; exact n2.1 (e ▸ hp)
    refine ⟨_, _, rfl, ⟨?_, ?_, hlinks, hnd⟩, hfree _ (upd_self _ _ _) (hmem _ hlinks) ?_⟩
    · have : (if some c = l.tail then (⟨l.head, some q⟩ : LIST) else l).head = l.head := by split <;> rfl
      rw [this, hh]
      cases pre' <;> rfl
    · rw [← htail, last_snoc]
      split <;> rfl
    · intro p hp hpc
      rw [upd_ne _ _ _ _ hpc, upd_ne]
      intro e; apply hp; simp [e]

end CUtil.SList
