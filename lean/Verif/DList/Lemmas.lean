import Verif.DList.Spec
set_option linter.unusedSimpArgs false
set_option linter.unusedVariables false
/- Helper lemmas for C27 and C28. -/
namespace CUtil.DList

theorem upd_self (g : Nat → Nat) (p v : Nat) : upd g p v p = v := by simp [upd]
theorem upd_ne (g : Nat → Nat) (p v q : Nat) (h : q ≠ p) : upd g p v q = g q := by simp [upd, h]

theorem getF_of {h : Heap} {p : Nat} (e : h.alive p = true) : getF h p = C.ok (h.f p) := by unfold getF; rw [if_pos e]
theorem getB_of {h : Heap} {p : Nat} (e : h.alive p = true) : getB h p = C.ok (h.b p) := by unfold getB; rw [if_pos e]
theorem setF_of {h : Heap} {p : Nat} (e : h.alive p = true) (v : Nat) : setF h p v = C.ok ⟨h.alive, upd h.f p v, h.b⟩ := by unfold setF; rw [if_pos e]
theorem setB_of {h : Heap} {p : Nat} (e : h.alive p = true) (v : Nat) : setB h p v = C.ok ⟨h.alive, h.f, upd h.b p v⟩ := by unfold setB; rw [if_pos e]

/-- `Adjs` only looks at the `Flink` of all but the last and the `Blink` of all but the first. -/
theorem adjs_frame {h h' : Heap} : ∀ (l : List Nat), (∀ p ∈ l.dropLast, h'.f p = h.f p) → (∀ p ∈ l.tail, h'.b p = h.b p) → Adjs h l → Adjs h' l
  | [], _, _, _ => trivial
  | [_], _, _, _ => trivial
  | x :: y :: r, hf, hb, ha => by
    simp only [Adjs] at ha ⊢
    refine ⟨by rw [hf x (by simp)]; exact ha.1, by rw [hb y (by simp)]; exact ha.2.1, ?_⟩
    refine adjs_frame (y :: r) ?_ ?_ ha.2.2
    · intro p hp; apply hf; simp only [List.dropLast_cons₂, List.mem_cons]; exact Or.inr hp
    · intro p hp; apply hb; simp only [List.tail_cons, List.mem_cons] at hp ⊢; exact Or.inr hp

theorem adjs_append (h : Heap) : ∀ (a : List Nat) (p n : Nat) (b : List Nat),
    Adjs h (a ++ p :: n :: b) ↔ Adjs h (a ++ [p]) ∧ h.f p = n ∧ h.b n = p ∧ Adjs h (n :: b)
  | [], p, n, b => by simp [Adjs]
  | [x], p, n, b => by simp [Adjs, and_assoc]
  | x :: y :: a, p, n, b => by
    have := adjs_append h (y :: a) p n b
    simp only [List.cons_append] at this ⊢
    simp only [Adjs]
    rw [this]
    simp only [and_assoc]

/-- Every nonempty row ends somewhere. -/
theorem snoc_of (x : Nat) (a : List Nat) : ∃ a' p, x :: a = a' ++ [p] :=
  ⟨(x :: a).dropLast, (x :: a).getLast (by simp), (List.dropLast_concat_getLast (by simp)).symm⟩

theorem cons_of (b : List Nat) (z : Nat) : ∃ n b', b ++ [z] = n :: b' := by
  cases b with
  | nil => exact ⟨z, [], rfl⟩
  | cons x b => exact ⟨x, b ++ [z], rfl⟩

theorem dropLast_of {b : List Nat} {z n : Nat} {b' : List Nat} (e : b ++ [z] = n :: b') : (n :: b').dropLast = b := by
  rw [← e]; simp

theorem tail_of {a : List Nat} {x p : Nat} {a' : List Nat} (e : x :: a = a' ++ [p]) : (a' ++ [p]).tail = a := by
  rw [← e]; rfl

theorem last_mem {a : List Nat} {x p : Nat} {a' : List Nat} (e : x :: a = a' ++ [p]) : p ∈ x :: a := by rw [e]; simp
theorem first_mem {b : List Nat} {z n : Nat} {b' : List Nat} (e : b ++ [z] = n :: b') : n ∈ b ++ [z] := by rw [e]; simp

/-- Taking a middle part out: linking the two remaining parts to each other.  `x :: a` and `b ++ [z]` are what remains. -/
theorem bridge {h h' : Heap} {x z : Nat} {a b a' b' : List Nat} {p n : Nat} (ea : x :: a = a' ++ [p]) (eb : b ++ [z] = n :: b')
    (ha : Adjs h (x :: a)) (hb : Adjs h (b ++ [z])) (hf : ∀ q, q ≠ p → h'.f q = h.f q) (hbk : ∀ q, q ≠ n → h'.b q = h.b q)
    (hp : h'.f p = n) (hn : h'.b n = p) (d1 : p ∉ b) (d2 : n ∉ a) (d3 : (x :: a).Nodup) (d4 : (b ++ [z]).Nodup) :
    Adjs h' (x :: (a ++ (b ++ [z]))) := by
  have e : x :: (a ++ (b ++ [z])) = a' ++ p :: n :: b' := by
    rw [eb]
    have : x :: (a ++ n :: b') = (x :: a) ++ n :: b' := rfl
    rw [this, ea]; simp
  rw [e, adjs_append]
  refine ⟨?_, hp, hn, ?_⟩
  · rw [← ea]
    refine adjs_frame _ ?_ ?_ ha
    · intro q hq
      apply hf
      intro e; subst e
      rw [ea] at hq d3
      rw [List.dropLast_concat] at hq
      rw [List.nodup_append] at d3
      exact d3.2.2 q hq q (by simp) rfl
    · intro q hq
      apply hbk
      intro e; subst e
      exact d2 hq
  · rw [← eb]
    refine adjs_frame _ ?_ ?_ hb
    · intro q hq
      rw [List.dropLast_concat] at hq
      apply hf
      intro e; subst e
      exact d1 hq
    · intro q hq
      apply hbk
      intro e; subst e
      rw [eb] at hq d4
      rw [List.nodup_cons] at d4
      exact d4.1 hq

theorem rep_split {h : Heap} {head e : Nat} {a b : List Nat} (r : Rep h head (a ++ e :: b)) :
    ∃ a' p n b', head :: a = a' ++ [p] ∧ b ++ [head] = n :: b' ∧ Adjs h (head :: a) ∧ Adjs h (b ++ [head]) ∧
      h.f p = e ∧ h.b e = p ∧ h.f e = n ∧ h.b n = e := by
  obtain ⟨a', p, ea⟩ := snoc_of head a
  obtain ⟨n, b', eb⟩ := cons_of b head
  have hr := r.ring
  have e1 : head :: (a ++ e :: b ++ [head]) = a' ++ p :: e :: n :: b' := by
    have : head :: (a ++ e :: b ++ [head]) = (head :: a) ++ e :: (b ++ [head]) := by simp
    rw [this, ea, eb]; simp
  rw [e1, adjs_append] at hr
  obtain ⟨h1, h2, h3, h4⟩ := hr
  simp only [Adjs] at h4
  exact ⟨a', p, n, b', ea, eb, by rw [ea]; exact h1, by rw [eb]; exact h4.2.2, h2, h3, h4.1, h4.2.1⟩

theorem nodup_facts {head e : Nat} {a b : List Nat} (h : (head :: (a ++ e :: b)).Nodup) :
    (head :: a).Nodup ∧ (b ++ [head]).Nodup ∧ (head :: (a ++ b)).Nodup ∧ e ∉ head :: (a ++ b) ∧ (∀ x ∈ head :: a, x ∉ b) ∧ (∀ x ∈ b ++ [head], x ∉ a) := by
  rw [List.nodup_cons, List.nodup_append, List.nodup_cons] at h
  obtain ⟨h0, h1, ⟨h2, h3⟩, h4⟩ := h
  simp only [List.mem_append, List.mem_cons, not_or] at h0
  refine ⟨List.nodup_cons.mpr ⟨h0.1, h1⟩, ?_, ?_, ?_, ?_, ?_⟩
  · rw [List.nodup_append]
    refine ⟨h3, by simp, ?_⟩
    intro x hx y hy e
    simp at hy
    subst hy; subst e
    exact h0.2.2 hx
  · rw [List.nodup_cons, List.nodup_append]
    refine ⟨by simp only [List.mem_append, not_or]; exact ⟨h0.1, h0.2.2⟩, h1, h3, fun x hx y hy => h4 x hx y (by simp [hy])⟩
  · simp only [List.mem_cons, List.mem_append, not_or]
    exact ⟨Ne.symm h0.2.1, fun hx => h4 e hx e (by simp) rfl, h2⟩
  · intro x hx hb
    rcases List.mem_cons.mp hx with rfl | hx
    · exact h0.2.2 hb
    · exact h4 x hx x (by simp [hb]) rfl
  · intro x hx ha
    rcases List.mem_append.mp hx with hx | hx
    · exact h4 x ha x (by simp [hx]) rfl
    · simp at hx; subst hx; exact h0.1 ha

end CUtil.DList
