import Verif.Map.Lemmas2
set_option linter.unusedSimpArgs false
set_option linter.unusedVariables false
/-
Helper lemmas for C23 to C25: updating, deleting, cloning, destroying.
-/
namespace CUtil.Map

theorem rep_lt' {h : Heap} {m : MAP} {ps : Pairs} {own : List Nat} (r : Rep h m ps own) {p : Nat} (hp : p ∈ own) : p < h.length := by
  obtain ⟨s, e⟩ := rep_lt r hp
  exact lt_of_some e

theorem nodup_mid {a : List Nat} {x : Nat} {b : List Nat} (h : (a ++ x :: b).Nodup) : x ∉ a ∧ x ∉ b ∧ (a ++ b).Nodup := by
  rw [List.nodup_append] at h
  obtain ⟨h1, h2, h3⟩ := h
  rw [List.nodup_cons] at h2
  refine ⟨fun hx => h3 x hx x (by simp) rfl, h2.1, ?_⟩
  rw [List.nodup_append]
  exact ⟨h1, h2.2, fun u hu w hw => h3 u hu w (by simp [hw])⟩

theorem nodup_mid' {a : List Nat} {x : Nat} {b : List Nat} (h1 : x ∉ a) (h2 : x ∉ b) (h3 : (a ++ b).Nodup) : (a ++ x :: b).Nodup := by
  rw [List.nodup_append] at h3 ⊢
  obtain ⟨n1, n2, n3⟩ := h3
  refine ⟨n1, List.nodup_cons.mpr ⟨h2, n2⟩, ?_⟩
  intro u hu w hw
  rcases List.mem_cons.mp hw with e | e
  · subst e; intro e; exact h1 (e ▸ hu)
  · exact n3 u hu w e

/-- Replacing the value of an existing key. -/
theorem update_spec (h : Heap) (m : MAP) (ps : Pairs) (own : List Nat) (k v : Str) (value : Val) (al : Nat → Bool) (i : Nat)
    (r : Rep h m ps own) (hi : (ps.map (·.1)).findIdx? (· == k) = some i) (hr : value.read h = C.ok v)
    (hal : ∀ p, value = .own p → getValueFromKey h (some m) (some k) ≠ C.ok (some p)) (hrej : rejects m k v = false) :
    ∃ h' m' res, addOrUpdate h (some m) (some k) (some value) al = C.ok (h', some m', res) ∧ m'.filter = m.filter ∧
      ((res = .OK ∧ ∃ own', Rep h' m' (change ps k v) own' ∧ Step h own h' own') ∨
       (res = .ERROR ∧ al 7 = false ∧ h' = h ∧ m' = m)) := by
  have hfind := find_keys r k
  rw [hi] at hfind
  obtain ⟨p1, w, p2, k1, p, k2, v1, q, v2, st, st', rfl, hp1, hk1, hv1, hk2, hv2, hka, hva, rfl, ⟨f1, f2, f3⟩, ⟨g1, g2, g3⟩⟩ := r.split k i hi
  have hptr : ptr m.values i = C.ok q := by
    rw [hva]
    have : (v1 ++ q :: v2).map pc ++ st' = v1.map pc ++ pc q :: (v2.map pc ++ st') := by simp
    rw [this]; exact ptr_at _ _ _ _ (by simp [hv1])
  have hget' : getValueFromKey h (some m) (some k) = C.ok (some q) := by
    simp only [getValueFromKey]
    rw [hfind, C.ok_bind]
    dsimp only
    rw [hptr, C.ok_bind]; rfl
  simp only [addOrUpdate]
  rw [hr, C.ok_bind, hrej, if_neg (by simp), hfind, C.ok_bind]
  dsimp only
  rw [C.ok_bind, hptr, C.ok_bind]
  by_cases h7 : al 7 = false
  · rw [if_pos h7]
    exact ⟨_, _, _, rfl, rfl, Or.inr ⟨rfl, h7, rfl, rfl⟩⟩
  · rw [if_neg h7, hfree_of g2, C.ok_bind]
    have hr' : value.read (h.set q none) = C.ok v := by
      cases value with
      | ext s => exact hr
      | own p' =>
        have hne : p' ≠ q := by
          intro e; subst e
          exact hal _ rfl hget'
        have := hget_iff.mp hr
        exact hget_of (by rw [List.getElem?_set_ne (Ne.symm hne)]; exact this)
    rw [hr', C.ok_bind]
    simp only [halloc, List.length_set]
    have hset : setPtr m.values i (some h.length) = C.ok (some ((v1 ++ h.length :: v2).map pc ++ st')) := by
      rw [hva]
      have e1 : (v1 ++ q :: v2).map pc ++ st' = v1.map pc ++ pc q :: (v2.map pc ++ st') := by simp
      have e2 : (v1 ++ h.length :: v2).map pc ++ st' = v1.map pc ++ some (some h.length) :: (v2.map pc ++ st') := by simp
      rw [e1, e2]; exact setPtr_end _ _ _ _ _ (by simp [hv1])
    rw [hset, C.ok_bind]
    have hnd := r.nodup
    have hnd' : ((k1 ++ p :: k2 ++ v1) ++ q :: v2).Nodup := by simpa [List.append_assoc] using hnd
    obtain ⟨q1, q2, q3⟩ := nodup_mid hnd'
    have hlt : ∀ x, x ∈ (k1 ++ p :: k2 ++ v1) ++ q :: v2 → x < h.length := by
      intro x hx
      exact rep_lt' r (by simpa [List.append_assoc] using hx)
    refine ⟨_, _, _, rfl, rfl, Or.inl ⟨rfl, (k1 ++ p :: k2) ++ (v1 ++ h.length :: v2), ?_, ?_⟩⟩
    · rw [change_split _ _ _ _ _ r.keys]
      have hkm : (k1 ++ p :: k2).map (h[·]?) = (p1.map (·.1) ++ k :: p2.map (·.1)).map (fun s => some (some s)) := by
        simp [f1, f2, f3]
        rfl
      have frame : ∀ (ids : List Nat) (strs : List Str), ids.map (h[·]?) = strs.map (fun s => some (some s)) → q ∉ ids →
          ids.map ((h.set q none ++ [some v])[·]?) = ids.map (h[·]?) := by
        intro ids strs e hq
        rw [map_append_frame (strs := strs) _ (by rw [map_set_frame _ _ _ _ hq, e]), map_set_frame _ _ _ _ hq]
      refine ⟨⟨k1 ++ p :: k2, v1 ++ h.length :: v2, ?_, arr_mk _ _ (by simp), rfl, ?_, ?_⟩, ?_, ?_, ?_⟩
      · show Arr m.keys _
        rw [hka]; exact arr_mk _ _ (by simp)
      · rw [frame _ _ hkm (fun hx => q1 (List.mem_append_left _ hx)), hkm]; simp; rfl
      · rw [List.map_append, List.map_cons,
          frame v1 (p1.map (·.2)) (by rw [g1, strs_snd]) (fun hx => q1 (List.mem_append_right _ hx)),
          frame v2 (p2.map (·.2)) (by rw [g3, strs_snd]) q2, g1, g3]
        have : (h.set q none ++ [some v])[h.length]? = some (some v) := by
          rw [List.getElem?_append_right (by simp)]; simp
        rw [this]; simp
      · have := r.count; simpa using this
      · have h1 : h.length ∉ k1 ++ p :: k2 ++ v1 := fun hx => absurd (hlt _ (List.mem_append_left _ hx)) (by omega)
        have h2 : h.length ∉ v2 := fun hx => absurd (hlt _ (List.mem_append_right _ (List.mem_cons_of_mem _ hx))) (by omega)
        simpa [List.append_assoc] using nodup_mid' h1 h2 q3
      · have := r.keys; simpa using this
    · have hs1 : Step h (k1 ++ p :: k2 ++ (v1 ++ q :: v2)) (h.set q none) ((k1 ++ p :: k2 ++ v1) ++ v2) := by
        refine Step.free _ _ _ _ (by simp) ?_
        intro x
        constructor
        · intro hx
          refine ⟨?_, ?_⟩
          · simp only [List.mem_append, List.mem_cons] at hx ⊢
            rcases hx with (hx | hx) | hx <;> simp [hx]
          · intro e; subst e
            rcases List.mem_append.mp hx with hx | hx
            · exact q1 hx
            · exact q2 hx
        · rintro ⟨hx, hne⟩
          simp only [List.mem_append, List.mem_cons] at hx ⊢
          rcases hx with (hx | hx) | (hx | hx | hx) <;> simp [hx]
          exact absurd hx hne
      refine hs1.trans (Step.alloc _ _ _ _ ?_)
      intro x
      simp only [List.mem_append, List.mem_cons, List.length_set]
      constructor
      · rintro ((hx | hx | hx) | (hx | hx | hx)) <;> simp [hx]
      · rintro ((((hx | hx | hx) | hx) | hx) | hx) <;> simp [hx]

/-- Deleting an existing key. -/
theorem delete_found (h : Heap) (m : MAP) (ps : Pairs) (own : List Nat) (k : Str) (al : Nat → Bool) (i : Nat)
    (r : Rep h m ps own) (hi : (ps.map (·.1)).findIdx? (· == k) = some i) :
    ∃ h' m' own', delete h (some m) (some k) al = C.ok (h', some m', .OK) ∧ Rep h' m' (remove ps k) own' ∧ Step h own h' own' ∧
      m'.filter = if remove ps k = [] then none else m.filter := by
  have hfind := find_keys r k
  rw [hi] at hfind
  obtain ⟨p1, w, p2, k1, p, k2, v1, q, v2, st, st', rfl, hp1, hk1, hv1, hk2, hv2, hka, hva, rfl, ⟨f1, f2, f3⟩, ⟨g1, g2, g3⟩⟩ := r.split k i hi
  have hkp : ptr m.keys i = C.ok p := by
    rw [hka]
    have : (k1 ++ p :: k2).map pc ++ st = k1.map pc ++ pc p :: (k2.map pc ++ st) := by simp
    rw [this]; exact ptr_at _ _ _ _ (by simp [hk1])
  have hvp : ptr m.values i = C.ok q := by
    rw [hva]
    have : (v1 ++ q :: v2).map pc ++ st' = v1.map pc ++ pc q :: (v2.map pc ++ st') := by simp
    rw [this]; exact ptr_at _ _ _ _ (by simp [hv1])
  have hnd := r.nodup
  have hnd1 : (k1 ++ p :: (k2 ++ (v1 ++ q :: v2))).Nodup := by simpa [List.append_assoc] using hnd
  obtain ⟨a1, a2, a3⟩ := nodup_mid hnd1
  have a3' : ((k1 ++ k2 ++ v1) ++ q :: v2).Nodup := by simpa [List.append_assoc] using a3
  obtain ⟨b1, b2, b3⟩ := nodup_mid a3'
  simp only [List.mem_append, List.mem_cons, not_or] at a2 b1
  have hc := r.count
  simp only [List.length_append, List.length_cons] at hc
  simp only [delete]
  rw [hfind, C.ok_bind]
  dsimp only
  rw [hkp, C.ok_bind, hfree_of f2, C.ok_bind, hvp, C.ok_bind]
  have g2' : (h.set p none)[q]? = some (some w) := by
    rw [List.getElem?_set_ne a2.2.2.1]; exact g2
  rw [hfree_of g2', C.ok_bind, hka, hva]
  obtain ⟨x, s1, e1⟩ := moveCells_eq k1 p k2 st m.count (by omega)
  obtain ⟨y, s2, e2⟩ := moveCells_eq v1 q v2 st' m.count (by omega)
  rw [hk1] at e1
  rw [hv1] at e2
  rw [e1, C.ok_bind, e2, C.ok_bind]
  have hcnt : m.count = (p1.length + p2.length) + 1 := by omega
  rw [hcnt]
  obtain ⟨m', em, d1, d2, d3, d4⟩ := decrease_spec (k1 ++ k2) (v1 ++ v2) x y s1 s2 (p1.length + p2.length) m.filter al (by simp; omega) (by simp; omega)
  rw [em, remove_split _ _ _ _ r.keys]
  refine ⟨_, _, (k1 ++ k2) ++ (v1 ++ v2), rfl, ?_, ?_, ?_⟩
  · have fr : ∀ ids : List Nat, p ∉ ids → q ∉ ids → ids.map (((h.set p none).set q none)[·]?) = ids.map (h[·]?) := by
      intro ids h1 h2
      rw [map_set_frame _ _ _ _ h2, map_set_frame _ _ _ _ h1]
    refine ⟨⟨k1 ++ k2, v1 ++ v2, d1, d2, rfl, ?_, ?_⟩, ?_, ?_, ?_⟩
    · rw [fr, List.map_append, f1, f3, List.map_append]
      · simp only [List.mem_append, not_or]; exact ⟨a1, a2.1⟩
      · simp only [List.mem_append, not_or]; exact b1.1
    · rw [fr, List.map_append, g1, g3, List.map_append]
      · simp only [List.mem_append, not_or]; exact ⟨a2.2.1, a2.2.2.2⟩
      · simp only [List.mem_append, not_or]; exact ⟨b1.2, b2⟩
    · rw [d3, List.length_append]
    · simpa [List.append_assoc] using b3
    · have := r.keys
      simp only [List.map_append, List.map_cons] at this
      rw [List.map_append]
      exact List.Sublist.nodup (by simp) this
  · have hs1 : Step h (k1 ++ p :: k2 ++ (v1 ++ q :: v2)) (h.set p none) (k1 ++ (k2 ++ (v1 ++ q :: v2))) := by
      refine Step.free _ _ _ _ (by simp) ?_
      intro x
      constructor
      · intro hx
        refine ⟨?_, ?_⟩
        · simp only [List.mem_append, List.mem_cons] at hx ⊢
          rcases hx with hx | hx | hx | hx | hx <;> simp [hx]
        · intro e; subst e
          simp only [List.mem_append, List.mem_cons] at hx
          rcases hx with hx | hx | hx | hx | hx
          · exact a1 hx
          · exact a2.1 hx
          · exact a2.2.1 hx
          · exact a2.2.2.1 hx
          · exact a2.2.2.2 hx
      · rintro ⟨hx, hne⟩
        simp only [List.mem_append, List.mem_cons] at hx ⊢
        rcases hx with (hx | hx | hx) | (hx | hx | hx) <;> first | exact absurd hx hne | simp [hx]
    refine hs1.trans (Step.free _ _ _ _ (by simp) ?_)
    intro x
    constructor
    · intro hx
      refine ⟨?_, ?_⟩
      · simp only [List.mem_append, List.mem_cons] at hx ⊢
        rcases hx with (hx | hx) | hx | hx <;> simp [hx]
      · intro e; subst e
        simp only [List.mem_append] at hx
        rcases hx with (hx | hx) | hx | hx
        · exact b1.1.1 hx
        · exact b1.1.2 hx
        · exact b1.2 hx
        · exact b2 hx
    · rintro ⟨hx, hne⟩
      simp only [List.mem_append, List.mem_cons] at hx ⊢
      rcases hx with hx | hx | hx | hx | hx <;> first | exact absurd hx hne | simp [hx]
  · rw [d4]
    by_cases h0 : p1 ++ p2 = []
    · rw [if_pos h0, if_pos (by rw [← List.length_append, h0]; rfl)]
    · rw [if_neg h0, if_neg]
      intro e
      rw [← List.length_append] at e
      exact h0 (List.length_eq_zero_iff.mp e)

/-! ### Destroy -/

/-- Interleaved freeing of the keys and the values. -/
theorem destroyLoop_spec : ∀ (ks vs : List Nat) (m : MAP) (k0 v0 : List Nat) (st st' : Cells) (h : Heap) (i : Nat),
    m.keys = some ((k0 ++ ks).map pc ++ st) → m.values = some ((v0 ++ vs).map pc ++ st') → k0.length = i → v0.length = i →
    ks.length = vs.length → (ks ++ vs).Nodup → (∀ p ∈ ks ++ vs, ∃ s, h[p]? = some (some s)) →
    ∃ h', destroyLoop m h i ks.length = C.ok h' ∧ Step h (ks ++ vs) h' [] := by
  intro ks
  induction ks with
  | nil =>
    intro vs m k0 v0 st st' h i hk hv hi hi' hl hn hlive
    have : vs = [] := List.length_eq_zero_iff.mp (by simpa using hl.symm)
    subst this
    exact ⟨h, rfl, Step.refl _ _⟩
  | cons k ks ih =>
    intro vs m k0 v0 st st' h i hk hv hi hi' hl hn hlive
    cases vs with
    | nil => simp at hl
    | cons v vs =>
      have hkp : ptr m.keys i = C.ok k := by
        rw [hk]
        have : (k0 ++ k :: ks).map pc ++ st = k0.map pc ++ pc k :: (ks.map pc ++ st) := by simp
        rw [this]; exact ptr_at _ _ _ _ (by simp [hi])
      have hvp : ptr m.values i = C.ok v := by
        rw [hv]
        have : (v0 ++ v :: vs).map pc ++ st' = v0.map pc ++ pc v :: (vs.map pc ++ st') := by simp
        rw [this]; exact ptr_at _ _ _ _ (by simp [hi'])
      obtain ⟨sk, ek⟩ := hlive k (by simp)
      obtain ⟨sv, ev⟩ := hlive v (by simp)
      simp only [List.length_cons, destroyLoop]
      rw [hkp, C.ok_bind, hfree_of ek, C.ok_bind, hvp, C.ok_bind]
      rw [List.cons_append, List.nodup_cons] at hn
      obtain ⟨n1, n2⟩ := hn
      obtain ⟨n3, n4, n5⟩ := nodup_mid n2
      simp only [List.mem_append, List.mem_cons, not_or] at n1
      have ev' : (h.set k none)[v]? = some (some sv) := by rw [List.getElem?_set_ne n1.2.1]; exact ev
      rw [hfree_of ev', C.ok_bind]
      obtain ⟨h', e', s'⟩ := ih vs m (k0 ++ [k]) (v0 ++ [v]) st st' ((h.set k none).set v none) (i + 1) (by simpa using hk) (by simpa using hv)
        (by simp [hi]) (by simp [hi']) (by simpa using hl) n5 (by
          intro p hp
          obtain ⟨s, es⟩ := hlive p (by
            rcases List.mem_append.mp hp with hp | hp
            · simp [hp]
            · simp [hp])
          have hpk : k ≠ p := by
            intro e; subst e
            rcases List.mem_append.mp hp with hp | hp
            · exact n1.1 hp
            · exact n1.2.2 hp
          have hpv : v ≠ p := by
            intro e; subst e
            rcases List.mem_append.mp hp with hp | hp
            · exact n3 hp
            · exact n4 hp
          exact ⟨s, by rw [List.getElem?_set_ne hpv, List.getElem?_set_ne hpk]; exact es⟩)
      refine ⟨h', e', ?_⟩
      have s1 : Step h (k :: ks ++ v :: vs) (h.set k none) (ks ++ v :: vs) := by
        refine Step.free _ _ _ _ (by simp) ?_
        intro p
        constructor
        · intro hp
          refine ⟨by simpa using Or.inr (by simpa using hp), ?_⟩
          intro e; subst e
          simp only [List.mem_append, List.mem_cons] at hp
          rcases hp with hp | hp | hp
          · exact n1.1 hp
          · exact n1.2.1 hp
          · exact n1.2.2 hp
        · rintro ⟨hp, hne⟩
          rw [List.cons_append] at hp
          exact (List.mem_cons.mp hp).resolve_left hne
      have s2 : Step (h.set k none) (ks ++ v :: vs) ((h.set k none).set v none) (ks ++ vs) := by
        refine Step.free _ _ _ _ (by simp) ?_
        intro p
        constructor
        · intro hp
          refine ⟨?_, ?_⟩
          · rcases List.mem_append.mp hp with hp | hp <;> simp [hp]
          · intro e; subst e
            rcases List.mem_append.mp hp with hp | hp
            · exact n3 hp
            · exact n4 hp
        · rintro ⟨hp, hne⟩
          simp only [List.mem_append, List.mem_cons] at hp ⊢
          rcases hp with hp | hp | hp <;> first | exact absurd hp hne | simp [hp]
      exact (s1.trans s2).trans s'

theorem destroy_spec {h : Heap} {m : MAP} {ps : Pairs} {own : List Nat} (r : Rep h m ps own) :
    ∃ h', destroy h (some m) = C.ok h' ∧ Step h own h' [] := by
  have hlive : ∀ p ∈ own, ∃ s, h[p]? = some (some s) := fun p hp => rep_lt r hp
  obtain ⟨⟨kids, vids, ka, va, rfl, hkm, hvm⟩, hc, hnd, hkn⟩ := r
  have hkl : kids.length = ps.length := by simpa using len_of_map hkm
  have hvl : vids.length = ps.length := by simpa using len_of_map hvm
  simp only [destroy]
  by_cases h0 : ps = []
  · have e1 : kids = [] := List.length_eq_zero_iff.mp (by rw [hkl, h0]; rfl)
    have e2 : vids = [] := List.length_eq_zero_iff.mp (by rw [hvl, h0]; rfl)
    subst e1; subst e2
    rw [hc, h0]
    exact ⟨h, rfl, Step.refl _ _⟩
  · have hp0 : 0 < ps.length := List.length_pos_iff.mpr h0
    obtain ⟨st, e1⟩ := arr_some ka (by intro e; rw [e] at hkl; simp at hkl; omega)
    obtain ⟨st', e2⟩ := arr_some va (by intro e; rw [e] at hvl; simp at hvl; omega)
    rw [hc, ← hkl]
    exact destroyLoop_spec kids vids m [] [] st st' h 0 e1 e2 rfl rfl (by omega) hnd hlive

/-! ### Clone -/

/-- Freeing the first entries of a vector of owned blocks. -/
theorem freeLoop_spec : ∀ (ids : List Nat) (p0 : List Nat) (st : Cells) (h : Heap) (i : Nat), p0.length = i → ids.Nodup →
    (∀ p ∈ ids, ∃ s, h[p]? = some (some s)) →
    ∃ h', freeLoop ((p0 ++ ids).map pc ++ st) h i ids.length = C.ok h' ∧ Step h ids h' [] := by
  intro ids
  induction ids with
  | nil => intro p0 st h i _ _ _; exact ⟨h, rfl, Step.refl _ _⟩
  | cons p ids ih =>
    intro p0 st h i hi hn hlive
    obtain ⟨s, es⟩ := hlive p (by simp)
    rw [List.nodup_cons] at hn
    simp only [List.length_cons, freeLoop]
    have e1 : (p0 ++ p :: ids).map pc ++ st = p0.map pc ++ pc p :: (ids.map pc ++ st) := by simp
    have hp : ptr (some ((p0 ++ p :: ids).map pc ++ st)) i = C.ok p := by
      rw [e1]; exact ptr_at _ _ _ _ (by simp [hi])
    rw [hp, C.ok_bind, hfree_of es, C.ok_bind]
    obtain ⟨h', e', s'⟩ := ih (p0 ++ [p]) st (h.set p none) (i + 1) (by simp [hi]) hn.2 (by
      intro x hx
      obtain ⟨t, et⟩ := hlive x (by simp [hx])
      exact ⟨t, by rw [List.getElem?_set_ne (by intro e; subst e; exact hn.1 hx)]; exact et⟩)
    have e2 : (p0 ++ [p] ++ ids) = p0 ++ p :: ids := by simp
    rw [e2] at e'
    refine ⟨h', e', ?_⟩
    refine (Step.free h (p :: ids) p ids (by simp) ?_).trans s'
    intro x
    constructor
    · intro hx; exact ⟨by simp [hx], fun e => hn.1 (e ▸ hx)⟩
    · rintro ⟨hx, hne⟩; exact (List.mem_cons.mp hx).resolve_left hne

theorem map_pc_uninit (n : Nat) : (uninit (n + 1) : Cells) = none :: uninit n := rfl

/-- The copying loop makes fresh blocks with the same texts; it stops only because an allocation failed. -/
theorem cloneLoop_spec (al : Nat → Bool) (src : Option Cells) : ∀ (ids : List Nat) (strs : List Str) (s0 : List Nat) (st : Cells) (h : Heap)
    (d0 : List Nat) (i : Nat), src = some ((s0 ++ ids).map pc ++ st) → s0.length = i → d0.length = i →
    ids.map (h[·]?) = strs.map (fun s => some (some s)) →
    ∃ new j, j ≤ ids.length ∧ new = (List.range' h.length j) ∧
      cloneLoop src al h (d0.map pc ++ uninit ids.length) i ids.length =
        C.ok (h ++ (strs.take j).map some, (d0 ++ new).map pc ++ uninit (ids.length - j), i + j) ∧
      (j < ids.length → ∃ n, al n = false) := by
  intro ids
  induction ids with
  | nil =>
    intro strs s0 st h d0 i _ _ _ _
    exact ⟨[], 0, Nat.le_refl _, rfl, by simp [cloneLoop], by simp⟩
  | cons p ids ih =>
    intro strs s0 st h d0 i hsrc hs hd hm
    cases strs with
    | nil => simp at hm
    | cons s strs =>
      simp only [List.map_cons, List.cons.injEq] at hm
      obtain ⟨hp, hm⟩ := hm
      have e1 : ptr src i = C.ok p := by
        rw [hsrc]
        have : (s0 ++ p :: ids).map pc ++ st = s0.map pc ++ pc p :: (ids.map pc ++ st) := by simp
        rw [this]; exact ptr_at _ _ _ _ (by simp [hs])
      simp only [List.length_cons, cloneLoop]
      rw [e1, C.ok_bind, hget_of hp, C.ok_bind]
      by_cases ha : al i = false
      · rw [if_pos ha]
        exact ⟨[], 0, by omega, rfl, by simp, fun _ => ⟨i, ha⟩⟩
      · rw [if_neg ha]
        simp only [halloc]
        rw [map_pc_uninit, wr_end _ _ _ _ _ (by simp [hd]), C.ok_bind]
        have e2 : (d0.map pc ++ some (some h.length) :: uninit ids.length : Cells) = (d0 ++ [h.length]).map pc ++ uninit ids.length := by simp
        rw [e2]
        obtain ⟨new, j, hj, hnew, hrun, hfail⟩ := ih strs (s0 ++ [p]) st (h ++ [some s]) (d0 ++ [h.length]) (i + 1)
          (by rw [hsrc]; simp) (by simp [hs]) (by simp [hd]) (by rw [map_append_frame (strs := strs) _ hm, hm])
        refine ⟨h.length :: new, j + 1, by omega, ?_, ?_, fun hlt => hfail (by omega)⟩
        · rw [hnew, List.length_append, List.length_singleton, List.range'_succ]
        · rw [hrun]
          have e3 : h ++ [some s] ++ (strs.take j).map some = h ++ ((s :: strs).take (j + 1)).map some := by simp
          have e4 : d0 ++ [h.length] ++ new = d0 ++ h.length :: new := by simp
          have e5 : ids.length + 1 - (j + 1) = ids.length - j := by omega
          have e6 : i + 1 + j = i + (j + 1) := by omega
          rw [e3, e4, e5, e6]

theorem range'_map (h : Heap) (strs : List Str) : (List.range' h.length strs.length).map ((h ++ strs.map some)[·]?) =
    strs.map (fun s => some (some s)) := by
  induction strs generalizing h with
  | nil => rfl
  | cons s strs ih =>
    rw [List.length_cons, List.range'_succ, List.map_cons]
    have e : h ++ (s :: strs).map some = (h ++ [some s]) ++ strs.map some := by simp
    have e1 : (h ++ (s :: strs).map some)[h.length]? = some (some s) := by simp
    rw [e1, e]
    have := ih (h ++ [some s])
    rw [List.length_append, List.length_singleton] at this
    rw [this]; rfl

theorem Step.allocs (h : Heap) (strs : List Str) : Step h [] (h ++ strs.map some) (List.range' h.length strs.length) where
  frame := by intro p hp _; rw [List.getElem?_append_left hp]
  noleak := by
    intro p s e
    have := lt_of_some e
    simp only [List.length_append, List.length_map] at this
    by_cases hp : p < h.length
    · exact Or.inr ⟨hp, by simp⟩
    · exact Or.inl (by rw [List.mem_range'_1]; omega)
  fresh := by
    intro p hp
    rw [List.mem_range'_1] at hp
    exact Or.inr hp.1
  grows := by simp

/-- One vector: either a vector of fresh copies, or nothing was left behind. -/
theorem cloneVector_spec (h : Heap) (a : Option Cells) (ids : List Nat) (strs : List Str) (ha : Arr a ids)
    (hm : ids.map (h[·]?) = strs.map (fun s => some (some s))) (h0 : ids ≠ []) (b : Bool) (al : Nat → Bool) :
    (cloneVector a ids.length b al h = C.ok (h ++ strs.map some, some ((List.range' h.length strs.length).map pc)) ∧ b = true) ∨
    (∃ h', cloneVector a ids.length b al h = C.ok (h', none) ∧ Step h [] h' [] ∧ (b = false ∨ ∃ n, al n = false)) := by
  have hlen : ids.length = strs.length := by simpa using len_of_map hm
  obtain ⟨st, rfl⟩ := arr_some ha h0
  unfold cloneVector
  cases b with
  | false => exact Or.inr ⟨h, rfl, Step.refl _ _, Or.inl rfl⟩
  | true =>
    rw [if_neg (by simp)]
    obtain ⟨new, j, hj, hnew, hrun, hfail⟩ := cloneLoop_spec al (some (ids.map pc ++ st)) ids strs [] st h [] 0 rfl rfl rfl hm
    simp only [List.map_nil, List.nil_append, Nat.zero_add] at hrun
    rw [hrun, C.ok_bind]
    dsimp only
    by_cases hjl : j = ids.length
    · rw [if_pos hjl]
      left
      have e1 : strs.take j = strs := List.take_of_length_le (by omega)
      have e2 : ids.length - j = 0 := by omega
      rw [e1, e2, hnew, hjl, hlen]
      refine ⟨?_, rfl⟩
      have : (uninit 0 : Cells) = [] := rfl
      rw [this, List.append_nil]
    · rw [if_neg hjl]
      right
      have hlj : (strs.take j).length = j := by rw [List.length_take]; omega
      have hs := Step.allocs h (strs.take j)
      have hr := range'_map h (strs.take j)
      rw [hlj] at hs hr
      rw [← hnew] at hs hr
      have hnl : new.length = j := by rw [hnew]; simp
      obtain ⟨h', e', s'⟩ := freeLoop_spec new [] (uninit (ids.length - j)) (h ++ (strs.take j).map some) 0 rfl
        (by rw [hnew]; exact List.nodup_range') (fun p hp => live_of_map hr hp)
      rw [hnl, List.nil_append] at e'
      rw [e', C.ok_bind]
      exact ⟨h', rfl, hs.trans s', Or.inr (hfail (by omega))⟩

end CUtil.Map
