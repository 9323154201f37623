import Verif.Map.Lemmas
set_option linter.unusedSimpArgs false
set_option linter.unusedVariables false
/-
Helper lemmas for C23 to C25: the functions that change a map.
-/
namespace CUtil.Map

theorem strs_fst (ps : Pairs) : ps.map (fun x => some (some x.1)) = (ps.map (·.1)).map (fun s => some (some s)) := by simp
theorem strs_snd (ps : Pairs) : ps.map (fun x => some (some x.2)) = (ps.map (·.2)).map (fun s => some (some s)) := by simp

theorem len_of_map {h : Heap} {ids : List Nat} {l : List (Option (Option Str))} (hm : ids.map (h[·]?) = l) :
    ids.length = l.length := by rw [← hm]; simp

theorem own_lt {h : Heap} {ids : List Nat} {strs : List Str} (hm : ids.map (h[·]?) = strs.map (fun s => some (some s)))
    {p : Nat} (hp : p ∈ ids) : p < h.length := by
  obtain ⟨s, e⟩ := live_of_map hm hp
  exact lt_of_some e

theorem rep_lt {h : Heap} {m : MAP} {ps : Pairs} {own : List Nat} (r : Rep h m ps own) {p : Nat} (hp : p ∈ own) :
    ∃ s, h[p]? = some (some s) := by
  obtain ⟨kids, vids, hk, hv, rfl, hkm, hvm⟩ := r.rep
  rw [strs_fst] at hkm
  rw [strs_snd] at hvm
  rcases List.mem_append.mp hp with h | h
  · exact live_of_map hkm h
  · exact live_of_map hvm h

/-- Appending one block leaves a representation alone. -/
theorem Rep.append {h : Heap} {m : MAP} {ps : Pairs} {own : List Nat} (r : Rep h m ps own) (t : Heap) : Rep (h ++ t) m ps own := by
  obtain ⟨⟨kids, vids, hk, hv, e, hkm, hvm⟩, h2, h3, h4⟩ := r
  refine ⟨⟨kids, vids, hk, hv, e, ?_, ?_⟩, h2, h3, h4⟩
  · rw [map_append_frame (strs := ps.map (·.1)) t (by rw [hkm, strs_fst]), hkm]
  · rw [map_append_frame (strs := ps.map (·.2)) t (by rw [hvm, strs_snd]), hvm]

/-- Freeing somebody else's block leaves a representation alone. -/
theorem Rep.set {h : Heap} {m : MAP} {ps : Pairs} {own : List Nat} (r : Rep h m ps own) (p : Nat) (v : Option Str) (hp : p ∉ own) :
    Rep (h.set p v) m ps own := by
  obtain ⟨⟨kids, vids, hk, hv, e, hkm, hvm⟩, h2, h3, h4⟩ := r
  subst e
  simp only [List.mem_append, not_or] at hp
  refine ⟨⟨kids, vids, hk, hv, rfl, ?_, ?_⟩, h2, h3, h4⟩
  · rw [map_set_frame _ _ _ _ hp.1, hkm]
  · rw [map_set_frame _ _ _ _ hp.2, hvm]

theorem read_append {h : Heap} {value : Val} {v : Str} (e : value.read h = C.ok v) (t : Heap) : value.read (h ++ t) = C.ok v := by
  cases value with
  | ext s => exact e
  | own p =>
    have := hget_iff.mp e
    exact hget_of (by rw [List.getElem?_append_left (lt_of_some this)]; exact this)

theorem insert_spec (h : Heap) (m : MAP) (ps : Pairs) (own : List Nat) (k v : Str) (value : Val) (al : Nat → Bool)
    (r : Rep h m ps own) (hk : k ∉ ps.map (·.1)) (hr : value.read h = C.ok v) :
    ∃ h' m' ok, insertNewKeyValue h m k value al = C.ok (h', m', ok) ∧
      (ok = true → ∃ own', Rep h' m' (ps ++ [(k, v)]) own' ∧ Step h own h' own' ∧ m'.filter = m.filter) ∧
      (ok = false → Rep h' m' ps own ∧ Step h own h' own ∧ (∃ i, i < 5 ∧ al i = false) ∧
        m'.filter = if ps = [] ∧ al 0 = true ∧ al 1 = true then none else m.filter) := by
  obtain ⟨⟨kids, vids, ka, va, rfl, hkm, hvm⟩, hc, hnd, hkn⟩ := r
  have hkl : kids.length = ps.length := by simpa using len_of_map hkm
  have hvl : vids.length = ps.length := by simpa using len_of_map hvm
  have hnil : (ps.length = 0) = (ps = []) := by simp
  unfold insertNewKeyValue
  rcases increase_spec m al kids vids ka va (by omega) (by omega) with ⟨m', e, hal, ka', va', hc', hf'⟩ | ⟨e, a0, a1⟩
  · rw [e, C.ok_bind]
    dsimp only
    rw [if_pos rfl]
    refine ⟨_, _, _, rfl, by simp, fun _ => ⟨⟨⟨kids, vids, ka', va', rfl, hkm, hvm⟩, by omega, hnd, hkn⟩, Step.refl _ _, ?_, ?_⟩⟩
    · rcases hal with h | h
      · exact ⟨0, by omega, h⟩
      · exact ⟨1, by omega, h⟩
    · rw [hf', if_neg]
      rintro ⟨-, h0, h1⟩
      rcases hal with h | h
      · rw [h0] at h; cases h
      · rw [h1] at h; cases h
  · rw [e, C.ok_bind]
    dsimp only
    rw [if_neg (by simp)]
    rw [Nat.add_sub_cancel]
    by_cases h3 : al 3 = false
    · rw [if_pos h3, setPtr_end _ _ _ _ _ (by simp; omega), C.ok_bind]
      obtain ⟨m', em, d1, d2, d3, d4⟩ := decrease_spec kids vids (some none) (some none) [] [] m.count m.filter al (by omega) (by omega)
      rw [em]
      refine ⟨_, _, _, rfl, by simp, fun _ => ⟨⟨⟨kids, vids, d1, d2, rfl, hkm, hvm⟩, by omega, hnd, hkn⟩, Step.refl _ _, ⟨3, by omega, h3⟩, ?_⟩⟩
      rw [d4]
      by_cases hp : ps = []
      · rw [if_pos (by rw [hc, hp]; rfl), if_pos ⟨hp, a0, a1⟩]
      · rw [if_neg (by rw [hc, hnil]; exact hp), if_neg (fun x => hp x.1)]
    · rw [if_neg h3]
      simp only [halloc]
      rw [setPtr_end _ _ _ _ _ (by simp; omega), C.ok_bind, read_append hr, C.ok_bind]
      by_cases h4 : al 4 = false
      · rw [if_pos h4, setPtr_end _ _ _ _ _ (by simp; omega), C.ok_bind, ptr_at _ _ _ _ (by simp; omega), C.ok_bind]
        have hlook : (h ++ [some k])[h.length]? = some (some k) := by simp
        rw [hfree_of hlook, C.ok_bind]
        obtain ⟨m', em, d1, d2, d3, d4⟩ := decrease_spec kids vids (pc h.length) (some none) [] [] m.count m.filter al (by omega) (by omega)
        rw [em]
        have hrep0 : Rep h m' ps (kids ++ vids) := ⟨⟨kids, vids, d1, d2, rfl, hkm, hvm⟩, by omega, hnd, hkn⟩
        have hnot : h.length ∉ kids ++ vids := by
          intro hm
          obtain ⟨s, es⟩ := rep_lt hrep0 hm
          exact absurd (lt_of_some es) (by omega)
        refine ⟨_, _, _, rfl, by simp, fun _ => ⟨(hrep0.append _).set _ _ hnot, ?_, ⟨4, by omega, h4⟩, ?_⟩⟩
        · refine (Step.alloc h (kids ++ vids) k (h.length :: (kids ++ vids)) (by simp [or_comm])).trans ?_
          refine Step.free _ _ _ _ (by simp) ?_
          intro p
          constructor
          · intro hp
            exact ⟨List.mem_cons_of_mem _ hp, fun e => hnot (e ▸ hp)⟩
          · rintro ⟨hp, hne⟩
            rcases List.mem_cons.mp hp with e | e
            · exact absurd e hne
            · exact e
        · rw [d4]
          by_cases hp : ps = []
          · rw [if_pos (by rw [hc, hp]; rfl), if_pos ⟨hp, a0, a1⟩]
          · rw [if_neg (by rw [hc, hnil]; exact hp), if_neg (fun x => hp x.1)]
      · rw [if_neg h4, setPtr_end _ _ _ _ _ (by simp; omega), C.ok_bind]
        refine ⟨_, _, _, rfl, fun _ => ⟨(kids ++ [h.length]) ++ (vids ++ [(h ++ [some k]).length]), ?_, ?_, rfl⟩, by simp⟩
        · have hltk : ∀ p ∈ kids, p < h.length := fun p hp => own_lt (by rw [hkm, strs_fst]) hp
          have hltv : ∀ p ∈ vids, p < h.length := fun p hp => own_lt (by rw [hvm, strs_snd]) hp
          refine ⟨⟨kids ++ [h.length], vids ++ [(h ++ [some k]).length], ?_, ?_, rfl, ?_, ?_⟩, ?_, ?_, ?_⟩
          · refine ⟨by simp, [], ?_⟩; simp
          · refine ⟨by simp, [], ?_⟩; simp
          · simp only [List.map_append, List.append_assoc, List.map_cons, List.map_nil]
            rw [map_append_frame (strs := ps.map (·.1)) _ (by rw [hkm, strs_fst]), hkm]
            simp
          · rw [List.append_assoc]
            simp only [List.map_append, List.map_cons, List.map_nil]
            rw [map_append_frame (strs := ps.map (·.2)) _ (by rw [hvm, strs_snd]), hvm]
            simp
          · simp [hc]
          · rw [List.length_append, List.length_singleton]
            rw [List.nodup_append] at hnd ⊢
            obtain ⟨n1, n2, n3⟩ := hnd
            refine ⟨?_, ?_, ?_⟩
            · rw [List.nodup_append]
              refine ⟨n1, by simp, ?_⟩
              intro a ha b hb
              have := hltk a ha
              simp at hb; omega
            · rw [List.nodup_append]
              refine ⟨n2, by simp, ?_⟩
              intro a ha b hb
              have := hltv a ha
              simp at hb; omega
            · intro a ha b hb
              rcases List.mem_append.mp ha with ha | ha <;> rcases List.mem_append.mp hb with hb | hb
              · exact n3 a ha b hb
              · have := hltk a ha; simp at hb; omega
              · have := hltv b hb; simp at ha; omega
              · simp at ha hb; omega
          · rw [List.map_append, List.nodup_append]
            refine ⟨hkn, by simp, ?_⟩
            intro a ha b hb e
            simp at hb
            subst hb; subst e
            exact hk ha
        · refine (Step.alloc h (kids ++ vids) k (h.length :: (kids ++ vids)) (by simp [or_comm])).trans ?_
          refine Step.alloc _ _ _ _ ?_
          intro p
          simp only [List.mem_append, List.mem_cons, List.mem_singleton, List.not_mem_nil, or_false]
          constructor
          · rintro ((h | h) | (h | h)) <;> simp [h]
          · rintro ((h | (h | h)) | h) <;> simp [h]

theorem change_split (p1 p2 : Pairs) (k v w : Str) (hn : ((p1 ++ (k, v) :: p2).map (·.1)).Nodup) :
    change (p1 ++ (k, v) :: p2) k w = p1 ++ (k, w) :: p2 := by
  have h1 : k ∉ p1.map (·.1) ∧ k ∉ p2.map (·.1) := by
    simp only [List.map_append, List.map_cons] at hn
    rw [List.nodup_append] at hn
    obtain ⟨a, b, c⟩ := hn
    rw [List.nodup_cons] at b
    exact ⟨fun h => c k h k (by simp) rfl, b.1⟩
  unfold change
  rw [List.map_append, List.map_cons, if_pos rfl]
  have e : ∀ q : Pairs, k ∉ q.map (·.1) → q.map (fun x => if x.1 = k then (k, w) else x) = q := by
    intro q hq
    rw [List.map_congr_left (g := id)]
    · simp
    · intro x hx
      rw [if_neg]
      · rfl
      · intro e; exact hq (e ▸ List.mem_map_of_mem hx)
  rw [e _ h1.1, e _ h1.2]

theorem remove_split (p1 p2 : Pairs) (k v : Str) (hn : ((p1 ++ (k, v) :: p2).map (·.1)).Nodup) :
    remove (p1 ++ (k, v) :: p2) k = p1 ++ p2 := by
  have h1 : k ∉ p1.map (·.1) ∧ k ∉ p2.map (·.1) := by
    simp only [List.map_append, List.map_cons] at hn
    rw [List.nodup_append] at hn
    obtain ⟨a, b, c⟩ := hn
    rw [List.nodup_cons] at b
    exact ⟨fun h => c k h k (by simp) rfl, b.1⟩
  unfold remove
  have e : ∀ q : Pairs, k ∉ q.map (·.1) → q.filter (fun x => x.1 != k) = q := by
    intro q hq
    rw [List.filter_eq_self]
    intro x hx
    have : x.1 ≠ k := fun e => hq (e ▸ List.mem_map_of_mem hx)
    simpa using this
  rw [List.filter_append, List.filter_cons_of_neg (by simp), e _ h1.1, e _ h1.2]

/-- Splitting a representation at a key. -/
theorem Rep.split {h : Heap} {m : MAP} {ps : Pairs} {own : List Nat} (r : Rep h m ps own) (k : Str) (i : Nat)
    (hi : (ps.map (·.1)).findIdx? (· == k) = some i) :
    ∃ p1 v p2 k1 p k2 v1 q v2 st st', ps = p1 ++ (k, v) :: p2 ∧ p1.length = i ∧ k1.length = i ∧ v1.length = i ∧
      k2.length = p2.length ∧ v2.length = p2.length ∧
      m.keys = some ((k1 ++ p :: k2).map pc ++ st) ∧ m.values = some ((v1 ++ q :: v2).map pc ++ st') ∧
      own = (k1 ++ p :: k2) ++ (v1 ++ q :: v2) ∧
      (k1.map (h[·]?) = p1.map (fun x => some (some x.1)) ∧ h[p]? = some (some k) ∧
        k2.map (h[·]?) = p2.map (fun x => some (some x.1))) ∧
      (v1.map (h[·]?) = p1.map (fun x => some (some x.2)) ∧ h[q]? = some (some v) ∧
        v2.map (h[·]?) = p2.map (fun x => some (some x.2))) := by
  obtain ⟨⟨kids, vids, ka, va, rfl, hkm, hvm⟩, hc, hnd, hkn⟩ := r
  obtain ⟨s1, s2, es, hs1⟩ := findIdx_some hi
  obtain ⟨p1, p', rfl, e1, e2⟩ := List.map_eq_append_iff.mp es
  obtain ⟨⟨k', v⟩, p2, rfl, e3, e4⟩ := List.map_eq_cons_iff.mp e2
  simp only at e3
  subst e3
  simp only [List.map_append, List.map_cons] at hkm hvm
  obtain ⟨k1, k'', rfl, f1, f2⟩ := List.map_eq_append_iff.mp hkm
  obtain ⟨p, k2, rfl, f3, f4⟩ := List.map_eq_cons_iff.mp f2
  obtain ⟨v1, v'', rfl, g1, g2⟩ := List.map_eq_append_iff.mp hvm
  obtain ⟨q, v2, rfl, g3, g4⟩ := List.map_eq_cons_iff.mp g2
  obtain ⟨st, hst⟩ := arr_some ka (by simp)
  obtain ⟨st', hst'⟩ := arr_some va (by simp)
  have hl1 : k1.length = p1.length := by simpa using len_of_map f1
  have hl2 : v1.length = p1.length := by simpa using len_of_map g1
  have hl3 : k2.length = p2.length := by simpa using len_of_map f4
  have hl4 : v2.length = p2.length := by simpa using len_of_map g4
  have hp1 : p1.length = i := by rw [← hs1, ← e1]; simp
  exact ⟨p1, v, p2, k1, p, k2, v1, q, v2, st, st', rfl, hp1, by omega, by omega, hl3, hl4, hst, hst', rfl, ⟨f1, f3, f4⟩, ⟨g1, g3, g4⟩⟩

theorem find_keys {h : Heap} {m : MAP} {ps : Pairs} {own : List Nat} (r : Rep h m ps own) (k : Str) :
    find h m.keys k m.count = C.ok ((ps.map (·.1)).findIdx? (· == k)) := by
  obtain ⟨⟨kids, vids, ka, va, rfl, hkm, hvm⟩, hc, hnd, hkn⟩ := r
  exact find_eq h k (ps.map (·.1)) m.keys kids ka (by rw [hkm, strs_fst]) m.count (by simp [hc])

theorem find_values {h : Heap} {m : MAP} {ps : Pairs} {own : List Nat} (r : Rep h m ps own) (v : Str) :
    find h m.values v m.count = C.ok ((ps.map (·.2)).findIdx? (· == v)) := by
  obtain ⟨⟨kids, vids, ka, va, rfl, hkm, hvm⟩, hc, hnd, hkn⟩ := r
  exact find_eq h v (ps.map (·.2)) m.values vids va (by rw [hvm, strs_snd]) m.count (by simp [hc])

theorem moveCells_eq (k1 : List Nat) (p : Nat) (k2 : List Nat) (st : Cells) (n : Nat) (hn : n = k1.length + 1 + k2.length) :
    ∃ x st', moveCells (some ((k1 ++ p :: k2).map pc ++ st)) k1.length (k1.length + 1) (n - k1.length - 1) =
      C.ok (some ((k1 ++ k2).map pc ++ x :: st')) := by
  have hk : n - k1.length - 1 = k2.length := by omega
  rw [hk]
  simp only [moveCells]
  rw [if_pos (by simp; omega)]
  have e1 : ((k1 ++ p :: k2).map pc ++ st).take k1.length = k1.map pc := by
    rw [List.map_append, List.append_assoc]; exact List.take_left' (by simp)
  have e2 : ((k1 ++ p :: k2).map pc ++ st).drop (k1.length + 1) = k2.map pc ++ st := by
    have : (k1 ++ p :: k2).map pc ++ st = (k1.map pc ++ [pc p]) ++ (k2.map pc ++ st) := by simp
    rw [this]; exact List.drop_left' (by simp)
  rw [e1, e2, List.take_left' (by simp)]
  have hl : 0 < (((k1 ++ p :: k2).map pc ++ st).drop (k1.length + k2.length)).length := by simp; omega
  match hd : ((k1 ++ p :: k2).map pc ++ st).drop (k1.length + k2.length), hl with
  | x :: st', _ => exact ⟨x, st', by simp⟩

end CUtil.Map
