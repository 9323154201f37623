import Verif.Map.Lemmas3
set_option linter.unusedSimpArgs false
set_option linter.unusedVariables false
/-
C23: a MAP is a finite map, in insertion order, whatever the history and whatever allocations fail.
C24: the filter is lost in three ways; what does hold about it.
Vocabulary: Spec.lean (`Pairs`, `lookup`, `remove`, `change`; `Rep h m ps own`: the map at `m` represents `ps` and owns the
heap blocks `own`; `Step`: nobody else's block is touched, nothing leaks).
-/
namespace CUtil.Map

abbrev Filter := Option (Str → Str → Bool)

/-- The calls that change a map, with the caller's strings. -/
inductive Op where
  | add (k v : Str)
  | addOrUpdate (k v : Str)
  | delete (k : Str)

/-- Does the filter accept the pair? -/
def accepts (f : Filter) (k v : Str) : Prop := ∀ g, f = some g → g k v = true

instance (f : Filter) (k v : Str) : Decidable (accepts f k v) :=
  match f with
  | none => .isTrue (by intro g h; cases h)
  | some g => if h : g k v = true then .isTrue (by intro g' e; cases e; exact h) else .isFalse (fun a => h (a g rfl))

/-- The documented reason to refuse a call, if there is one. -/
def refusal (f : Filter) (ps : Pairs) : Op → Option Res
  | .add k v => if k ∈ ps.map (·.1) then some .KEYEXISTS else if accepts f k v then none else some .FILTER_REJECT
  | .addOrUpdate k v => if accepts f k v then none else some .FILTER_REJECT
  | .delete k => if k ∈ ps.map (·.1) then none else some .KEYNOTFOUND

/-- The documented effect of a call that is carried out. -/
def effect (ps : Pairs) : Op → Pairs
  | .add k v => ps ++ [(k, v)]
  | .addOrUpdate k v => if k ∈ ps.map (·.1) then change ps k v else ps ++ [(k, v)]
  | .delete k => remove ps k

def Op.isDelete : Op → Bool
  | .delete _ => true
  | _ => false

/-- What may happen in one call: from filter `f` and pairs `ps`, result `res`, to filter `f'` and pairs `ps'`. -/
def Allowed (f : Filter) (ps : Pairs) (op : Op) (al : Nat → Bool) (res : Res) (f' : Filter) (ps' : Pairs) : Prop :=
  (refusal f ps op = some res ∧ ps' = ps ∧ f' = f) ∨
  (refusal f ps op = none ∧ res = .OK ∧ ps' = effect ps op ∧ f' = (if op.isDelete = true ∧ ps' = [] then none else f)) ∨
  (refusal f ps op = none ∧ res = .ERROR ∧ op.isDelete = false ∧ (∃ i, al i = false) ∧ ps' = ps ∧
    (f' = f ∨ (f' = none ∧ ps = [])))

/-- The call in the model. -/
def exec (h : Heap) (m : Option MAP) (op : Op) (al : Nat → Bool) : C (Heap × Option MAP × Res) :=
  match op with
  | .add k v => add h m (some k) (some (.ext v)) al
  | .addOrUpdate k v => addOrUpdate h m (some k) (some (.ext v)) al
  | .delete k => delete h m (some k) al

theorem rejects_iff (m : MAP) (k v : Str) : rejects m k v = false ↔ accepts m.filter k v := by
  unfold rejects accepts
  cases m.filter with
  | none => simp
  | some f => simp

theorem rejects_iff' (m : MAP) (k v : Str) : rejects m k v = true ↔ ¬ accepts m.filter k v := by
  rw [← rejects_iff]; simp

theorem filter_case {ps : Pairs} {a b : Bool} {f f' : Filter} (e : f' = if ps = [] ∧ a = true ∧ b = true then none else f) :
    f' = f ∨ (f' = none ∧ ps = []) := by
  by_cases h : ps = [] ∧ a = true ∧ b = true
  · rw [if_pos h] at e; exact Or.inr ⟨e, h.1⟩
  · rw [if_neg h] at e; exact Or.inl e

/-- **C23**: Map_Add, for any kind of value argument. -/
theorem add_spec (h : Heap) (m : MAP) (ps : Pairs) (own : List Nat) (k v : Str) (value : Val) (al : Nat → Bool)
    (r : Rep h m ps own) (hr : value.read h = C.ok v) :
    ∃ h' m' res ps' own', add h (some m) (some k) (some value) al = C.ok (h', some m', res) ∧
      Rep h' m' ps' own' ∧ Step h own h' own' ∧ Allowed m.filter ps (.add k v) al res m'.filter ps' := by
  simp only [add]
  rw [find_keys r k, C.ok_bind]
  by_cases hk : k ∈ ps.map (·.1)
  · cases hf : (ps.map (·.1)).findIdx? (· == k) with
    | none => exact absurd hk (findIdx_none.mp hf)
    | some i => exact ⟨h, m, _, ps, own, rfl, r, Step.refl _ _, Or.inl ⟨by simp only [refusal]; rw [if_pos hk], rfl, rfl⟩⟩
  · rw [findIdx_none.mpr hk]
    dsimp only
    rw [hr, C.ok_bind]
    by_cases hj : accepts m.filter k v
    · rw [(rejects_iff m k v).mpr hj, if_neg (by simp)]
      have href : refusal m.filter ps (.add k v) = none := by simp only [refusal]; rw [if_neg hk, if_pos hj]
      obtain ⟨h', m', ok, e, h1, h2⟩ := insert_spec h m ps own k v value al r hk hr
      rw [e, C.ok_bind]
      cases ok with
      | true =>
        obtain ⟨own', r', s', hf⟩ := h1 rfl
        exact ⟨h', m', _, _, own', rfl, r', s', Or.inr (Or.inl ⟨href, rfl, rfl, by simp [Op.isDelete, hf]⟩)⟩
      | false =>
        obtain ⟨r', s', ⟨i, _, hi⟩, hf⟩ := h2 rfl
        exact ⟨h', m', _, _, own, rfl, r', s', Or.inr (Or.inr ⟨href, rfl, rfl, ⟨i, hi⟩, rfl, filter_case hf⟩)⟩
    · rw [(rejects_iff' m k v).mpr hj, if_pos rfl]
      exact ⟨h, m, _, ps, own, rfl, r, Step.refl _ _, Or.inl ⟨by simp only [refusal]; rw [if_neg hk, if_neg hj], rfl, rfl⟩⟩

/-- **C23**: Map_AddOrUpdate, for any kind of value argument except the pointer to the very value being replaced
(see `addOrUpdate_own_value_ub`). -/
theorem addOrUpdate_spec (h : Heap) (m : MAP) (ps : Pairs) (own : List Nat) (k v : Str) (value : Val) (al : Nat → Bool)
    (r : Rep h m ps own) (hr : value.read h = C.ok v)
    (hal : ∀ p, value = .own p → getValueFromKey h (some m) (some k) ≠ C.ok (some p)) :
    ∃ h' m' res ps' own', addOrUpdate h (some m) (some k) (some value) al = C.ok (h', some m', res) ∧
      Rep h' m' ps' own' ∧ Step h own h' own' ∧ Allowed m.filter ps (.addOrUpdate k v) al res m'.filter ps' := by
  by_cases hj : accepts m.filter k v
  · have href : refusal m.filter ps (.addOrUpdate k v) = none := by simp only [refusal]; rw [if_pos hj]
    have hrej := (rejects_iff m k v).mpr hj
    cases hf : (ps.map (·.1)).findIdx? (· == k) with
    | none =>
      have hk := findIdx_none.mp hf
      simp only [addOrUpdate]
      rw [hr, C.ok_bind, hrej, if_neg (by simp), find_keys r k, C.ok_bind, hf]
      dsimp only
      obtain ⟨h', m', ok, e, h1, h2⟩ := insert_spec h m ps own k v value al r hk hr
      rw [e, C.ok_bind]
      cases ok with
      | true =>
        obtain ⟨own', r', s', hf⟩ := h1 rfl
        refine ⟨h', m', _, _, own', rfl, r', s', Or.inr (Or.inl ⟨href, rfl, ?_, by simp [Op.isDelete, hf]⟩)⟩
        simp only [effect]; rw [if_neg hk]
      | false =>
        obtain ⟨r', s', ⟨i, _, hi⟩, hf⟩ := h2 rfl
        exact ⟨h', m', _, _, own, rfl, r', s', Or.inr (Or.inr ⟨href, rfl, rfl, ⟨i, hi⟩, rfl, filter_case hf⟩)⟩
    | some i =>
      have hk : k ∈ ps.map (·.1) := by
        obtain ⟨s1, s2, e, _⟩ := findIdx_some hf
        rw [e]; simp
      obtain ⟨h', m', res, e, hff, hcase⟩ := update_spec h m ps own k v value al i r hf hr hal hrej
      rcases hcase with ⟨rfl, own', r', s'⟩ | ⟨rfl, h7, rfl, rfl⟩
      · refine ⟨h', m', _, _, own', e, r', s', Or.inr (Or.inl ⟨href, rfl, ?_, by simp [Op.isDelete, hff]⟩)⟩
        simp only [effect]; rw [if_pos hk]
      · exact ⟨h', m', _, _, own, e, r, Step.refl _ _, Or.inr (Or.inr ⟨href, rfl, rfl, ⟨7, h7⟩, rfl, Or.inl rfl⟩)⟩
  · simp only [addOrUpdate]
    rw [hr, C.ok_bind, (rejects_iff' m k v).mpr hj, if_pos rfl]
    exact ⟨h, m, _, ps, own, rfl, r, Step.refl _ _, Or.inl ⟨by simp only [refusal]; rw [if_neg hj], rfl, rfl⟩⟩

/-- **C23**: Map_Delete. -/
theorem delete_spec (h : Heap) (m : MAP) (ps : Pairs) (own : List Nat) (k : Str) (al : Nat → Bool) (r : Rep h m ps own) :
    ∃ h' m' res ps' own', delete h (some m) (some k) al = C.ok (h', some m', res) ∧
      Rep h' m' ps' own' ∧ Step h own h' own' ∧ Allowed m.filter ps (.delete k) al res m'.filter ps' := by
  cases hf : (ps.map (·.1)).findIdx? (· == k) with
  | none =>
    simp only [delete]
    rw [find_keys r k, C.ok_bind, hf]
    exact ⟨h, m, _, ps, own, rfl, r, Step.refl _ _, Or.inl ⟨by simp only [refusal]; rw [if_neg (findIdx_none.mp hf)], rfl, rfl⟩⟩
  | some i =>
    have hk : k ∈ ps.map (·.1) := by
      obtain ⟨s1, s2, e, _⟩ := findIdx_some hf
      rw [e]; simp
    obtain ⟨h', m', own', e, r', s', hff⟩ := delete_found h m ps own k al i r hf
    refine ⟨h', m', _, _, own', e, r', s', Or.inr (Or.inl ⟨by simp only [refusal]; rw [if_pos hk], rfl, rfl, ?_⟩)⟩
    rw [hff]; simp [Op.isDelete]

/-- **C23**: every call that changes a map does what its documentation says, or fails for an allocation failure leaving the
pairs as they were; it is defined, touches no block of anybody else and leaks none. -/
theorem call_outcome (h : Heap) (m : MAP) (ps : Pairs) (own : List Nat) (op : Op) (al : Nat → Bool) (r : Rep h m ps own) :
    ∃ h' m' res ps' own', exec h (some m) op al = C.ok (h', some m', res) ∧
      Rep h' m' ps' own' ∧ Step h own h' own' ∧ Allowed m.filter ps op al res m'.filter ps' := by
  cases op with
  | add k v => exact add_spec h m ps own k v (.ext v) al r rfl
  | addOrUpdate k v => exact addOrUpdate_spec h m ps own k v (.ext v) al r rfl (by intro p e; cases e)
  | delete k => exact delete_spec h m ps own k al r

/-- Running a history. -/
def run (h : Heap) (m : Option MAP) : List (Op × (Nat → Bool)) → C (Heap × Option MAP × List Res)
  | [] => C.ok (h, m, [])
  | (op, al) :: rest => do
    let (h, m, res) ← exec h m op al
    let (h, m, rs) ← run h m rest
    pure (h, m, res :: rs)

/-- A documented run: each call allowed, one after the other. -/
inductive Run : Filter → Pairs → List (Op × (Nat → Bool)) → List Res → Filter → Pairs → Prop
  | nil (f ps) : Run f ps [] [] f ps
  | cons {f ps op al res f1 ps1 rest rs f2 ps2} : Allowed f ps op al res f1 ps1 → Run f1 ps1 rest rs f2 ps2 →
      Run f ps ((op, al) :: rest) (res :: rs) f2 ps2

/-- **C23**: every history, with any allocation failures, is a documented run, defined throughout. -/
theorem history_outcome (calls : List (Op × (Nat → Bool))) : ∀ (h : Heap) (m : MAP) (ps : Pairs) (own : List Nat), Rep h m ps own →
    ∃ h' m' rs ps' own', run h (some m) calls = C.ok (h', some m', rs) ∧
      Rep h' m' ps' own' ∧ Step h own h' own' ∧ Run m.filter ps calls rs m'.filter ps' := by
  induction calls with
  | nil => intro h m ps own r; exact ⟨h, m, [], ps, own, rfl, r, Step.refl _ _, .nil _ _⟩
  | cons c rest ih =>
    obtain ⟨op, al⟩ := c
    intro h m ps own r
    obtain ⟨h1, m1, res, ps1, own1, e1, r1, s1, a1⟩ := call_outcome h m ps own op al r
    obtain ⟨h2, m2, rs, ps2, own2, e2, r2, s2, a2⟩ := ih h1 m1 ps1 own1 r1
    refine ⟨h2, m2, res :: rs, ps2, own2, ?_, r2, s1.trans s2, .cons a1 a2⟩
    simp only [run]
    rw [e1, C.ok_bind]
    dsimp only
    rw [e2, C.ok_bind]
    rfl

/-- **C23**: a new map is empty. -/
theorem create_spec (f : Filter) (a : Bool) (h : Heap) : create f a = none ∨ ∃ m, create f a = some m ∧ Rep h m [] [] ∧ m.filter = f := by
  cases a with
  | false => exact Or.inl rfl
  | true =>
    exact Or.inr ⟨_, rfl, ⟨⟨[], [], rfl, rfl, rfl, rfl, rfl⟩, rfl, List.nodup_nil, List.nodup_nil⟩, rfl⟩

/-- **C23**: destroying frees exactly what the map owned. -/
theorem destroy_outcome (h : Heap) (m : MAP) (ps : Pairs) (own : List Nat) (r : Rep h m ps own) :
    ∃ h', destroy h (some m) = C.ok h' ∧ (∀ p ∈ own, h'[p]? = some none) ∧ ∀ p, p ∉ own → h'[p]? = h[p]? := by
  obtain ⟨h', e, s⟩ := destroy_spec r
  have hlen : h'.length = h.length := by
    have : ∀ (m : MAP) (n : Nat) (h h' : Heap) (i : Nat), destroyLoop m h i n = C.ok h' → h'.length = h.length := by
      intro m n
      induction n with
      | zero => intro h h' i e; simp only [destroyLoop, C.ok.injEq] at e; rw [e]
      | succ n ih =>
        intro h h' i e
        simp only [destroyLoop] at e
        obtain ⟨p, _, e⟩ := C.bind_eq_ok.mp e
        obtain ⟨h1, e1, e⟩ := C.bind_eq_ok.mp e
        obtain ⟨q, _, e⟩ := C.bind_eq_ok.mp e
        obtain ⟨h2, e2, e⟩ := C.bind_eq_ok.mp e
        rw [ih _ _ _ e]
        have hf : ∀ (h h' : Heap) (p : Nat), hfree h p = C.ok h' → h'.length = h.length := by
          intro h h' p e
          unfold hfree at e
          split at e
          · cases e; simp
          · cases e
        rw [hf _ _ _ e2, hf _ _ _ e1]
    exact this _ _ _ _ _ e
  refine ⟨h', e, ?_, ?_⟩
  · intro p hp
    have hlt := rep_lt' r hp
    have : p < h'.length := by omega
    obtain ⟨x, hx⟩ : ∃ x, h'[p]? = some x := ⟨_, List.getElem?_eq_getElem this⟩
    cases x with
    | none => exact hx
    | some t =>
      rcases s.noleak p t hx with hm | hm
      · simp at hm
      · exact absurd hp hm.2
  · intro p hp
    by_cases hlt : p < h.length
    · exact s.frame p hlt hp
    · rw [List.getElem?_eq_none (by omega), List.getElem?_eq_none (by omega)]

/-- A map whose blocks are not touched still represents the same pairs. -/
theorem rep_frame {h h' : Heap} {m : MAP} {ps : Pairs} {own other other' : List Nat} (r : Rep h m ps own)
    (s : Step h other h' other') (hd : ∀ p ∈ own, p ∉ other) : Rep h' m ps own := by
  have hlt : ∀ p ∈ own, p < h.length := fun p hp => rep_lt' r hp
  obtain ⟨⟨kids, vids, ka, va, rfl, hkm, hvm⟩, hc, hnd, hkn⟩ := r
  refine ⟨⟨kids, vids, ka, va, rfl, ?_, ?_⟩, hc, hnd, hkn⟩
  · rw [← hkm]
    apply List.map_congr_left
    intro p hp
    exact s.frame p (hlt p (by simp [hp])) (hd p (by simp [hp]))
  · rw [← hvm]
    apply List.map_congr_left
    intro p hp
    exact s.frame p (hlt p (by simp [hp])) (hd p (by simp [hp]))

/-- **C23**: Map_Clone gives an independent map with the same pairs, or fails for an allocation failure leaving nothing behind.
The original is untouched.  (The filter is dropped when the map is empty: see C24.) -/
theorem clone_spec (h : Heap) (m : MAP) (ps : Pairs) (own : List Nat) (a ka va : Nat → Bool) (r : Rep h m ps own) :
    (∃ h' m' own', clone h (some m) a ka va = C.ok (h', some m') ∧ Rep h' m' ps own' ∧ Step h [] h' own' ∧
      Rep h' m ps own ∧ (∀ p ∈ own', p ∉ own) ∧ m'.filter = if ps = [] then none else m.filter) ∨
    (∃ h', clone h (some m) a ka va = C.ok (h', none) ∧ Step h [] h' [] ∧ Rep h' m ps own ∧
      ∃ n, a n = false ∨ ka n = false ∨ va n = false) := by
  have r0 := r
  have hlt : ∀ p ∈ own, p < h.length := fun p hp => rep_lt' r hp
  obtain ⟨⟨kids, vids, kar, var, rfl, hkm, hvm⟩, hc, hnd, hkn⟩ := r
  have hkl : kids.length = ps.length := by simpa using len_of_map hkm
  have hvl : vids.length = ps.length := by simpa using len_of_map hvm
  simp only [clone]
  by_cases h0 : a 0 = false
  · rw [if_pos h0]
    exact Or.inr ⟨h, rfl, Step.refl _ _, r0, 0, Or.inl h0⟩
  rw [if_neg h0]
  by_cases hps : ps = []
  · rw [if_pos (by rw [hc, hps]; rfl)]
    refine Or.inl ⟨h, _, [], rfl, ?_, Step.refl _ _, r0, by simp, by rw [if_pos hps]⟩
    rw [hps]
    exact ⟨⟨[], [], rfl, rfl, rfl, rfl, rfl⟩, rfl, List.nodup_nil, List.nodup_nil⟩
  · have hpos : 0 < ps.length := List.length_pos_iff.mpr hps
    rw [if_neg (by omega), if_neg hps]
    have hk0 : kids ≠ [] := by intro e; rw [e] at hkl; simp at hkl; omega
    have hv0 : vids ≠ [] := by intro e; rw [e] at hvl; simp at hvl; omega
    have ek : m.count = kids.length := by omega
    have ev : m.count = vids.length := by omega
    have hkm' : kids.map (h[·]?) = (ps.map (·.1)).map (fun s => some (some s)) := by rw [hkm, strs_fst]
    have hvm' : vids.map (h[·]?) = (ps.map (·.2)).map (fun s => some (some s)) := by rw [hvm, strs_snd]
    rcases cloneVector_spec h m.keys kids (ps.map (·.1)) kar hkm' hk0 (a 1) ka with ⟨e1, _⟩ | ⟨h1, e1, s1, hf⟩
    · rw [ek, e1, C.ok_bind]
      dsimp only
      have s1 := Step.allocs h (ps.map (·.1))
      have hv1 : vids.map ((h ++ (ps.map (·.1)).map some)[·]?) = (ps.map (·.2)).map (fun s => some (some s)) := by
        rw [map_append_frame (strs := ps.map (·.2)) _ hvm', hvm']
      have rk := range'_map h (ps.map (·.1))
      rcases cloneVector_spec (h ++ (ps.map (·.1)).map some) m.values vids (ps.map (·.2)) var hv1 hv0 (a 2) va with ⟨e2, _⟩ | ⟨h2, e2, s2, hf⟩
      · rw [← ek, ev, e2, C.ok_bind]
        dsimp only
        left
        have s2 := Step.allocs (h ++ (ps.map (·.1)).map some) (ps.map (·.2))
        have rv := range'_map (h ++ (ps.map (·.1)).map some) (ps.map (·.2))
        have sAll : Step h [] (h ++ (ps.map (·.1)).map some ++ (ps.map (·.2)).map some)
            (List.range' h.length ps.length ++ List.range' (h.length + ps.length) ps.length) := by
          constructor
          · intro p hp _
            rw [List.append_assoc, List.getElem?_append_left hp]
          · intro p s e
            have := lt_of_some e
            simp only [List.length_append, List.length_map] at this
            by_cases hp : p < h.length
            · exact Or.inr ⟨hp, by simp⟩
            · exact Or.inl (by rw [List.mem_append, List.mem_range'_1, List.mem_range'_1]; omega)
          · intro p hp
            rw [List.mem_append, List.mem_range'_1, List.mem_range'_1] at hp
            exact Or.inr (by omega)
          · simp
        refine ⟨_, _, List.range' h.length ps.length ++ List.range' (h.length + ps.length) ps.length, rfl, ?_, sAll, ?_, ?_, rfl⟩
        · simp only [List.length_map, List.length_append] at rk rv ⊢
          refine ⟨⟨List.range' h.length ps.length, List.range' (h.length + ps.length) ps.length, ?_, ?_, rfl, ?_, ?_⟩, ?_, ?_, hkn⟩
          · exact ⟨by simp [hps], [], by simp⟩
          · exact ⟨by simp [hps], [], by simp⟩
          · rw [map_append_frame (strs := ps.map (·.1)) _ rk, rk]; simp
          · rw [rv]; simp
          · exact hvl
          · rw [List.nodup_append]
            refine ⟨List.nodup_range', List.nodup_range', ?_⟩
            intro x hx y hy
            rw [List.mem_range'_1] at hx hy
            omega
        · exact rep_frame r0 sAll (by simp)
        · intro p hp hp'
          have := hlt p hp'
          rw [List.mem_append, List.mem_range'_1, List.mem_range'_1] at hp
          omega
      · rw [← ek, ev, e2, C.ok_bind]
        dsimp only
        right
        have rk2 : (List.range' h.length (ps.map (·.1)).length).map (h2[·]?) = (ps.map (·.1)).map (fun s => some (some s)) := by
          rw [← rk]
          apply List.map_congr_left
          intro p hp
          exact s2.frame p (own_lt rk hp) (by simp)
        obtain ⟨h3, e3, s3⟩ := freeLoop_spec (List.range' h.length (ps.map (·.1)).length) [] [] h2 0 rfl List.nodup_range'
          (fun p hp => live_of_map rk2 hp)
        simp only [List.nil_append, List.append_nil, List.length_range', List.length_map] at e3
        rw [List.length_map, hvl, e3, C.ok_bind]
        have sAll : Step h [] h3 [] := by
          constructor
          · intro p hp _
            rw [s3.frame p (Nat.lt_of_lt_of_le hp (Nat.le_trans s1.grows s2.grows)) (by rw [List.mem_range'_1]; omega),
              s2.frame p (Nat.lt_of_lt_of_le hp s1.grows) (by simp), s1.frame p hp (by simp)]
          · intro p t e
            rcases s3.noleak p t e with hm | ⟨hm, hn⟩
            · simp at hm
            · have e' : h2[p]? = some (some t) := by rw [← s3.frame p hm hn]; exact e
              rcases s2.noleak p t e' with hm | ⟨hm2, _⟩
              · simp at hm
              · rw [s2.frame p hm2 (by simp)] at e'
                rcases s1.noleak p t e' with hm | hm
                · exact absurd hm hn
                · exact Or.inr hm
          · intro p hp; simp at hp
          · exact Nat.le_trans (Nat.le_trans s1.grows s2.grows) s3.grows
        refine ⟨h3, rfl, sAll, rep_frame r0 sAll (by simp), ?_⟩
        rcases hf with hf | ⟨n, hf⟩
        · exact ⟨2, Or.inl hf⟩
        · exact ⟨n, Or.inr (Or.inr hf)⟩
    · rw [ek, e1, C.ok_bind]
      dsimp only
      right
      refine ⟨h1, rfl, s1, rep_frame r0 s1 (by simp), ?_⟩
      rcases hf with hf | ⟨n, hf⟩
      · exact ⟨1, Or.inl hf⟩
      · exact ⟨n, Or.inr (Or.inl hf)⟩

/-- **C23**: two maps with disjoint blocks (for instance a map and its clone) do not influence one another: whatever history
one goes through, the other keeps its pairs, and their blocks stay disjoint. -/
theorem independent (h : Heap) (m m2 : MAP) (ps ps2 : Pairs) (own own2 : List Nat) (r : Rep h m ps own) (r2 : Rep h m2 ps2 own2)
    (hd : ∀ p ∈ own2, p ∉ own) (calls : List (Op × (Nat → Bool))) :
    ∃ h' m' rs ps' own', run h (some m) calls = C.ok (h', some m', rs) ∧ Rep h' m' ps' own' ∧ Rep h' m2 ps2 own2 ∧
      ∀ p ∈ own2, p ∉ own' := by
  obtain ⟨h', m', rs, ps', own', e, r', s, a⟩ := history_outcome calls h m ps own r
  refine ⟨h', m', rs, ps', own', e, r', rep_frame r2 s hd, ?_⟩
  intro p hp hp'
  have := rep_lt' r2 hp
  rcases s.fresh p hp' with hx | hx
  · exact hd p hp hx
  · omega

/-! ### Looking at a map -/

theorem lookup_find (ps : Pairs) (k : Str) : (lookup ps k).isSome = true ↔ k ∈ ps.map (·.1) := by
  unfold lookup
  rw [Option.isSome_map, List.find?_isSome]
  constructor
  · rintro ⟨x, hx, e⟩
    have e' : x.1 = k := by simpa using e
    rw [← e']; exact List.mem_map_of_mem hx
  · intro hk
    obtain ⟨x, hx, e⟩ := List.mem_map.mp hk
    exact ⟨x, hx, by simpa using e⟩

theorem findIdx_isSome (l : List Str) (k : Str) : (l.findIdx? (· == k)).isSome = decide (k ∈ l) := by
  cases h : l.findIdx? (· == k) with
  | none => simp [findIdx_none.mp h]
  | some i =>
    obtain ⟨s1, s2, e, _⟩ := findIdx_some h
    rw [e]; simp

/-- **C23**: Map_ContainsKey and Map_ContainsValue. -/
theorem contains_spec (h : Heap) (m : MAP) (ps : Pairs) (own : List Nat) (s : Str) (r : Rep h m ps own) :
    containsKey h (some m) (some s) true = C.ok (.OK, some (decide (s ∈ ps.map (·.1)))) ∧
    containsValue h (some m) (some s) true = C.ok (.OK, some (decide (s ∈ ps.map (·.2)))) := by
  constructor
  · simp only [containsKey]
    rw [find_keys r s, C.ok_bind, findIdx_isSome]; rfl
  · simp only [containsValue]
    rw [find_values r s, C.ok_bind, findIdx_isSome]; rfl

/-- **C23**: Map_GetValueFromKey returns NULL or a pointer to a block the map owns, holding the value of the key. -/
theorem getValueFromKey_spec (h : Heap) (m : MAP) (ps : Pairs) (own : List Nat) (k : Str) (r : Rep h m ps own) :
    match lookup ps k with
    | none => getValueFromKey h (some m) (some k) = C.ok none
    | some v => ∃ p, getValueFromKey h (some m) (some k) = C.ok (some p) ∧ hget h p = C.ok v ∧ p ∈ own := by
  cases hf : (ps.map (·.1)).findIdx? (· == k) with
  | none =>
    have hk := findIdx_none.mp hf
    have : lookup ps k = none := by
      cases hl : lookup ps k with
      | none => rfl
      | some v => exact absurd ((lookup_find ps k).mp (by rw [hl]; rfl)) hk
    rw [this]
    simp only [getValueFromKey]
    rw [find_keys r k, C.ok_bind, hf]
  | some i =>
    have hfind := find_keys r k
    rw [hf] at hfind
    obtain ⟨p1, w, p2, k1, p, k2, v1, q, v2, st, st', rfl, hp1, hk1, hv1, hk2, hv2, hka, hva, rfl, ⟨f1, f2, f3⟩, ⟨g1, g2, g3⟩⟩ := r.split k i hf
    have hl : lookup (p1 ++ (k, w) :: p2) k = some w := by
      unfold lookup
      have hn := r.keys
      simp only [List.map_append, List.map_cons] at hn
      rw [List.nodup_append] at hn
      have h1 : p1.find? (fun x => x.1 == k) = none := by
        rw [List.find?_eq_none]
        intro x hx
        have := hn.2.2 x.1 (List.mem_map_of_mem hx) k (by simp)
        simpa using this
      rw [List.find?_append, h1, Option.none_or, List.find?_cons_of_pos (by simp)]
      rfl
    rw [hl]
    refine ⟨q, ?_, hget_of g2, by simp⟩
    simp only [getValueFromKey]
    rw [hfind, C.ok_bind]
    dsimp only
    rw [hva]
    have : (v1 ++ q :: v2).map pc ++ st' = v1.map pc ++ pc q :: (v2.map pc ++ st') := by simp
    rw [this, ptr_at _ _ _ _ (by simp [hv1])]
    rfl

/-- **C23**: Map_GetInternals gives arrays of `count` pointers to the keys and to the values, in insertion order. -/
theorem getInternals_spec (h : Heap) (m : MAP) (ps : Pairs) (own : List Nat) (r : Rep h m ps own) :
    ∃ ks vs, getInternals (some m) true = (.OK, some (ks, vs, ps.length)) ∧
      ∀ i (hi : i < ps.length), (ptr ks i >>= fun p => hget h p) = C.ok ps[i].1 ∧ (ptr vs i >>= fun p => hget h p) = C.ok ps[i].2 := by
  obtain ⟨⟨kids, vids, ka, va, rfl, hkm, hvm⟩, hc, hnd, hkn⟩ := r
  refine ⟨m.keys, m.values, by simp only [getInternals, hc], ?_⟩
  intro i hi
  have gen : ∀ (a : Option Cells) (ids : List Nat) (strs : List Str), Arr a ids → ids.map (h[·]?) = strs.map (fun s => some (some s)) →
      ∀ (hi : i < strs.length), (ptr a i >>= fun p => hget h p) = C.ok strs[i] := by
    intro a ids strs ha hm hi
    have hl : ids.length = strs.length := by simpa using len_of_map hm
    obtain ⟨st, rfl⟩ := arr_some ha (by intro e; rw [e] at hl; simp at hl; omega)
    have hil : i < ids.length := by omega
    have hsplit : ids.map pc ++ st = (ids.take i).map pc ++ pc ids[i] :: ((ids.drop (i + 1)).map pc ++ st) := by
      have e : ids = ids.take i ++ ids[i] :: ids.drop (i + 1) := by simp
      have e' : ids.map pc = (ids.take i).map pc ++ pc ids[i] :: (ids.drop (i + 1)).map pc := by
        conv => lhs; rw [e]
        rw [List.map_append, List.map_cons]
      conv => lhs; rw [e']
      rw [List.append_assoc]; rfl
    rw [hsplit, ptr_at _ _ _ _ (by simp; omega), C.ok_bind]
    apply hget_of
    have := congrArg (fun l => l[i]?) hm
    simp only [List.getElem?_map, List.getElem?_eq_getElem hil, List.getElem?_eq_getElem hi, Option.map_some, Option.some.injEq] at this
    exact this
  have h1 := gen m.keys kids (ps.map (·.1)) ka (by rw [hkm, strs_fst]) (by simpa using hi)
  have h2 := gen m.values vids (ps.map (·.2)) va (by rw [hvm, strs_snd]) (by simpa using hi)
  simp only [List.getElem_map] at h1 h2
  exact ⟨h1, h2⟩

/-- **C23**: the refusals: a NULL argument changes nothing. -/
theorem null_refused (h : Heap) (m : Option MAP) (k : Option Str) (v : Option Val) (al : Nat → Bool)
    (hn : m = none ∨ k = none ∨ v = none) :
    add h m k v al = C.ok (h, m, .INVALIDARG) ∧ addOrUpdate h m k v al = C.ok (h, m, .INVALIDARG) := by
  cases m <;> cases k <;> cases v <;> first | exact ⟨rfl, rfl⟩ | simp at hn

theorem null_refused_delete (h : Heap) (m : Option MAP) (k : Option Str) (al : Nat → Bool) (hn : m = none ∨ k = none) :
    delete h m k al = C.ok (h, m, .INVALIDARG) ∧ getValueFromKey h m k = C.ok none := by
  cases m <;> cases k <;> first | exact ⟨rfl, rfl⟩ | simp at hn

/-- **C23**: the queries refuse NULL arguments too, and give nothing then; a NULL map has no clone and is destroyed without effect. -/
theorem null_refused_queries (h : Heap) (m : Option MAP) (k : Option Str) (out : Bool) (a ka va : Nat → Bool) :
    (m = none ∨ k = none ∨ out = false → containsKey h m k out = C.ok (.INVALIDARG, none) ∧ containsValue h m k out = C.ok (.INVALIDARG, none)) ∧
    (m = none ∨ out = false → getInternals m out = (.INVALIDARG, none)) ∧
    clone h none a ka va = C.ok (h, none) ∧ destroy h none = C.ok h := by
  refine ⟨?_, ?_, rfl, rfl⟩
  · intro hn; cases m <;> cases k <;> cases out <;> first | exact ⟨rfl, rfl⟩ | simp at hn
  · intro hn; cases m <;> cases out <;> first | rfl | simp at hn

/-- **C23**: Map_Create fails exactly when there is no memory. -/
theorem create_fails_iff (f : Filter) (a : Bool) : create f a = none ↔ a = false := by cases a <;> simp [create]

/-- **C23** (finding): replacing a value by the pointer the map handed out for the same key reads freed memory. -/
theorem addOrUpdate_own_value_ub (h : Heap) (m : MAP) (ps : Pairs) (own : List Nat) (k v : Str) (p : Nat) (al : Nat → Bool)
    (r : Rep h m ps own) (hp : getValueFromKey h (some m) (some k) = C.ok (some p)) (hv : hget h p = C.ok v)
    (hacc : accepts m.filter k v) (ha : al 7 = true) :
    addOrUpdate h (some m) (some k) (some (.own p)) al = C.ub := by
  cases hf : (ps.map (·.1)).findIdx? (· == k) with
  | none =>
    simp only [getValueFromKey] at hp
    rw [find_keys r k, C.ok_bind, hf] at hp
    cases hp
  | some i =>
    have hfind := find_keys r k
    rw [hf] at hfind
    simp only [getValueFromKey] at hp
    rw [hfind, C.ok_bind] at hp
    dsimp only at hp
    obtain ⟨q, hq, e⟩ := C.bind_eq_ok.mp hp
    cases e
    simp only [addOrUpdate, Val.read]
    rw [hv, C.ok_bind, (rejects_iff m k v).mpr hacc, if_neg (by simp), hfind, C.ok_bind]
    dsimp only
    rw [C.ok_bind, hq, C.ok_bind, if_neg (by simp [ha]), hfree_of (hget_iff.mp hv), C.ok_bind]
    have : hget (h.set p none) p = C.ub := by
      unfold hget
      rw [List.getElem?_set_self (lt_of_some (hget_iff.mp hv))]
    rw [this]; rfl

/-! ### C24 -/

/-- **C24** is false, first way: deleting the last entry removes the filter, after which a pair it rejects is accepted. -/
theorem filter_lost_by_delete : ∃ (f : Str → Str → Bool) (calls : List (Op × (Nat → Bool))) (h' : Heap) (m' : MAP) (rs : List Res),
    create (some f) true = some ⟨none, none, 0, some f⟩ ∧
    run [] (create (some f) true) calls = C.ok (h', some m', rs) ∧ (∃ own, Rep h' m' [([98], [])] own) ∧ f [98] [] = false ∧
    (∀ c ∈ calls, ∀ i, c.2 i = true) := by
  refine ⟨fun k _ => k == [97], [(.add [97] [], fun _ => true), (.delete [97], fun _ => true), (.add [98] [], fun _ => true)], _, _, _, rfl, rfl,
    ⟨[2, 3], ⟨⟨[2], [3], ⟨by simp, [], rfl⟩, ⟨by simp, [], rfl⟩, rfl, rfl, rfl⟩, rfl, by simp, by simp⟩⟩, by decide, ?_⟩
  intro c hc i
  simp at hc
  rcases hc with rfl | rfl | rfl <;> rfl

/-- **C24** is false, second way: a first insertion that fails for memory removes the filter. -/
theorem filter_lost_by_failed_insert : ∃ (f : Str → Str → Bool) (calls : List (Op × (Nat → Bool))) (h' : Heap) (m' : MAP),
    run [] (create (some f) true) calls = C.ok (h', some m', [.ERROR, .OK]) ∧ (∃ own, Rep h' m' [([98], [])] own) ∧ f [98] [] = false := by
  refine ⟨fun k _ => k == [97], [(.add [97] [], fun i => i != 3), (.add [98] [], fun _ => true)], _, _, rfl,
    ⟨[0, 1], ⟨⟨[0], [1], ⟨by simp, [], rfl⟩, ⟨by simp, [], rfl⟩, rfl, rfl, rfl⟩, rfl, by simp, by simp⟩⟩, by decide⟩

/-- **C24** is false, third way: the clone of an empty map has no filter. -/
theorem filter_lost_by_clone (f : Str → Str → Bool) (h : Heap) (a ka va : Nat → Bool) (ha : a 0 = true) :
    clone h (create (some f) true) a ka va = C.ok (h, some ⟨none, none, 0, none⟩) := by
  simp only [clone, create, if_true]
  rw [if_neg (by simp [ha])]

/-- `NeverEmptied`: in the documented run no successful deletion and no failed insertion left the map empty. -/
inductive NeverEmptied : Filter → Pairs → List (Op × (Nat → Bool)) → List Res → Filter → Pairs → Prop
  | nil (f ps) : NeverEmptied f ps [] [] f ps
  | cons {f ps op al res f1 ps1 rest rs f2 ps2} : Allowed f ps op al res f1 ps1 →
      ((op.isDelete = true ∧ res = .OK) ∨ res = .ERROR → ps1 ≠ []) → NeverEmptied f1 ps1 rest rs f2 ps2 →
      NeverEmptied f ps ((op, al) :: rest) (res :: rs) f2 ps2

theorem mem_change {ps : Pairs} {k v : Str} {x : Str × Str} (hx : x ∈ change ps k v) : x ∈ ps ∨ x = (k, v) := by
  unfold change at hx
  obtain ⟨y, hy, rfl⟩ := List.mem_map.mp hx
  by_cases h : y.1 = k
  · rw [if_pos h]; exact Or.inr rfl
  · rw [if_neg h]; exact Or.inl hy

theorem allowed_filter {f : Filter} {ps op al res f1 ps1} (a : Allowed f ps op al res f1 ps1)
    (hne : (op.isDelete = true ∧ res = .OK) ∨ res = .ERROR → ps1 ≠ []) (hall : ∀ x ∈ ps, accepts f x.1 x.2) :
    f1 = f ∧ ∀ x ∈ ps1, accepts f x.1 x.2 := by
  rcases a with ⟨_, rfl, rfl⟩ | ⟨href, rfl, rfl, hf⟩ | ⟨_, rfl, _, _, rfl, hf⟩
  · exact ⟨rfl, hall⟩
  · constructor
    · rw [hf, if_neg]
      rintro ⟨h1, h2⟩
      exact hne (Or.inl ⟨h1, rfl⟩) h2
    · cases op with
      | add k v =>
        simp only [refusal] at href
        split at href
        · cases href
        · split at href
          · rename_i hacc
            intro x hx
            simp only [effect, List.mem_append, List.mem_singleton] at hx
            rcases hx with hx | rfl
            · exact hall x hx
            · exact hacc
          · cases href
      | addOrUpdate k v =>
        simp only [refusal] at href
        split at href
        · rename_i hacc
          intro x hx
          simp only [effect] at hx
          split at hx
          · rcases mem_change hx with hx | rfl
            · exact hall x hx
            · exact hacc
          · simp only [List.mem_append, List.mem_singleton] at hx
            rcases hx with hx | rfl
            · exact hall x hx
            · exact hacc
        · cases href
      | delete k =>
        intro x hx
        simp only [effect, remove] at hx
        exact hall x (List.mem_filter.mp hx).1
  · rcases hf with rfl | ⟨_, rfl⟩
    · exact ⟨rfl, hall⟩
    · exact absurd rfl (hne (Or.inr rfl))

/-- **C24**, the part that holds: as long as no deletion and no failed insertion leaves the map empty, the filter stays and
every pair in the map is one it accepts.  Missing: the statement for histories that do empty the map — it is false. -/
theorem filter_enforced_partial {f : Filter} {ps : Pairs} {calls rs f' ps'} (hr : NeverEmptied f ps calls rs f' ps')
    (hall : ∀ x ∈ ps, accepts f x.1 x.2) : f' = f ∧ ∀ x ∈ ps', accepts f x.1 x.2 := by
  induction hr with
  | nil => exact ⟨rfl, hall⟩
  | cons a hne _ ih =>
    obtain ⟨rfl, h1⟩ := allowed_filter a hne hall
    exact ih h1

/-- **C24**: even when the filter is lost, while a filter is present every pair in the map is one it accepts. -/
theorem filter_while_present {f : Filter} {ps : Pairs} {calls rs f' ps'} (hr : Run f ps calls rs f' ps')
    (hall : ∀ x ∈ ps, accepts f x.1 x.2) : ∀ x ∈ ps', accepts f' x.1 x.2 := by
  induction hr with
  | nil => exact hall
  | @cons f ps op al res f1 ps1 rest rs f2 ps2 a _ ih =>
    apply ih
    rcases a with ⟨h1, h2, h3⟩ | ⟨h1, h2, h3, h4⟩ | ⟨h1, h2, h3, h4, h5, h6⟩
    · subst h2; subst h3; exact hall
    · by_cases he : op.isDelete = true ∧ ps1 = []
      · rw [he.2]; simp
      · obtain ⟨e, hh⟩ := allowed_filter (al := al) (Or.inr (Or.inl ⟨h1, h2, h3, h4⟩)) (by
          rintro (h | h)
          · exact fun hp => he ⟨h.1, hp⟩
          · rw [h2] at h; cases h) hall
        rw [e]; exact hh
    · subst h5
      rcases h6 with rfl | ⟨rfl, _⟩
      · exact hall
      · intro x _ g hg; cases hg

/-- A clone has the filter of the original, unless the original is empty. -/
theorem clone_filter (h : Heap) (m : MAP) (ps : Pairs) (own : List Nat) (a ka va : Nat → Bool) (r : Rep h m ps own) (hne : ps ≠ [])
    (h' : Heap) (m' : MAP) (e : clone h (some m) a ka va = C.ok (h', some m')) : m'.filter = m.filter := by
  rcases clone_spec h m ps own a ka va r with ⟨h1, m1, own', e1, _, _, _, _, hf⟩ | ⟨h1, e1, _⟩
  · rw [e] at e1; cases e1; rw [hf, if_neg hne]
  · rw [e] at e1; cases e1

/-! ### Non-trivial instances -/

/-- A history that adds, updates (first failing for memory), deletes and re-adds; the final map has two pairs. -/
example : ∃ h' m' own, run [] (create none true)
    [(.add [97] [49], fun _ => true), (.add [98] [50], fun _ => true), (.addOrUpdate [97] [51, 51], fun i => i != 7),
     (.addOrUpdate [97] [51, 51], fun _ => true), (.add [98] [], fun _ => true), (.delete [99], fun _ => true),
     (.add [99] [52], fun i => i != 4), (.delete [98], fun i => i != 5), (.add [98] [53], fun _ => true)] =
      C.ok (h', some m', [.OK, .OK, .ERROR, .OK, .KEYEXISTS, .KEYNOTFOUND, .ERROR, .OK, .OK]) ∧
    Rep h' m' [([97], [51, 51]), ([98], [53])] own ∧ own = [0, 6, 4, 7] := by
  refine ⟨_, _, [0, 6, 4, 7], rfl, ⟨⟨[0, 6], [4, 7], ⟨by simp, [], rfl⟩, ⟨by simp, [], rfl⟩, rfl, rfl, rfl⟩, rfl, by simp, by simp⟩, rfl⟩

/-- `NeverEmptied` with a filter, an update and a rejection. -/
example : NeverEmptied (some (fun k _ => k == [97])) [] [(.add [97] [], fun _ => true), (.add [98] [], fun _ => true)] [.OK, .FILTER_REJECT]
    (some (fun k _ => k == [97])) [([97], [])] := by
  refine .cons (f1 := some (fun k _ => k == [97])) (ps1 := [([97], [])]) (Or.inr (Or.inl ⟨by simp [refusal, accepts], rfl, rfl, by simp [Op.isDelete]⟩)) (by simp [Op.isDelete]) ?_
  refine .cons (f1 := some (fun k _ => k == [97])) (ps1 := [([97], [])]) (Or.inl ⟨by simp [refusal, accepts], rfl, rfl⟩) (by simp [Op.isDelete]) (.nil _ _)

/-- The use after free: one pair, the pointer of its value. -/
example : addOrUpdate [some [97], some [49]] (some ⟨some [some (some 0)], some [some (some 1)], 1, none⟩) (some [97]) (some (.own 1)) (fun _ => true) = C.ub := rfl

end CUtil.Map
