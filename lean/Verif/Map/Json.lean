import Verif.Map.Props
import Verif.Strings.Props
set_option linter.unusedSimpArgs false
set_option linter.unusedVariables false
/-
C25: Map_ToJSON (/repo/src/map.c:604-700), over the model of STRING.
-/
namespace CUtil.Map

/-- A C string literal. -/
def lit (s : Str) : Mem := (zstr s).map some

/-- map.c:654: `(i>0) ? (STRING_concat(result, ",") == 0) : 1`. -/
def commaIf (i : Nat) (result : Option Mem) (a : Bool) : C (Option Mem × Bool) :=
  if 0 < i then Strings.concat result (.ext (lit [44])) a else C.ok (result, true)

/-- map.c:630-679: one iteration, the result is NULL when the loop is left; the temporaries `key` and `value` are deleted in
every branch and therefore not tracked.  `al` numbers the allocations of the iteration. -/
def jsonEntry (i : Nat) (result : Mem) (k v : Str) (al : Nat → Bool) : C (Option Mem) := do
  match ← Strings.new_JSON (some (lit k)) (al 0) (al 1) with
  | none => C.ok none
  | some key => do
    match ← Strings.new_JSON (some (lit v)) (al 2) (al 3) with
    | none => C.ok none
    | some value => do
      let (r, ok) ← commaIf i (some result) (al 4)
      if ok = false then C.ok none
      else do
        let (r, ok) ← Strings.concat_with_STRING r (some key) false (al 5)
        if ok = false then C.ok none
        else do
          let (r, ok) ← Strings.concat r (.ext (lit [58])) (al 6)
          if ok = false then C.ok none
          else do
            let (r, ok) ← Strings.concat_with_STRING r (some value) false (al 7)
            if ok = false then C.ok none else C.ok r

/-- map.c:627-680: the loop at index `i`, `n` entries left. -/
def jsonLoop (h : Heap) (m : MAP) (al : Nat → Nat → Bool) (i : Nat) (result : Mem) : Nat → C (Option Mem)
  | 0 => C.ok (some result)
  | n + 1 => do
    let p ← ptr m.keys i
    let k ← hget h p
    let p ← ptr m.values i
    let v ← hget h p
    match ← jsonEntry i result k v (al i) with
    | none => C.ok none
    | some r => jsonLoop h m al (i + 1) r n

/-- map.c:604-700 `Map_ToJSON`; `a 0`, `a 1` the construction, `a 2` the closing brace.  Reads `values[i]` before the key has
been converted; both are plain reads. -/
def toJSON (h : Heap) (m : Option MAP) (a : Nat → Bool) (al : Nat → Nat → Bool) : C (Option Mem) :=
  match m with
  | none => C.ok none
  | some m => do
    match ← Strings.construct (some (lit [123])) (a 0) (a 1) with
    | none => C.ok none
    | some result => do
      match ← jsonLoop h m al 0 result m.count with
      | none => C.ok none
      | some r => do
        let (r, ok) ← Strings.concat (some r) (.ext (lit [125])) (a 2)
        if ok = false then C.ok none else C.ok r

/-! ### Specification -/

/-- `"key":"value"`. -/
def member (x : Str × Str) : Str := Strings.jsonText x.1 ++ 58 :: Strings.jsonText x.2

/-- The documented text: the members separated by commas, between braces. -/
def jsonObject (ps : Pairs) : Str := 123 :: ((List.intercalate [44] (ps.map member)) ++ [125])

/-- A reader of JSON objects whose members are strings (RFC 8259 section 4, without insignificant white space); `n` bounds the
number of members.  -/
def readMembers : Nat → Str → Option (Pairs × Str)
  | 0, _ => none
  | n + 1, t =>
    match Strings.jsonString t with
    | none => none
    | some (k, t) =>
      match t with
      | [] => none
      | c :: t =>
        if c = 58 then
          match Strings.jsonString t with
          | none => none
          | some (v, t) =>
            match t with
            | [] => none
            | c :: t =>
              if c = 44 then (readMembers n t).map fun r => ((k, v) :: r.1, r.2)
              else if c = 125 then some ([(k, v)], t)
              else none
        else none

def readObject (t : Str) : Option (Pairs × Str) :=
  match t with
  | [] => none
  | c :: t =>
    if c = 123 then
      match t with
      | [] => none
      | c :: t' => if c = 125 then some ([], t') else readMembers (c :: t').length (c :: t')
    else none

def Ascii (ps : Pairs) : Prop := ∀ x ∈ ps, (∀ c ∈ x.1, c.toNat < 128) ∧ ∀ c ∈ x.2, c.toNat < 128

/-- The texts are C strings. -/
def NoNul (ps : Pairs) : Prop := ∀ x ∈ ps, (0 : UInt8) ∉ x.1 ∧ (0 : UInt8) ∉ x.2

/-! ### Helper lemmas -/

def entries (i : Nat) : Pairs → Str
  | [] => []
  | x :: ps => (if 0 < i then [44] else []) ++ (member x ++ entries (i + 1) ps)

theorem entries_pos (i : Nat) (hi : 0 < i) (x : Str × Str) (ps : Pairs) :
    member x ++ entries i ps = (List.intercalate [44] ((x :: ps).map member)) := by
  induction ps generalizing x i with
  | nil => simp [entries, List.intercalate]
  | cons y ps ih =>
    simp only [entries, if_pos hi]
    rw [ih (i + 1) (by omega) y]
    simp [List.intercalate]

theorem entries_zero (ps : Pairs) : entries 0 ps = (List.intercalate [44] (ps.map member)) := by
  cases ps with
  | nil => simp [entries, List.intercalate]
  | cons x ps => simp only [entries, Nat.lt_irrefl, if_false, List.nil_append]; exact entries_pos 1 (by omega) x ps

theorem cstr_lit (s : Str) (h : (0 : UInt8) ∉ s) : cstr (lit s) = C.ok s := by
  have : lit s = s.map some ++ some 0 :: [] := by simp [lit, zstr]
  rw [this]; exact cstr_zstr _ _ h

/-- Appending: the text grows, or memory ran out. -/
def Grows (r : C (Option Mem × Bool)) (s t : Str) (a : Bool) : Prop :=
  (∃ b', r = C.ok (some b', true) ∧ cstr b' = C.ok (s ++ t)) ∨
  (∃ b', r = C.ok (b', false) ∧ (a = false ∨ Strings.SIZE_MAX < s.length + t.length + 1))

theorem grows_of_good {r : C (Option Mem × Bool)} {b : Mem} {s t : Str} {a : Bool}
    (g : Strings.Good r b (Strings.outcome (.concat t) s a)) : Grows r s t a := by
  obtain ⟨b', f, e, hc, hf, _⟩ := g
  unfold Strings.outcome at hc hf
  by_cases hx : Strings.needs (.concat t) s ≠ 0 ∧ (a = false ∨ Strings.SIZE_MAX < Strings.needs (.concat t) s)
  · rw [if_pos hx] at hf
    right
    refine ⟨some b', by rw [e, hf], ?_⟩
    simpa [Strings.needs] using hx.2
  · rw [if_neg hx] at hf hc
    left
    exact ⟨b', by rw [e, hf], hc⟩

theorem commaIf_grows (i : Nat) (b : Mem) (s : Str) (a : Bool) (hs : cstr b = C.ok s) :
    Grows (commaIf i (some b) a) s (if 0 < i then [44] else []) a := by
  unfold commaIf
  by_cases h : 0 < i
  · rw [if_pos h, if_pos h]
    exact grows_of_good (Strings.good_concat b _ s [44] a hs (cstr_lit _ (by decide)))
  · rw [if_neg h, if_neg h]
    exact Or.inl ⟨b, rfl, by rw [List.append_nil]; exact hs⟩

theorem jsonEntry_spec (i : Nat) (b : Mem) (s k v : Str) (al : Nat → Bool) (hs : cstr b = C.ok s) (hk : (0 : UInt8) ∉ k) (hv : (0 : UInt8) ∉ v) :
    (∃ b', jsonEntry i b k v al = C.ok (some b') ∧ cstr b' = C.ok (s ++ ((if 0 < i then [44] else []) ++ member (k, v))) ∧ Ascii [(k, v)]) ∨
    (jsonEntry i b k v al = C.ok none ∧ ((∃ j, al j = false) ∨ ¬ Ascii [(k, v)] ∨
      Strings.SIZE_MAX < (s ++ ((if 0 < i then [44] else []) ++ member (k, v))).length + 1)) := by
  unfold jsonEntry
  have hml : (member (k, v)).length = (Strings.jsonText k).length + 1 + (Strings.jsonText v).length := by
    simp [member]; omega
  have hlen : (s ++ ((if 0 < i then [44] else []) ++ member (k, v))).length =
    s.length + (if 0 < i then [44] else ([] : Str)).length + ((Strings.jsonText k).length + 1 + (Strings.jsonText v).length) := by
    simp only [List.length_append, hml]; omega
  obtain ⟨rk, ek, nk, sk⟩ := Strings.new_JSON_spec (lit k) k (al 0) (al 1) (cstr_lit k hk)
  obtain ⟨rv, ev, nv, sv⟩ := Strings.new_JSON_spec (lit v) v (al 2) (al 3) (cstr_lit v hv)
  rw [ek, C.ok_bind]
  cases rk with
  | none =>
    right
    refine ⟨rfl, ?_⟩
    have := nk.mp rfl
    by_cases h0 : al 0 = true
    · by_cases h1 : al 1 = true
      · by_cases hc : ∀ c ∈ k, c.toNat < 128
        · right; right
          rw [hlen]
          have : ¬ (Strings.jsonText k).length + 1 ≤ Strings.SIZE_MAX := fun h => this ⟨hc, h0, h1, h⟩
          omega
        · right; left
          intro ha
          exact hc (ha (k, v) (by simp)).1
      · exact Or.inl ⟨1, by simpa using h1⟩
    · exact Or.inl ⟨0, by simpa using h0⟩
  | some key =>
    dsimp only
    rw [ev, C.ok_bind]
    have hka : ∀ c ∈ k, c.toNat < 128 := by
      have : ¬ ¬ _ := fun h => by simpa using nk.mpr h
      exact (Classical.not_not.mp this).1
    cases rv with
    | none =>
      right
      refine ⟨rfl, ?_⟩
      have := nv.mp rfl
      by_cases h0 : al 2 = true
      · by_cases h1 : al 3 = true
        · by_cases hc : ∀ c ∈ v, c.toNat < 128
          · right; right
            rw [hlen]
            have : ¬ (Strings.jsonText v).length + 1 ≤ Strings.SIZE_MAX := fun h => this ⟨hc, h0, h1, h⟩
            omega
          · right; left
            intro ha
            exact hc (ha (k, v) (by simp)).2
        · exact Or.inl ⟨3, by simpa using h1⟩
      · exact Or.inl ⟨2, by simpa using h0⟩
    | some value =>
      dsimp only
      have hva : ∀ c ∈ v, c.toNat < 128 := by
        have : ¬ ¬ _ := fun h => by simpa using nv.mpr h
        exact (Classical.not_not.mp this).1
      have ck := (sk key rfl).2
      have cv := (sv value rfl).2
      rcases commaIf_grows i b s (al 4) hs with ⟨b1, e1, c1⟩ | ⟨b1, e1, hf⟩
      · rw [e1, C.ok_bind]
        dsimp only
        rw [if_neg (by simp)]
        rcases grows_of_good (Strings.good_concat_with_STRING b1 key _ _ (al 5) c1 ck) with ⟨b2, e2, c2⟩ | ⟨b2, e2, hf⟩
        · rw [e2, C.ok_bind]
          dsimp only
          rw [if_neg (by simp)]
          rcases grows_of_good (Strings.good_concat b2 (lit [58]) _ [58] (al 6) c2 (cstr_lit _ (by decide))) with ⟨b3, e3, c3⟩ | ⟨b3, e3, hf⟩
          · rw [e3, C.ok_bind]
            dsimp only
            rw [if_neg (by simp)]
            rcases grows_of_good (Strings.good_concat_with_STRING b3 value _ _ (al 7) c3 cv) with ⟨b4, e4, c4⟩ | ⟨b4, e4, hf⟩
            · rw [e4, C.ok_bind]
              dsimp only
              rw [if_neg (by simp)]
              left
              refine ⟨b4, rfl, ?_, ?_⟩
              · rw [c4]; simp [member]
              · intro x hx
                simp at hx
                subst hx
                exact ⟨hka, hva⟩
            · rw [e4, C.ok_bind]
              right
              refine ⟨rfl, ?_⟩
              rcases hf with hf | hf
              · exact Or.inl ⟨7, hf⟩
              · right; right; rw [hlen]; simp only [List.length_append, List.length_singleton] at hf; omega
          · rw [e3, C.ok_bind]
            right
            refine ⟨rfl, ?_⟩
            rcases hf with hf | hf
            · exact Or.inl ⟨6, hf⟩
            · right; right; rw [hlen]; simp only [List.length_append, List.length_singleton] at hf; omega
        · rw [e2, C.ok_bind]
          right
          refine ⟨rfl, ?_⟩
          rcases hf with hf | hf
          · exact Or.inl ⟨5, hf⟩
          · right; right; rw [hlen]; simp only [List.length_append] at hf; omega
      · rw [e1, C.ok_bind]
        right
        refine ⟨rfl, ?_⟩
        rcases hf with hf | hf
        · exact Or.inl ⟨4, hf⟩
        · right; right; rw [hlen]; omega

theorem jsonLoop_spec (h : Heap) (m : MAP) (al : Nat → Nat → Bool) : ∀ (ps : Pairs) (ks vs k0 v0 : List Nat) (st st' : Cells) (i : Nat) (b : Mem) (s : Str),
    m.keys = some ((k0 ++ ks).map pc ++ st) → m.values = some ((v0 ++ vs).map pc ++ st') → k0.length = i → v0.length = i →
    ks.map (h[·]?) = ps.map (fun x => some (some x.1)) → vs.map (h[·]?) = ps.map (fun x => some (some x.2)) →
    NoNul ps → cstr b = C.ok s →
    (∃ b', jsonLoop h m al i b ps.length = C.ok (some b') ∧ cstr b' = C.ok (s ++ entries i ps) ∧ Ascii ps) ∨
    (jsonLoop h m al i b ps.length = C.ok none ∧ ((∃ i j, al i j = false) ∨ ¬ Ascii ps ∨ Strings.SIZE_MAX < (s ++ entries i ps).length + 1)) := by
  intro ps
  induction ps with
  | nil =>
    intro ks vs k0 v0 st st' i b s hk hv hi hi' hkm hvm hz hs
    left
    exact ⟨b, rfl, by simpa [entries] using hs, by intro x hx; simp at hx⟩
  | cons x ps ih =>
    obtain ⟨k, v⟩ := x
    intro ks vs k0 v0 st st' i b s hk hv hi hi' hkm hvm hz hs
    obtain ⟨p, ks, rfl, hp, hkm⟩ := List.map_eq_cons_iff.mp hkm
    obtain ⟨q, vs, rfl, hq, hvm⟩ := List.map_eq_cons_iff.mp hvm
    have hkp : ptr m.keys i = C.ok p := by
      rw [hk]
      have : (k0 ++ p :: ks).map pc ++ st = k0.map pc ++ pc p :: (ks.map pc ++ st) := by simp
      rw [this]; exact ptr_at _ _ _ _ (by simp [hi])
    have hvp : ptr m.values i = C.ok q := by
      rw [hv]
      have : (v0 ++ q :: vs).map pc ++ st' = v0.map pc ++ pc q :: (vs.map pc ++ st') := by simp
      rw [this]; exact ptr_at _ _ _ _ (by simp [hi'])
    simp only [List.length_cons, jsonLoop]
    rw [hkp, C.ok_bind, hget_of hp, C.ok_bind, hvp, C.ok_bind, hget_of hq, C.ok_bind]
    have hz1 := hz (k, v) (by simp)
    have ha : Ascii ((k, v) :: ps) ↔ Ascii [(k, v)] ∧ Ascii ps := by simp [Ascii]
    have het : s ++ entries i ((k, v) :: ps) = (s ++ ((if 0 < i then [44] else []) ++ member (k, v))) ++ entries (i + 1) ps := by
      simp [entries]
    rcases jsonEntry_spec i b s k v (al i) hs hz1.1 hz1.2 with ⟨b1, e1, c1, a1⟩ | ⟨e1, hf⟩
    · rw [e1, C.ok_bind]
      dsimp only
      rcases ih ks vs (k0 ++ [p]) (v0 ++ [q]) st st' (i + 1) b1 _ (by simpa using hk) (by simpa using hv) (by simp [hi]) (by simp [hi'])
        hkm hvm (fun x hx => hz x (by simp [hx])) c1 with ⟨b2, e2, c2, a2⟩ | ⟨e2, hf⟩
      · left
        exact ⟨b2, e2, by rw [het]; exact c2, ha.mpr ⟨a1, a2⟩⟩
      · right
        refine ⟨e2, ?_⟩
        rcases hf with hf | hf | hf
        · exact Or.inl hf
        · exact Or.inr (Or.inl (fun h => hf (ha.mp h).2))
        · right; right; rw [het]; exact hf
    · rw [e1, C.ok_bind]
      right
      refine ⟨rfl, ?_⟩
      rcases hf with ⟨j, hf⟩ | hf | hf
      · exact Or.inl ⟨i, j, hf⟩
      · exact Or.inr (Or.inl (fun h => hf (ha.mp h).1))
      · right; right
        rw [het, List.length_append]
        omega

theorem jsonString_text (s t : Str) (hc : ∀ c ∈ s, c.toNat < 128) : Strings.jsonString (Strings.jsonText s ++ t) = some (s, t) := by
  have : Strings.jsonText s ++ t = 34 :: (s.flatMap Strings.esc ++ 34 :: t) := by simp [Strings.jsonText]
  rw [this]
  simp only [Strings.jsonString]
  exact Strings.jsonBody_flatMap s t hc

theorem readMembers_spec (x : Str × Str) (ps : Pairs) (t : Str) (n : Nat) (hn : ps.length < n) (ha : Ascii (x :: ps)) :
    readMembers n ((List.intercalate [44] ((x :: ps).map member)) ++ 125 :: t) = some (x :: ps, t) := by
  induction ps generalizing x n with
  | nil =>
    obtain ⟨n, rfl⟩ : ∃ k, n = k + 1 := ⟨n - 1, by omega⟩
    have h := ha x (by simp)
    have e : (List.intercalate [44] ([x].map member)) ++ 125 :: t = Strings.jsonText x.1 ++ 58 :: (Strings.jsonText x.2 ++ 125 :: t) := by
      simp [List.intercalate, member]
    rw [e]
    simp only [readMembers]
    rw [jsonString_text _ _ h.1]
    dsimp only
    rw [if_pos rfl, jsonString_text _ _ h.2]
    dsimp only
    rw [if_neg (by decide), if_pos rfl]
  | cons y ps ih =>
    obtain ⟨n, rfl⟩ : ∃ k, n = k + 1 := ⟨n - 1, by omega⟩
    have h := ha x (by simp)
    have e : (List.intercalate [44] ((x :: y :: ps).map member)) ++ 125 :: t = Strings.jsonText x.1 ++ 58 :: (Strings.jsonText x.2 ++ 44 ::
        ((List.intercalate [44] ((y :: ps).map member)) ++ 125 :: t)) := by
      simp [List.intercalate, member]
    rw [e]
    simp only [readMembers]
    rw [jsonString_text _ _ h.1]
    dsimp only
    rw [if_pos rfl, jsonString_text _ _ h.2]
    dsimp only
    rw [if_pos rfl, ih y n (by simp at hn; omega) (fun z hz => ha z (by simp [List.mem_cons.mp hz]))]
    rfl

/-! ### The property -/

/-- **C25**: what Map_ToJSON yields: the documented text, or NULL — and NULL only if memory ran out, a text is not ASCII or the
text would not fit the address space. -/
theorem toJSON_spec (h : Heap) (m : MAP) (ps : Pairs) (own : List Nat) (a : Nat → Bool) (al : Nat → Nat → Bool)
    (r : Rep h m ps own) (hz : NoNul ps) :
    (∃ b, toJSON h (some m) a al = C.ok (some b) ∧ cstr b = C.ok (jsonObject ps) ∧ Ascii ps) ∨
    (toJSON h (some m) a al = C.ok none ∧
      ((∃ i, a i = false) ∨ (∃ i j, al i j = false) ∨ ¬ Ascii ps ∨ Strings.SIZE_MAX < (jsonObject ps).length + 1)) := by
  have hobj : jsonObject ps = ([123] ++ entries 0 ps) ++ [125] := by
    unfold jsonObject; rw [entries_zero]; simp
  simp only [toJSON]
  obtain ⟨r0, e0, _, n0, s0⟩ := Strings.construct_spec (lit [123]) [123] (a 0) (a 1) (cstr_lit _ (by decide))
  rw [e0, C.ok_bind]
  cases r0 with
  | none =>
    right
    refine ⟨rfl, Or.inl ?_⟩
    have := n0.mp rfl
    by_cases h0 : a 0 = true
    · by_cases h1 : a 1 = true
      · exact absurd ⟨h0, h1, by simp [Strings.SIZE_MAX]⟩ this
      · exact ⟨1, by simpa using h1⟩
    · exact ⟨0, by simpa using h0⟩
  | some b0 =>
    dsimp only
    have c0 := s0 b0 rfl
    obtain ⟨⟨kids, vids, ka, va, rfl, hkm, hvm⟩, hc, hnd, hkn⟩ := r
    have hkl : kids.length = ps.length := by simpa using len_of_map hkm
    have hvl : vids.length = ps.length := by simpa using len_of_map hvm
    have key : (∃ b', jsonLoop h m al 0 b0 ps.length = C.ok (some b') ∧ cstr b' = C.ok ([123] ++ entries 0 ps) ∧ Ascii ps) ∨
      (jsonLoop h m al 0 b0 ps.length = C.ok none ∧ ((∃ i j, al i j = false) ∨ ¬ Ascii ps ∨ Strings.SIZE_MAX < ([123] ++ entries 0 ps).length + 1)) := by
      by_cases hp : ps = []
      · subst hp
        exact Or.inl ⟨b0, rfl, by simpa [entries] using c0, by intro x hx; simp at hx⟩
      · have hpos : 0 < ps.length := List.length_pos_iff.mpr hp
        obtain ⟨st, e1⟩ := arr_some ka (by intro e; rw [e] at hkl; simp at hkl; omega)
        obtain ⟨st', e2⟩ := arr_some va (by intro e; rw [e] at hvl; simp at hvl; omega)
        exact jsonLoop_spec h m al ps kids vids [] [] st st' 0 b0 [123] e1 e2 rfl rfl hkm hvm hz c0
    rw [hc]
    rcases key with ⟨b1, e1, c1, a1⟩ | ⟨e1, hf⟩
    · rw [e1, C.ok_bind]
      dsimp only
      rcases grows_of_good (Strings.good_concat b1 (lit [125]) _ [125] (a 2) c1 (cstr_lit _ (by decide))) with ⟨b2, e2, c2⟩ | ⟨b2, e2, hf⟩
      · rw [e2, C.ok_bind]
        left
        refine ⟨b2, rfl, by rw [hobj]; exact c2, a1⟩
      · rw [e2, C.ok_bind]
        right
        refine ⟨rfl, ?_⟩
        rcases hf with hf | hf
        · exact Or.inl ⟨2, hf⟩
        · right; right; right
          rw [hobj]; simp only [List.length_append, List.length_singleton] at hf ⊢; omega
    · rw [e1, C.ok_bind]
      right
      refine ⟨rfl, ?_⟩
      rcases hf with hf | hf | hf
      · exact Or.inr (Or.inl hf)
      · exact Or.inr (Or.inr (Or.inl hf))
      · right; right; right
        rw [hobj]; simp only [List.length_append, List.length_singleton] at hf ⊢; omega

/-- **C25**: parsing the text gives back the map. -/
theorem jsonObject_reads (ps : Pairs) (ha : Ascii ps) : readObject (jsonObject ps) = some (ps, []) := by
  cases ps with
  | nil => rfl
  | cons x ps =>
    unfold jsonObject readObject
    dsimp only
    rw [if_pos rfl]
    have hcons : ∃ t, (List.intercalate [44] ((x :: ps).map member)) ++ [125] = 34 :: t := by
      cases ps with
      | nil => exact ⟨_, by simp [List.intercalate, member, Strings.jsonText]; rfl⟩
      | cons y ps => exact ⟨_, by simp [List.intercalate, member, Strings.jsonText]; rfl⟩
    have hlen : ps.length < ((List.intercalate [44] ((x :: ps).map member)) ++ [125]).length := by
      clear hcons ha
      induction ps generalizing x with
      | nil => simp
      | cons y ps ih =>
        have := ih y
        have e : (List.intercalate [44] ((x :: y :: ps).map member)) ++ [125] = member x ++ 44 :: ((List.intercalate [44] ((y :: ps).map member)) ++ [125]) := by
          simp [List.intercalate]
        rw [e, List.length_append, List.length_cons]
        simp only [List.length_cons]
        omega
    have hr := readMembers_spec x ps [] _ hlen ha
    obtain ⟨t, ht⟩ := hcons
    rw [ht] at hr ⊢
    dsimp only
    rw [if_neg (by decide)]
    exact hr

/-- **C25**: with memory, an ASCII map whose text fits is always exported. -/
theorem toJSON_ok (h : Heap) (m : MAP) (ps : Pairs) (own : List Nat) (a : Nat → Bool) (al : Nat → Nat → Bool)
    (r : Rep h m ps own) (hz : NoNul ps) (ha : Ascii ps) (hl : (jsonObject ps).length + 1 ≤ Strings.SIZE_MAX)
    (h1 : ∀ i, a i = true) (h2 : ∀ i j, al i j = true) :
    ∃ b, toJSON h (some m) a al = C.ok (some b) ∧ cstr b = C.ok (jsonObject ps) ∧ readObject (jsonObject ps) = some (ps, []) := by
  rcases toJSON_spec h m ps own a al r hz with ⟨b, e, c, _⟩ | ⟨_, ⟨i, hf⟩ | ⟨i, j, hf⟩ | hf | hf⟩
  · exact ⟨b, e, c, jsonObject_reads ps ha⟩
  · rw [h1] at hf; cases hf
  · rw [h2] at hf; cases hf
  · exact absurd ha hf
  · omega

/- Concrete cases: `{"a":"1","b":"\""}`. -/
example : toJSON [some [97], some [49], some [98], some [34]] (some ⟨some [some (some 0), some (some 2)], some [some (some 1), some (some 3)], 2, none⟩)
    (fun _ => true) (fun _ _ => true) =
    C.ok (some (lit [123, 34, 97, 34, 58, 34, 49, 34, 44, 34, 98, 34, 58, 34, 92, 34, 34, 125])) := by decide +kernel
example : jsonObject [([97], [49]), ([98], [34])] = [123, 34, 97, 34, 58, 34, 49, 34, 44, 34, 98, 34, 58, 34, 92, 34, 34, 125] := by decide +kernel
example : readObject [123, 34, 97, 34, 58, 34, 49, 34, 44, 34, 98, 34, 58, 34, 92, 34, 34, 125] = some ([([97], [49]), ([98], [34])], []) := by decide +kernel
example : Rep [some [97], some [49], some [98], some [34]] ⟨some [some (some 0), some (some 2)], some [some (some 1), some (some 3)], 2, none⟩
    [([97], [49]), ([98], [34])] [0, 2, 1, 3] :=
  ⟨⟨[0, 2], [1, 3], ⟨by simp, [], rfl⟩, ⟨by simp, [], rfl⟩, rfl, rfl, rfl⟩, rfl, by simp, by simp⟩

end CUtil.Map
