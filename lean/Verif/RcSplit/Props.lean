import Verif.RcSplit.Lemmas
set_option linter.unusedSimpArgs false
set_option linter.unusedVariables false
/-
C36: splitting an RC_STRING by a character.  C57 (part): `rc_string_array_destroy` releases
one reference per non-NULL element.
-/
namespace CUtil.RcSplit
open CUtil RcString Spec

theorem mapM_ok {α β : Type} {f : α → C β} : ∀ {l : List α} {r : List β}, l.length = r.length →
    (∀ (i : Nat) a b, l[i]? = some a → r[i]? = some b → f a = C.ok b) → l.mapM f = C.ok r := by
  intro l
  induction l with
  | nil => intro r hl _; cases r with
    | nil => rfl
    | cons _ _ => simp at hl
  | cons a l ih =>
    intro r hl h
    cases r with
    | nil => simp at hl
    | cons b r =>
      rw [List.mapM_cons, h 0 a b rfl rfl, C.ok_bind, ih (by simpa using hl) (fun i x y hx hy => h (i + 1) x y hx hy), C.ok_bind]
      rfl

theorem built_slots (n N : Nat) (c0 : Nat → Option Cell) (ts : List (List UInt8)) :
    built n c0 N ts (n + 1) = some (.slots ((List.range ts.length).map (fun j => some (n + 3 + 2 * j)) ++ List.replicate (N - ts.length) none)) := by
  unfold built; rw [if_neg (by omega), if_neg (by omega), if_pos rfl]

theorem built_header (n N : Nat) (c0 : Nat → Option Cell) (ts : List (List UInt8)) :
    built n c0 N ts n = some (.header N (some (n + 1))) := by
  unfold built; rw [if_neg (by omega), if_pos rfl]

theorem built_old {n N : Nat} {c0 : Nat → Option Cell} {ts : List (List UInt8)} {q : Nat} (h : q < n) :
    built n c0 N ts q = c0 q := by
  unfold built; rw [if_pos h]

theorem built_block {n N : Nat} {c0 : Nat → Option Cell} {ts : List (List UInt8)} {j : Nat} {t : List UInt8} (h : ts[j]? = some t) :
    built n c0 N ts (n + 2 + 2 * j) = some (.raw (zt t)) := by
  unfold built
  rw [if_neg (by omega), if_neg (by omega), if_neg (by omega), if_pos (by omega), show (n + 2 + 2 * j - n - 2) / 2 = j by omega, h]; rfl

theorem built_handle {n N : Nat} {c0 : Nat → Option Cell} {ts : List (List UInt8)} {j : Nat} (h : j < ts.length) :
    built n c0 N ts (n + 3 + 2 * j) = some (.obj ⟨.moved (n + 2 + 2 * j), 1, false⟩) := by
  unfold built
  rw [if_neg (by omega), if_neg (by omega), if_neg (by omega), if_neg (by omega), show (n + 3 + 2 * j - n - 3) / 2 = j by omega,
    List.getElem?_eq_getElem h]
  have : n + 3 + 2 * j - 1 = n + 2 + 2 * j := by omega
  rw [this]; rfl

/-- The array and the pieces are released completely. -/
theorem destroy_built {h : Heap} {n N : Nat} {c0 : Nat → Option Cell} {ts : List (List UInt8)} (hc : h.cell = built n c0 N ts)
    (hN : ts.length ≤ N) (hf : ∀ q, n ≤ q → c0 q = none) :
    ∃ h', arrayDestroy h (some n) = C.ok h' ∧ ∀ q, h'.cell q = c0 q := by
  have hlen : ((List.range ts.length).map (fun j => some (n + 3 + 2 * j)) ++ List.replicate (N - ts.length) (none : Option Nat)).length = N := by
    simp; omega
  have hh : handles ((List.range ts.length).map (fun j => some (n + 3 + 2 * j)) ++ List.replicate (N - ts.length) none) =
      (List.range ts.length).map (fun j => n + 3 + 2 * j) := by
    rw [handles_append]
    have h1 : handles (List.replicate (N - ts.length) none) = [] := by simp [handles, List.filterMap_replicate]
    have h2 : handles ((List.range ts.length).map (fun j => some (n + 3 + 2 * j))) = (List.range ts.length).map (fun j => n + 3 + 2 * j) := by
      unfold handles
      rw [List.filterMap_map]
      have : (id ∘ fun j => some (n + 3 + 2 * j)) = fun j => some (n + 3 + 2 * j) := rfl
      rw [this]
      rw [List.filterMap_eq_map']
    rw [h1, h2, List.append_nil]
  have hnd : ((List.range ts.length).map (fun j => n + 3 + 2 * j)).Nodup := by
    rw [List.Nodup, List.pairwise_map]
    exact List.Pairwise.imp (fun {a b} (hab : a ≠ b) => by omega) List.nodup_range
  have hmem : ∀ p, p ∈ (List.range ts.length).map (fun j => n + 3 + 2 * j) ↔ ∃ j, j < ts.length ∧ p = n + 3 + 2 * j := by
    intro p; simp only [List.mem_map, List.mem_range]
    constructor
    · rintro ⟨j, h1, h2⟩; exact ⟨j, h1, h2.symm⟩
    · rintro ⟨j, h1, h2⟩; exact ⟨j, h1, h2.symm⟩
  have hcount : ∀ p, p ∈ (List.range ts.length).map (fun j => n + 3 + 2 * j) →
      ((List.range ts.length).map (fun j => n + 3 + 2 * j)).count p = 1 := by
    intro p hp
    exact Nat.le_antisymm (List.nodup_iff_count.1 hnd p) (List.count_pos_iff.2 hp)
  have hw : Wf h.cell (handles ((List.range ts.length).map (fun j => some (n + 3 + 2 * j)) ++ List.replicate (N - ts.length) none)) := by
    rw [hh]
    intro p hp
    obtain ⟨j, hj, rfl⟩ := (hmem p).1 hp
    refine ⟨_, by rw [hc]; exact built_handle hj, rfl, by rw [hcount _ hp]; exact Nat.le_refl _, ?_⟩
    intro b hb
    cases hb
    refine ⟨⟨_, by rw [hc]; exact built_block (List.getElem?_eq_getElem hj)⟩, ?_⟩
    intro q o' hq hq' hk
    obtain ⟨i, hi, rfl⟩ := (hmem q).1 hq
    rw [hc, built_handle hi] at hq'
    cases hq'
    simp only [Kind.moved.injEq] at hk
    omega
  obtain ⟨h', e1, e2, e3, e4, c, e5, e6⟩ := destroy_eq (a := n) (arr := n + 1) hw (by rw [hc, built_header, hlen]) (by rw [hc, built_slots])
  refine ⟨h', e1, ?_⟩
  rw [hh, hc] at e5
  intro q
  by_cases h1 : q < n
  · rw [e6 q (by omega) (by omega), e5.rest q (by omega) ?_ ?_, built_old h1]
    · rw [hmem]; rintro ⟨j, _, h2⟩; omega
    · intro p o hp hp' hk
      obtain ⟨j, hj, rfl⟩ := (hmem p).1 hp
      rw [built_handle hj] at hp'; cases hp'
      simp only [Kind.moved.injEq] at hk; omega
  · rw [hf q (by omega)]
    by_cases h2 : q = n
    · rw [h2]; exact e3
    by_cases h3 : q = n + 1
    · rw [h3]; exact e4
    rw [e6 q h2 h3]
    have hmod : (∃ j, q = n + 2 + 2 * j) ∨ ∃ j, q = n + 3 + 2 * j := by
      rcases Nat.mod_two_eq_zero_or_one (q - n) with h | h
      · exact Or.inl ⟨(q - n - 2) / 2, by omega⟩
      · exact Or.inr ⟨(q - n - 3) / 2, by omega⟩
    rcases hmod with ⟨j, hj⟩ | ⟨j, hj⟩
    · rcases Nat.lt_or_ge j ts.length with hlt | hge
      · have hp := (hmem (n + 3 + 2 * j)).2 ⟨j, hlt, rfl⟩
        refine e5.block (n + 3 + 2 * j) _ q hp (built_handle hlt) ?_ ?_
        · rw [hj]
        · rw [hcount _ hp]
      · rw [e5.rest q h3 ?_ ?_, built_new (by omega)]
        · rw [hmem]; rintro ⟨i, _, h4⟩; omega
        · intro p o hp hp' hk
          obtain ⟨i, hi, rfl⟩ := (hmem p).1 hp
          rw [built_handle hi] at hp'; cases hp'
          simp only [Kind.moved.injEq] at hk; omega
    · rcases Nat.lt_or_ge j ts.length with hlt | hge
      · have hp := (hmem (n + 3 + 2 * j)).2 ⟨j, hlt, rfl⟩
        rw [hj]
        exact e5.gone _ _ hp (built_handle hlt) (by rw [hcount _ hp])
      · rw [e5.rest q h3 ?_ ?_, built_new (by omega)]
        · rw [hmem]; rintro ⟨i, hi, h4⟩; omega
        · intro p o hp hp' hk
          obtain ⟨i, hi, rfl⟩ := (hmem p).1 hp
          rw [built_handle hi] at hp'; cases hp'
          simp only [Kind.moved.injEq] at hk; omega

theorem arrayCreate_eq {h : Heap} {N : Nat} (hf : ∀ q, h.next ≤ q → h.cell q = none) (hN : 0 < N) (a1 a2 : Bool) :
    (a1 = true ∧ a2 = true ∧ arrayCreate h N a1 a2 = C.ok (some h.next, { h with next := h.next + 2, cell := built h.next h.cell N [] })) ∨
    ((a1 = false ∨ a2 = false) ∧ ∃ h', arrayCreate h N a1 a2 = C.ok (none, h') ∧ h'.cell = h.cell) := by
  unfold arrayCreate
  cases a1 with
  | false => right; exact ⟨Or.inl rfl, h, rfl, rfl⟩
  | true =>
    rw [if_neg (by simp)]
    dsimp only [malloc]
    rw [if_pos hN]
    cases a2 with
    | false =>
      right
      refine ⟨Or.inr rfl, { next := h.next + 1, cell := h.cell, log := .free h.next :: h.log }, ?_, rfl⟩
      rw [if_pos rfl]
      unfold free
      simp only [setCell_self, C.ok_bind]
      congr 3
      funext q
      unfold setCell
      by_cases hq : q = h.next
      · rw [if_pos hq, hq, hf h.next (Nat.le_refl _)]
      · rw [if_neg hq, if_neg hq]
    | true =>
      left
      refine ⟨rfl, rfl, ?_⟩
      rw [if_neg (by simp)]
      congr 3
      funext q
      unfold setCell built
      by_cases h0 : q < h.next
      · rw [if_neg (by omega), if_neg (by omega), if_neg (by omega), if_pos h0]
      · rw [if_neg h0]
        by_cases h1 : q = h.next
        · rw [if_pos h1, if_pos h1]
        · rw [if_neg h1, if_neg h1, if_neg h1]
          by_cases h2 : q = h.next + 1
          · rw [if_pos h2, if_pos h2]; simp
          · rw [if_neg h2, if_neg h2, hf q (by omega)]; simp

/-- C36: for every string with fewer than 2^32 - 1 delimiters, every delimiter and all allocation
outcomes, splitting either gives NULL, leaving the heap as it was, or an array of strings whose
texts are the string split at the delimiter; the source string is kept, nothing else is touched,
and destroying the array gives the heap back as it was. -/
theorem split_partial {h : Heap} {p : Nat} {s : List UInt8} (ho : Owns h p s) (d : UInt8) (al : Alloc)
    (hn : s.count d + 1 < 4294967296) :
    ∃ r h', split h (some p) d al = C.ok (r, h') ∧
      (r = none → (∀ q, h'.cell q = h.cell q) ∧
        (al.hdr = false ∨ al.arr = false ∨ ∃ i, i < s.count d + 1 ∧ (al.piece i = false ∨ al.handle i = false))) ∧
      (∀ a, r = some a → h.cell a = none ∧ ∃ ps pieces, elements h' a = C.ok ps ∧ ps.mapM (content h') = C.ok pieces ∧
        IsSplit d s pieces ∧ content h' p = C.ok s ∧ (∀ q, q ≠ p → h.cell q ≠ none → h'.cell q = h.cell q) ∧
        ∃ h'', arrayDestroy h' (some a) = C.ok h'' ∧ ∀ q, h''.cell q = h.cell q) ∧
      (al.hdr = true → al.arr = true → (∀ i, i < s.count d + 1 → al.piece i = true ∧ al.handle i = true) → r ≠ none) := by
  obtain ⟨hf, ⟨k, c, hcp, hblk⟩, htext⟩ := ho
  have hpn : p < h.next := by
    rcases Nat.lt_or_ge p h.next with h1 | h1
    · exact h1
    · rw [hf p h1] at hcp; cases hcp
  have hgo := getObj_eq hcp rfl
  unfold content at htext
  rw [hgo, C.ok_bind] at htext
  cases hm : textMem h ⟨k, c + 1, false⟩ with
  | ub => rw [hm] at htext; cases htext
  | ok m =>
  rw [hm, C.ok_bind] at htext
  obtain ⟨h0, junk, hmj⟩ := cstr_inv htext
  have hnum : add32 (countLoop d s 0) 1 = s.count d + 1 := by
    rw [countLoop_eq d s 0 (by omega), Nat.zero_add, Nat.mod_eq_of_lt (by omega), add32_eq (by simp only [Nat.reducePow]; omega)]
  have htm : ∀ (h' : Heap), (∀ b m, h.cell b = some (.raw m) → h'.cell b = h.cell b) → ∀ c',
      h'.cell p = some (.obj ⟨k, c', false⟩) → content h' p = C.ok s := by
    intro h' hh c' hc'
    unfold content
    rw [getObj_eq hc' rfl, C.ok_bind]
    have : textMem h' ⟨k, c', false⟩ = C.ok m := by
      rw [← hm]
      unfold textMem
      cases k with
      | copied _ => rfl
      | moved b =>
        obtain ⟨m', hb⟩ := hblk b rfl
        dsimp only
        rw [hh b m' hb]
      | custom t f c => rfl
      | ptr x f c => rfl
    rw [this, C.ok_bind, htext]
  unfold split
  dsimp only
  rw [hgo, C.ok_bind, hm, C.ok_bind, htext, C.ok_bind, hnum]
  rcases arrayCreate_eq hf (N := s.count d + 1) (by omega) al.hdr al.arr with ⟨e1, e2, e3⟩ | ⟨e1, h1, e3, e4⟩
  · rw [e3, C.ok_bind]
    dsimp only
    by_cases hone : s.count d + 1 = 1
    · -- the string itself, with one more reference
      rw [if_pos hone]
      have hinc : incRef { h with next := h.next + 2, cell := built h.next h.cell (s.count d + 1) [] } p =
          C.ok { h with next := h.next + 2, cell := setCell (built h.next h.cell (s.count d + 1) []) p (some (.obj ⟨k, c + 2, false⟩)) } := by
        unfold incRef
        rw [getObj_eq (o := ⟨k, c + 1, false⟩) (by dsimp only; rw [built_old hpn, hcp]) rfl, C.ok_bind]
      rw [hinc, C.ok_bind]
      have hset := setSlot_eq (h := { h with next := h.next + 2, cell := setCell (built h.next h.cell (s.count d + 1) []) p (some (.obj ⟨k, c + 2, false⟩)) })
        (a := h.next) (arr := h.next + 1) (n := s.count d + 1) (i := 0) (l := [none]) (some p)
        (by dsimp only; rw [setCell_ne _ (by omega), built_header])
        (by dsimp only; rw [setCell_ne _ (by omega), built_slots, hone]; rfl) (by simp)
      rw [hset, C.ok_bind]
      refine ⟨_, _, rfl, by simp, ?_, by simp⟩
      intro a ha
      cases ha
      have hd : d ∉ s := by
        intro hd; have := List.count_pos_iff.2 hd; omega
      -- the cells of the result
      have c1 : setCell (setCell (built h.next h.cell (s.count d + 1) []) p (some (.obj ⟨k, c + 2, false⟩))) (h.next + 1)
          (some (.slots ([none].set 0 (some p)))) h.next = some (.header 1 (some (h.next + 1))) := by
        rw [setCell_ne _ (by omega), setCell_ne _ (by omega), built_header, hone]
      have c2 : setCell (setCell (built h.next h.cell (s.count d + 1) []) p (some (.obj ⟨k, c + 2, false⟩))) (h.next + 1)
          (some (.slots ([none].set 0 (some p)))) (h.next + 1) = some (.slots [some p]) := by
        rw [setCell_self]; rfl
      have c3 : setCell (setCell (built h.next h.cell (s.count d + 1) []) p (some (.obj ⟨k, c + 2, false⟩))) (h.next + 1)
          (some (.slots ([none].set 0 (some p)))) p = some (.obj ⟨k, c + 2, false⟩) := by
        rw [setCell_ne _ (by omega), setCell_self]
      have c4 : ∀ q, q ≠ p → q < h.next → setCell (setCell (built h.next h.cell (s.count d + 1) []) p (some (.obj ⟨k, c + 2, false⟩))) (h.next + 1)
          (some (.slots ([none].set 0 (some p)))) q = h.cell q := by
        intro q hq1 hq2
        rw [setCell_ne _ (by omega), setCell_ne _ hq1, built_old hq2]
      have c5 : ∀ q, h.next + 2 ≤ q → setCell (setCell (built h.next h.cell (s.count d + 1) []) p (some (.obj ⟨k, c + 2, false⟩))) (h.next + 1)
          (some (.slots ([none].set 0 (some p)))) q = none := by
        intro q hq
        rw [setCell_ne _ (by omega), setCell_ne _ (by omega), built_new (by simpa using hq)]
      generalize setCell (setCell (built h.next h.cell (s.count d + 1) []) p (some (.obj ⟨k, c + 2, false⟩))) (h.next + 1)
          (some (.slots ([none].set 0 (some p)))) = cc at c1 c2 c3 c4 c5
      have hlt : ∀ q, h.cell q ≠ none → q < h.next := by
        intro q hq
        rcases Nat.lt_or_ge q h.next with h1 | h1
        · exact h1
        · exact absurd (hf q h1) hq
      have hraw : ∀ b m', h.cell b = some (.raw m') → b ≠ p ∧ b < h.next := by
        intro b m' hb
        exact ⟨(by rintro rfl; rw [hcp] at hb; cases hb), hlt b (by rw [hb]; simp)⟩
      have hcont := htm { next := h.next + 2, cell := cc, log := h.log }
        (fun b m' hb => c4 b (hraw b m' hb).1 (hraw b m' hb).2) _ c3
      refine ⟨hf _ (Nat.le_refl _), [p], [s], ?_, ?_, ?_, hcont, ?_, ?_⟩
      · unfold elements
        dsimp only
        rw [c1]; dsimp only
        rw [c2]; dsimp only
        rfl
      · rw [List.mapM_cons, hcont, C.ok_bind]; rfl
      · have := splitOn_isSplit d s
        rw [splitOn_single d s hd] at this; exact this
      · intro q hq1 hq2
        exact c4 q hq1 (hlt q hq2)
      · have hw : Wf cc (handles [some p]) := by
          intro q hq
          have : q = p := by simpa [handles] using hq
          subst this
          refine ⟨_, c3, rfl, ?_, ?_⟩
          · simp [handles]
          · intro b hb
            dsimp only at hb
            obtain ⟨m', hb'⟩ := hblk b hb
            refine ⟨⟨m', by rw [c4 b (hraw b m' hb').1 (hraw b m' hb').2, hb']⟩, ?_⟩
            intro q' o' hq' _ _
            simpa [handles] using hq'
        obtain ⟨h', f1, f2, f3, f4, x, f5, f6⟩ := destroy_eq (h := { next := h.next + 2, cell := cc, log := h.log }) (a := h.next) (arr := h.next + 1)
          (l := [some p]) hw c1 c2
        refine ⟨h', f1, ?_⟩
        have hh : handles [some p] = [p] := rfl
        rw [hh] at f5
        intro q
        by_cases h1 : q = p
        · subst h1
          rw [f6 q (by omega) (by omega), f5.kept q _ (by simp) c3 (by simp), hcp]
          simp
        · by_cases h2 : q < h.next
          · rw [f6 q (by omega) (by omega), f5.rest q (by omega) (by simpa using h1) ?_]
            · exact c4 q h1 h2
            · intro p' o' hp' hp'' _
              rw [List.mem_singleton] at hp'; subst hp'
              have : cc p' = some (.obj o') := hp''
              rw [c3] at this; cases this
              simp
          · rw [hf q (by omega)]
            by_cases h3 : q = h.next
            · rw [h3]; exact f3
            by_cases h4 : q = h.next + 1
            · rw [h4]; exact f4
            rw [f6 q h3 h4, f5.rest q h4 (by simpa using h1) ?_]
            · exact c5 q (by omega)
            · intro p' o' hp' hp'' _
              rw [List.mem_singleton] at hp'; subst hp'
              have : cc p' = some (.obj o') := hp''
              rw [c3] at this; cases this
              simp
    · -- several pieces
      rw [if_neg hone]
      obtain ⟨b, h2, ts', g1, g2, g3, g4, g5, g6, g7⟩ := loop_spec (n := h.next) (N := s.count d + 1) (c0 := h.cell) (d := d) (al := al) junk
        (by omega) s [] [] [] { h with next := h.next + 2, cell := built h.next h.cell (s.count d + 1) [] } (by simp) h0 (by simp)
        (by simp [splitOn_length]) rfl rfl
      have g1' : splitLoop m d h.next al (s.length + 1) 0 0 0 { h with next := h.next + 2, cell := built h.next h.cell (s.count d + 1) [] } = C.ok (b, h2) := by
        rw [hmj]; simpa using g1
      rw [g1', C.ok_bind]
      simp only [List.nil_append, List.length_nil, Nat.add_zero] at g2 g4 g5
      cases b with
      | false =>
        obtain ⟨h3, f1, f2⟩ := destroy_built g2 g4 hf
        dsimp only
        rw [f1, C.ok_bind]
        refine ⟨none, h3, rfl, fun _ => ⟨f2, Or.inr (Or.inr (g6 rfl))⟩, by simp, ?_⟩
        intro _ _ hall
        exact absurd (g7 hall) (by simp)
      | true =>
        dsimp only
        refine ⟨some h.next, h2, rfl, by simp, ?_, by simp⟩
        intro a ha
        cases ha
        have hts := g5 rfl
        subst hts
        have hlen := splitOn_length d s
        have hnopiece : ∀ t ∈ splitOn d s, 0 ∉ t := by
          intro t ht h0t
          apply h0
          rw [← splitOn_join d s]
          have : ∀ (l : List (List UInt8)), t ∈ l → ∀ x ∈ t, x ∈ List.intercalate [d] l := by
            intro l
            induction l with
            | nil => intro h; cases h
            | cons u us ih =>
              intro hmem x hx
              rw [List.mem_cons] at hmem
              cases us with
              | nil =>
                rcases hmem with rfl | hmem
                · simp [List.intercalate, hx]
                · cases hmem
              | cons v vs =>
                simp only [List.intercalate, List.intersperse_cons₂, List.flatten_cons] at ih ⊢
                rcases hmem with rfl | hmem
                · simp [hx]
                · rw [List.mem_append, List.mem_append]
                  exact Or.inr (Or.inr (ih hmem x hx))
          exact this _ ht 0 h0t
        have hcontp : content h2 p = C.ok s := by
          apply htm h2 _ (c + 1)
          · rw [g2, built_old hpn, hcp]
          · intro b' m' hb'
            have : b' < h.next := by
              rcases Nat.lt_or_ge b' h.next with h1 | h1
              · exact h1
              · rw [hf b' h1] at hb'; cases hb'
            rw [g2, built_old this]
        refine ⟨hf _ (Nat.le_refl _), (List.range (splitOn d s).length).map (fun j => h.next + 3 + 2 * j), splitOn d s, ?_, ?_,
          splitOn_isSplit d s, hcontp, ?_, ?_⟩
        · unfold elements
          rw [g2, built_header]; dsimp only
          rw [built_slots]; dsimp only
          rw [if_pos (by simp; omega)]
          apply mapM_ok
          · simp; omega
          · intro i x y hx hy
            have hi : i < (splitOn d s).length := by
              rcases Nat.lt_or_ge i (splitOn d s).length with h1 | h1
              · exact h1
              · rw [List.getElem?_eq_none (by simp; omega)] at hy; cases hy
            rw [List.getElem?_append_left (by simpa using hi)] at hx
            simp only [List.getElem?_map, List.getElem?_range hi, Option.map_some, Option.some.injEq] at hx hy
            subst hx; subst hy; rfl
        · apply mapM_ok
          · simp
          · intro i x y hx hy
            have hi : i < (splitOn d s).length := by
              rcases Nat.lt_or_ge i (splitOn d s).length with h1 | h1
              · exact h1
              · rw [List.getElem?_eq_none h1] at hy; cases hy
            simp only [List.getElem?_map, List.getElem?_range hi, Option.map_some, Option.some.injEq] at hx
            subst hx
            unfold content
            rw [getObj_eq (by rw [g2]; exact built_handle hi) rfl, C.ok_bind]
            unfold textMem
            dsimp only
            rw [g2, built_block hy]
            dsimp only
            rw [C.ok_bind, cstr_zt (hnopiece y (List.mem_of_getElem? hy))]
        · intro q hq1 hq2
          have : q < h.next := by
            rcases Nat.lt_or_ge q h.next with h1 | h1
            · exact h1
            · exact absurd (hf q h1) hq2
          rw [g2, built_old this]
        · exact destroy_built g2 (by omega) hf
  · rw [e3, C.ok_bind]
    refine ⟨none, h1, rfl, fun _ => ⟨fun q => by rw [e4], ?_⟩, by simp, ?_⟩
    · rcases e1 with e1 | e1
      · exact Or.inl e1
      · exact Or.inr (Or.inl e1)
    · intro h1 h2
      rcases e1 with e1 | e1
      · rw [e1] at h1; cases h1
      · rw [e1] at h2; cases h2

/-- The hypothesis `Owns` is what every holder of a string has, in every reachable state. -/
theorem owns_of_reachable {s : RcString.Spec.Sys} (h : RcString.Spec.Reachable s) {p : Nat} (hp : 0 < s.held p)
    (hs : RcString.Spec.IsString s p) : Owns s.heap p (s.view p) := by
  have hi := Inv.reachable h
  obtain ⟨k, hm, hc, ht, _⟩ := hi.held hp
  refine ⟨fun q hq => (hi.fresh q hq).1, ⟨k, s.held p - 1, ?_, ?_⟩, ?_⟩
  · rw [hc]; congr 3; omega
  · intro b hb; subst hb; exact ⟨_, ht.1⟩
  · obtain ⟨o, e1, e2, e3⟩ := hi.content hp hs
    unfold content
    rw [e1, C.ok_bind, e2, C.ok_bind, cstr_zt e3]

/-- The three conditions of `IsSplit` leave no choice. -/
theorem isSplit_unique {d : UInt8} {s : List UInt8} {l : List (List UInt8)} (h : IsSplit d s l) : l = splitOn d s := by
  obtain ⟨h1, h2, h3⟩ := h
  have hne : l ≠ [] := by intro h; subst h; simp at h1
  clear h1
  induction l generalizing s with
  | nil => exact absurd rfl hne
  | cons t ts ih =>
    cases ts with
    | nil =>
      simp [List.intercalate] at h3
      subst h3
      rw [splitOn_single d t (h2 t (by simp))]
    | cons u us =>
      simp only [List.intercalate, List.intersperse_cons₂, List.flatten_cons] at h3
      have h4 : s = t ++ d :: (List.intersperse [d] (u :: us)).flatten := by rw [← h3]; simp
      rw [h4, splitOn_append d t _ (h2 t (by simp))]
      rw [← ih (s := (List.intersperse [d] (u :: us)).flatten) (fun x hx => h2 x (by simp [hx])) rfl (by simp)]

/-- NULL gives NULL. -/
theorem split_null (h : Heap) (d : UInt8) (al : Alloc) : split h none d al = C.ok (none, h) := rfl

/-- C36 is false of the code for enormous strings: the number of pieces is a `uint32_t`.  When
there are 2^32 - 1 delimiters (so that it wraps to 0), the array has no elements and the first
piece is stored through a NULL pointer. -/
theorem split_wraps_ub {h : Heap} {p : Nat} {s : List UInt8} (ho : Owns h p s) (d : UInt8) (al : Alloc)
    (hd : s.count d + 1 = 4294967296) (h1 : al.hdr = true) (h2 : al.piece 0 = true) (h3 : al.handle 0 = true) :
    split h (some p) d al = C.ub := by
  obtain ⟨hf, ⟨k, c, hcp, hblk⟩, htext⟩ := ho
  have hgo := getObj_eq hcp rfl
  unfold content at htext
  rw [hgo, C.ok_bind] at htext
  cases hm : textMem h ⟨k, c + 1, false⟩ with
  | ub => rw [hm] at htext; cases htext
  | ok m =>
  rw [hm, C.ok_bind] at htext
  obtain ⟨h0, junk, hmj⟩ := cstr_inv htext
  have hnum : add32 (countLoop d s 0) 1 = 0 := by
    rw [countLoop_eq d s 0 (by omega), Nat.zero_add]
    unfold add32
    simp only [Nat.reducePow]; omega
  unfold split
  dsimp only
  rw [hgo, C.ok_bind, hm, C.ok_bind, htext, C.ok_bind, hnum]
  unfold arrayCreate
  rw [h1, if_neg (by simp)]
  dsimp only [malloc]
  rw [if_neg (by omega), C.ok_bind]
  dsimp only
  rw [if_neg (by omega)]
  -- up to the first delimiter nothing is stored
  have loop : ∀ (rest cur : List UInt8) (hh : Heap), 0 ∉ rest → d ∈ rest →
      hh.cell h.next = some (.header 0 none) → h.next < hh.next →
      splitLoop (cur.map some ++ ztail rest junk) d h.next al (rest.length + 1) cur.length 0 0 hh = C.ub := by
    intro rest
    induction rest with
    | nil => intro cur hh _ hd; cases hd
    | cons x rest ih =>
      intro cur hh hz hd' hcell hlt
      have hzt : ztail (x :: rest) junk = some x :: ztail rest junk := rfl
      rw [hzt, List.length_cons]
      conv => lhs; unfold splitLoop
      rw [rdByte_zt cur x (ztail rest junk), C.ok_bind]
      rw [List.mem_cons, not_or] at hz
      by_cases hx : x = d
      · rw [if_pos (Or.inl hx), h2, if_neg (by simp)]
        dsimp only [malloc]
        rw [Nat.sub_zero]
        have := piece_mem [] cur (some x :: ztail rest junk)
        simp only [List.map_nil, List.nil_append, List.length_nil] at this
        rw [this, C.ok_bind]
        have hw : wr (cur.map some ++ uninit 1) cur.length 0 = C.ok (zt cur) := by
          rw [wr_next cur 0 0]; simp [zt, uninit]
        rw [hw, C.ok_bind]
        simp only [createMove, h3, Bool.true_eq_false, if_false, C.ok_bind, newObj, malloc]
        unfold setSlot
        dsimp only
        rw [setCell_ne _ (by omega), setCell_ne _ (by omega), setCell_ne _ (by omega), hcell]
        rfl
      · rw [if_neg (by rintro (h1 | h1); exact hx h1; exact hz.1 h1.symm)]
        have := ih (cur ++ [x]) hh hz.2 ((List.mem_cons.1 hd').resolve_left (Ne.symm hx)) hcell hlt
        simpa using this
  have := loop s [] { h with next := h.next + 1, cell := setCell (setCell h.cell h.next (some (.header 0 none))) h.next (some (.header 0 none)) } h0
    (List.count_pos_iff.1 (by omega)) (by simp) (by simp)
  have e : splitLoop m d h.next al (s.length + 1) 0 0 0
      { h with next := h.next + 1, cell := setCell (setCell h.cell h.next (some (.header 0 none))) h.next (some (.header 0 none)) } = C.ub := by
    rw [hmj]; simpa using this
  rw [e]; rfl

/-- With one delimiter more the count wraps to 1 and the result is the unsplit string. -/
theorem split_wraps_wrong {h : Heap} {p : Nat} {s : List UInt8} (ho : Owns h p s) (d : UInt8) (al : Alloc)
    (hd : s.count d = 4294967296) (h1 : al.hdr = true) (h2 : al.arr = true) :
    ∃ a h', split h (some p) d al = C.ok (some a, h') ∧ elements h' a = C.ok [p] := by
  obtain ⟨hf, ⟨k, c, hcp, hblk⟩, htext⟩ := ho
  have hpn : p < h.next := by
    rcases Nat.lt_or_ge p h.next with h1 | h1
    · exact h1
    · rw [hf p h1] at hcp; cases hcp
  have hgo := getObj_eq hcp rfl
  unfold content at htext
  rw [hgo, C.ok_bind] at htext
  cases hm : textMem h ⟨k, c + 1, false⟩ with
  | ub => rw [hm] at htext; cases htext
  | ok m =>
  rw [hm, C.ok_bind] at htext
  have hnum : add32 (countLoop d s 0) 1 = 1 := by
    rw [countLoop_eq d s 0 (by omega), Nat.zero_add]
    unfold add32
    simp only [Nat.reducePow]; omega
  unfold split
  dsimp only
  rw [hgo, C.ok_bind, hm, C.ok_bind, htext, C.ok_bind, hnum]
  rcases arrayCreate_eq hf (N := 1) (by omega) al.hdr al.arr with ⟨e1, e2, e3⟩ | ⟨e1, _⟩
  · rw [e3, C.ok_bind]
    dsimp only
    rw [if_pos rfl]
    have hinc : incRef { h with next := h.next + 2, cell := built h.next h.cell 1 [] } p =
        C.ok { h with next := h.next + 2, cell := setCell (built h.next h.cell 1 []) p (some (.obj ⟨k, c + 2, false⟩)) } := by
      unfold incRef
      rw [getObj_eq (o := ⟨k, c + 1, false⟩) (by dsimp only; rw [built_old hpn, hcp]) rfl, C.ok_bind]
    rw [hinc, C.ok_bind]
    have hset := setSlot_eq (h := { h with next := h.next + 2, cell := setCell (built h.next h.cell 1 []) p (some (.obj ⟨k, c + 2, false⟩)) })
      (a := h.next) (arr := h.next + 1) (n := 1) (i := 0) (l := [none]) (some p)
      (by dsimp only; rw [setCell_ne _ (by omega), built_header])
      (by dsimp only; rw [setCell_ne _ (by omega), built_slots]; rfl) (by simp)
    rw [hset, C.ok_bind]
    refine ⟨_, _, rfl, ?_⟩
    unfold elements
    dsimp only
    rw [setCell_ne _ (by omega), setCell_ne _ (by omega), built_header]
    dsimp only
    rw [setCell_self]
    rfl
  · rcases e1 with e1 | e1
    · rw [h1] at e1; cases e1
    · rw [h2] at e1; cases e1

/-- C57 (RC_STRING_ARRAY): destroying an array whose elements are alive, with at least as many references as
they have places in the array, drops one reference per non-NULL element: a string that has more references
keeps the others, a string that has not is released (with its moved memory), and nothing else changes. -/
theorem array_destroy_spec {h : Heap} {a arr : Nat} {l : List (Option Nat)} (hw : Wf h.cell (handles l))
    (ha : h.cell a = some (.header l.length (some arr))) (hr : h.cell arr = some (.slots l)) :
    ∃ h', arrayDestroy h (some a) = C.ok h' ∧ h'.cell a = none ∧ h'.cell arr = none ∧
      (∀ p o, some p ∈ l → h.cell p = some (.obj o) →
        h'.cell p = if l.count (some p) < o.count then some (.obj { o with count := o.count - l.count (some p) }) else none) ∧
      (∀ p o b, some p ∈ l → h.cell p = some (.obj o) → o.kind = .moved b →
        h'.cell b = if l.count (some p) < o.count then h.cell b else none) ∧
      (∀ q, q ≠ a → q ≠ arr → some q ∉ l → (∀ p o, some p ∈ l → h.cell p = some (.obj o) → o.kind ≠ .moved q) →
        h'.cell q = h.cell q) := by
  have hmem : ∀ p, p ∈ handles l ↔ some p ∈ l := by intro p; simp [handles]
  have hcnt : ∀ p, (handles l).count p = l.count (some p) := by
    intro p
    clear hw ha hr hmem
    induction l with
    | nil => rfl
    | cons x l ih =>
      cases x with
      | none => 
        have : handles (none :: l) = handles l := rfl
        rw [this, ih, List.count_cons_of_ne (by simp)]
      | some q =>
        have : handles (some q :: l) = q :: handles l := rfl
        rw [this, List.count_cons, List.count_cons, ih]
        simp
  obtain ⟨h', e1, e2, e3, e4, c, e5, e6⟩ := destroy_eq hw ha hr
  have hne : ∀ p o, h.cell p = some (.obj o) → p ≠ a ∧ p ≠ arr := by
    intro p o hp
    exact ⟨(by rintro rfl; rw [ha] at hp; cases hp), by rintro rfl; rw [hr] at hp; cases hp⟩
  have hneb : ∀ p o b, some p ∈ l → h.cell p = some (.obj o) → o.kind = .moved b → (b ≠ a ∧ b ≠ arr) ∧ (∃ m, h.cell b = some (.raw m)) ∧
      ∀ q o', some q ∈ l → h.cell q = some (.obj o') → o'.kind = .moved b → q = p := by
    intro p o b hp hp' hk
    obtain ⟨o', ho', _, _, hm'⟩ := hw p ((hmem p).2 hp)
    rw [hp'] at ho'; cases ho'
    obtain ⟨⟨m, hm⟩, hu⟩ := hm' b hk
    refine ⟨⟨(by rintro rfl; rw [ha] at hm; cases hm), by rintro rfl; rw [hr] at hm; cases hm⟩, ⟨m, hm⟩, ?_⟩
    intro q o' hq; exact hu q o' ((hmem q).2 hq)
  refine ⟨h', e1, e3, e4, ?_, ?_, ?_⟩
  · intro p o hp hp'
    rw [e6 p (hne p o hp').1 (hne p o hp').2]
    obtain ⟨o', ho', _, hle, _⟩ := hw p ((hmem p).2 hp)
    rw [hp'] at ho'; cases ho'
    split
    · rename_i hlt
      rw [← hcnt] at hlt ⊢
      exact e5.kept p o ((hmem p).2 hp) hp' hlt
    · rename_i hlt
      rw [← hcnt] at hlt
      exact e5.gone p o ((hmem p).2 hp) hp' (by omega)
  · intro p o b hp hp' hk
    obtain ⟨⟨h1, h2⟩, ⟨m, hm⟩, hu⟩ := hneb p o b hp hp' hk
    rw [e6 b h1 h2]
    obtain ⟨o', ho', _, hle, _⟩ := hw p ((hmem p).2 hp)
    rw [hp'] at ho'; cases ho'
    split
    · rename_i hlt
      rw [← hcnt] at hlt
      apply e5.rest b h2
      · intro hb
        obtain ⟨o', ho', _⟩ := hw b hb
        rw [hm] at ho'; cases ho'
      · intro q o' hq hq' hk'
        have := hu q o' ((hmem q).1 hq) hq' hk'
        subst this
        rw [hp'] at hq'; cases hq'; exact hlt
    · rename_i hlt
      rw [← hcnt] at hlt
      exact e5.block p o b ((hmem p).2 hp) hp' hk (by omega)
  · intro q h1 h2 h3 h4
    rw [e6 q h1 h2]
    apply e5.rest q h2
    · rw [hmem]; exact h3
    · intro p o hp hp' hk
      exact absurd hk (h4 p o ((hmem p).1 hp) hp')

/-! ### Witnesses -/

/-- A heap with one string, "a,,b". -/
def sampleHeap : Heap := (newObj ⟨0, fun _ => none, []⟩ (.custom [97, 44, 44, 98] 1 2)).2

theorem sample_owns : Owns sampleHeap 0 [97, 44, 44, 98] := by
  refine ⟨?_, ⟨_, 0, rfl, by intro b hb; cases hb⟩, by decide +kernel⟩
  intro q hq
  simp only [sampleHeap, newObj, malloc] at hq ⊢
  rw [setCell_ne _ (by omega)]

example : (match split sampleHeap (some 0) 44 ⟨true, true, fun _ => true, fun _ => true⟩ with
    | C.ok (some a, h) => (do
        let ps ← elements h a
        ps.mapM (content h))
    | _ => C.ub) = C.ok [[97], [], [98]] := by decide +kernel

/-- A failure at the second piece gives everything back. -/
example : (match split sampleHeap (some 0) 44 ⟨true, true, fun _ => true, fun i => i != 1⟩ with
    | C.ok (none, h) => (List.range 20).map h.cell
    | _ => []) = (List.range 20).map sampleHeap.cell := by decide +kernel

end CUtil.RcSplit
