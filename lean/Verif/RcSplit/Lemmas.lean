import Verif.RcString.Lemmas
import Verif.RcSplit.Spec
set_option linter.unusedSimpArgs false
set_option linter.unusedVariables false
namespace CUtil.RcSplit
open CUtil RcString Spec

/-! ### Splitting lists -/

def splitOn (d : UInt8) : List UInt8 → List (List UInt8)
  | [] => [[]]
  | c :: cs => if c = d then [] :: splitOn d cs else
    match splitOn d cs with
    | [] => [[c]]
    | t :: ts => (c :: t) :: ts

theorem splitOn_ne (d : UInt8) (s : List UInt8) : splitOn d s ≠ [] := by
  cases s with
  | nil => simp [splitOn]
  | cons c cs =>
    simp only [splitOn]
    split
    · simp
    · split <;> simp

theorem splitOn_length (d : UInt8) (s : List UInt8) : (splitOn d s).length = s.count d + 1 := by
  induction s with
  | nil => rfl
  | cons c cs ih =>
    simp only [splitOn]
    by_cases h : c = d
    · rw [if_pos h, List.length_cons, ih, h, List.count_cons_self]
    · rw [if_neg h, List.count_cons_of_ne h]
      cases hs : splitOn d cs with
      | nil => exact absurd hs (splitOn_ne d cs)
      | cons t ts => rw [hs] at ih; simpa using ih

theorem splitOn_not_mem (d : UInt8) (s : List UInt8) : ∀ t ∈ splitOn d s, d ∉ t := by
  induction s with
  | nil => simp [splitOn]
  | cons c cs ih =>
    simp only [splitOn]
    by_cases h : c = d
    · rw [if_pos h]; intro t ht; rw [List.mem_cons] at ht
      rcases ht with rfl | ht
      · simp
      · exact ih t ht
    · rw [if_neg h]
      cases hs : splitOn d cs with
      | nil => exact absurd hs (splitOn_ne d cs)
      | cons t ts =>
        rw [hs] at ih
        intro u hu
        dsimp only at hu
        rw [List.mem_cons] at hu
        rcases hu with rfl | hu
        · rw [List.mem_cons]; rintro (h1 | h1)
          · exact h h1.symm
          · exact ih t (by simp) h1
        · exact ih u (by simp [hu])

theorem splitOn_join (d : UInt8) (s : List UInt8) : List.intercalate [d] (splitOn d s) = s := by
  induction s with
  | nil => simp [splitOn, List.intercalate]
  | cons c cs ih =>
    simp only [splitOn]
    cases hs : splitOn d cs with
    | nil => exact absurd hs (splitOn_ne d cs)
    | cons t ts =>
      rw [hs] at ih
      by_cases h : c = d
      · rw [if_pos h]
        simp only [List.intercalate, List.intersperse_cons₂, List.flatten_cons] at ih ⊢
        rw [ih, h]; rfl
      · rw [if_neg h]
        cases ts with
        | nil => simp [List.intercalate] at ih ⊢; exact ih
        | cons u us =>
          simp only [List.intercalate, List.intersperse_cons₂, List.flatten_cons] at ih ⊢
          rw [← ih]; simp

theorem splitOn_isSplit (d : UInt8) (s : List UInt8) : IsSplit d s (splitOn d s) :=
  ⟨splitOn_length d s, splitOn_not_mem d s, splitOn_join d s⟩

theorem splitOn_append (d : UInt8) (cur rest : List UInt8) (h : d ∉ cur) :
    splitOn d (cur ++ d :: rest) = cur :: splitOn d rest := by
  induction cur with
  | nil => simp [splitOn]
  | cons c cs ih =>
    rw [List.mem_cons, not_or] at h
    simp only [List.cons_append, splitOn]
    rw [if_neg (Ne.symm h.1), ih h.2]

theorem splitOn_single (d : UInt8) (s : List UInt8) (h : d ∉ s) : splitOn d s = [s] := by
  induction s with
  | nil => rfl
  | cons c cs ih =>
    rw [List.mem_cons, not_or] at h
    simp only [splitOn]
    rw [if_neg (Ne.symm h.1), ih h.2]

theorem countLoop_eq (d : UInt8) (s : List UInt8) (n : Nat) (hn : n < 4294967296) :
    countLoop d s n = (n + s.count d) % 4294967296 := by
  induction s generalizing n with
  | nil => simp only [countLoop, List.count_nil]; omega
  | cons c cs ih =>
    simp only [countLoop]
    by_cases h : c = d
    · rw [if_pos h, ih _ (by unfold add32; simp only [Nat.reducePow]; omega), h, List.count_cons_self]
      unfold add32; simp only [Nat.reducePow]; omega
    · rw [if_neg h, ih _ hn, List.count_cons_of_ne h]

/-! ### Dropping references -/

theorem getObj_eq {h : Heap} {p : Nat} {o : Obj} (hc : h.cell p = some (.obj o)) (hd : o.dying = false) :
    getObj h p = C.ok o := by
  unfold getObj; rw [hc]; simp [hd]

theorem drop_many {h : Heap} {p : Nat} {k : Kind} {c : Nat} (hc : h.cell p = some (.obj ⟨k, c + 2, false⟩)) :
    drop h p = C.ok { h with cell := setCell h.cell p (some (.obj ⟨k, c + 1, false⟩)) } := by
  unfold drop decRef
  rw [getObj_eq hc rfl, C.ok_bind]
  dsimp only
  rw [if_neg (by omega), C.ok_bind]
  simp only [setCell_self]
  simp

theorem drop_last {h : Heap} {p : Nat} {k : Kind} (hc : h.cell p = some (.obj ⟨k, 1, false⟩))
    (hb : ∀ b, k = .moved b → ∃ m, h.cell b = some (.raw m)) :
    ∃ h', drop h p = C.ok h' ∧ h'.next = h.next ∧
      h'.cell = fun q => if q = p then none else if k = .moved q then none else h.cell q := by
  unfold drop decRef
  rw [getObj_eq hc rfl, C.ok_bind]
  dsimp only
  rw [if_neg (by omega), C.ok_bind]
  simp only [setCell_self]
  have e := finish_eq (h := { h with cell := setCell h.cell p (some (.obj ⟨k, 0, true⟩)) }) (p := p) (k := k) (n := 0)
    (by simp) (by
      intro b hk
      obtain ⟨m, hm⟩ := hb b hk
      refine ⟨m, ?_⟩
      dsimp only
      rw [setCell_ne _ (by rintro rfl; rw [hc] at hm; cases hm)]; exact hm)
  refine ⟨finished { h with cell := setCell h.cell p (some (.obj ⟨k, 0, true⟩)) } p k, ?_, rfl, ?_⟩
  · exact e
  · simp only [finished]
    funext q
    by_cases h1 : q = p
    · simp [h1]
    · rw [if_neg h1, if_neg h1, setCell_ne _ h1]

/-- The objects of a list of handles to be released: alive, with enough references. -/
def Wf (c0 : Nat → Option Cell) (ps : List Nat) : Prop :=
  ∀ p ∈ ps, ∃ o, c0 p = some (.obj o) ∧ o.dying = false ∧ ps.count p ≤ o.count ∧
    (∀ b, o.kind = .moved b → (∃ m, c0 b = some (.raw m)) ∧
      ∀ q o', q ∈ ps → c0 q = some (.obj o') → o'.kind = .moved b → q = p)

/-- The heap after dropping one reference for each of `ps` (cell `x`, the array itself, excepted). -/
structure After (c0 : Nat → Option Cell) (ps : List Nat) (x : Nat) (c : Nat → Option Cell) : Prop where
  kept : ∀ p o, p ∈ ps → c0 p = some (.obj o) → ps.count p < o.count →
    c p = some (.obj { o with count := o.count - ps.count p })
  gone : ∀ p o, p ∈ ps → c0 p = some (.obj o) → ps.count p = o.count → c p = none
  block : ∀ p o b, p ∈ ps → c0 p = some (.obj o) → o.kind = .moved b → ps.count p = o.count → c b = none
  rest : ∀ q, q ≠ x → q ∉ ps → (∀ p o, p ∈ ps → c0 p = some (.obj o) → o.kind = .moved q → ps.count p < o.count) →
    c q = c0 q

theorem after_nil (c0 : Nat → Option Cell) (x : Nat) (c : Nat → Option Cell) (h : ∀ q, q ≠ x → c q = c0 q) :
    After c0 [] x c :=
  ⟨by simp, by simp, by simp, fun q hq _ _ => h q hq⟩

theorem after_drop {c0 : Nat → Option Cell} {all ps : List Nat} {p x : Nat} {h : Heap} (hw : Wf c0 all)
    (hsub : ∀ q, (ps ++ [p]).count q ≤ all.count q) (ha : After c0 ps x h.cell) (hx : ∃ l, c0 x = some (.slots l)) :
    ∃ h', drop h p = C.ok h' ∧ h'.next = h.next ∧ After c0 (ps ++ [p]) x h'.cell ∧ h'.cell x = h.cell x := by
  have hcp : (ps ++ [p]).count p = ps.count p + 1 := by simp [List.count_append]
  have hcq : ∀ q, q ≠ p → (ps ++ [p]).count q = ps.count q := by
    intro q hq; simp [List.count_append, List.count_cons, Ne.symm hq]
  have mall : ∀ q ∈ ps ++ [p], q ∈ all := by
    intro q hq
    have h1 := List.count_pos_iff.2 hq
    exact List.count_pos_iff.1 (Nat.lt_of_lt_of_le h1 (hsub q))
  obtain ⟨o, ho, hd, hcnt, hmv⟩ := hw p (mall p (by simp))
  have hle : ps.count p + 1 ≤ o.count := by have := hsub p; omega
  obtain ⟨l, hl⟩ := hx
  have hpx : p ≠ x := by rintro rfl; rw [ho] at hl; cases hl
  -- blocks of other handles are not touched
  have hblk : ∀ b, o.kind = .moved b → ∃ m, h.cell b = some (.raw m) := by
    intro b hb
    obtain ⟨⟨m, hm⟩, hu⟩ := hmv b hb
    refine ⟨m, ?_⟩
    rw [ha.rest b ?_ ?_ ?_]; exact hm
    · rintro rfl; rw [hm] at hl; cases hl
    · intro hbp
      obtain ⟨o', ho', _⟩ := hw b (mall b (by simp [hbp]))
      rw [hm] at ho'; cases ho'
    · intro q o' hq hq' hk
      have := hu q o' (mall q (by simp [hq])) hq' hk
      subst this
      rw [ho] at hq'; cases hq'; omega
  have hnow : h.cell p = some (.obj { o with count := o.count - ps.count p }) := by
    by_cases hp : p ∈ ps
    · exact ha.kept p o hp ho (by omega)
    · rw [List.count_eq_zero_of_not_mem hp, Nat.sub_zero]
      rw [ha.rest p hpx hp ?_]; exact ho
      intro q o' hq hq' hk
      exfalso
      obtain ⟨o'', ho'', _, _, hm''⟩ := hw q (mall q (by simp [hq]))
      rw [hq'] at ho''; cases ho''
      obtain ⟨⟨m, hm⟩, _⟩ := hm'' p hk
      rw [ho] at hm; cases hm
  -- the blocks of the handles in ps that are not the one of p
  have hob : ∀ q o' b, q ∈ ps → q ≠ p → c0 q = some (.obj o') → o'.kind = .moved b → o.kind ≠ .moved b := by
    intro q o' b hq hqp hq' hk hk'
    exact hqp ((hmv b hk').2 q o' (mall q (by simp [hq])) hq' hk)
  have hbp : ∀ q o' b, q ∈ all → c0 q = some (.obj o') → o'.kind = .moved b → b ≠ p ∧ b ≠ x := by
    intro q o' b hq hq' hk
    obtain ⟨o'', ho'', _, _, hm''⟩ := hw q hq
    rw [hq'] at ho''; cases ho''
    obtain ⟨⟨m, hm⟩, _⟩ := hm'' b hk
    refine ⟨?_, ?_⟩
    · rintro rfl; rw [ho] at hm; cases hm
    · rintro rfl; rw [hl] at hm; cases hm
  have hpn : ∀ q, q ∈ ps → o.kind ≠ .moved q := by
    intro q hq hk
    obtain ⟨⟨m, hm⟩, _⟩ := hmv q hk
    obtain ⟨o', ho', _⟩ := hw q (mall q (by simp [hq]))
    rw [hm] at ho'; cases ho'
  obtain ⟨k, cnt, dy⟩ := o
  dsimp only at *
  subst hd
  rcases Nat.lt_or_ge (ps.count p + 1) cnt with hlt | hge
  · -- other references are left
    obtain ⟨n, hn⟩ : ∃ n, cnt - ps.count p = n + 2 := ⟨cnt - ps.count p - 2, by omega⟩
    rw [hn] at hnow
    refine ⟨_, drop_many hnow, rfl, ?_, setCell_ne _ (Ne.symm hpx)⟩
    constructor
    · intro q o' hq hq' hc
      dsimp only
      by_cases hqp : q = p
      · subst hqp
        rw [ho] at hq'; cases hq'
        rw [setCell_self, hcp]
        congr 3
        dsimp only
        omega
      · rw [setCell_ne _ hqp, hcq q hqp] at *
        rw [List.mem_append, List.mem_singleton] at hq
        exact ha.kept q o' (hq.resolve_right hqp) hq' hc
    · intro q o' hq hq' hc
      dsimp only
      by_cases hqp : q = p
      · subst hqp; rw [ho] at hq'; cases hq'; dsimp only at hc; omega
      · rw [hcq q hqp] at hc
        rw [setCell_ne _ hqp]
        rw [List.mem_append, List.mem_singleton] at hq
        exact ha.gone q o' (hq.resolve_right hqp) hq' hc
    · intro q o' b hq hq' hk hc
      dsimp only
      by_cases hqp : q = p
      · subst hqp; rw [ho] at hq'; cases hq'; dsimp only at hc; omega
      · rw [hcq q hqp] at hc
        rw [setCell_ne _ (hbp q o' b (mall q hq) hq' hk).1]
        rw [List.mem_append, List.mem_singleton] at hq
        exact ha.block q o' b (hq.resolve_right hqp) hq' hk hc
    · intro q hqx hq hq'
      dsimp only
      simp only [List.mem_append, List.mem_singleton, not_or] at hq
      rw [setCell_ne _ hq.2]
      apply ha.rest q hqx hq.1
      intro r o' hr hr' hk
      have h1 := hq' r o' (by simp [hr]) hr' hk
      by_cases hrp : r = p
      · subst hrp; omega
      · rw [hcq r hrp] at h1; exact h1
  · -- the last one
    have hn : cnt - ps.count p = 1 := by omega
    rw [hn] at hnow
    obtain ⟨h', e1, e2, e3⟩ := drop_last hnow hblk
    refine ⟨h', e1, e2, ?_, ?_⟩
    · constructor
      · intro q o' hq hq' hc
        by_cases hqp : q = p
        · subst hqp; rw [ho] at hq'; cases hq'; dsimp only at hc; omega
        · rw [hcq q hqp] at *
          rw [List.mem_append, List.mem_singleton] at hq
          rw [e3]; dsimp only
          rw [if_neg hqp, if_neg (hpn q (hq.resolve_right hqp))]
          exact ha.kept q o' (hq.resolve_right hqp) hq' hc
      · intro q o' hq hq' hc
        rw [e3]; dsimp only
        by_cases hqp : q = p
        · rw [if_pos hqp]
        · rw [hcq q hqp] at hc
          rw [List.mem_append, List.mem_singleton] at hq
          rw [if_neg hqp, if_neg (hpn q (hq.resolve_right hqp))]
          exact ha.gone q o' (hq.resolve_right hqp) hq' hc
      · intro q o' b hq hq' hk hc
        rw [e3]; dsimp only
        rw [if_neg (hbp q o' b (mall q hq) hq' hk).1]
        by_cases hqp : q = p
        · subst hqp; rw [ho] at hq'; cases hq'; rw [if_pos hk]
        · rw [hcq q hqp] at hc
          rw [List.mem_append, List.mem_singleton] at hq
          have hq1 := hq.resolve_right hqp
          rw [if_neg (hob q o' b hq1 hqp hq' hk)]
          exact ha.block q o' b hq1 hq' hk hc
      · intro q hqx hq hq'
        simp only [List.mem_append, List.mem_singleton, not_or] at hq
        rw [e3]; dsimp only
        rw [if_neg hq.2]
        have hkq : k ≠ .moved q := by
          intro hk
          have := hq' p _ (by simp) ho hk
          dsimp only at this; omega
        rw [if_neg hkq]
        apply ha.rest q hqx hq.1
        intro r o' hr hr' hk
        have h1 := hq' r o' (by simp [hr]) hr' hk
        by_cases hrp : r = p
        · subst hrp; omega
        · rw [hcq r hrp] at h1; exact h1
    · rw [e3]; dsimp only
      rw [if_neg (Ne.symm hpx), if_neg]
      intro hk
      exact (hbp p _ x (mall p (by simp)) ho hk).2 rfl

/-! ### rc_string_array_destroy -/

theorem getSlot_eq {h : Heap} {a arr n i : Nat} {l : List (Option Nat)} (h1 : h.cell a = some (.header n (some arr)))
    (h2 : h.cell arr = some (.slots l)) : getSlot h a i = rd l i := by
  unfold getSlot; rw [h1]; dsimp only; rw [h2]

theorem setSlot_eq {h : Heap} {a arr n i : Nat} {l : List (Option Nat)} (v : Option Nat) (h1 : h.cell a = some (.header n (some arr)))
    (h2 : h.cell arr = some (.slots l)) (hi : i < l.length) :
    setSlot h a i v = C.ok { h with cell := setCell h.cell arr (some (.slots (l.set i v))) } := by
  unfold setSlot; rw [h1]; dsimp only; rw [h2]; dsimp only; rw [if_pos hi]

/-- The non-NULL elements. -/
def handles (l : List (Option Nat)) : List Nat := l.filterMap id

theorem handles_append (l l' : List (Option Nat)) : handles (l ++ l') = handles l ++ handles l' := by
  simp [handles]

theorem destroyLoop_eq {c0 : Nat → Option Cell} {a arr : Nat} {l : List (Option Nat)} (hw : Wf c0 (handles l))
    (h0a : c0 a = some (.header l.length (some arr))) (h0r : c0 arr = some (.slots l)) :
    ∀ (done todo : List (Option Nat)) (h : Heap), l = done ++ todo → After c0 (handles done) arr h.cell →
      h.cell a = some (.header l.length (some arr)) →
      h.cell arr = some (.slots (List.replicate done.length none ++ todo)) →
      ∃ h', destroyLoop h a todo.length done.length = C.ok h' ∧ h'.next = h.next ∧ After c0 (handles l) arr h'.cell ∧
        h'.cell a = some (.header l.length (some arr)) ∧ h'.cell arr ≠ none := by
  intro done todo
  induction todo generalizing done with
  | nil =>
    intro h hl ha h1 h2
    rw [List.append_nil] at hl; subst hl
    exact ⟨h, rfl, rfl, ha, h1, by rw [h2]; simp⟩
  | cons s todo ih =>
    intro h hl ha h1 h2
    have hrd : rd (List.replicate done.length none ++ s :: todo) done.length = C.ok s := by
      have := rd_append_at (List.replicate done.length none) s todo
      rw [List.length_replicate] at this; exact this
    have hset : (List.replicate done.length (none : Option Nat) ++ s :: todo).set done.length none =
        List.replicate (done ++ [s]).length none ++ todo := by
      rw [List.set_append_right _ _ (by simp)]
      simp [List.replicate_succ']
    have hl' : l = (done ++ [s]) ++ todo := by rw [hl]; simp
    rw [List.length_cons]
    cases s with
    | none =>
      have hr : (List.replicate done.length (none : Option Nat) ++ none :: todo) =
          List.replicate (done ++ [none]).length none ++ todo := by
        simp [List.replicate_succ']
      rw [hr] at h2
      obtain ⟨h', e1, e2⟩ := ih (done ++ [none]) h hl' (by rw [handles_append]; simpa [handles] using ha) h1 h2
      refine ⟨h', ?_, e2⟩
      rw [← e1]
      conv => lhs; unfold destroyLoop
      rw [getSlot_eq h1 (by rw [h2, ← hr]), hrd, C.ok_bind]
      dsimp only
      rw [C.ok_bind, List.length_append]; rfl
    | some p =>
      have hsub : ∀ q, (handles done ++ [p]).count q ≤ (handles l).count q := by
        intro q
        rw [hl', handles_append, handles_append]
        have : handles [some p] = [p] := rfl
        rw [this]
        simp only [List.count_append]; omega
      obtain ⟨h1', e1, e2, e3, e4⟩ := after_drop hw hsub ha ⟨l, h0r⟩
      have ha1 : h1'.cell a = some (.header l.length (some arr)) := by
        have hnot : a ∉ handles done ++ [p] := by
          intro hm
          have : a ∈ handles l := by
            rw [hl', handles_append, handles_append]
            have : handles [some p] = [p] := rfl
            rw [this]
            exact List.mem_append.2 (Or.inl hm)
          obtain ⟨o, ho, _⟩ := hw a this
          rw [h0a] at ho; cases ho
        rw [e3.rest a ?_ hnot ?_]; exact h0a
        · rintro rfl; rw [h0a] at h0r; cases h0r
        · intro q o hq hq' hk
          exfalso
          have : q ∈ handles l := by
            rw [hl', handles_append, handles_append]
            have : handles [some p] = [p] := rfl
            rw [this]
            exact List.mem_append.2 (Or.inl hq)
          obtain ⟨o', ho', _, _, hm'⟩ := hw q this
          rw [hq'] at ho'; cases ho'
          obtain ⟨⟨m, hm⟩, _⟩ := hm' a hk
          rw [h0a] at hm; cases hm
      rw [h2] at e4
      have es := setSlot_eq none ha1 e4 (i := done.length) (by simp)
      rw [hset] at es
      have haarr : a ≠ arr := by rintro rfl; rw [h0a] at h0r; cases h0r
      obtain ⟨h', f1, f2, f3⟩ := ih (done ++ [some p])
        { h1' with cell := setCell h1'.cell arr (some (.slots (List.replicate (done ++ [some p]).length none ++ todo))) } hl'
        (by
          rw [handles_append]
          have : handles [some p] = [p] := rfl
          rw [this]
          have nz : ∀ q, q ∈ handles done ++ [p] → q ≠ arr ∧ ∀ o b, c0 q = some (.obj o) → o.kind = .moved b → b ≠ arr := by
            intro q hq
            have hql : q ∈ handles l := by
              rw [hl', handles_append, handles_append, this]
              exact List.mem_append.2 (Or.inl hq)
            obtain ⟨o', ho', _, _, hm'⟩ := hw q hql
            refine ⟨(by rintro rfl; rw [h0r] at ho'; cases ho'), ?_⟩
            intro o b hq' hk
            rw [hq'] at ho'; cases ho'
            obtain ⟨⟨m, hm⟩, _⟩ := hm' b hk
            rintro rfl; rw [h0r] at hm; cases hm
          constructor
          · intro q o hq hq' hc
            dsimp only
            rw [setCell_ne _ (nz q hq).1]; exact e3.kept q o hq hq' hc
          · intro q o hq hq' hc
            dsimp only
            rw [setCell_ne _ (nz q hq).1]; exact e3.gone q o hq hq' hc
          · intro q o b hq hq' hk hc
            dsimp only
            rw [setCell_ne _ ((nz q hq).2 o b hq' hk)]; exact e3.block q o b hq hq' hk hc
          · intro q hq1 hq2 hq3
            dsimp only
            rw [setCell_ne _ hq1]; exact e3.rest q hq1 hq2 hq3)
        (by dsimp only; rw [setCell_ne _ haarr]; exact ha1)
        (by dsimp only; rw [setCell_self])
      refine ⟨h', ?_, by rw [f2]; exact e2, f3⟩
      rw [← f1]
      conv => lhs; unfold destroyLoop
      rw [getSlot_eq h1 h2, hrd, C.ok_bind]
      dsimp only
      rw [e1, C.ok_bind, es, C.ok_bind, List.length_append]; rfl

theorem destroy_eq {h : Heap} {a arr : Nat} {l : List (Option Nat)} (hw : Wf h.cell (handles l))
    (ha : h.cell a = some (.header l.length (some arr))) (hr : h.cell arr = some (.slots l)) :
    ∃ h', arrayDestroy h (some a) = C.ok h' ∧ h'.next = h.next ∧ h'.cell a = none ∧ h'.cell arr = none ∧
      ∃ c, After h.cell (handles l) arr c ∧ ∀ q, q ≠ a → q ≠ arr → h'.cell q = c q := by
  obtain ⟨h1, e1, e2, e3, e4, e5⟩ := destroyLoop_eq hw ha hr [] l h rfl
    (after_nil _ _ _ (fun _ _ => rfl)) ha (by simpa using hr)
  have haarr : a ≠ arr := by rintro rfl; rw [ha] at hr; cases hr
  unfold arrayDestroy
  dsimp only
  rw [ha]
  dsimp only
  have e1' : destroyLoop h a l.length 0 = C.ok h1 := e1
  rw [e1', C.ok_bind]
  unfold free
  cases hx : h1.cell arr with
  | none => exact absurd hx e5
  | some x =>
    dsimp only
    rw [C.ok_bind]
    dsimp only
    rw [setCell_ne _ haarr, e4]
    refine ⟨_, rfl, e2, by simp, by dsimp only; rw [setCell_ne _ (Ne.symm haarr), setCell_self], h1.cell, e3, ?_⟩
    intro q hq1 hq2
    dsimp only
    rw [setCell_ne _ hq1, setCell_ne _ hq2]

/-! ### The splitting loop -/

/-- The heap after the pieces `ts` were stored in the array at `n`. -/
def built (n : Nat) (c0 : Nat → Option Cell) (N : Nat) (ts : List (List UInt8)) : Nat → Option Cell := fun q =>
  if q < n then c0 q
  else if q = n then some (.header N (some (n + 1)))
  else if q = n + 1 then some (.slots ((List.range ts.length).map (fun j => some (n + 3 + 2 * j)) ++ List.replicate (N - ts.length) none))
  else if (q - n) % 2 = 0 then (ts[(q - n - 2) / 2]?).map (fun t => Cell.raw (zt t))
  else (ts[(q - n - 3) / 2]?).map (fun _ => Cell.obj ⟨.moved (q - 1), 1, false⟩)

theorem rdByte_zt (p : List UInt8) (c : UInt8) (t : Mem) : rdByte (p.map some ++ some c :: t) p.length = C.ok c := by
  unfold rdByte
  have := rd_append_at (p.map some) (some c) t
  rw [List.length_map] at this
  rw [this, C.ok_bind]

theorem piece_mem (pre cur : List UInt8) (t : Mem) :
    memcpy (uninit (cur.length + 1)) 0 (pre.map some ++ (cur.map some ++ t)) pre.length cur.length =
      C.ok (cur.map some ++ uninit 1) := by
  unfold memcpy
  rw [if_pos ⟨by simp, by simp⟩]
  congr 1
  rw [List.take_zero, List.nil_append, List.drop_left' (by simp), List.take_left' (by simp)]
  congr 1
  simp [uninit]

theorem built_step {n N : Nat} {c0 : Nat → Option Cell} {ts : List (List UInt8)} (t : List UInt8) (hN : ts.length < N) :
    setCell (setCell (setCell (built n c0 N ts) (n + 2 + 2 * ts.length) (some (.raw (zt t))))
      (n + 2 + 2 * ts.length + 1) (some (.obj ⟨.moved (n + 2 + 2 * ts.length), 1, false⟩)))
      (n + 1) (some (.slots (((List.range ts.length).map (fun j => some (n + 3 + 2 * j)) ++ List.replicate (N - ts.length) none).set ts.length
        (some (n + 2 + 2 * ts.length + 1))))) = built n c0 N (ts ++ [t]) := by
  funext q
  unfold setCell built
  by_cases h1 : q < n
  · simp only [if_pos h1]
    rw [if_neg (by omega), if_neg (by omega), if_neg (by omega)]
  · simp only [if_neg h1]
    by_cases h2 : q = n
    · simp only [if_pos h2]
      rw [if_neg (by omega), if_neg (by omega), if_neg (by omega)]
    · simp only [if_neg h2]
      by_cases h3 : q = n + 1
      · simp only [if_pos h3]
        congr 2
        rw [List.set_append_right _ _ (by simp), List.length_append]
        simp only [List.length_map, List.length_range, Nat.sub_self, List.length_singleton]
        rw [List.range_succ, List.map_append, List.append_assoc]
        congr 1
        rw [show N - ts.length = (N - (ts.length + 1)) + 1 by omega, List.replicate_succ, List.set_cons_zero]
        simp
        omega
      · simp only [if_neg h3]
        by_cases h4 : q = n + 2 + 2 * ts.length + 1
        · rw [if_pos h4, if_neg (by omega)]
          have : (q - n - 3) / 2 = ts.length := by omega
          rw [this]
          simp
          omega
        · rw [if_neg h4]
          by_cases h5 : q = n + 2 + 2 * ts.length
          · rw [if_pos h5, if_pos (by omega)]
            have : (q - n - 2) / 2 = ts.length := by omega
            rw [this]; simp
          · rw [if_neg h5]
            by_cases h6 : (q - n) % 2 = 0
            · rw [if_pos h6, if_pos h6]
              have : (q - n - 2) / 2 ≠ ts.length := by omega
              rw [List.getElem?_append]
              split
              · rfl
              · rw [List.getElem?_eq_none (by omega), List.getElem?_eq_none (by simp; omega)]
            · rw [if_neg h6, if_neg h6]
              have : (q - n - 3) / 2 ≠ ts.length := by omega
              rw [List.getElem?_append]
              split
              · rfl
              · rw [List.getElem?_eq_none (by omega), List.getElem?_eq_none (by simp; omega)]

theorem built_new {n N : Nat} {c0 : Nat → Option Cell} {ts : List (List UInt8)} {q : Nat} (hq : n + 2 + 2 * ts.length ≤ q) :
    built n c0 N ts q = none := by
  unfold built
  rw [if_neg (by omega), if_neg (by omega), if_neg (by omega)]
  split
  · rw [List.getElem?_eq_none (by omega)]; rfl
  · rw [List.getElem?_eq_none (by omega)]; rfl

/-- The memory of a string with anything behind the terminator. -/
def ztail (t : List UInt8) (junk : Mem) : Mem := t.map some ++ some 0 :: junk

theorem cstr_inv {m : Mem} {t : List UInt8} (h : cstr m = C.ok t) : 0 ∉ t ∧ ∃ junk, m = ztail t junk := by
  induction m generalizing t with
  | nil => cases h
  | cons x m ih =>
    cases x with
    | none => cases h
    | some c =>
      simp only [cstr] at h
      by_cases hc : c = 0
      · rw [if_pos hc] at h; cases h; subst hc; exact ⟨by simp, m, rfl⟩
      · rw [if_neg hc] at h
        cases hm : cstr m with
        | ub => rw [hm] at h; cases h
        | ok t' =>
          rw [hm] at h; cases h
          obtain ⟨h1, j, h2⟩ := ih hm
          exact ⟨by simp only [List.mem_cons, not_or]; exact ⟨fun e => hc e.symm, h1⟩, j, by rw [h2]; rfl⟩

/-- One piece: allocation, copy, handle, slot. -/
theorem loop_spec {n N : Nat} {c0 : Nat → Option Cell} {d : UInt8} {al : Alloc} (junk : Mem) (hN : N < 4294967296) :
    ∀ (rest pre cur : List UInt8) (ts : List (List UInt8)) (h : Heap), 0 ∉ cur → 0 ∉ rest → d ∉ cur →
      ts.length + (splitOn d (cur ++ rest)).length = N →
      h.next = n + 2 + 2 * ts.length → h.cell = built n c0 N ts →
      ∃ b h' ts', splitLoop (pre.map some ++ (cur.map some ++ ztail rest junk)) d n al (rest.length + 1) (pre.length + cur.length) pre.length
          ts.length h = C.ok (b, h') ∧ h'.cell = built n c0 N (ts ++ ts') ∧ h.next ≤ h'.next ∧ ts'.length + ts.length ≤ N ∧
        (b = true → ts' = splitOn d (cur ++ rest)) ∧
        (b = false → ∃ i, i < N ∧ (al.piece i = false ∨ al.handle i = false)) ∧
        ((∀ i, i < N → al.piece i = true ∧ al.handle i = true) → b = true) := by
  -- what happens at a delimiter or at the end
  have cut : ∀ (pre cur : List UInt8) (tail : Mem) (c : UInt8) (k : Nat) (ts : List (List UInt8)) (h : Heap), (c = d ∨ c = 0) →
      ts.length < N → h.next = n + 2 + 2 * ts.length → h.cell = built n c0 N ts →
      (al.piece ts.length = true ∧ al.handle ts.length = true ∧ ∃ h1, h1.next = n + 2 + 2 * (ts ++ [cur]).length ∧
        h1.cell = built n c0 N (ts ++ [cur]) ∧
        splitLoop (pre.map some ++ (cur.map some ++ some c :: tail)) d n al (k + 1) (pre.length + cur.length) pre.length ts.length h =
        splitLoop (pre.map some ++ (cur.map some ++ some c :: tail)) d n al k (pre.length + cur.length + 1) (pre.length + cur.length + 1)
          (ts.length + 1) h1) ∨
      ((al.piece ts.length = false ∨ al.handle ts.length = false) ∧ ∃ h1, h1.cell = built n c0 N ts ∧ h.next ≤ h1.next ∧
        splitLoop (pre.map some ++ (cur.map some ++ some c :: tail)) d n al (k + 1) (pre.length + cur.length) pre.length ts.length h =
        C.ok (false, h1)) := by
    intro pre cur tail c k ts h hc hlt hn hcell
    have hrd : rdByte (pre.map some ++ (cur.map some ++ some c :: tail)) (pre.length + cur.length) = C.ok c := by
      have := rdByte_zt (pre ++ cur) c tail
      rw [List.map_append, List.append_assoc, List.length_append] at this; exact this
    have hsub : pre.length + cur.length - pre.length = cur.length := by omega
    rw [show splitLoop (pre.map some ++ (cur.map some ++ some c :: tail)) d n al (k + 1) (pre.length + cur.length) pre.length ts.length h = _ from
      splitLoop.eq_2 ..]
    rw [hrd, C.ok_bind, if_pos hc]
    cases hp : al.piece ts.length with
    | false =>
      right
      exact ⟨Or.inl rfl, h, hcell, Nat.le_refl _, by rw [if_pos rfl]⟩
    | true =>
      rw [if_neg (by simp)]
      dsimp only [malloc]
      rw [hsub, piece_mem, C.ok_bind]
      have hw : wr (cur.map some ++ uninit 1) cur.length 0 = C.ok (zt cur) := by
        rw [wr_next cur 0 0]; simp [zt, uninit]
      rw [hw, C.ok_bind]
      have hset : setCell (setCell h.cell h.next (some (.raw (uninit (cur.length + 1))))) h.next (some (.raw (zt cur))) =
          setCell h.cell h.next (some (.raw (zt cur))) := by
        funext q; unfold setCell; split <;> rfl
      rw [hset]
      cases hh : al.handle ts.length with
      | false =>
        right
        refine ⟨Or.inr rfl, { next := h.next + 1, cell := built n c0 N ts, log := .free h.next :: h.log }, rfl, ?_, ?_⟩
        · dsimp only; omega
        · simp only [createMove, if_true, C.ok_bind]
          unfold free
          simp only [setCell_self, C.ok_bind]
          congr 3
          funext q
          unfold setCell
          rw [hcell]
          by_cases hq : q = h.next
          · rw [if_pos hq, hq, built_new (by omega)]
          · rw [if_neg hq, if_neg hq]
      | true =>
        left
        refine ⟨rfl, rfl, ?_⟩
        simp only [createMove, Bool.true_eq_false, if_false, C.ok_bind, newObj, malloc]
        have hcn : built n c0 N ts n = some (.header N (some (n + 1))) := by
          unfold built; rw [if_neg (by omega), if_pos rfl]
        have hcr : built n c0 N ts (n + 1) = some (.slots ((List.range ts.length).map (fun j => some (n + 3 + 2 * j)) ++ List.replicate (N - ts.length) none)) := by
          unfold built; rw [if_neg (by omega), if_neg (by omega), if_pos rfl]
        rw [setSlot_eq (arr := n + 1) (n := N)
          (l := (List.range ts.length).map (fun j => some (n + 3 + 2 * j)) ++ List.replicate (N - ts.length) none) (some (h.next + 1))
          (by dsimp only; rw [setCell_ne _ (by omega), setCell_ne _ (by omega), hcell, hcn])
          (by dsimp only; rw [setCell_ne _ (by omega), setCell_ne _ (by omega), hcell, hcr]) (by simp; omega), C.ok_bind]
        dsimp only
        have hst := built_step (n := n) (N := N) (c0 := c0) (ts := ts) cur hlt
        refine ⟨{ next := h.next + 1 + 1, cell := built n c0 N (ts ++ [cur]), log := h.log }, ?_, rfl, ?_⟩
        · dsimp only; rw [List.length_append]; simp; omega
        · rw [add32_eq (by simp only [Nat.reducePow]; omega)]
          rw [hcell, hn, hst]
  intro rest
  induction rest with
  | nil =>
    intro pre cur ts h h0c h0r hd hlen hn hcell
    rw [List.append_nil, splitOn_single d cur hd] at hlen ⊢
    simp only [List.length_singleton, List.length_nil, Nat.zero_add] at hlen ⊢
    have hz : ztail [] junk = some 0 :: junk := rfl
    rw [hz]
    rcases cut pre cur junk 0 0 ts h (Or.inr rfl) (by omega) hn hcell with ⟨a1, a2, h1, e1, e2, e3⟩ | ⟨a1, h1, e1, e2, e3⟩
    · have e3' := e3
      simp only [Nat.zero_add] at e3'
      rw [e3']
      refine ⟨true, h1, [cur], rfl, e2, by rw [e1, hn, List.length_append]; simp; omega, by simp; omega, fun _ => rfl, by simp, by simp⟩
    · have e3' := e3
      simp only [Nat.zero_add] at e3'
      rw [e3']
      refine ⟨false, h1, [], rfl, by rw [List.append_nil]; exact e1, e2, by simp; omega, by simp, fun _ => ⟨_, by omega, a1⟩, ?_⟩
      intro hall
      have := hall ts.length (by omega)
      rcases a1 with a1 | a1 <;> simp [a1] at this
  | cons c rest ih =>
    intro pre cur ts h h0c h0r hd hlen hn hcell
    rw [List.mem_cons, not_or] at h0r
    have hz : ztail (c :: rest) junk = some c :: ztail rest junk := rfl
    rw [hz]
    by_cases hcd : c = d
    · subst hcd
      rw [splitOn_append c cur rest hd] at hlen ⊢
      rw [List.length_cons] at hlen ⊢
      have hne : 0 < (splitOn c rest).length := List.length_pos_iff.2 (splitOn_ne c rest)
      rcases cut pre cur ((ztail rest junk)) c (rest.length + 1) ts h (Or.inl rfl) (by omega) hn hcell with ⟨a1, a2, h1, e1, e2, e3⟩ | ⟨a1, h1, e1, e2, e3⟩
      · rw [e3]
        obtain ⟨b, h', ts', f1, f2, f3, f4, f5, f6, f7⟩ := ih (pre ++ cur ++ [c]) [] (ts ++ [cur]) h1 (by simp) h0r.2 (by simp)
          (by rw [List.nil_append, List.length_append]; simp; omega) e1 e2
        refine ⟨b, h', cur :: ts', ?_, by rw [f2]; simp, by rw [e1] at f3; rw [hn]; rw [List.length_append] at f3; simp at f3; omega,
          by rw [List.length_append] at f4; simp at f4 ⊢; omega, ?_, f6, f7⟩
        · rw [← f1]
          have hm : (pre.map some ++ (cur.map some ++ some c :: ztail rest junk)) = (pre ++ cur ++ [c]).map some ++ (List.map some [] ++ (ztail rest junk)) := by
            simp
          rw [hm]
          simp [Nat.add_assoc]
        · intro hb; rw [f5 hb]; simp
      · rw [e3]
        refine ⟨false, h1, [], rfl, by rw [List.append_nil]; exact e1, e2, by simp; omega, by simp, fun _ => ⟨_, by omega, a1⟩, ?_⟩
        intro hall
        have := hall ts.length (by omega)
        rcases a1 with a1 | a1 <;> simp [a1] at this
    · obtain ⟨b, h', ts', f1, f2⟩ := ih pre (cur ++ [c]) ts h (by simp [h0c]; exact h0r.1) h0r.2
        (by simp [hd]; exact fun h => hcd h.symm) (by simpa using hlen) hn hcell
      refine ⟨b, h', ts', ?_, by simpa using f2⟩
      rw [← f1]
      have hm : (pre.map some ++ (cur.map some ++ some c :: ztail rest junk)) = pre.map some ++ ((cur ++ [c]).map some ++ (ztail rest junk)) := by simp
      rw [hm]
      have hrd : rdByte (pre.map some ++ ((cur ++ [c]).map some ++ (ztail rest junk))) (pre.length + cur.length) = C.ok c := by
        have := rdByte_zt (pre ++ cur) c ((ztail rest junk))
        rw [List.map_append, List.append_assoc, List.length_append] at this
        rw [← hm]; exact this
      rw [List.length_cons]
      conv => lhs; unfold splitLoop
      rw [hrd, C.ok_bind, if_neg (by rintro (h1 | h1); exact hcd h1; exact h0r.1 h1.symm)]
      simp [Nat.add_assoc]

end CUtil.RcSplit
