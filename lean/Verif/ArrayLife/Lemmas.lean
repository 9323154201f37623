import Verif.ArrayLife.Spec
/-
The invariant of Verif/ArrayLife: the count of each object is the number of references to it that the client, the objects and the step in progress hold.
-/
namespace CUtil.ArrayLife
open CUtil

/-! ### Counting references -/

def dead (o : Obj) : Bool :=
  match o.phase with
  | .dying _ => true
  | .freed => true
  | _ => false

def bld (o : Obj) : Nat :=
  match o.phase with
  | .building _ _ => 1
  | _ => 0

/-- The references an object holds now. -/
def refs (o : Obj) : List Nat :=
  match o.phase with
  | .dying i => (content o.kind).drop i
  | .freed => []
  | _ => content o.kind

def kids (objs : List Obj) (x : Nat) : Nat := (objs.map fun o => (refs o).count x).sum
def cntOf (objs : List Obj) (x : Nat) : Nat := (objs[x]?.map (·.count)).getD 0
def bldOf (objs : List Obj) (x : Nat) : Nat := (objs[x]?.map bld).getD 0

/-- `f x`: the references on `x` held by no object. -/
def Bal (objs : List Obj) (f : Nat → Nat) : Prop := ∀ x, cntOf objs x = f x + kids objs x + bldOf objs x

theorem lt_of_get {α : Type} {l : List α} {i : Nat} {x : α} (h : l[i]? = some x) : i < l.length := by
  rcases Nat.lt_or_ge i l.length with h1 | h1
  · exact h1
  · rw [List.getElem?_eq_none h1] at h; cases h

theorem kids_set : ∀ {objs : List Obj} {y : Nat} {o : Obj} (o' : Obj) (_ : objs[y]? = some o) (x : Nat), kids (objs.set y o') x + (refs o).count x = kids objs x + (refs o').count x
  | [], _, _, _, h, _ => by simp at h
  | p :: objs, 0, o, o', h, x => by
    simp at h; subst h
    simp [kids]; omega
  | p :: objs, y + 1, o, o', h, x => by
    have := kids_set (objs := objs) (y := y) o' (by simpa using h) x
    simp [kids] at this ⊢; omega

theorem kids_append (objs : List Obj) (o : Obj) (x : Nat) : kids (objs ++ [o]) x = kids objs x + (refs o).count x := by simp [kids]

theorem kids_pos : ∀ {objs : List Obj} {y : Nat} {o : Obj} {x : Nat}, objs[y]? = some o → x ∈ refs o → 0 < kids objs x
  | [], _, _, _, h, _ => by simp at h
  | p :: objs, 0, o, x, h, hx => by
    simp at h; subst h
    have := List.count_pos_iff.2 hx
    simp [kids]; omega
  | p :: objs, y + 1, o, x, h, hx => by
    have := kids_pos (objs := objs) (y := y) (by simpa using h) hx
    simp [kids] at this ⊢; omega

theorem of_kids_pos : ∀ {objs : List Obj} {x : Nat}, 0 < kids objs x → ∃ (y : Nat) (o : Obj), objs[y]? = some o ∧ x ∈ refs o
  | [], x, h => by simp [kids] at h
  | p :: objs, x, h => by
    by_cases hp : x ∈ refs p
    · exact ⟨0, p, by simp, hp⟩
    · have h0 : (refs p).count x = 0 := List.count_eq_zero.2 hp
      obtain ⟨y, o, e, hx⟩ := of_kids_pos (objs := objs) (x := x) (by simp [kids, h0] at h ⊢; exact h)
      exact ⟨y + 1, o, by simpa using e, hx⟩

theorem bal_set {objs : List Obj} {f f' : Nat → Nat} {x : Nat} {o o' : Obj} (b : Bal objs f) (e : objs[x]? = some o)
    (h : ∀ y, (if y = x then o'.count + bld o else 0) + f y + (refs o).count y = (if y = x then o.count + bld o' else 0) + f' y + (refs o').count y) : Bal (objs.set x o') f' := by
  intro y
  have hk := kids_set o' e y
  have hb := b y
  have hy := h y
  have hl := lt_of_get e
  simp only [cntOf, bldOf, List.getElem?_set] at hb ⊢
  by_cases hxy : y = x
  · subst hxy
    simp only [e, hl, if_true, Option.map_some, Option.getD_some] at hb hy ⊢
    omega
  · simp only [hxy, Ne.symm hxy, if_false] at hb hy ⊢
    omega

theorem bal_append {objs : List Obj} {f f' : Nat → Nat} {o : Obj} (b : Bal objs f)
    (h : ∀ y, (if y = objs.length then o.count else 0) + f y = f' y + (refs o).count y + if y = objs.length then bld o else 0) : Bal (objs ++ [o]) f' := by
  intro y
  have hb := b y
  have hy := h y
  rw [kids_append]
  simp only [cntOf, bldOf] at hb ⊢
  by_cases hyl : y = objs.length
  · subst hyl
    simp only [List.getElem?_eq_none (Nat.le_refl _), Option.map_none, Option.getD_none, if_true] at hb hy
    simp
    omega
  · simp only [hyl, if_false] at hy
    rcases Nat.lt_or_ge y objs.length with h1 | h1
    · rw [List.getElem?_append_left h1]; omega
    · have e1 : objs[y]? = none := List.getElem?_eq_none h1
      have e2 : (objs ++ [o])[y]? = none := List.getElem?_eq_none (by simp; omega)
      simp only [e1, Option.map_none, Option.getD_none] at hb
      simp only [e2, Option.map_none, Option.getD_none]
      omega

/-! ### What does not change -/

/-- The object `x` is of this kind, for good. -/
def Frozen (objs : List Obj) (x : Nat) (k : Kind) : Prop := ∃ o, objs[x]? = some o ∧ bld o = 0 ∧ o.kind = k

def IsB (objs : List Obj) (b : Nat) : Prop := ∃ z p, Frozen objs b (.buf z p)
def HasCells (objs : List Obj) (x : Nat) (l : List Nat) : Prop := Frozen objs x (.arr l) ∨ Frozen objs x (.moved l)
def CellsAt (objs : List Obj) (a : Nat) (l : List Nat) : Prop :=
  HasCells objs a l ∨ ∃ orig root st n cs, Frozen objs a (.view orig root st n) ∧ HasCells objs root cs ∧ l = (cs.drop st).take n

def ItemOk (objs : List Obj) : Src → Prop
  | .handle b => IsB objs b
  | .elem a i b => ∃ l, CellsAt objs a l ∧ l[i]? = some b
  | .window a i b _ _ => ∃ l, CellsAt objs a l ∧ l[i]? = some b

def MadeF (objs : List Obj) (c : Nat) (p : Nat × Option Nat) : Prop :=
  match p.2 with
  | none => c = p.1
  | some z => Frozen objs c (.buf z (some p.1))

def Made (objs : List Obj) (cells : List Nat) (src : List (Nat × Option Nat)) : Prop := cells.length = src.length ∧ ∀ q ∈ cells.zip src, MadeF objs q.1 q.2

def KindOk (objs : List Obj) (x : Nat) : Kind → Prop
  | .buf _ none => True
  | .buf _ (some p) => p < x ∧ IsB objs p
  | .arr cells => ∀ b ∈ cells, IsB objs b
  | .moved cells => ∀ b ∈ cells, IsB objs b
  | .view orig root st n => orig < x ∧ (∃ cs, HasCells objs root cs ∧ st + n ≤ cs.length) ∧ (orig = root ∨ ∃ o2 st2 n2, Frozen objs orig (.view o2 root st2 n2))

structure StObj (objs : List Obj) (x : Nat) (o : Obj) : Prop where
  kind : KindOk objs x o.kind
  building : ∀ todo rot, o.phase = .building todo rot → ∃ cells, o.kind = .arr cells ∧ (∀ it ∈ todo, ItemOk objs it.src) ∧ arrange rot (o.src ++ goalOf todo) = o.goal ∧ Made objs cells o.src
  live : o.phase = .live → ∀ cells, o.kind = .arr cells → o.src = o.goal ∧ Made objs cells o.src

def Keep (objs objs' : List Obj) : Prop := ∀ x k, Frozen objs x k → Frozen objs' x k

section
variable {objs objs' : List Obj}

theorem IsB.mono (K : Keep objs objs') {b : Nat} (h : IsB objs b) : IsB objs' b := by
  obtain ⟨z, p, h⟩ := h
  exact ⟨z, p, K _ _ h⟩

theorem HasCells.mono (K : Keep objs objs') {b : Nat} {l : List Nat} (h : HasCells objs b l) : HasCells objs' b l := h.imp (K _ _) (K _ _)

theorem CellsAt.mono (K : Keep objs objs') {b : Nat} {l : List Nat} (h : CellsAt objs b l) : CellsAt objs' b l := by
  rcases h with h | ⟨orig, root, st, n, cs, h1, h2, h3⟩
  · exact Or.inl (h.mono K)
  · exact Or.inr ⟨orig, root, st, n, cs, K _ _ h1, h2.mono K, h3⟩

theorem ItemOk.mono (K : Keep objs objs') {s : Src} (h : ItemOk objs s) : ItemOk objs' s := by
  cases s with
  | handle b => exact IsB.mono K h
  | elem a i b => obtain ⟨l, h1, h2⟩ := h; exact ⟨l, h1.mono K, h2⟩
  | window a i b _ _ => obtain ⟨l, h1, h2⟩ := h; exact ⟨l, h1.mono K, h2⟩

theorem MadeF.mono (K : Keep objs objs') {c : Nat} {p : Nat × Option Nat} (h : MadeF objs c p) : MadeF objs' c p := by
  obtain ⟨b, _ | z⟩ := p
  · exact h
  · exact K _ _ h

theorem Made.mono (K : Keep objs objs') {cells : List Nat} {src : List (Nat × Option Nat)} (h : Made objs cells src) : Made objs' cells src :=
  ⟨h.1, fun q hq => (h.2 q hq).mono K⟩

theorem KindOk.mono (K : Keep objs objs') {x : Nat} {k : Kind} (h : KindOk objs x k) : KindOk objs' x k := by
  cases k with
  | buf z p =>
    cases p with
    | none => trivial
    | some p => exact ⟨h.1, h.2.mono K⟩
  | arr cells => exact fun b hb => (h b hb).mono K
  | moved cells => exact fun b hb => (h b hb).mono K
  | view orig root st n =>
    obtain ⟨h1, ⟨cs, h2, h3⟩, h4⟩ := h
    exact ⟨h1, ⟨cs, h2.mono K, h3⟩, h4.imp id fun ⟨o2, st2, n2, h⟩ => ⟨o2, st2, n2, K _ _ h⟩⟩

theorem StObj.mono (K : Keep objs objs') {x : Nat} {o : Obj} (h : StObj objs x o) : StObj objs' x o := by
  refine ⟨h.kind.mono K, fun todo rot e => ?_, fun e cells ek => ?_⟩
  · obtain ⟨cells, h1, h2, h3, h4⟩ := h.building todo rot e
    exact ⟨cells, h1, fun it hit => (h2 it hit).mono K, h3, h4.mono K⟩
  · exact ⟨(h.live e cells ek).1, (h.live e cells ek).2.mono K⟩

theorem Frozen.unique {x : Nat} {k k' : Kind} (h : Frozen objs x k) (h' : Frozen objs x k') : k = k' := by
  obtain ⟨o, e, _, rfl⟩ := h
  obtain ⟨o', e', _, rfl⟩ := h'
  rw [e] at e'; cases e'; rfl

theorem CellsAt.unique {x : Nat} {k k' : List Nat} (h : CellsAt objs x k) (h' : CellsAt objs x k') : k = k' := by
  have hc : ∀ {x l l'}, HasCells objs x l → HasCells objs x l' → l = l' := by
    intro x l l' h h'
    rcases h with h | h <;> rcases h' with h' | h' <;> cases h.unique h' <;> rfl
  rcases h with h | ⟨orig, root, st, n, cs, h1, h2, rfl⟩ <;> rcases h' with h' | ⟨orig', root', st', n', cs', h1', h2', rfl⟩
  · exact hc h h'
  · rcases h with h | h <;> cases h.unique h1'
  · rcases h' with h | h <;> cases h.unique h1
  · cases h1.unique h1'; rw [hc h2 h2']

theorem keep_set {x : Nat} {o o' : Obj} (e : objs[x]? = some o) (h : bld o = 0 → bld o' = 0 ∧ o'.kind = o.kind) : Keep objs (objs.set x o') := by
  rintro y k ⟨p, ep, hb, rfl⟩
  by_cases hxy : y = x
  · subst hxy
    rw [e] at ep; cases ep
    exact ⟨o', by simp [List.getElem?_set, lt_of_get e], (h hb).1, (h hb).2⟩
  · exact ⟨p, by simp [List.getElem?_set, Ne.symm hxy, ep], hb, rfl⟩

theorem keep_append (o : Obj) : Keep objs (objs ++ [o]) := by
  rintro y k ⟨p, ep, hb, rfl⟩
  exact ⟨p, by rw [List.getElem?_append_left (lt_of_get ep)]; exact ep, hb, rfl⟩
end

/-! ### The invariant -/

def frd (objs : List Obj) (x : Nat) : Nat := (objs[x]?.map fun o => if o.phase = .freed then 1 else 0).getD 0
def isMoved : Kind → Bool
  | .moved _ => true
  | _ => false
def frdMoved (objs : List Obj) (x : Nat) : Nat := (objs[x]?.map fun o => if o.phase = .freed ∧ isMoved o.kind = true then 1 else 0).getD 0

structure Inv (s : Heap) (f : Nat → Nat) : Prop where
  bal : Bal s.objs f
  ph : ∀ (x : Nat) (o : Obj), s.objs[x]? = some o → (dead o = true ↔ o.count = 0)
  bd : ∀ (x : Nat) (o : Obj), s.objs[x]? = some o → bld o = 1 → o.count = 1
  st : ∀ (x : Nat) (o : Obj), s.objs[x]? = some o → StObj s.objs x o
  lg : ∀ x, s.log.count (.objFree x) = frd s.objs x ∧ s.log.count (.blockFree x) = frdMoved s.objs x

/-- What a step leaves: every object is there, with its goal; what is not being built stays as it is, and what is being built is not touched. -/
def Ext (objs objs' : List Obj) : Prop :=
  ∀ (x : Nat) (o : Obj), objs[x]? = some o → ∃ o', objs'[x]? = some o' ∧ o'.goal = o.goal ∧ (bld o = 0 → bld o' = 0 ∧ o'.kind = o.kind) ∧ (bld o = 1 → o' = o) ∧ (dead o = true → dead o' = true)

theorem Ext.keep {objs objs' : List Obj} (h : Ext objs objs') : Keep objs objs' := by
  rintro x k ⟨o, e, hb, rfl⟩
  obtain ⟨o', e', _, h, _⟩ := h x o e
  exact ⟨o', e', (h hb).1, (h hb).2⟩

theorem Ext.refl (objs : List Obj) : Ext objs objs := fun _ o e => ⟨o, e, rfl, fun h => ⟨h, rfl⟩, fun _ => rfl, id⟩

theorem Ext.trans {a b c : List Obj} (h : Ext a b) (h' : Ext b c) : Ext a c := by
  intro x o e
  obtain ⟨o1, e1, g1, k1, b1, d1⟩ := h x o e
  obtain ⟨o2, e2, g2, k2, b2, d2⟩ := h' x o1 e1
  exact ⟨o2, e2, g2.trans g1, fun h => ⟨(k2 (k1 h).1).1, (k2 (k1 h).1).2.trans (k1 h).2⟩, fun h => by have := b1 h; subst this; exact b2 h, fun h => d2 (d1 h)⟩

theorem ext_set {objs : List Obj} {x : Nat} {o o' : Obj} (e : objs[x]? = some o) (g : o'.goal = o.goal) (h0 : o.phase = .live) (h : bld o' = 0) (hk : o'.kind = o.kind) : Ext objs (objs.set x o') := by
  intro y p ep
  by_cases hxy : y = x
  · subst hxy
    rw [e] at ep; cases ep
    exact ⟨o', by simp [List.getElem?_set, lt_of_get e], g, fun _ => ⟨h, hk⟩, fun h1 => by simp [bld, h0] at h1, fun h1 => by simp [dead, h0] at h1⟩
  · exact ⟨p, by simp [List.getElem?_set, Ne.symm hxy, ep], rfl, fun h => ⟨h, rfl⟩, fun _ => rfl, id⟩

theorem ext_append {objs : List Obj} (o : Obj) : Ext objs (objs ++ [o]) := by
  intro y p ep
  exact ⟨p, by rw [List.getElem?_append_left (lt_of_get ep)]; exact ep, rfl, fun h => ⟨h, rfl⟩, fun _ => rfl, id⟩

section
variable {s : Heap} {f : Nat → Nat}

theorem bld_cases (o : Obj) : bld o = 0 ∨ bld o = 1 := by unfold bld; split <;> simp

theorem bld_live {o : Obj} (h : o.phase = .live) : bld o = 0 := by simp [bld, h]

/-- An object to which there is a reference is alive. -/
theorem live_of (I : Inv s f) {x : Nat} (h : 0 < f x + kids s.objs x) : ∃ o, s.objs[x]? = some o ∧ o.phase = .live ∧ get s x = C.ok o ∧ o.count = f x + kids s.objs x := by
  have hb := I.bal x
  cases e : s.objs[x]? with
  | none => simp [cntOf, bldOf, e] at hb; omega
  | some o =>
    simp only [cntOf, bldOf, e, Option.map_some, Option.getD_some] at hb
    have hp := I.ph x o e
    have hbd := I.bd x o e
    have : o.phase = .live := by
      cases hph : o.phase with
      | live => rfl
      | building t r => simp [bld, hph] at hb hbd; omega
      | dying i => simp [dead, hph] at hp; omega
      | freed => simp [dead, hph] at hp; omega
    refine ⟨o, rfl, this, by simp [get, e, this], by rw [bld_live this] at hb; omega⟩

theorem inv_set {x : Nat} {o o' : Obj} {f' : Nat → Nat} (I : Inv s f) (e : s.objs[x]? = some o) (hb : Bal (s.objs.set x o') f') (hp : dead o' = true ↔ o'.count = 0) (hd : bld o' = 1 → o'.count = 1)
    (K : Keep s.objs (s.objs.set x o')) (hs : StObj (s.objs.set x o') x o') {log : List Event}
    (hl : ∀ y, log.count (.objFree y) = frd (s.objs.set x o') y ∧ log.count (.blockFree y) = frdMoved (s.objs.set x o') y) : Inv ⟨s.objs.set x o', log⟩ f' := by
  have key : ∀ (P : Nat → Obj → Prop), P x o' → (∀ y p, s.objs[y]? = some p → P y p) → ∀ y p, (s.objs.set x o')[y]? = some p → P y p := by
    intro P h1 h2 y p ep
    by_cases hxy : y = x
    · subst hxy
      simp [List.getElem?_set, lt_of_get e] at ep; subst ep; exact h1
    · rw [List.getElem?_set, if_neg (Ne.symm hxy)] at ep; exact h2 y p ep
  exact ⟨hb, key _ hp I.ph, key _ hd I.bd, key _ hs fun y p ep => (I.st y p ep).mono K, hl⟩

theorem lg_set {x : Nat} {o o' : Obj} (I : Inv s f) (e : s.objs[x]? = some o) (h1 : o.phase ≠ .freed) (h2 : o'.phase ≠ .freed) :
    ∀ y, s.log.count (.objFree y) = frd (s.objs.set x o') y ∧ s.log.count (.blockFree y) = frdMoved (s.objs.set x o') y := by
  intro y
  have := I.lg y
  by_cases hxy : y = x
  · subst hxy
    simp [frd, frdMoved, e, h1] at this
    simp [frd, frdMoved, List.getElem?_set, lt_of_get e, h2, this]
  · simpa [frd, frdMoved, List.getElem?_set, Ne.symm hxy] using this

theorem inv_append {o : Obj} {f' : Nat → Nat} (I : Inv s f) (hb : Bal (s.objs ++ [o]) f') (hp : dead o = true ↔ o.count = 0) (hd : bld o = 1 → o.count = 1) (hf : o.phase ≠ .freed)
    (hs : StObj (s.objs ++ [o]) s.objs.length o) : Inv { s with objs := s.objs ++ [o] } f' := by
  have key : ∀ (P : Nat → Obj → Prop), P s.objs.length o → (∀ y p, s.objs[y]? = some p → P y p) → ∀ y p, (s.objs ++ [o])[y]? = some p → P y p := by
    intro P h1 h2 y p ep
    rcases Nat.lt_trichotomy y s.objs.length with h | h | h
    · rw [List.getElem?_append_left h] at ep; exact h2 y p ep
    · subst h; simp at ep; subst ep; exact h1
    · have := lt_of_get ep; simp at this; omega
  refine ⟨hb, key _ hp I.ph, key _ hd I.bd, key _ hs fun y p ep => (I.st y p ep).mono (keep_append o), fun y => ?_⟩
  have hl := I.lg y
  rcases Nat.lt_trichotomy y s.objs.length with h | h | h
  · simpa [frd, frdMoved, List.getElem?_append_left h] using hl
  · subst h; simp [frd, frdMoved] at hl; simp [frd, frdMoved, hf, hl]
  · have e1 : s.objs[y]? = none := List.getElem?_eq_none (by omega)
    have e2 : (s.objs ++ [o])[y]? = none := List.getElem?_eq_none (by simp; omega)
    simpa [frd, frdMoved, e1, e2] using hl

theorem st_live {x : Nat} {o : Obj} {c : Nat} {ph : Phase} (I : Inv s f) (e : s.objs[x]? = some o) (h : o.phase = .live) (hph : ph = .live ∨ ∃ i, ph = .dying i) :
    Keep s.objs (s.objs.set x { o with count := c, phase := ph }) ∧ StObj (s.objs.set x { o with count := c, phase := ph }) x { o with count := c, phase := ph } := by
  have K : Keep s.objs (s.objs.set x { o with count := c, phase := ph }) := keep_set e fun _ => ⟨by rcases hph with h | ⟨i, h⟩ <;> simp [bld, h], rfl⟩
  refine ⟨K, ?_⟩
  have S := (I.st x o e).mono K
  refine ⟨S.kind, fun todo rot e' => ?_, fun _ => S.live h⟩
  rcases hph with h | ⟨i, h⟩ <;> simp [h] at e'

theorem inc_ok (I : Inv s f) {x : Nat} (h : 0 < f x + kids s.objs x) :
    ∃ s', incRef s x = C.ok s' ∧ Inv s' (plus f x) ∧ Ext s.objs s'.objs ∧ s'.objs.length = s.objs.length := by
  obtain ⟨o, e, hl, hg, hc⟩ := live_of I h
  obtain ⟨K, S⟩ := st_live (c := o.count + 1) (ph := o.phase) I e hl (Or.inl hl)
  refine ⟨_, by simp only [incRef, hg, C.ok_bind]; rfl, inv_set I e (bal_set I.bal e fun y => ?_) ?_ ?_ K S (lg_set I e (by simp [hl]) (by simp [hl])), ext_set e rfl hl (bld_live (by exact hl)) rfl, by simp [put]⟩
  · simp only [plus, refs, bld, hl]
    split <;> omega
  · simp [dead, hl]
  · simp [bld, hl]

theorem dec_ok (I : Inv s f) {x : Nat} (h : 0 < f x) :
    ∃ s', decrement s x = C.ok s' ∧ Inv s' (minus f x) ∧ Ext s.objs s'.objs ∧ s'.objs.length = s.objs.length := by
  obtain ⟨o, e, hl, hg, hc⟩ := live_of I (x := x) (by omega)
  have hph : (if o.count = 1 then Phase.dying 0 else .live) = .live ∨ ∃ i, (if o.count = 1 then Phase.dying 0 else .live) = .dying i := by
    split
    · exact Or.inr ⟨0, rfl⟩
    · exact Or.inl rfl
  obtain ⟨K, S⟩ := st_live (c := o.count - 1) I e hl hph
  have h0 : ¬ o.count = 0 := by omega
  refine ⟨_, by simp only [decrement, hg, C.ok_bind, h0, if_false]; rfl, inv_set I e (bal_set I.bal e fun y => ?_) ?_ ?_ K S (lg_set I e (by simp [hl]) ?_), ext_set e rfl hl ?_ rfl, by simp [put]⟩
  · by_cases h1 : o.count = 1
    · simp only [h1, minus, refs, bld, hl, if_true, List.drop_zero]
      split <;> simp_all <;> omega
    · simp only [h1, minus, refs, bld, hl, if_false]
      split <;> simp_all <;> omega
  · by_cases h1 : o.count = 1
    · simp [h1, dead]
    · simp only [h1, dead, if_false]; simp; omega
  · by_cases h1 : o.count = 1 <;> simp [h1, bld]
  · by_cases h1 : o.count = 1 <;> simp [h1]
  · by_cases h1 : o.count = 1 <;> simp [h1, bld]

/-- A new object that takes over references from `f`. -/
theorem new_ok (I : Inv s f) {k : Kind} {f' : Nat → Nat} (hk : KindOk (s.objs ++ [⟨k, 1, .live, [], []⟩]) s.objs.length k) (ha : ∀ l, k = .arr l → l = [])
    (hf : ∀ y, (if y = s.objs.length then 1 else 0) + f y = f' y + (content k).count y) : Inv (new s k) f' := by
  refine inv_append I (bal_append I.bal fun y => ?_) (by simp [dead]) (by simp [bld]) (by simp) ⟨hk, by simp, fun _ cells e => ?_⟩
  · have := hf y
    simp only [refs, bld]
    split at this <;> simp_all
  · rw [ha cells e]; exact ⟨rfl, rfl, by simp⟩

/-! ### Reading the cells of an array -/

theorem frozen_live {x : Nat} {k : Kind} (I : Inv s f) (h : Frozen s.objs x k) (hp : 0 < f x + kids s.objs x) : ∃ o, s.objs[x]? = some o ∧ o.phase = .live ∧ get s x = C.ok o ∧ o.kind = k := by
  obtain ⟨o, e, hl, hg, _⟩ := live_of I hp
  obtain ⟨o', e', _, hk⟩ := h
  rw [e] at e'; cases e'
  exact ⟨o, e, hl, hg, hk⟩

theorem root_pos (I : Inv s f) : ∀ x orig root st n, Frozen s.objs x (.view orig root st n) → 0 < f x + kids s.objs x → 0 < f root + kids s.objs root := by
  intro x
  induction x using Nat.strongRecOn with
  | ind x ih =>
    intro orig root st n h hp
    obtain ⟨o, e, hl, hg, hk⟩ := frozen_live I h hp
    have hs := (I.st x o e).kind
    rw [hk] at hs
    have ho : 0 < kids s.objs orig := kids_pos e (by simp [refs, hl, hk, content])
    rcases hs.2.2 with rfl | ⟨o2, st2, n2, h2⟩
    · omega
    · exact ih orig hs.1 o2 root st2 n2 h2 (by omega)

theorem block_ok (I : Inv s f) {x : Nat} {l : List Nat} (h : HasCells s.objs x l) (hp : 0 < f x + kids s.objs x) : block s x = C.ok l ∧ ∀ b ∈ l, 0 < kids s.objs b := by
  rcases h with h | h <;> obtain ⟨o, e, hl, hg, hk⟩ := frozen_live I h hp <;>
    exact ⟨by simp [block, hg, hk], fun b hb => kids_pos e (by simp [refs, hl, hk, content, hb])⟩

theorem cells_ok (I : Inv s f) {a : Nat} {l : List Nat} (h : CellsAt s.objs a l) (hp : 0 < f a + kids s.objs a) : cellsOf s a = C.ok l ∧ ∀ b ∈ l, 0 < kids s.objs b := by
  rcases h with h | ⟨orig, root, st, n, cs, h1, h2, rfl⟩
  · rcases h with h | h <;> obtain ⟨o, e, hl, hg, hk⟩ := frozen_live I h hp <;>
      exact ⟨by simp [cellsOf, hg, hk], fun b hb => kids_pos e (by simp [refs, hl, hk, content, hb])⟩
  · obtain ⟨o, e, hl, hg, hk⟩ := frozen_live I h1 hp
    obtain ⟨hb, hm⟩ := block_ok I h2 (root_pos I a orig root st n h1 hp)
    exact ⟨by simp [cellsOf, hg, hk, hb], fun b hb => hm b (List.mem_of_mem_drop (List.mem_of_mem_take hb))⟩

theorem cellsAt_of (I : Inv s f) {a : Nat} (hp : 0 < f a + kids s.objs a) (ha : IsArr s a) : ∃ l, CellsAt s.objs a l := by
  obtain ⟨o, e, hl, hg, _⟩ := live_of I hp
  obtain ⟨o', e', hn⟩ := ha
  rw [e] at e'; cases e'
  have hf : Frozen s.objs a o.kind := ⟨o, e, bld_live hl, rfl⟩
  have hs := (I.st a o e).kind
  cases hk : o.kind with
  | buf z p => exact (hn z p hk).elim
  | arr l => exact ⟨l, Or.inl (Or.inl (hk ▸ hf))⟩
  | moved l => exact ⟨l, Or.inl (Or.inr (hk ▸ hf))⟩
  | view orig root st n =>
    rw [hk] at hs
    obtain ⟨cs, h2, _⟩ := hs.2.1
    exact ⟨_, Or.inr ⟨orig, root, st, n, cs, hk ▸ hf, h2, rfl⟩⟩

theorem hasCells_isB (I : Inv s f) {a : Nat} {l : List Nat} (h : HasCells s.objs a l) : ∀ b ∈ l, IsB s.objs b := by
  rcases h with ⟨o, e, _, hk⟩ | ⟨o, e, _, hk⟩ <;> have hs := (I.st a o e).kind <;> rw [hk] at hs <;> exact hs

theorem cellsAt_isB (I : Inv s f) {a : Nat} {l : List Nat} (h : CellsAt s.objs a l) : ∀ b ∈ l, IsB s.objs b := by
  rcases h with h | ⟨orig, root, st, n, cs, h1, h2, rfl⟩
  · exact hasCells_isB I h
  · exact fun b hb => hasCells_isB I h2 b (List.mem_of_mem_drop (List.mem_of_mem_take hb))

theorem rd_ok {α : Type} {l : List α} {i : Nat} {b : α} (h : l[i]? = some b) : rd l i = C.ok b := by simp [rd, h]

/-! ### Steps -/

def heldSrc (f : Nat → Nat) : Src → Prop
  | .handle b => 0 < f b
  | .elem a _ _ => 0 < f a
  | .window a _ _ _ _ => 0 < f a

theorem take_ok (I : Inv s f) {src : Src} (hi : ItemOk s.objs src) (hh : heldSrc f src) (alloc : Bool) :
    (∃ b s', take s src alloc = C.ok (some b, s') ∧ Inv s' (plus f b) ∧ Ext s.objs s'.objs ∧ IsB s'.objs b ∧ MadeF s'.objs b src.of) ∨ (alloc = false ∧ take s src alloc = C.ok (none, s)) := by
  cases src with
  | handle b =>
    obtain ⟨s', e, I', X, _⟩ := inc_ok I (x := b) (by have : 0 < f b := hh; omega)
    exact Or.inl ⟨b, s', by simp [take, e], I', X, IsB.mono X.keep hi, rfl⟩
  | elem a i b =>
    obtain ⟨l, hc, hb⟩ := hi
    have hm : b ∈ l := List.mem_of_getElem? hb
    obtain ⟨h1, h2⟩ := cells_ok I hc (by have : 0 < f a := hh; omega)
    obtain ⟨s', e, I', X, _⟩ := inc_ok I (x := b) (by have := h2 b hm; omega)
    exact Or.inl ⟨b, s', by simp [take, h1, rd_ok hb, e], I', X, (cellsAt_isB I hc b hm).mono X.keep, rfl⟩
  | window a i b whole size =>
    obtain ⟨l, hc, hb⟩ := hi
    have hm : b ∈ l := List.mem_of_getElem? hb
    obtain ⟨h1, h2⟩ := cells_ok I hc (by have : 0 < f a := hh; omega)
    obtain ⟨s', e, I', X, hlen⟩ := inc_ok I (x := b) (by have := h2 b hm; omega)
    have hB := (cellsAt_isB I hc b hm).mono X.keep
    cases whole with
    | true => exact Or.inl ⟨b, s', by simp [take, h1, rd_ok hb, e], I', X, hB, rfl⟩
    | false =>
      cases alloc with
      | false => exact Or.inr ⟨rfl, by simp [take, h1, rd_ok hb]⟩
      | true =>
        refine Or.inl ⟨s'.objs.length, new s' (.buf size (some b)), by simp [take, h1, rd_ok hb, e], ?_, X.trans (ext_append _), ?_, ?_⟩
        · obtain ⟨z, p, o, eo, _⟩ := hB
          refine new_ok I' ⟨lt_of_get eo, IsB.mono (keep_append _) ⟨z, p, o, eo, ‹_›⟩⟩ (by simp) fun y => ?_
          simp only [plus, content, Option.toList, List.count_cons, List.count_nil]
          by_cases h1 : y = b <;> by_cases h2 : y = s'.objs.length <;> simp [h1, h2] <;> grind
        · exact ⟨size, some b, ⟨.buf size (some b), 1, .live, [], []⟩, by simp [new], rfl, rfl⟩
        · exact ⟨⟨.buf size (some b), 1, .live, [], []⟩, by simp [new], rfl, rfl⟩

/-- What a step leaves: every object is there, with its goal; what is not being built stays as it is. -/
def Later (objs objs' : List Obj) : Prop :=
  ∀ (x : Nat) (o : Obj), objs[x]? = some o → ∃ o', objs'[x]? = some o' ∧ o'.goal = o.goal ∧ (bld o = 0 → bld o' = 0 ∧ o'.kind = o.kind) ∧ (dead o = true → dead o' = true) ∧
    ((∃ l, o.kind = .arr l) → ∃ l, o'.kind = .arr l)

theorem Later.refl (objs : List Obj) : Later objs objs := fun _ o e => ⟨o, e, rfl, fun h => ⟨h, rfl⟩, id, id⟩

theorem Later.trans {a b c : List Obj} (h : Later a b) (h' : Later b c) : Later a c := by
  intro x o e
  obtain ⟨o1, e1, g1, k1, b1, a1⟩ := h x o e
  obtain ⟨o2, e2, g2, k2, b2, a2⟩ := h' x o1 e1
  exact ⟨o2, e2, g2.trans g1, fun h => ⟨(k2 (k1 h).1).1, (k2 (k1 h).1).2.trans (k1 h).2⟩, fun h => b2 (b1 h), fun h => a2 (a1 h)⟩

theorem Later.keep {objs objs' : List Obj} (h : Later objs objs') : Keep objs objs' := by
  rintro x k ⟨o, e, hb, rfl⟩
  obtain ⟨o', e', _, h, _⟩ := h x o e
  exact ⟨o', e', (h hb).1, (h hb).2⟩

theorem Ext.later {objs objs' : List Obj} (h : Ext objs objs') : Later objs objs' := by
  intro x o e
  obtain ⟨o', e', g, k, b, d⟩ := h x o e
  refine ⟨o', e', g, k, d, fun ⟨l, hl⟩ => ?_⟩
  rcases bld_cases o with h | h
  · exact ⟨l, (k h).2.trans hl⟩
  · exact ⟨l, by rw [b h]; exact hl⟩

/-- The object that is being built is changed. -/
theorem later_set {objs objs1 : List Obj} {x : Nat} {o o' : Obj} (X : Ext objs objs1) (e : objs1[x]? = some o) (hb : bld o = 1) (g : o'.goal = o.goal) (ha : ∃ l, o'.kind = .arr l) : Later objs (objs1.set x o') := by
  intro y p ep
  obtain ⟨p1, ep1, g1, k1, d1, a1⟩ := X.later y p ep
  by_cases hxy : y = x
  · subst hxy
    rw [e] at ep1; cases ep1
    refine ⟨o', by simp [List.getElem?_set, lt_of_get e], g.trans g1, fun h => ?_, fun h => ?_, fun _ => ha⟩
    · have := (k1 h).1; omega
    · have := d1 h
      simp only [bld] at hb; simp only [dead] at this; split at hb <;> simp_all
  · exact ⟨p1, by simp [List.getElem?_set, Ne.symm hxy, ep1], g1, k1, d1, a1⟩

theorem made_snoc {objs : List Obj} {cells : List Nat} {src : List (Nat × Option Nat)} {b : Nat} {p : Nat × Option Nat} (h : Made objs cells src) (hb : MadeF objs b p) : Made objs (cells ++ [b]) (src ++ [p]) := by
  refine ⟨by simp [h.1], fun q hq => ?_⟩
  rw [List.zip_append h.1] at hq
  rcases List.mem_append.1 hq with hq | hq
  · exact h.2 q hq
  · simp at hq; subst hq; exact hb

theorem fill_ok (I : Inv s f) {x : Nat} {o : Obj} {it : Item} {todo : List Item} {rot : Bool} (e : s.objs[x]? = some o) (hp : o.phase = .building (it :: todo) rot) (hh : heldSrc f it.src) (alloc : Bool) :
    ∃ b s', fill s x alloc = C.ok (b, s') ∧ Inv s' (give f b) ∧ Later s.objs s'.objs := by
  obtain ⟨cells, hk, hi, hg, hm⟩ := (I.st x o e).building _ _ hp
  have hb : bld o = 1 := by simp [bld, hp]
  have hc := I.bd x o e hb
  rcases take_ok I (hi it (by simp)) hh alloc with ⟨b, s1, et, I1, X, hB, hF⟩ | ⟨ha, et⟩
  · have e1 : s1.objs[x]? = some o := by
      obtain ⟨o', e', _, _, h, _⟩ := X x o e
      rw [h hb] at e'; exact e'
    cases hc2 : it.toClient with
    | true =>
      refine ⟨some b, put s1 x { o with phase := .building todo rot }, by simp [fill, e, hp, hk, et, hc2], ?_, later_set X e1 hb rfl (by simp [hk])⟩
      have K : Keep s1.objs (s1.objs.set x { o with phase := .building todo rot }) := keep_set e1 fun h => by omega
      refine inv_set I1 e1 (bal_set I1.bal e1 fun y => ?_) (by simp [dead, hc]) (by simp [hc]) K ?_ (lg_set I1 e1 (by simp [hp]) (by simp))
      · simp only [give, plus, refs, bld, hp]
      · have S := (I1.st x o e1).mono K
        obtain ⟨cells', hk', hi', hg', hm'⟩ := S.building _ _ hp
        refine ⟨S.kind, fun todo' rot' h => ?_, by simp⟩
        cases h
        exact ⟨cells', hk', fun it hit => hi' it (by simp [hit]), by rw [← hg']; simp [goalOf, hc2], hm'⟩
    | false =>
      refine ⟨none, put s1 x { o with kind := .arr (cells ++ [b]), phase := .building todo rot, src := o.src ++ [it.src.of] }, by simp [fill, e, hp, hk, et, hc2], ?_, later_set X e1 hb rfl (by simp [hk])⟩
      have K : Keep s1.objs (s1.objs.set x { o with kind := .arr (cells ++ [b]), phase := .building todo rot, src := o.src ++ [it.src.of] }) := keep_set e1 fun h => by omega
      refine inv_set I1 e1 (bal_set I1.bal e1 fun y => ?_) (by simp [dead, hc]) (by simp [hc]) K ?_ (lg_set I1 e1 (by simp [hp]) (by simp))
      · simp only [give, plus, refs, bld, hp, hk, content, List.count_append, List.count_cons, List.count_nil]
        by_cases h1 : y = b
        · subst h1; simp; split <;> omega
        · have h2 : ¬ b = y := fun h => h1 h.symm
          simp [h1, h2]
      · have S := (I1.st x o e1).mono K
        obtain ⟨cells', hk', hi', hg', hm'⟩ := S.building _ _ hp
        rw [hk] at hk'; cases hk'
        refine ⟨?_, fun todo' rot' h => ?_, by simp⟩
        · intro c hc
          have hkk := S.kind
          rw [hk] at hkk
          rcases List.mem_append.1 hc with hc | hc
          · exact hkk c hc
          · simp at hc; subst hc; exact hB.mono K
        · cases h
          exact ⟨_, rfl, fun it hit => hi' it (by simp [hit]), by rw [← hg']; simp [goalOf, hc2], made_snoc hm' (hF.mono K)⟩
  · refine ⟨none, put s x { o with count := 0, phase := .dying 0 }, by simp [fill, e, hp, hk, et], ?_, later_set (Ext.refl _) e hb rfl (by simp [hk])⟩
    have K : Keep s.objs (s.objs.set x { o with count := 0, phase := .dying 0 }) := keep_set e fun h => by omega
    refine inv_set I e (bal_set I.bal e fun y => ?_) (by simp [dead]) (by simp [bld]) K ?_ (lg_set I e (by simp [hp]) (by simp))
    · simp only [give, refs, bld, hp, hc, List.drop_zero]
    · exact ⟨((I.st x o e).mono K).kind, by simp, by simp⟩

theorem count_arrange (rot : Bool) (l : List Nat) (y : Nat) : (arrange rot l).count y = l.count y := by
  unfold arrange
  split
  · simp [List.count_cons]
  · rfl

theorem mem_arrange {rot : Bool} {l : List Nat} {y : Nat} (h : y ∈ arrange rot l) : y ∈ l := by
  have := List.count_pos_iff.2 h
  rw [count_arrange] at this
  exact List.count_pos_iff.1 this

theorem made_arrange {objs : List Obj} {cells : List Nat} {src : List (Nat × Option Nat)} (rot : Bool) (h : Made objs cells src) : Made objs (arrange rot cells) (arrange rot src) := by
  obtain ⟨hl, hz⟩ := h
  match rot, cells, src, hl, hz with
  | false, cells, src, hl, hz => simpa [arrange] using ⟨hl, hz⟩
  | true, [], [], hl, hz => exact ⟨rfl, by simp [arrange]⟩
  | true, [a], [c], hl, hz => exact ⟨rfl, by simpa [arrange] using hz⟩
  | true, a :: b :: l, c :: d :: m, hl, hz =>
    simp at hl
    refine ⟨by simp [arrange, hl], fun q hq => hz q ?_⟩
    simp only [arrange, List.zip_cons_cons, List.zip_append hl] at hq
    simp at hq ⊢
    grind

theorem done_ok (I : Inv s f) {x : Nat} {o : Obj} {rot : Bool} (e : s.objs[x]? = some o) (hp : o.phase = .building [] rot) :
    ∃ s', done s x = C.ok s' ∧ Inv s' (plus f x) ∧ Later s.objs s'.objs := by
  obtain ⟨cells, hk, hi, hg, hm⟩ := (I.st x o e).building _ _ hp
  have hb : bld o = 1 := by simp [bld, hp]
  have hc := I.bd x o e hb
  refine ⟨put s x { o with kind := .arr (arrange rot cells), phase := .live, src := arrange rot o.src }, by simp [done, e, hp, hk], ?_, later_set (Ext.refl _) e hb rfl (by simp [hk])⟩
  have K : Keep s.objs (s.objs.set x { o with kind := .arr (arrange rot cells), phase := .live, src := arrange rot o.src }) := keep_set e fun h => by omega
  refine inv_set I e (bal_set I.bal e fun y => ?_) (by simp [dead, hc]) (by simp [bld]) K ?_ (lg_set I e (by simp [hp]) (by simp))
  · simp only [plus, refs, bld, hp, hk, content, count_arrange]
    split <;> omega
  · have S := (I.st x o e).mono K
    refine ⟨?_, by simp, fun _ cells' hk' => ?_⟩
    · have hkk := S.kind
      rw [hk] at hkk
      exact fun b hb => hkk b (mem_arrange hb)
    · cases hk'
      obtain ⟨cells', hk', _, hg', hm'⟩ := S.building _ _ hp
      rw [hk] at hk'; cases hk'
      exact ⟨by simpa [goalOf] using hg', made_arrange rot hm'⟩

theorem minus_plus (f : Nat → Nat) (x : Nat) : minus (plus f x) x = f := by
  funext y; simp only [minus, plus]; split <;> simp

theorem release_ok (I : Inv s f) {x i : Nat} {o : Obj} (e : s.objs[x]? = some o) (hp : o.phase = .dying i) :
    ∃ s', release s x = C.ok s' ∧ Inv s' f ∧ Later s.objs s'.objs := by
  have hb : bld o = 0 := by simp [bld, hp]
  have S := I.st x o e
  cases hy : (content o.kind)[i]? with
  | some y =>
    have hi := lt_of_get hy
    have hd : (content o.kind).drop i = y :: (content o.kind).drop (i + 1) := by
      rw [List.drop_eq_getElem_cons hi]
      rw [List.getElem?_eq_getElem hi] at hy; cases hy; rfl
    have K : Keep s.objs (s.objs.set x { o with phase := .dying (i + 1) }) := keep_set e fun _ => ⟨by simp [bld], rfl⟩
    have I1 : Inv (put s x { o with phase := .dying (i + 1) }) (plus f y) := by
      refine inv_set I e (bal_set I.bal e fun z => ?_) ?_ (by simp [bld]) K ⟨(S.mono K).kind, by simp, by simp⟩ (lg_set I e (by simp [hp]) (by simp))
      · simp only [plus, refs, bld, hp, hd, List.count_cons]
        by_cases h1 : z = y
        · subst h1; simp; omega
        · have h2 : ¬ y = z := fun h => h1 h.symm
          simp [h1, h2]
      · have := I.ph x o e
        simpa [dead, hp] using this
    obtain ⟨s', e', I', X, _⟩ := dec_ok I1 (x := y) (by simp [plus])
    rw [minus_plus] at I'
    refine ⟨s', by simp [release, e, hp, hy, e'], I', Later.trans (b := (put s x { o with phase := .dying (i + 1) }).objs) ?_ X.later⟩
    intro z p ep
    by_cases hz : z = x
    · subst hz
      rw [e] at ep; cases ep
      exact ⟨{ o with phase := .dying (i + 1) }, by simp [put, List.getElem?_set, lt_of_get e], rfl, fun _ => ⟨by simp [bld], rfl⟩, fun _ => by simp [dead], id⟩
    · exact ⟨p, by simp [put, List.getElem?_set, Ne.symm hz, ep], rfl, fun h => ⟨h, rfl⟩, id, id⟩
  | none =>
    have K : Keep s.objs (s.objs.set x { o with phase := .freed }) := keep_set e fun _ => ⟨by simp [bld], rfl⟩
    have hd : (content o.kind).drop i = [] := by
      rw [List.drop_eq_nil_iff]; exact List.getElem?_eq_none_iff.1 hy
    refine ⟨⟨s.objs.set x { o with phase := .freed }, freeEvents x o.kind ++ s.log⟩, by simp [release, e, hp, hy], ?_, ?_⟩
    · refine inv_set I e (bal_set I.bal e fun z => ?_) ?_ (by simp [bld]) K ⟨(S.mono K).kind, by simp, by simp⟩ fun z => ?_
      · simp only [refs, bld, hp, hd]
      · have := I.ph x o e
        simpa [dead, hp] using this
      · have hl := I.lg z
        by_cases hz : z = x
        · subst hz
          simp only [frd, frdMoved, e, hp, Option.map_some, Option.getD_some] at hl
          simp only [frd, frdMoved, List.getElem?_set, lt_of_get e, if_true, Option.map_some, Option.getD_some]
          cases hk : o.kind <;> simp_all [freeEvents, isMoved, List.count_cons]
        · simp only [frd, frdMoved, List.getElem?_set, Ne.symm hz, if_false] at hl ⊢
          cases hk : o.kind <;> simp_all [freeEvents, List.count_cons, Ne.symm hz]
    · intro z p ep
      by_cases hz : z = x
      · subst hz
        rw [e] at ep; cases ep
        exact ⟨{ o with phase := .freed }, by simp [List.getElem?_set, lt_of_get e], rfl, fun _ => ⟨by simp [bld], rfl⟩, fun _ => by simp [dead], id⟩
      · exact ⟨p, by simp [List.getElem?_set, Ne.symm hz, ep], rfl, fun h => ⟨h, rfl⟩, id, id⟩

/-! ### What the creating functions take -/

theorem of_handle (b : Nat) : (Src.handle b).of = (b, none) := rfl
theorem of_elem (a i b : Nat) : (Src.elem a i b).of = (b, none) := rfl
theorem of_window (a i b : Nat) (w : Bool) (z : Nat) : (Src.window a i b w z).of = (b, if w then none else some z) := rfl

theorem elems_ok {objs : List Obj} {a : Nat} {L : List Nat} (h : CellsAt objs a L) : ∀ (l : List Nat) (i : Nat), (∀ j, l[j]? = none ∨ L[i + j]? = l[j]?) → (∀ it ∈ elems a i l, ItemOk objs it.src)
  | [], _, _ => by simp [elems]
  | b :: l, i, hl => by
    intro it hit
    rcases List.mem_cons.1 hit with rfl | hit
    · refine ⟨L, h, ?_⟩
      have := hl 0
      simpa using this
    · refine elems_ok h l (i + 1) (fun j => ?_) it hit
      have := hl (j + 1)
      simpa [Nat.add_assoc, Nat.add_comm 1 j] using this

theorem elems_goal (a : Nat) : ∀ (l : List Nat) (i : Nat), goalOf (elems a i l) = l.map (·, none)
  | [], _ => by simp [elems, goalOf]
  | b :: l, i => by
    have := elems_goal a l (i + 1)
    simp only [goalOf] at this
    simp [elems, goalOf, this, of_handle, of_elem, of_window]

theorem nonEmpty_ok {objs : List Obj} {a : Nat} {L : List Nat} (h : CellsAt objs a L) : ∀ (l : List Nat) (i : Nat), (∀ j, l[j]? = none ∨ L[i + j]? = l[j]?) → (∀ it ∈ nonEmptyElems s a i l, ItemOk objs it.src)
  | [], _, _ => by simp [nonEmptyElems]
  | b :: l, i, hl => by
    have hr := nonEmpty_ok h l (i + 1) (fun j => by
      have := hl (j + 1)
      simpa [Nat.add_assoc, Nat.add_comm 1 j] using this)
    intro it hit
    simp only [nonEmptyElems] at hit
    split at hit
    · exact hr it hit
    · rcases List.mem_cons.1 hit with rfl | hit
      · refine ⟨L, h, ?_⟩
        have := hl 0
        simpa using this
      · exact hr it hit

theorem nonEmpty_goal (a : Nat) : ∀ (l : List Nat) (i : Nat), goalOf (nonEmptyElems s a i l) = (l.filter fun b => !isEmptyBuf s b).map (·, none)
  | [], _ => by simp [nonEmptyElems, goalOf]
  | b :: l, i => by
    have := nonEmpty_goal a l (i + 1)
    simp only [goalOf] at this
    cases hb : isEmptyBuf s b <;> simp [nonEmptyElems, goalOf, this, of_handle, of_elem, of_window, hb]

theorem goalOf_append (l m : List Item) : goalOf (l ++ m) = goalOf l ++ goalOf m := by simp [goalOf]

theorem arr_ok (I : Inv s f) {a : Nat} (h : HasArr ⟨s, f⟩ a) : ∃ l, CellsAt s.objs a l ∧ cellsOf s a = C.ok l := by
  obtain ⟨hp, ha⟩ := h
  have hp : 0 < f a + kids s.objs a := by have : 0 < f a := hp; omega
  obtain ⟨l, hl⟩ := cellsAt_of I hp ha
  exact ⟨l, hl, (cells_ok I hl hp).1⟩

theorem buf_ok (I : Inv s f) {b : Nat} (h : HasBuf ⟨s, f⟩ b) : IsB s.objs b := by
  obtain ⟨hp, o, z, p, e, hk⟩ := h
  have hp : 0 < f b + kids s.objs b := by have : 0 < f b := hp; omega
  obtain ⟨o', e', hl, _⟩ := live_of I hp
  simp only at e
  rw [e] at e'; cases e'
  exact ⟨z, p, o, e, bld_live hl, hk⟩

theorem allElems_ok (I : Inv s f) {R : Nat → List Nat} (hR : ∀ a l, cellsOf s a = C.ok l → R a = l) : ∀ (as : List Nat), (∀ a ∈ as, HasArr ⟨s, f⟩ a) →
    ∃ l, allElems s as = C.ok l ∧ (∀ it ∈ l, ItemOk s.objs it.src) ∧ goalOf l = (as.flatMap R).map (·, none)
  | [], _ => ⟨[], rfl, by simp, by simp [goalOf]⟩
  | a :: as, h => by
    obtain ⟨l, h1, h2, h3⟩ := allElems_ok I hR as fun a ha => h a (by simp [ha])
    obtain ⟨c, hc, ec⟩ := arr_ok I (h a (by simp))
    refine ⟨elems a 0 c ++ l, by simp [allElems, ec, h1], fun it hit => ?_, ?_⟩
    · rcases List.mem_append.1 hit with hit | hit
      · exact elems_ok hc c 0 (by simp) it hit
      · exact h2 it hit
    · rw [goalOf_append, elems_goal, h3, List.flatMap_cons, List.map_append, hR a c ec]

theorem items_ok (I : Inv s f) {c : Call} (h : CallOk ⟨s, f⟩ c) {R : Nat → List Nat} (hR : ∀ a l, cellsOf s a = C.ok l → R a = l) :
    ∃ todo rot, items s c = C.ok (todo, rot) ∧ (∀ it ∈ todo, ItemOk s.objs it.src) ∧ arrange rot (goalOf todo) = want R (isEmptyBuf s) c := by
  cases c with
  | create bs =>
    refine ⟨_, _, rfl, fun it hit => ?_, ?_⟩
    · obtain ⟨b, hb, rfl⟩ := List.mem_map.1 hit
      exact buf_ok I (h b hb)
    · have : ∀ bs : List Nat, goalOf (bs.map fun b => (⟨.handle b, false⟩ : Item)) = bs.map (·, none) := by
        intro bs
        induction bs with
        | nil => rfl
        | cons b bs ih => simp only [goalOf] at ih; simp [goalOf, of_handle, of_elem, of_window, ih]
      simp [arrange, this, want]
  | addFront a b =>
    obtain ⟨l, hc, ec⟩ := arr_ok I h.1
    refine ⟨_, _, by simp [items, ec]; exact ⟨rfl, rfl⟩, fun it hit => ?_, ?_⟩
    · rcases List.mem_cons.1 hit with rfl | hit
      · exact buf_ok I h.2
      · exact elems_ok hc l 0 (by simp) it hit
    · have := elems_goal a l 0
      simp only [goalOf] at this
      simp [arrange, want, goalOf, this, hR a l ec, of_handle, of_elem, of_window]
  | addBack a b =>
    obtain ⟨l, hc, ec⟩ := arr_ok I h.1
    refine ⟨_, _, by simp [items, ec]; exact ⟨rfl, rfl⟩, fun it hit => ?_, ?_⟩
    · rcases List.mem_append.1 hit with hit | hit
      · exact elems_ok hc l 0 (by simp) it hit
      · simp at hit; subst hit; exact buf_ok I h.2
    · have := elems_goal a l 0
      simp only [goalOf] at this
      simp [arrange, want, goalOf, this, hR a l ec, of_handle, of_elem, of_window]
  | removeFront a =>
    obtain ⟨l, hc, ec⟩ := arr_ok I h.1
    obtain ⟨b, m, rfl⟩ : ∃ b m, l = b :: m := List.exists_cons_of_ne_nil (h.2 l ec)
    refine ⟨_, _, by simp [items, ec, rd]; exact ⟨rfl, rfl⟩, fun it hit => ?_, ?_⟩
    · rcases List.mem_cons.1 hit with rfl | hit
      · exact ⟨_, hc, rfl⟩
      · exact elems_ok hc m 1 (fun j => Or.inr (by simp [Nat.add_comm 1 j])) it hit
    · have := elems_goal a m 1
      simp only [goalOf] at this
      simp [arrange, want, goalOf, this, hR a _ ec]
  | removeBack a =>
    obtain ⟨l, hc, ec⟩ := arr_ok I h.1
    have hne := h.2 l ec
    have hl : l.length - 1 < l.length := by have := List.length_pos_iff.2 hne; omega
    have hb : l[l.length - 1]? = some (l[l.length - 1]'hl) := List.getElem?_eq_getElem hl
    refine ⟨⟨.elem a (l.length - 1) (l[l.length - 1]'hl), true⟩ :: elems a 0 l.dropLast, false, by simp [items, ec, rd, hb], fun it hit => ?_, ?_⟩
    · rcases List.mem_cons.1 hit with rfl | hit
      · exact ⟨_, hc, hb⟩
      · refine elems_ok hc l.dropLast 0 (fun j => ?_) it hit
        rw [List.getElem?_dropLast]
        split <;> simp
    · have := elems_goal a l.dropLast 0
      simp only [goalOf] at this
      simp [arrange, want, goalOf, this, hR a _ ec]
  | fromArrays as =>
    obtain ⟨l, h1, h2, h3⟩ := allElems_ok I hR as h
    exact ⟨l, false, by simp [items, h1], h2, by simp [arrange, want, h3]⟩
  | removeEmpty a =>
    obtain ⟨l, hc, ec⟩ := arr_ok I h
    exact ⟨_, _, by simp [items, ec]; exact ⟨rfl, rfl⟩, nonEmpty_ok hc l 0 (by simp), by simp [arrange, want, nonEmpty_goal, hR a _ ec]⟩
  | offsetAndCount a st n w1 z1 w2 z2 =>
    obtain ⟨ha, hn, hl⟩ := h
    obtain ⟨l, hc, ec⟩ := arr_ok I ha
    have hl := hl l ec
    have h0 : st < l.length := by omega
    have hb : l[st]? = some (l[st]'h0) := List.getElem?_eq_getElem h0
    by_cases h1 : n = 1
    · subst h1
      refine ⟨[⟨.window a st (l[st]'h0) w1 z1, false⟩], false, by simp [items, ec, rd, hb], fun it hit => ?_, ?_⟩
      · simp at hit; subst hit; exact ⟨_, hc, hb⟩
      · have : (l.drop st).take 1 = [l[st]'h0] := by
          rw [List.drop_eq_getElem_cons h0, List.take_succ_cons, List.take_zero]
        simp [arrange, want, goalOf, hR a _ ec, this, of_handle, of_elem, of_window]
    · have h2 : st + n - 1 < l.length := by omega
      have he : l[st + n - 1]? = some (l[st + n - 1]'h2) := List.getElem?_eq_getElem h2
      refine ⟨⟨.window a st (l[st]'h0) w1 z1, false⟩ :: ⟨.window a (st + n - 1) (l[st + n - 1]'h2) w2 z2, false⟩ :: elems a (st + 1) ((l.drop (st + 1)).take (n - 2)), true, by simp [items, ec, rd, hb, he, h1], fun it hit => ?_, ?_⟩
      · rcases List.mem_cons.1 hit with rfl | hit
        · exact ⟨_, hc, hb⟩
        · rcases List.mem_cons.1 hit with rfl | hit
          · exact ⟨_, hc, he⟩
          · refine elems_ok hc _ _ (fun j => ?_) it hit
            rw [List.getElem?_take]
            split <;> simp
      · have hg := elems_goal a ((l.drop (st + 1)).take (n - 2)) (st + 1)
        have hd : (l.drop st).take n = l[st]'h0 :: ((l.drop (st + 1)).take (n - 2) ++ [l[st + n - 1]'h2]) := by
          obtain ⟨m, rfl⟩ : ∃ m, n = m + 2 := ⟨n - 2, by omega⟩
          rw [List.drop_eq_getElem_cons h0, List.take_succ_cons]
          congr 1
          have h3 : m < (l.drop (st + 1)).length := by simp; omega
          rw [List.take_succ, List.getElem?_eq_getElem h3]
          simp [Nat.add_assoc, Nat.add_comm 1 m]
        generalize hM : (l.drop (st + 1)).take (n - 2) = M at *
        simp only [goalOf] at hg
        simp only [want, hR a _ ec, hd, goalOf, arrange, of_handle, of_elem, of_window]
        cases M with
        | nil => simp [elems, of_window]
        | cons c M =>
          have e1 : ((c, none) :: (M.map (fun x => (x, none)) ++ [(l[st + n - 1], (none : Option Nat))])).dropLast = (c, none) :: M.map (fun x => (x, none)) := by
            rw [← List.cons_append, List.dropLast_concat]
          have e2 : ∀ h : c :: (M ++ [l[st + n - 1]]) ≠ [], (c :: (M ++ [l[st + n - 1]])).getLast h = l[st + n - 1] := by
            intro h
            exact List.getLast_concat (l := c :: M)
          simp [hg, of_window, e1, e2]

theorem later_append {objs : List Obj} (o : Obj) : Later objs (objs ++ [o]) := (ext_append o).later

theorem start_ok (I : Inv s f) {c : Call} (h : CallOk ⟨s, f⟩ c) {R : Nat → List Nat} (hR : ∀ a l, cellsOf s a = C.ok l → R a = l) :
    ∃ o todo rot, start s c = C.ok { s with objs := s.objs ++ [o] } ∧ o.goal = want R (isEmptyBuf s) c ∧ o.kind = .arr [] ∧ o.phase = .building todo rot ∧ Inv { s with objs := s.objs ++ [o] } f := by
  obtain ⟨todo, rot, e, hi, hg⟩ := items_ok I h hR
  refine ⟨⟨.arr [], 1, .building todo rot, [], arrange rot (goalOf todo)⟩, todo, rot, by simp [start, e], hg, rfl, rfl, ?_⟩
  refine inv_append I (bal_append I.bal fun y => ?_) (by simp [dead]) (by simp) (by simp) ⟨by simp [KindOk], fun todo' rot' h => ?_, by simp⟩
  · simp only [refs, bld, content, List.count_nil]; omega
  · cases h
    exact ⟨[], rfl, fun it hit => (hi it hit).mono (keep_append _), by simp, rfl, by simp⟩

theorem createView_ok (I : Inv s f) {a st n : Nat} (h : HasArr ⟨s, f⟩ a) : ∃ v s', createView s a st n = C.ok (v, s') ∧ Inv s' (give f v) ∧ Later s.objs s'.objs := by
  obtain ⟨l, hc, ec⟩ := arr_ok I h
  by_cases hbad : st > l.length ∨ n > l.length - st
  · exact ⟨none, s, by simp [createView, ec, hbad], I, Later.refl _⟩
  · have hp : 0 < f a + kids s.objs a := by have : 0 < f a := h.1; omega
    obtain ⟨o, e, hl, hg, _⟩ := live_of I hp
    obtain ⟨s', es, I', X, hlen⟩ := inc_ok I hp
    have hf : Frozen s.objs a o.kind := ⟨o, e, bld_live hl, rfl⟩
    have hlt : a < s'.objs.length := by rw [hlen]; exact lt_of_get e
    have fin : ∀ root st', KindOk (s'.objs ++ [⟨.view a root st' n, 1, .live, [], []⟩]) s'.objs.length (.view a root st' n) → Inv (new s' (.view a root st' n)) (plus f s'.objs.length) := by
      intro root st' hk
      refine new_ok I' hk (by simp) fun y => ?_
      simp only [plus, content, List.count_cons, List.count_nil]
      by_cases h1 : y = a <;> by_cases h2 : y = s'.objs.length <;> simp [h1, h2] <;> grind
    have K : ∀ o, Keep s.objs (s'.objs ++ [o]) := fun o x k h => keep_append o x k (X.keep x k h)
    rcases hc with hc | ⟨orig, root, st0, n0, cs, h1, h2, h3⟩
    · have hnv : ∀ a b c d, o.kind ≠ .view a b c d := by
        intro a b c d hk
        rw [hk] at hf
        rcases hc with hc | hc <;> cases hf.unique hc
      refine ⟨some s'.objs.length, new s' (.view a a st n), ?_, fin _ _ ⟨hlt, ⟨l, hc.mono (K _), by omega⟩, Or.inl rfl⟩, (X.trans (ext_append _)).later⟩
      simp only [createView, ec, C.ok_bind, hbad, if_false, hg, es]
    · have hk := hf.unique h1
      have hs := (I.st a o e).kind
      rw [hk] at hs
      obtain ⟨cs', h2', h4⟩ := hs.2.1
      have : cs' = cs := CellsAt.unique (Or.inl h2') (Or.inl h2)
      subst this
      refine ⟨some s'.objs.length, new s' (.view a root (st0 + st) n), ?_, fin _ _ ⟨hlt, ⟨cs', h2.mono (K _), ?_⟩, Or.inr ⟨orig, st0, n0, K _ _ _ h1⟩⟩, (X.trans (ext_append _)).later⟩
      · simp only [createView, ec, C.ok_bind, hbad, if_false, hg, es, hk]
      · subst h3
        simp at hbad; omega

theorem getBuffer_ok (I : Inv s f) {a i : Nat} (h : HasArr ⟨s, f⟩ a) : ∃ v s', getBuffer s a i = C.ok (v, s') ∧ Inv s' (give f v) ∧ Later s.objs s'.objs := by
  obtain ⟨l, hc, ec⟩ := arr_ok I h
  have hp : 0 < f a + kids s.objs a := by have : 0 < f a := h.1; omega
  by_cases hi : i ≥ l.length
  · exact ⟨none, s, by simp [getBuffer, ec, hi], I, Later.refl _⟩
  · have hb : l[i]? = some (l[i]'(by omega)) := List.getElem?_eq_getElem (by omega)
    obtain ⟨s', e, I', X, _⟩ := inc_ok I (x := l[i]'(by omega)) (by have := (cells_ok I hc hp).2 _ (List.mem_of_getElem? hb); omega)
    exact ⟨some _, s', by simp [getBuffer, ec, hi, rd, hb, e], I', X.later⟩

theorem heldSrc_of {src : Src} (h : SrcHeld ⟨s, f⟩ src) : heldSrc f src := by cases src <;> exact h

theorem isB_of_held (I : Inv s f) {b : Nat} (h : IsBuf s b) (hp : 0 < f b) : IsB s.objs b := buf_ok I ⟨hp, h⟩

theorem move_bal {bs : List Nat} (I : Inv s f) (h : ∀ b ∈ bs, IsBuf s b ∧ bs.count b ≤ f b) :
    Inv (new s (.moved bs)) fun y => if y = s.objs.length then 1 else f y - bs.count y := by
  have hB : ∀ b ∈ bs, IsB s.objs b := fun b hb => isB_of_held I (h b hb).1 (by
    have := List.count_pos_iff.2 hb
    have := (h b hb).2
    omega)
  refine new_ok I (fun b hb => (hB b hb).mono (keep_append _)) (by simp) fun y => ?_
  simp only [content]
  by_cases hy : y ∈ bs
  · have := (h y hy).2
    obtain ⟨z, p, o, e, _⟩ := hB y hy
    have := lt_of_get e
    have hne : ¬ y = s.objs.length := by omega
    simp only [hne, if_false]; omega
  · have h0 : bs.count y = 0 := List.count_eq_zero.2 hy
    rw [h0]
    by_cases hne : y = s.objs.length
    · have hb := I.bal y
      have e : s.objs[y]? = none := List.getElem?_eq_none (by omega)
      simp only [cntOf, bldOf, e, Option.map_none, Option.getD_none] at hb
      simp only [hne, if_true]
      rw [← hne]; omega
    · simp only [hne, if_false]; omega

theorem exec_ok {s : Sys} (I : Inv s.heap s.held) {op : Op} (h : Allowed s op) : ∃ t, exec s op = C.ok t ∧ Inv t.heap t.held ∧ Later s.heap.objs t.heap.objs := by
  obtain ⟨s, f⟩ := s
  simp only at I
  cases op with
  | newBuf size =>
    refine ⟨_, rfl, new_ok I (by simp [KindOk]) (by simp) fun y => ?_, later_append _⟩
    simp only [plus, content, Option.toList, List.count_nil]; split <;> omega
  | newWindow b size =>
    obtain ⟨s', e, I', X, _⟩ := inc_ok I (x := b) (by have : 0 < f b := h.1; omega)
    have hB := (buf_ok I h).mono X.keep
    refine ⟨⟨new s' (.buf size (some b)), plus f s'.objs.length⟩, by simp [exec, e], ?_, (X.trans (ext_append _)).later⟩
    obtain ⟨z, p, o, eo, _⟩ := hB
    refine new_ok I' ⟨lt_of_get eo, IsB.mono (keep_append _) ⟨z, p, o, eo, ‹_›⟩⟩ (by simp) fun y => ?_
    simp only [plus, content, Option.toList, List.count_cons, List.count_nil]
    by_cases h1 : y = b <;> by_cases h2 : y = s'.objs.length <;> simp [h1, h2] <;> grind
  | incRef x =>
    obtain ⟨s', e, I', X, _⟩ := inc_ok I (x := x) (by have : 0 < f x := h; omega)
    exact ⟨⟨s', plus f x⟩, by simp [exec, e], I', X.later⟩
  | decRef x =>
    obtain ⟨s', e, I', X, _⟩ := dec_ok I (x := x) h
    exact ⟨⟨s', minus f x⟩, by simp [exec, e], I', X.later⟩
  | start c =>
    obtain ⟨o, todo, rot, e, _, _, _, I'⟩ := start_ok I h (R := fun a => match cellsOf s a with | .ok l => l | _ => []) (fun a l h => by simp [h])
    exact ⟨⟨{ s with objs := s.objs ++ [o] }, f⟩, by simp [exec, e], I', later_append o⟩
  | fill x alloc =>
    obtain ⟨o, it, todo, rot, e, hp, hs⟩ := h
    obtain ⟨b, s', e', I', L⟩ := fill_ok I e hp (heldSrc_of hs) alloc
    exact ⟨⟨s', give f b⟩, by simp [exec, e'], I', L⟩
  | done x =>
    obtain ⟨o, rot, e, hp⟩ := h
    obtain ⟨s', e', I', L⟩ := done_ok I e hp
    exact ⟨⟨s', plus f x⟩, by simp [exec, e'], I', L⟩
  | createMove bs => exact ⟨_, rfl, move_bal I h, later_append _⟩
  | createView a st n =>
    obtain ⟨v, s', e, I', L⟩ := createView_ok I (st := st) (n := n) h
    exact ⟨⟨s', give f v⟩, by simp [exec, e], I', L⟩
  | getBuffer a i =>
    obtain ⟨v, s', e, I', L⟩ := getBuffer_ok I (i := i) h
    exact ⟨⟨s', give f v⟩, by simp [exec, e], I', L⟩
  | release x =>
    obtain ⟨o, i, e, hp⟩ := h
    obtain ⟨s', e', I', L⟩ := release_ok I e hp
    exact ⟨⟨s', f⟩, by simp [exec, e'], I', L⟩

theorem inv_init : Inv init.heap init.held := by
  refine ⟨fun x => ?_, ?_, ?_, ?_, fun x => ?_⟩
  · simp [init, cntOf, kids, bldOf]
  · intro x o e; simp [init] at e
  · intro x o e; simp [init] at e
  · intro x o e; simp [init] at e
  · simp [init, frd, frdMoved]

theorem steps_inv {s t : Sys} (I : Inv s.heap s.held) (h : Steps s t) : Inv t.heap t.held ∧ Later s.heap.objs t.heap.objs := by
  induction h with
  | refl => exact ⟨I, Later.refl _⟩
  | step op _ ha e ih =>
    obtain ⟨u, e', I', L⟩ := exec_ok ih.1 ha
    rw [e] at e'; cases e'
    exact ⟨I', ih.2.trans L⟩

theorem reach_inv {s : Sys} (h : Reachable s) : Inv s.heap s.held := (steps_inv inv_init h).1

end

end CUtil.ArrayLife
