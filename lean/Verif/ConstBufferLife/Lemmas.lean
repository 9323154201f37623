import Verif.ConstBufferLife.Spec
set_option linter.unusedSimpArgs false
namespace CUtil.ConstBufferLife
open CUtil Spec

/-- Number of unreleased windows of `h`. -/
def kids (objs : List Obj) (h : Nat) : Nat :=
  objs.countP (fun o => decide (o.kind = .window h) && decide (o.phase ≠ .freed))

/-- Facts about the immutable fields. -/
structure Static (ss : List Shape) (view : Nat → List UInt8) : Prop where
  win : ∀ (h : Nat) (o : Shape) (p : Nat), ss[h]? = some o → o.kind = .window p → p < h ∧ ∃ q, ss[p]? = some q ∧ o.root = q.root
  base : ∀ (h : Nat) (o : Shape), ss[h]? = some o → (∀ p, o.kind ≠ .window p) → o.root = h
  dat : ∀ (h : Nat) (o : Shape), ss[h]? = some o → o.size < 4294967296 ∧ ∃ r, ss[o.root]? = some r ∧ o.off + o.size ≤ r.data.length ∧
    view h = slice r.data o.off o.size

/-- Every object counts its owners. -/
def Dyn (objs : List Obj) (own : Nat → Nat) : Prop :=
  ∀ (h : Nat) (o : Obj), objs[h]? = some o → o.count = own h ∧ (o.phase = .live ↔ 0 < o.count)

def freedP (objs : List Obj) (K : Kind → Bool) (h : Nat) : Bool :=
  match objs[h]? with
  | some o => decide (o.phase = .freed) && K o.kind
  | none => false

structure Lg (objs : List Obj) (log : List Event) : Prop where
  obj : ∀ h, log.count (.objFree h) = if freedP objs (fun _ => true) h then 1 else 0
  mem : ∀ h, log.count (.memFree h) = if freedP objs (fun k => decide (k = .moved)) h then 1 else 0
  cust : ∀ h c, log.count (.customFree h c) = if freedP objs (fun k => decide (k = .customFree c)) h then 1 else 0

def shapes (objs : List Obj) : List Shape := objs.map (·.toShape)

structure Inv (s : Sys) : Prop where
  static : Static (shapes s.heap.objs) s.view
  dyn : Dyn s.heap.objs (fun h => s.held h + kids s.heap.objs h)
  out : ∀ h, s.heap.objs.length ≤ h → s.held h = 0
  lg : Lg s.heap.objs s.heap.log

theorem shapes_get {objs : List Obj} {h : Nat} {o : Obj} (e : objs[h]? = some o) :
    (shapes objs)[h]? = some o.toShape := by simp [shapes, e]

theorem shapes_get' {objs : List Obj} {h : Nat} {t : Shape} (e : (shapes objs)[h]? = some t) :
    ∃ o, objs[h]? = some o ∧ o.toShape = t := by
  simp only [shapes, List.getElem?_map, Option.map_eq_some_iff] at e
  exact e

theorem shapes_set {objs : List Obj} {h : Nat} {o o' : Obj} (e : objs[h]? = some o) (hs : o'.toShape = o.toShape) :
    shapes (objs.set h o') = shapes objs := by
  apply List.ext_getElem?
  intro i
  simp only [shapes, List.getElem?_map, List.getElem?_set]
  have hl : h < objs.length := by
    rcases Nat.lt_or_ge h objs.length with h1 | h1
    · exact h1
    · rw [List.getElem?_eq_none h1] at e; cases e
  by_cases hi : h = i
  · subst hi; rw [if_pos rfl, if_pos hl, e]; simp [hs]
  · rw [if_neg hi]

theorem lt_of_get {α : Type} {l : List α} {h : Nat} {o : α} (e : l[h]? = some o) : h < l.length := by
  rcases Nat.lt_or_ge h l.length with h1 | h1
  · exact h1
  · rw [List.getElem?_eq_none h1] at e; cases e

theorem get_ok {s : Heap} {h : Nat} {o : Obj} : get s h = C.ok o ↔ s.objs[h]? = some o ∧ o.phase = .live := by
  unfold get
  split
  · rename_i x hx
    rw [hx]
    by_cases hp : x.phase = .live
    · rw [if_pos hp]; simp only [C.ok.injEq, Option.some.injEq]
      constructor
      · rintro rfl; exact ⟨rfl, hp⟩
      · exact fun h => h.1
    · rw [if_neg hp]; simp only [Option.some.injEq]
      constructor
      · intro h; cases h
      · rintro ⟨rfl, h⟩; exact absurd h hp
  · rename_i hx; rw [hx]; simp

theorem kids_set {objs : List Obj} {h : Nat} {o o' : Obj} (e : objs[h]? = some o) (hk : o'.kind = o.kind)
    (hf : o'.phase = .freed ↔ o.phase = .freed) (x : Nat) : kids (objs.set h o') x = kids objs x := by
  unfold kids
  have hl := lt_of_get e
  rw [List.countP_set hl]
  have : objs[h] = o := by rw [List.getElem?_eq_getElem hl] at e; exact Option.some.inj e
  rw [this, hk]
  have hd : decide (o'.phase ≠ .freed) = decide (o.phase ≠ .freed) := by
    rw [decide_eq_decide]; exact not_congr hf
  rw [hd]
  split
  · rename_i hp
    have : 0 < List.countP (fun o => decide (o.kind = .window x) && decide (o.phase ≠ .freed)) objs :=
      List.countP_pos_iff.2 ⟨o, this ▸ List.getElem_mem hl, hp⟩
    omega
  · rfl

theorem kids_freed {objs : List Obj} {h : Nat} {o o' : Obj} (e : objs[h]? = some o)
    (hn : o.phase ≠ .freed) (hf : o'.phase = .freed) (x : Nat) :
    kids (objs.set h o') x = kids objs x - (if o.kind = .window x then 1 else 0) := by
  unfold kids
  have hl := lt_of_get e
  rw [List.countP_set hl]
  have : objs[h] = o := by rw [List.getElem?_eq_getElem hl] at e; exact Option.some.inj e
  rw [this]
  simp [hf, hn]

theorem kids_pos {objs : List Obj} {h p : Nat} {o : Obj} (e : objs[h]? = some o) (hk : o.kind = .window p)
    (hn : o.phase ≠ .freed) : 0 < kids objs p := by
  unfold kids
  rw [List.countP_pos_iff]
  exact ⟨o, List.mem_of_getElem? e, by simp [hk, hn]⟩

theorem kids_out {objs : List Obj} {view} (hs : Static (shapes objs) view) (x : Nat) (hx : objs.length ≤ x) :
    kids objs x = 0 := by
  unfold kids
  rw [List.countP_eq_zero]
  intro o ho hc
  simp only [Bool.and_eq_true, decide_eq_true_eq] at hc
  obtain ⟨i, hi, rfl⟩ := List.mem_iff_getElem.1 ho
  have := (hs.win i _ x (shapes_get (List.getElem?_eq_getElem hi)) hc.1).1
  omega

theorem kids_append (objs : List Obj) (o : Obj) (x : Nat) (hl : o.phase = .live) :
    kids (objs ++ [o]) x = kids objs x + (if o.kind = .window x then 1 else 0) := by
  unfold kids
  rw [List.countP_append]
  simp only [List.countP_cons, List.countP_nil, hl]
  by_cases h : o.kind = .window x <;> simp [h]

theorem freedP_set {objs : List Obj} {h : Nat} {o o' : Obj} (e : objs[h]? = some o) (hk : o'.kind = o.kind)
    (hf : o'.phase = .freed ↔ o.phase = .freed) (K : Kind → Bool) (x : Nat) :
    freedP (objs.set h o') K x = freedP objs K x := by
  unfold freedP
  rw [List.getElem?_set]
  by_cases hx : h = x
  · subst hx
    rw [if_pos rfl, if_pos (lt_of_get e), e]
    simp only [hk]
    rw [show decide (o'.phase = .freed) = decide (o.phase = .freed) from decide_eq_decide.2 hf]
  · rw [if_neg hx]

theorem freedP_append (objs : List Obj) (o : Obj) (hl : o.phase = .live) (K : Kind → Bool) (x : Nat) :
    freedP (objs ++ [o]) K x = freedP objs K x := by
  unfold freedP
  rcases Nat.lt_trichotomy x objs.length with h | h | h
  · rw [List.getElem?_append_left h]
  · subst h; rw [List.getElem?_concat_length, List.getElem?_eq_none (Nat.le_refl _)]; simp [hl]
  · rw [List.getElem?_eq_none (by simp; omega), List.getElem?_eq_none (by omega)]

theorem Lg.congr {objs objs' : List Obj} {log : List Event} (h : Lg objs log)
    (e : ∀ K x, freedP objs' K x = freedP objs K x) : Lg objs' log :=
  ⟨fun x => by rw [h.obj, e], fun x => by rw [h.mem, e], fun x c => by rw [h.cust, e]⟩

theorem freedP_free {objs : List Obj} {h : Nat} {o : Obj} (e : objs[h]? = some o) (hf : o.phase ≠ .freed)
    (K : Kind → Bool) (x : Nat) :
    freedP (objs.set h { o with phase := .freed }) K x = if x = h then K o.kind else freedP objs K x := by
  unfold freedP
  rw [List.getElem?_set]
  by_cases hx : h = x
  · subst hx; rw [if_pos rfl, if_pos (lt_of_get e), if_pos rfl]; simp
  · rw [if_neg hx, if_neg (fun h => hx h.symm)]

theorem freedP_self {objs : List Obj} {h : Nat} {o : Obj} (e : objs[h]? = some o) (hf : o.phase ≠ .freed)
    (K : Kind → Bool) : freedP objs K h = false := by
  unfold freedP; rw [e]; simp [hf]

/-- The log after freeing object `h` of kind `k`. -/
theorem Lg.free {objs : List Obj} {log : List Event} {h : Nat} {o : Obj} (hl : Lg objs log)
    (e : objs[h]? = some o) (hf : o.phase ≠ .freed) (evs : List Event)
    (he : evs = match o.kind with
      | .copied => [.objFree h]
      | .moved => [.objFree h, .memFree h]
      | .customFree c => [.objFree h, .customFree h c]
      | .window _ => [.objFree h]) :
    Lg (objs.set h { o with phase := .freed }) (evs ++ log) := by
  have f := freedP_free e hf
  have g := freedP_self e hf
  constructor
  · intro x
    rw [f, List.count_append, hl.obj]
    by_cases hx : x = h
    · subst hx; rw [g]; subst he; cases o.kind <;> simp [List.count_cons]
    · rw [if_neg hx]; subst he; cases o.kind <;> simp [List.count_cons, Ne.symm hx]
  · intro x
    rw [f, List.count_append, hl.mem]
    by_cases hx : x = h
    · subst hx; rw [g]; subst he; cases o.kind <;> simp [List.count_cons]
    · rw [if_neg hx]; subst he; cases o.kind <;> simp [List.count_cons, Ne.symm hx]
  · intro x c
    rw [f, List.count_append, hl.cust]
    by_cases hx : x = h
    · subst hx; rw [g]; subst he; cases o.kind <;> simp [List.count_cons]
    · rw [if_neg hx]; subst he; cases o.kind <;> simp [List.count_cons, Ne.symm hx]

/-- Replacing an object by one with the same immutable fields. -/
theorem dyn_set {objs : List Obj} {own own' : Nat → Nat} (hd : Dyn objs own) {h : Nat} {o o' : Obj}
    (e : objs[h]? = some o) (ho : ∀ x, x ≠ h → own' x = own x)
    (hc : o'.count = own' h ∧ (o'.phase = .live ↔ 0 < o'.count)) : Dyn (objs.set h o') own' := by
  intro x y hxy
  rw [List.getElem?_set] at hxy
  by_cases hx : h = x
  · subst hx; rw [if_pos rfl, if_pos (lt_of_get e)] at hxy; cases hxy; exact hc
  · rw [if_neg hx] at hxy; rw [ho x (fun q => hx q.symm)]; exact hd x y hxy

theorem dyn_append {objs : List Obj} {own own' : Nat → Nat} (hd : Dyn objs own) {o : Obj}
    (ho : ∀ x, x < objs.length → own' x = own x)
    (hc : o.count = own' objs.length ∧ (o.phase = .live ↔ 0 < o.count)) : Dyn (objs ++ [o]) own' := by
  intro x y hxy
  rcases Nat.lt_trichotomy x objs.length with h | h | h
  · rw [List.getElem?_append_left h] at hxy; rw [ho x h]; exact hd x y hxy
  · subst h; rw [List.getElem?_concat_length] at hxy; cases hxy; exact hc
  · rw [List.getElem?_eq_none (by simp; omega)] at hxy; cases hxy

theorem static_append {ss : List Shape} {view view' : Nat → List UInt8} (hs : Static ss view) {t : Shape}
    (hv : ∀ x, x < ss.length → view' x = view x)
    (hw : ∀ p, t.kind = .window p → p < ss.length ∧ ∃ q, ss[p]? = some q ∧ t.root = q.root)
    (hb : (∀ p, t.kind ≠ .window p) → t.root = ss.length)
    (hd : t.size < 4294967296 ∧ ∃ r, (ss ++ [t])[t.root]? = some r ∧ t.off + t.size ≤ r.data.length ∧
      view' ss.length = slice r.data t.off t.size) : Static (ss ++ [t]) view' := by
  have old : ∀ {x : Nat} {q : Shape}, ss[x]? = some q → (ss ++ [t])[x]? = some q := by
    intro x q h; rw [List.getElem?_append_left (lt_of_get h)]; exact h
  have cases' : ∀ {x : Nat} {q : Shape}, (ss ++ [t])[x]? = some q → ss[x]? = some q ∨ (x = ss.length ∧ q = t) := by
    intro x q h
    rcases Nat.lt_trichotomy x ss.length with h1 | h1 | h1
    · rw [List.getElem?_append_left h1] at h; exact Or.inl h
    · subst h1; rw [List.getElem?_concat_length] at h; cases h; exact Or.inr ⟨rfl, rfl⟩
    · rw [List.getElem?_eq_none (by simp; omega)] at h; cases h
  constructor
  · intro h o p e hk
    rcases cases' e with e | ⟨rfl, rfl⟩
    · obtain ⟨h1, q, h2, h3⟩ := hs.win h o p e hk; exact ⟨h1, q, old h2, h3⟩
    · obtain ⟨h1, q, h2, h3⟩ := hw p hk; exact ⟨h1, q, old h2, h3⟩
  · intro h o e hk
    rcases cases' e with e | ⟨rfl, rfl⟩
    · exact hs.base h o e hk
    · exact hb hk
  · intro h o e
    rcases cases' e with e | ⟨rfl, rfl⟩
    · obtain ⟨h1, r, h2, h3, h4⟩ := hs.dat h o e
      exact ⟨h1, r, old h2, h3, by rw [hv h (lt_of_get e)]; exact h4⟩
    · exact hd

theorem shapes_append (objs : List Obj) (o : Obj) : shapes (objs ++ [o]) = shapes objs ++ [o.toShape] := by
  simp [shapes]

@[simp] theorem shapes_length (objs : List Obj) : (shapes objs).length = objs.length := by simp [shapes]

@[simp] theorem upd_self {α : Type} (f : Nat → α) (h : Nat) (v : α) : upd f h v h = v := by simp [upd]
theorem upd_ne {α : Type} (f : Nat → α) {h x : Nat} (v : α) (hx : x ≠ h) : upd f h v x = f x := by simp [upd, hx]
theorem upd_id {α : Type} (f : Nat → α) (h : Nat) : upd f h (f h) = f := by
  funext x; by_cases hx : x = h
  · subst hx; simp
  · rw [upd_ne _ _ hx]

/-- An owned handle is live. -/
theorem Inv.live {s : Sys} (hi : Inv s) {h : Nat} (hh : 0 < s.held h) :
    ∃ o, s.heap.objs[h]? = some o ∧ o.phase = .live ∧ o.count = s.held h + kids s.heap.objs h := by
  rcases Nat.lt_or_ge h s.heap.objs.length with hl | hl
  · refine ⟨s.heap.objs[h], List.getElem?_eq_getElem hl, ?_⟩
    obtain ⟨h1, h2⟩ := hi.dyn h _ (List.getElem?_eq_getElem hl)
    dsimp only at h1
    exact ⟨h2.2 (by omega), h1⟩
  · have := hi.out h hl; omega

/-- The parent of an unreleased window is live. -/
theorem Inv.parent_live {s : Sys} (hi : Inv s) {h p : Nat} {o : Obj} (e : s.heap.objs[h]? = some o)
    (hk : o.kind = .window p) (hn : o.phase ≠ .freed) :
    p < h ∧ ∃ q, s.heap.objs[p]? = some q ∧ q.phase = .live ∧ o.root = q.root := by
  obtain ⟨h1, q, h2, h3⟩ := hi.static.win h _ p (shapes_get e) hk
  obtain ⟨q', h4, rfl⟩ := shapes_get' h2
  refine ⟨h1, q', h4, ?_, h3⟩
  obtain ⟨h5, h6⟩ := hi.dyn p q' h4
  dsimp only at h5
  have := kids_pos e hk hn
  exact h6.2 (by omega)

/-- The memory owner of a live object is live. -/
theorem Inv.root_live {s : Sys} (hi : Inv s) : ∀ (h : Nat) (o : Obj), s.heap.objs[h]? = some o → o.phase = .live →
    ∃ r, s.heap.objs[o.root]? = some r ∧ r.phase = .live := by
  intro h
  induction h using Nat.strongRecOn with
  | _ h ih =>
    intro o e hl
    by_cases hw : ∃ p, o.kind = .window p
    · obtain ⟨p, hk⟩ := hw
      obtain ⟨h1, q, h2, h3, h4⟩ := hi.parent_live e hk (by rw [hl]; simp)
      rw [h4]; exact ih p h1 q h2 h3
    · have := hi.static.base h _ (shapes_get e) (fun p hp => hw ⟨p, hp⟩)
      exact ⟨o, by rw [this]; exact e, hl⟩

theorem Inv.content {s : Sys} (hi : Inv s) {h : Nat} {o : Obj} (e : s.heap.objs[h]? = some o) (hl : o.phase = .live) :
    content s.heap h = C.ok (s.view h) ∧ (s.view h).length = o.size := by
  obtain ⟨r, h1, h2⟩ := hi.root_live h o e hl
  obtain ⟨h3, r', h4, h5, h6⟩ := hi.static.dat h _ (shapes_get e)
  obtain ⟨r'', h7, rfl⟩ := shapes_get' h4
  rw [h1] at h7; cases h7
  unfold ConstBufferLife.content
  rw [get_ok.2 ⟨e, hl⟩, C.ok_bind, get_ok.2 ⟨h1, h2⟩, C.ok_bind, if_pos h5, h6]
  refine ⟨rfl, ?_⟩
  simp [slice]; omega

/-! ### Preservation -/

theorem inv_init : Inv Sys.init := by
  constructor
  · constructor <;> simp [Sys.init, shapes]
  · intro h o e; simp [Sys.init] at e
  · simp [Sys.init]
  · constructor <;> simp [Sys.init, freedP]

/-- Adding a fresh non-window object owned once by the clients. -/
theorem inv_fresh {s : Sys} (hi : Inv s) (k : Kind) (hk : ∀ p, k ≠ .window p) (size : Nat) (data : List UInt8)
    (hs : size < 4294967296) (hd : data.length = size) :
    Inv (gain s (some s.heap.objs.length,
      { s.heap with objs := s.heap.objs ++ [⟨⟨k, s.heap.objs.length, 0, size, data⟩, 1, .live⟩] }) data) := by
  simp only [gain]
  have h0 := hi.out _ (Nat.le_refl s.heap.objs.length)
  constructor
  · simp only [shapes_append]
    apply static_append hi.static
    · intro x hx; rw [upd_ne _ _ (by simp at hx; omega)]
    · intro p hp; exact absurd hp (hk p)
    · intro _; simp
    · refine ⟨hs, ⟨k, s.heap.objs.length, 0, size, data⟩, ?_, ?_, ?_⟩
      · rw [← shapes_length s.heap.objs]; exact List.getElem?_concat_length
      · simp [hd]
      · simp [slice, hd.symm]
  · apply dyn_append hi.dyn
    · intro x hx
      dsimp only
      rw [upd_ne _ _ (by omega), kids_append _ _ _ rfl, if_neg (hk x), Nat.add_zero]
    · dsimp only
      rw [upd_self, kids_append _ _ _ rfl, if_neg (hk _), h0, kids_out hi.static _ (Nat.le_refl _)]; simp
  · intro x hx; simp at hx; show upd _ s.heap.objs.length _ x = 0; rw [upd_ne _ _ (by omega)]; exact hi.out x (by omega)
  · exact hi.lg.congr (freedP_append _ _ rfl)

theorem inv_incRef {s : Sys} (hi : Inv s) {h : Nat} {o : Obj} (e : s.heap.objs[h]? = some o) (hl : o.phase = .live) :
    Inv { s with heap := put s.heap h { o with count := o.count + 1 }, held := upd s.held h (s.held h + 1) } := by
  have hk : ∀ x, kids (s.heap.objs.set h { o with count := o.count + 1 }) x = kids s.heap.objs x :=
    kids_set e rfl Iff.rfl
  have hc := hi.dyn h o e
  dsimp only at hc
  constructor
  · simp only [put]; rw [shapes_set e (by rfl)]; exact hi.static
  · simp only [put]
    apply dyn_set hi.dyn e
    · intro x hx; rw [upd_ne _ _ hx, hk]
    · rw [upd_self, hk]; simp only [hl, true_iff]; omega
  · intro x hx; simp only [put, List.length_set] at hx
    have := lt_of_get e
    show upd _ h _ x = 0
    rw [upd_ne _ _ (by omega)]; exact hi.out x hx
  · exact hi.lg.congr (freedP_set e rfl Iff.rfl)

theorem decrement_eq {s : Heap} {h : Nat} {o : Obj} (e : s.objs[h]? = some o) (hl : o.phase = .live) (hc : 0 < o.count) :
    decrement s h = C.ok (put s h { o with count := o.count - 1, phase := if o.count = 1 then .dying else .live }) := by
  unfold decrement
  rw [get_ok.2 ⟨e, hl⟩, C.ok_bind, if_neg (by omega)]; rfl

theorem inv_decRef {s : Sys} (hi : Inv s) {h : Nat} (hh : 0 < s.held h) :
    ∃ hp, decRef s.heap h = C.ok hp ∧ Inv { s with heap := hp, held := upd s.held h (s.held h - 1) } := by
  obtain ⟨o, e, hl, hc⟩ := hi.live hh
  refine ⟨_, decrement_eq e hl (by omega), ?_⟩
  have hfr : ({ o with count := o.count - 1, phase := if o.count = 1 then Phase.dying else .live } : Obj).phase = .freed
      ↔ o.phase = .freed := by
    rw [hl]; by_cases h1 : o.count = 1 <;> simp [h1]
  have hk := kids_set e (o' := { o with count := o.count - 1, phase := if o.count = 1 then Phase.dying else .live }) rfl hfr
  constructor
  · simp only [put]; rw [shapes_set e (by rfl)]; exact hi.static
  · simp only [put]
    apply dyn_set hi.dyn e
    · intro x hx; rw [upd_ne _ _ hx, hk]
    · rw [upd_self, hk]
      refine ⟨by simp only; omega, ?_⟩
      by_cases h1 : o.count = 1
      · simp [h1]
      · simp [h1]; omega
  · intro x hx; simp only [put, List.length_set] at hx
    have := lt_of_get e
    show upd _ h _ x = 0
    rw [upd_ne _ _ (by omega)]; exact hi.out x hx
  · exact hi.lg.congr (freedP_set e rfl hfr)

theorem inv_finish {s : Sys} (hi : Inv s) {h : Nat} {o : Obj} (e : s.heap.objs[h]? = some o) (hp : o.phase = .dying) :
    ∃ hp', finish s.heap h = C.ok hp' ∧ Inv { s with heap := hp' } ∧
      shapes hp'.objs = shapes s.heap.objs := by
  have hnf : o.phase ≠ .freed := by rw [hp]; simp
  have hnl : ¬ o.phase = .live := by rw [hp]; simp
  have hfin : finish s.heap h = match o.kind with
      | .copied => C.ok { objs := s.heap.objs.set h { o with phase := .freed }, log := .objFree h :: s.heap.log }
      | .moved => C.ok { objs := s.heap.objs.set h { o with phase := .freed }, log := .objFree h :: .memFree h :: s.heap.log }
      | .customFree ctx => C.ok { objs := s.heap.objs.set h { o with phase := .freed }, log := .objFree h :: .customFree h ctx :: s.heap.log }
      | .window p => decrement s.heap p >>= fun s =>
        C.ok { objs := s.objs.set h { o with phase := .freed }, log := .objFree h :: s.log } := by
    unfold finish; rw [e]; simp only [hp, ne_eq, not_true_eq_false, if_false]
    cases o.kind <;> rfl
  have hc := hi.dyn h o e
  dsimp only at hc
  -- non-window objects
  have simple : (∀ p, o.kind ≠ .window p) → ∀ evs : List Event, Lg (s.heap.objs.set h { o with phase := .freed }) (evs ++ s.heap.log) →
      Inv { s with heap := { objs := s.heap.objs.set h { o with phase := .freed }, log := evs ++ s.heap.log } } := by
    intro hnw evs hlg
    have hk : ∀ x, kids (s.heap.objs.set h { o with phase := .freed }) x = kids s.heap.objs x := by
      intro x; rw [kids_freed e hnf rfl, if_neg (hnw x), Nat.sub_zero]
    constructor
    · simp only; rw [shapes_set e (by rfl)]; exact hi.static
    · simp only
      apply dyn_set hi.dyn e
      · intro x hx; rw [hk]
      · rw [hk]; simp only [reduceCtorEq, false_iff]; exact ⟨hc.1, fun hh => hnl (hc.2.2 hh)⟩
    · intro x hx; simp only [List.length_set] at hx; exact hi.out x hx
    · exact hlg
  have lgf := hi.lg.free e hnf
  cases hkk : o.kind with
  | copied =>
    rw [hkk] at hfin
    exact ⟨_, hfin, simple (by rw [hkk]; simp) [.objFree h] (lgf _ (by rw [hkk])), shapes_set e rfl⟩
  | moved =>
    rw [hkk] at hfin
    exact ⟨_, hfin, simple (by rw [hkk]; simp) [.objFree h, .memFree h] (lgf _ (by rw [hkk])), shapes_set e rfl⟩
  | customFree c =>
    rw [hkk] at hfin
    exact ⟨_, hfin, simple (by rw [hkk]; simp) [.objFree h, .customFree h c] (lgf _ (by rw [hkk])), shapes_set e rfl⟩
  | window p =>
    rw [hkk] at hfin
    dsimp only at hfin
    obtain ⟨hlt, q, eq, hql, _⟩ := hi.parent_live e hkk hnf
    have hqc := hi.dyn p q eq
    dsimp only at hqc
    have hq0 := hqc.2.1 hql
    rw [decrement_eq eq hql hq0, C.ok_bind] at hfin
    simp only [put] at hfin
    have hfr : ({ q with count := q.count - 1, phase := if q.count = 1 then Phase.dying else .live } : Obj).phase = .freed
        ↔ q.phase = .freed := by
      rw [hql]; by_cases h1 : q.count = 1 <;> simp [h1]
    have hk1 := kids_set eq (o' := { q with count := q.count - 1, phase := if q.count = 1 then Phase.dying else .live }) rfl hfr
    have hf1 := freedP_set eq (o' := { q with count := q.count - 1, phase := if q.count = 1 then Phase.dying else .live }) rfl hfr
    have hs1 := shapes_set eq (o' := { q with count := q.count - 1, phase := if q.count = 1 then Phase.dying else .live }) rfl
    have hd1 : Dyn (s.heap.objs.set p { q with count := q.count - 1, phase := if q.count = 1 then Phase.dying else .live })
        (fun x => s.held x + kids s.heap.objs x - if x = p then 1 else 0) := by
      apply dyn_set hi.dyn eq
      · intro x hx; rw [if_neg hx, Nat.sub_zero]
      · rw [if_pos rfl]
        refine ⟨by simp only; omega, ?_⟩
        by_cases h1 : q.count = 1
        · simp [h1]
        · simp [h1]; omega
    generalize hq' : ({ q with count := q.count - 1, phase := if q.count = 1 then Phase.dying else .live } : Obj) = q'
      at hfin hk1 hf1 hs1 hd1
    have e1 : (s.heap.objs.set p q')[h]? = some o := by
      rw [List.getElem?_set, if_neg (by omega)]; exact e
    have hk2 : ∀ x, kids ((s.heap.objs.set p q').set h { o with phase := .freed }) x
        = kids s.heap.objs x - if x = p then 1 else 0 := by
      intro x
      rw [kids_freed e1 hnf rfl, hk1, hkk]
      by_cases hx : x = p
      · subst hx; simp
      · simp [hx, Ne.symm hx]
    have hpos := kids_pos e hkk hnf
    refine ⟨_, hfin, ?_, ?_⟩
    · constructor
      · simp only; rw [shapes_set e1 (by rfl), hs1]; exact hi.static
      · simp only
        apply dyn_set hd1 e1
        · intro x hx
          rw [hk2]
          by_cases hxp : x = p
          · subst hxp; simp; omega
          · simp [hxp]
        · rw [hk2, if_neg (by omega), Nat.sub_zero]; simp only [reduceCtorEq, false_iff]
          exact ⟨hc.1, fun hh => hnl (hc.2.2 hh)⟩
      · intro x hx; simp only [List.length_set] at hx; exact hi.out x hx
      · exact (hi.lg.congr (objs' := s.heap.objs.set p q') hf1).free e1 hnf [.objFree h] (by rw [hkk])
    · simp only; rw [shapes_set e1 (by rfl), hs1]

/-- What creating a window does to a live parent. -/
theorem createWindow_eq {s : Heap} {h : Nat} {o : Obj} (e : s.objs[h]? = some o) (hl : o.phase = .live)
    (hsz : o.size < 4294967296) (off size : Nat) (ho : off < 4294967296) (hs : size < 4294967296) (alloc : Bool) :
    createWindow s h off size alloc =
      if o.size < off + size then C.ok (none, s)
      else if off = 0 ∧ size = o.size then C.ok (some h, put s h { o with count := o.count + 1 })
      else if alloc = false then C.ok (none, s)
      else C.ok (some s.objs.length, { objs := s.objs.set h { o with count := o.count + 1 } ++
        [⟨⟨.window h, o.root, o.off + off, size, []⟩, 1, .live⟩], log := s.log }) := by
  have hinc : incRef s h = C.ok (put s h { o with count := o.count + 1 }) := by
    unfold incRef; rw [get_ok.2 ⟨e, hl⟩, C.ok_bind]; rfl
  unfold createWindow
  rw [get_ok.2 ⟨e, hl⟩, C.ok_bind]
  by_cases h1 : o.size < off + size
  · rw [if_pos h1]
    by_cases h2 : off > o.size
    · rw [if_pos h2]
    · rw [if_neg h2]
      by_cases h3 : off > 4294967295 - size
      · rw [if_pos h3]
      · rw [if_neg h3, if_pos (by simp only [Nat.reducePow]; omega)]
  · rw [if_neg h1, if_neg (by omega), if_neg (by omega), if_neg (by simp only [Nat.reducePow]; omega)]
    by_cases h4 : off = 0 ∧ size = o.size
    · rw [if_pos h4, if_pos h4, hinc]; rfl
    · rw [if_neg h4, if_neg h4]
      cases alloc with
      | false => simp
      | true => simp only [Bool.true_eq_false, if_false, hinc, C.ok_bind, put, List.length_set]

theorem inv_window {s : Sys} (hi : Inv s) {h : Nat} (hh : 0 < s.held h) (off size : Nat)
    (ho : off < 4294967296) (hs : size < 4294967296) (alloc : Bool) :
    ∃ r, createWindow s.heap h off size alloc = C.ok r ∧ Inv (gain s r (slice (s.view h) off size)) := by
  obtain ⟨o, e, hl, hc⟩ := hi.live hh
  obtain ⟨hsz, rt, hrt, hdat, hview⟩ := hi.static.dat h _ (shapes_get e)
  rw [createWindow_eq e hl hsz off size ho hs alloc]
  by_cases h1 : o.size < off + size
  · rw [if_pos h1]; exact ⟨_, rfl, hi⟩
  rw [if_neg h1]
  by_cases h4 : off = 0 ∧ size = o.size
  · rw [if_pos h4]
    refine ⟨_, rfl, ?_⟩
    have : slice (s.view h) off size = s.view h := by
      rw [h4.1, h4.2]; simp only [slice, List.drop_zero]
      exact List.take_of_length_le (Nat.le_of_eq (hi.content e hl).2)
    simp only [gain, this, upd_id]
    exact inv_incRef hi e hl
  rw [if_neg h4]
  cases alloc with
  | false => exact ⟨_, rfl, hi⟩
  | true =>
    rw [if_neg (by simp)]
    refine ⟨_, rfl, ?_⟩
    have hlt := lt_of_get e
    have h0 := hi.out _ (Nat.le_refl s.heap.objs.length)
    have hk0 := kids_out hi.static s.heap.objs.length (Nat.le_refl _)
    have hk : ∀ x, kids (s.heap.objs.set h { o with count := o.count + 1 }) x = kids s.heap.objs x :=
      kids_set e rfl Iff.rfl
    have hsh : shapes (s.heap.objs.set h { o with count := o.count + 1 }) = shapes s.heap.objs := shapes_set e (by rfl)
    have hd1 : Dyn (s.heap.objs.set h { o with count := o.count + 1 })
        (fun x => s.held x + kids s.heap.objs x + if x = h then 1 else 0) := by
      apply dyn_set hi.dyn e
      · intro x hx; rw [if_neg hx]; rfl
      · rw [if_pos rfl]; refine ⟨by dsimp only; omega, ?_⟩
        dsimp only; rw [hl]; simp
    have hne : h ≠ s.heap.objs.length := by omega
    simp only [gain]
    constructor
    · simp only [shapes_append, hsh]
      apply static_append hi.static
      · intro x hx; rw [upd_ne _ _ (by simp at hx; omega)]
      · intro p hp; cases hp
        exact ⟨by simpa using hlt, _, shapes_get e, rfl⟩
      · intro hp; exact absurd rfl (hp h)
      · refine ⟨hs, rt, ?_, ?_, ?_⟩
        · rw [List.getElem?_append_left (lt_of_get hrt)]; exact hrt
        · dsimp only; omega
        · simp only [shapes_length, upd_self]
          rw [hview]
          simp only [slice]
          rw [List.drop_take, List.take_take, List.drop_drop, Nat.min_eq_left (by omega)]
    · apply dyn_append hd1
      · intro x hx
        simp only [List.length_set] at hx
        dsimp only
        rw [upd_ne _ _ (by omega), kids_append _ _ _ rfl, hk]
        simp only [Kind.window.injEq]
        by_cases hx' : x = h
        · subst hx'; simp; omega
        · simp [hx', Ne.symm hx']
      · simp only [List.length_set]
        rw [upd_self, kids_append _ _ _ rfl, hk, hk0, h0]
        simp [hne]
    · intro x hx; simp at hx; show upd _ s.heap.objs.length _ x = 0
      rw [upd_ne _ _ (by omega)]; exact hi.out x (by omega)
    · exact (hi.lg.congr (objs' := s.heap.objs.set h { o with count := o.count + 1 })
        (freedP_set e rfl Iff.rfl)).congr (freedP_append _ _ rfl)

/-- Creating a non-window object. -/
theorem inv_create {s : Sys} (hi : Inv s) (k : Kind) (hk : ∀ p, k ≠ .window p) (src : Source)
    (hs : src.size < 4294967296) (hm : ∀ m, src.block = some m → src.size ≤ m.length) (alloc : Bool) :
    ∃ r, create s.heap k src alloc = C.ok r ∧ Inv (gain s r ((src.block.getD []).take src.size)) := by
  unfold create
  cases hb : src.block with
  | none =>
    dsimp only
    by_cases h0 : src.size ≠ 0
    · rw [if_pos h0]; exact ⟨_, rfl, hi⟩
    · rw [if_neg h0]
      cases alloc with
      | false => exact ⟨_, rfl, hi⟩
      | true =>
        rw [if_neg (by simp)]
        refine ⟨_, rfl, ?_⟩
        simp only [Option.getD_none, List.take_nil]
        exact inv_fresh hi k hk 0 [] (by omega) rfl
  | some m =>
    dsimp only
    cases alloc with
    | false => exact ⟨_, rfl, hi⟩
    | true =>
      have := hm m hb
      rw [if_neg (by simp), if_neg (by omega)]
      refine ⟨_, rfl, ?_⟩
      simp only [Option.getD_some]
      exact inv_fresh hi k hk src.size _ hs (by simp; omega)

theorem inv_windowCopy {s : Sys} (hi : Inv s) {h : Nat} (hh : 0 < s.held h) (off size : Nat)
    (ho : off < 4294967296) (hs : size < 4294967296) (alloc : Bool) :
    ∃ r, createWindowCopy s.heap h off size alloc = C.ok r ∧ Inv (gain s r (slice (s.view h) off size)) := by
  obtain ⟨o, e, hl, hc⟩ := hi.live hh
  obtain ⟨hsz, rt, hrt, hdat, hview⟩ := hi.static.dat h _ (shapes_get e)
  obtain ⟨hct, hlen⟩ := hi.content e hl
  unfold createWindowCopy
  rw [get_ok.2 ⟨e, hl⟩, C.ok_bind]
  by_cases h2 : off > o.size
  · rw [if_pos h2]; exact ⟨_, rfl, hi⟩
  rw [if_neg h2]
  by_cases h3 : off > 4294967295 - size
  · rw [if_pos h3]; exact ⟨_, rfl, hi⟩
  rw [if_neg h3]
  by_cases h4 : (off + size) % 2 ^ 32 > o.size
  · rw [if_pos h4]; exact ⟨_, rfl, hi⟩
  rw [if_neg h4, hct, C.ok_bind]
  simp only [Nat.reducePow] at h4
  exact inv_create hi .copied (by simp) ⟨some ((s.view h).drop off), size⟩ hs
    (by intro m hm; cases hm; simp; omega) alloc

theorem Inv.step {s : Sys} (hi : Inv s) (op : Op) (ha : Allowed s op) : ∃ s', exec s op = C.ok s' ∧ Inv s' := by
  cases op with
  | create k src alloc =>
    obtain ⟨h1, h2, h3⟩ := ha
    obtain ⟨r, h4, h5⟩ := inv_create hi k h1 src h2 h3 alloc
    exact ⟨_, by simp only [exec, h4, C.ok_bind, C.pure_eq], h5⟩
  | window h off size alloc =>
    obtain ⟨h1, h2, h3⟩ := ha
    obtain ⟨r, h4, h5⟩ := inv_window hi h1 off size h2 h3 alloc
    exact ⟨_, by simp only [exec, h4, C.ok_bind, C.pure_eq], h5⟩
  | windowCopy h off size alloc =>
    obtain ⟨h1, h2, h3⟩ := ha
    obtain ⟨r, h4, h5⟩ := inv_windowCopy hi h1 off size h2 h3 alloc
    exact ⟨_, by simp only [exec, h4, C.ok_bind, C.pure_eq], h5⟩
  | incRef h =>
    obtain ⟨o, e, hl, hc⟩ := hi.live ha
    refine ⟨_, ?_, inv_incRef hi e hl⟩
    simp only [exec, incRef]; rw [get_ok.2 ⟨e, hl⟩]; simp
  | decRef h =>
    obtain ⟨hp, h1, h2⟩ := inv_decRef hi ha
    exact ⟨_, by simp only [exec, h1, C.ok_bind, C.pure_eq], h2⟩
  | finish h =>
    obtain ⟨o, e, hp⟩ := ha
    obtain ⟨hp', h1, h2, _⟩ := inv_finish hi e hp
    exact ⟨_, by simp only [exec, h1, C.ok_bind, C.pure_eq], h2⟩

theorem Inv.reachable {s : Sys} (h : Reachable s) : Inv s := by
  induction h with
  | init => exact inv_init
  | step op _ ha he ih =>
    obtain ⟨s', h1, h2⟩ := ih.step op ha
    rw [he] at h1; cases h1; exact h2

/-- A released object has no owned handle below it. -/
theorem Inv.below {s : Sys} (hi : Inv s) {h r : Nat} (hb : Below s h r) :
    ∀ o, s.heap.objs[h]? = some o → o.phase = .live → ∃ q, s.heap.objs[r]? = some q ∧ q.phase = .live := by
  induction hb with
  | refl h => exact fun o e hl => ⟨o, e, hl⟩
  | step e hk _ ih =>
    intro o e' hl
    rw [e] at e'; cases e'
    obtain ⟨_, q, h2, h3, _⟩ := hi.parent_live e hk (by rw [hl]; simp)
    exact ih q h2 h3

theorem below_trans {s : Sys} {a b c : Nat} (h1 : Below s a b) (h2 : Below s b c) : Below s a c := by
  induction h1 with
  | refl => exact h2
  | step e k _ ih => exact .step e k (ih h2)

/-- With no `dying` object, a live object has an owned handle below it. -/
theorem Inv.owner {s : Sys} (hi : Inv s) (hq : Quiet s) : ∀ (n r : Nat) (o : Obj), s.heap.objs.length - r = n →
    s.heap.objs[r]? = some o → o.phase = .live → ∃ h, 0 < s.held h ∧ Below s h r := by
  intro n
  induction n using Nat.strongRecOn with
  | _ n ih =>
    intro r o hn e hl
    by_cases hh : 0 < s.held r
    · exact ⟨r, hh, .refl r⟩
    · obtain ⟨h1, h2⟩ := hi.dyn r o e
      dsimp only at h1
      have h3 := h2.1 hl
      have h4 : 0 < kids s.heap.objs r := by omega
      unfold kids at h4
      rw [List.countP_pos_iff] at h4
      obtain ⟨c, hc, hp⟩ := h4
      simp only [Bool.and_eq_true, decide_eq_true_eq] at hp
      obtain ⟨i, hil, rfl⟩ := List.mem_iff_getElem.1 hc
      have ei := List.getElem?_eq_getElem hil
      have hlt := (hi.parent_live ei hp.1 hp.2).1
      have hlive : s.heap.objs[i].phase = .live := by
        have := hq _ hc
        cases hph : s.heap.objs[i].phase with
        | live => rfl
        | dying => exact absurd hph this
        | freed => exact absurd hph hp.2
      obtain ⟨h, h5, h6⟩ := ih (s.heap.objs.length - i) (by have := lt_of_get e; omega) i _ rfl ei hlive
      have : Below s i r := .step ei hp.1 (.refl r)
      exact ⟨h, h5, below_trans h6 this⟩

end CUtil.ConstBufferLife
