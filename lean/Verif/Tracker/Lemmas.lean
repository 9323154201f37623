import Verif.Tracker.Spec
set_option linter.unusedSimpArgs false
set_option linter.unusedVariables false
/- Helper lemmas for C33 and C34. -/
namespace CUtil.Tracker

theorem scan_spec {m : α → Match} {p : α → Bool} (h : ∀ x, (m x = .matching → p x = true) ∧ (m x = .notMatching → p x = false)) : ∀ l : List α,
    match scan m l with
    | .fail => ∃ x ∈ l, m x = .error
    | .none => ∀ x ∈ l, p x = false
    | .entry b x a => l = b ++ x :: a ∧ p x = true ∧ ∀ y ∈ b, p y = false := by
  intro l
  induction l with
  | nil => simp [scan]
  | cons x xs ih =>
    unfold scan
    cases hm : m x with
    | matching => exact ⟨rfl, (h x).1 hm, by simp⟩
    | error => exact ⟨x, by simp, hm⟩
    | notMatching =>
      dsimp only
      have hx := (h x).2 hm
      cases hs : scan m xs with
      | fail =>
        rw [hs] at ih
        obtain ⟨y, hy, e⟩ := ih
        exact ⟨y, by simp [hy], e⟩
      | none =>
        rw [hs] at ih
        intro y hy
        rcases List.mem_cons.mp hy with rfl | hy
        · exact hx
        · exact ih y hy
      | entry b y a =>
        rw [hs] at ih
        obtain ⟨e, h1, h2⟩ := ih
        refine ⟨by rw [e]; rfl, h1, ?_⟩
        intro z hz
        rcases List.mem_cons.mp hz with rfl | hz
        · exact hx
        · exact h2 z hz

theorem eraseP_split {p : α → Bool} {b a : List α} {x : α} (hx : p x = true) (hb : ∀ y ∈ b, p y = false) : (b ++ x :: a).eraseP p = b ++ a := by
  induction b with
  | nil => simp [hx]
  | cons y b ih =>
    have hy := hb y (by simp)
    rw [List.cons_append, List.eraseP_cons_of_neg (by simp [hy]), ih (fun z hz => hb z (by simp [hz]))]
    rfl

theorem find_split {p : α → Bool} {b a : List α} {x : α} (hx : p x = true) (hb : ∀ y ∈ b, p y = false) : (b ++ x :: a).find? p = some x := by
  induction b with
  | nil => simp [hx]
  | cons y b ih =>
    have hy := hb y (by simp)
    rw [List.cons_append, List.find?_cons_of_neg (by simp [hy]), ih (fun z hz => hb z (by simp [hz]))]

/-- Erasing the first of those with `p`, when `p` only holds of some with `f`. -/
theorem filter_eraseP_sub {p f : α → Bool} (h : ∀ x, p x = true → f x = true) : ∀ l : List α, (l.eraseP p).filter f = (l.filter f).eraseP p
  | [] => rfl
  | x :: l => by
    by_cases hp : p x = true
    · rw [List.eraseP_cons_of_pos hp, List.filter_cons_of_pos (h x hp), List.eraseP_cons_of_pos hp]
    · rw [List.eraseP_cons_of_neg hp]
      by_cases hf : f x = true
      · rw [List.filter_cons_of_pos hf, List.filter_cons_of_pos hf, List.eraseP_cons_of_neg hp, filter_eraseP_sub h l]
      · rw [List.filter_cons_of_neg hf, List.filter_cons_of_neg hf, filter_eraseP_sub h l]

theorem filter_eraseP_disj {p f : α → Bool} (h : ∀ x, p x = true → f x = false) : ∀ l : List α, (l.eraseP p).filter f = l.filter f
  | [] => rfl
  | x :: l => by
    by_cases hp : p x = true
    · rw [List.eraseP_cons_of_pos hp, List.filter_cons_of_neg (by simp [h x hp])]
    · rw [List.eraseP_cons_of_neg hp]
      by_cases hf : f x = true
      · rw [List.filter_cons_of_pos hf, List.filter_cons_of_pos hf, filter_eraseP_disj h l]
      · rw [List.filter_cons_of_neg hf, List.filter_cons_of_neg hf, filter_eraseP_disj h l]

theorem find_filter_sub {p f : α → Bool} (h : ∀ x, p x = true → f x = true) : ∀ l : List α, (l.filter f).find? p = l.find? p
  | [] => rfl
  | x :: l => by
    by_cases hp : p x = true
    · rw [List.find?_cons_of_pos hp, List.filter_cons_of_pos (h x hp), List.find?_cons_of_pos hp]
    · rw [List.find?_cons_of_neg hp]
      by_cases hf : f x = true
      · rw [List.filter_cons_of_pos hf, List.find?_cons_of_neg hp, find_filter_sub h l]
      · rw [List.filter_cons_of_neg hf, find_filter_sub h l]

namespace Same
variable (S : Same)

theorem isKey_congr {a b : Nat} (h : S.keq a b = true) : S.isKey a = S.isKey b := by
  funext r
  unfold Same.isKey
  cases h1 : S.keq r.key a with
  | true => exact (S.trans _ _ _ h1 h).symm
  | false =>
    cases h2 : S.keq r.key b with
    | false => rfl
    | true =>
      have := S.trans _ _ _ h2 (by rw [S.symm]; exact h)
      rw [h1] at this; exact absurd this (by simp)

theorem keq_false {a b c : Nat} (h : S.keq a b = true) (h2 : S.keq a c = false) : S.keq b c = false := by
  cases h3 : S.keq b c with
  | false => rfl
  | true =>
    have := S.trans _ _ _ h h3
    rw [h2] at this; exact absurd this (by simp)

end Same

/-- What the search for a key finds. -/
theorem scan_keys {S : Same} {t : T} {regs : List Reg} (r : Rep S t regs) {km : Nat → Nat → Match} (ha : Agrees km S.keq) (key : Nat) :
    match scan (fun k : Key => km k.key key) t.keys with
    | .fail => ¬ Reliable km
    | .none => (∀ k ∈ t.keys, S.keq k.key key = false) ∧ regs.any (S.isKey key) = false
    | .entry b k a => t.keys = b ++ k :: a ∧ S.keq k.key key = true ∧ regs.any (S.isKey key) = true ∧
        k.objs = (regs.filter (S.isKey key)).map (·.obj) := by
  have h := scan_spec (m := fun k : Key => km k.key key) (p := fun k => S.keq k.key key) (fun x => ha x.key key) t.keys
  cases hs : scan (fun k : Key => km k.key key) t.keys with
  | fail =>
    rw [hs] at h
    obtain ⟨x, _, e⟩ := h
    exact fun hr => hr _ _ e
  | none =>
    rw [hs] at h
    refine ⟨h, ?_⟩
    rw [List.any_eq_false]
    intro x hx hk
    obtain ⟨k, hk1, hk2⟩ := r.covers x hx
    have := S.trans _ _ _ hk2 hk
    rw [h k hk1] at this; exact absurd this (by simp)
  | entry b k a =>
    rw [hs] at h
    obtain ⟨e, h1, h2⟩ := h
    have hk : k ∈ t.keys := by rw [e]; simp
    have ho := r.objs k hk
    rw [S.isKey_congr h1] at ho
    refine ⟨e, h1, ?_, ho⟩
    have hne := r.nonempty k hk
    rw [ho] at hne
    rw [List.any_eq_true]
    cases hf : regs.filter (S.isKey key) with
    | nil => rw [hf] at hne; exact absurd rfl hne
    | cons x xs =>
      have : x ∈ regs.filter (S.isKey key) := by rw [hf]; simp
      rw [List.mem_filter] at this
      exact ⟨x, this.1, this.2⟩

theorem is_sub (S : Same) (key object : Nat) (r : Reg) (h : S.is key object r = true) : S.isKey key r = true := by
  unfold Same.is at h; unfold Same.isKey
  simp only [Bool.and_eq_true] at h
  exact h.1

/-- What the search for an object under a key finds. -/
theorem scan_objs {S : Same} {regs : List Reg} {om : Nat → Nat → Match} (ha : Agrees om S.oeq) (key object : Nat) (objs : List Obj)
    (ho : objs = (regs.filter (S.isKey key)).map (·.obj)) :
    match scan (fun x : Obj => om x.object object) objs with
    | .fail => ¬ Reliable om
    | .none => regs.any (S.is key object) = false
    | .entry ob x oa => objs = ob ++ x :: oa ∧ regs.any (S.is key object) = true ∧
        ob ++ oa = ((regs.eraseP (S.is key object)).filter (S.isKey key)).map (·.obj) ∧
        (∃ r, regs.find? (S.is key object) = some r ∧ r.obj = x) := by
  have h := scan_spec (m := fun x : Obj => om x.object object) (p := fun x => S.oeq x.object object) (fun x => ha x.object object) objs
  have hcomp : ∀ r ∈ regs.filter (S.isKey key), S.is key object r = S.oeq r.obj.object object := by
    intro r hr
    have := (List.mem_filter.mp hr).2
    unfold Same.isKey at this
    unfold Same.is
    rw [this]; simp
  cases hs : scan (fun x : Obj => om x.object object) objs with
  | fail =>
    rw [hs] at h
    obtain ⟨x, _, e⟩ := h
    exact fun hr => hr _ _ e
  | none =>
    rw [hs] at h
    dsimp only at h ⊢
    rw [List.any_eq_false]
    intro x hx hk
    have hkey := is_sub S key object x hk
    have hm : x ∈ regs.filter (S.isKey key) := List.mem_filter.mpr ⟨hx, hkey⟩
    have := h x.obj (by rw [ho]; exact List.mem_map_of_mem (f := Reg.obj) hm)
    rw [hcomp x hm] at hk
    rw [this] at hk; exact absurd hk (by simp)
  | entry ob x oa =>
    rw [hs] at h
    obtain ⟨e, h1, h2⟩ := h
    refine ⟨e, ?_⟩
    have e0 := e
    rw [ho] at e0
    obtain ⟨l1, l2, e1, e2, e3⟩ := List.map_eq_append_iff.mp e0
    obtain ⟨r, l3, e4, e5, e6⟩ := List.map_eq_cons_iff.mp e3
    subst e4
    have hr : r ∈ regs.filter (S.isKey key) := by rw [e1]; simp
    have hrp : S.is key object r = true := by rw [hcomp r hr, e5]; exact h1
    have hl1 : ∀ y ∈ l1, S.is key object y = false := by
      intro y hy
      rw [hcomp y (by rw [e1]; simp [hy])]
      exact h2 y.obj (by rw [← e2]; exact List.mem_map_of_mem (f := Reg.obj) hy)
    refine ⟨?_, ?_, r, ?_, e5⟩
    · rw [List.any_eq_true]
      exact ⟨r, (List.mem_filter.mp hr).1, hrp⟩
    · rw [filter_eraseP_sub (is_sub S key object), e1, eraseP_split hrp hl1, List.map_append, e2, e6]
    · rw [← find_filter_sub (is_sub S key object) regs, e1, find_split hrp hl1]

theorem sum_append_nat (a b : List Nat) : (a ++ b).sum = a.sum + b.sum := by simp

theorem blocks_split {b a : List Key} {k : Key} : (b ++ k :: a).length + ((b ++ k :: a).map (·.objs.length)).sum =
    (b ++ a).length + ((b ++ a).map (·.objs.length)).sum + 1 + k.objs.length := by
  simp only [List.length_append, List.length_cons, List.map_append, List.map_cons, List.sum_append, List.sum_cons]
  omega

theorem pair_mid {R : α → α → Prop} (hs : ∀ a b, R a b → R b a) {b a : List α} {k : α} (h : (b ++ k :: a).Pairwise R) :
    (b ++ a).Pairwise R ∧ ∀ x ∈ b ++ a, R k x := by
  rw [List.pairwise_append] at h
  obtain ⟨h1, h2, h3⟩ := h
  rw [List.pairwise_cons] at h2
  refine ⟨List.pairwise_append.mpr ⟨h1, h2.2, fun x hx y hy => h3 x hx y (by simp [hy])⟩, ?_⟩
  intro x hx
  rcases List.mem_append.mp hx with hx | hx
  · exact hs _ _ (h3 x hx k (by simp))
  · exact h2.1 x hx

theorem pair_mid' {R : α → α → Prop} (hs : ∀ a b, R a b → R b a) {b a : List α} {k : α} (h : (b ++ a).Pairwise R) (hk : ∀ x ∈ b ++ a, R k x) :
    (b ++ k :: a).Pairwise R := by
  rw [List.pairwise_append] at h ⊢
  obtain ⟨h1, h2, h3⟩ := h
  refine ⟨h1, List.pairwise_cons.mpr ⟨fun x hx => hk x (by simp [hx]), h2⟩, ?_⟩
  intro x hx y hy
  rcases List.mem_cons.mp hy with rfl | hy
  · exact hs _ _ (hk x (by simp [hx]))
  · exact h3 x hx y hy

/-- One entry replaced: the general frame. -/
theorem rep_replace {S : Same} {t : T} {regs regs' : List Reg} {b a : List Key} {k : Key} {key : Nat} {objs' : List Obj} (r : Rep S t regs)
    (e : t.keys = b ++ k :: a) (hk : S.keq k.key key = true) (hne : objs' ≠ [])
    (ho : objs' = (regs'.filter (S.isKey key)).map (·.obj))
    (hoth : ∀ c, S.keq key c = false → regs'.filter (S.isKey c) = regs.filter (S.isKey c))
    (hcov : ∀ x ∈ regs', x ∈ regs ∨ S.keq x.key key = true) :
    Rep S ⟨b ++ { k with objs := objs' } :: a, false, (b ++ a).length + ((b ++ a).map (·.objs.length)).sum + 1 + objs'.length⟩ regs' := by
  have hd := r.distinct
  rw [e] at hd
  have hsymm : ∀ x y : Key, S.keq x.key y.key = false → S.keq y.key x.key = false := fun x y h => by rw [S.symm]; exact h
  obtain ⟨d1, d2⟩ := pair_mid (R := fun x y : Key => S.keq x.key y.key = false) hsymm hd
  refine ⟨rfl, (by exact (blocks_split (k := ⟨k.key, objs'⟩)).symm), ?_, pair_mid' (R := fun x y : Key => S.keq x.key y.key = false) hsymm d1 d2, ?_, ?_⟩
  · intro x hx
    rcases List.mem_append.mp hx with hx | hx
    · exact r.nonempty x (by rw [e]; simp [hx])
    · rcases List.mem_cons.mp hx with rfl | hx
      · exact hne
      · exact r.nonempty x (by rw [e]; simp [hx])
  · intro x hx
    have other : x ∈ b ++ a → x.objs = (regs'.filter (S.isKey x.key)).map (·.obj) := by
      intro hx
      rw [hoth x.key]
      · apply r.objs
        rw [e]
        rcases List.mem_append.mp hx with h | h <;> simp [h]
      · exact S.keq_false hk (d2 x hx)
    rcases List.mem_append.mp hx with hx | hx
    · exact other (by simp [hx])
    · rcases List.mem_cons.mp hx with rfl | hx
      · dsimp only
        rw [S.isKey_congr hk]; exact ho
      · exact other (by simp [hx])
  · intro x hx
    rcases hcov x hx with h | h
    · obtain ⟨y, hy, h2⟩ := r.covers x h
      rw [e] at hy
      rcases List.mem_append.mp hy with hy | hy
      · exact ⟨y, by simp [hy], h2⟩
      · rcases List.mem_cons.mp hy with rfl | hy
        · exact ⟨{ y with objs := objs' }, by simp, h2⟩
        · exact ⟨y, by simp [hy], h2⟩
    · exact ⟨{ k with objs := objs' }, by simp, S.trans _ _ _ hk (by rw [S.symm]; exact h)⟩

/-- One entry removed. -/
theorem rep_remove {S : Same} {t : T} {regs regs' : List Reg} {b a : List Key} {k : Key} {key : Nat} (r : Rep S t regs)
    (e : t.keys = b ++ k :: a) (hk : S.keq k.key key = true) 
    (hoth : ∀ c, S.keq key c = false → regs'.filter (S.isKey c) = regs.filter (S.isKey c))
    (hcov : ∀ x ∈ regs', x ∈ regs ∧ S.keq x.key key = false) :
    Rep S ⟨b ++ a, false, (b ++ a).length + ((b ++ a).map (·.objs.length)).sum⟩ regs' := by
  have hd := r.distinct
  rw [e] at hd
  have hsymm : ∀ x y : Key, S.keq x.key y.key = false → S.keq y.key x.key = false := fun x y h => by rw [S.symm]; exact h
  obtain ⟨d1, d2⟩ := pair_mid (R := fun x y : Key => S.keq x.key y.key = false) hsymm hd
  have mem : ∀ x ∈ b ++ a, x ∈ t.keys := by
    intro x hx
    rw [e]
    rcases List.mem_append.mp hx with h | h <;> simp [h]
  refine ⟨rfl, rfl, fun x hx => r.nonempty x (mem x hx), d1, ?_, ?_⟩
  · intro x hx
    rw [hoth x.key (S.keq_false hk (d2 x hx))]
    exact r.objs x (mem x hx)
  · intro x hx
    obtain ⟨h, hnk⟩ := hcov x hx
    obtain ⟨y, hy, h2⟩ := r.covers x h
    rw [e] at hy
    rcases List.mem_append.mp hy with hy | hy
    · exact ⟨y, by simp [hy], h2⟩
    · rcases List.mem_cons.mp hy with rfl | hy
      · have := S.trans x.key y.key key (by rw [S.symm]; exact h2) hk
        rw [hnk] at this; exact absurd this (by simp)
      · exact ⟨y, by simp [hy], h2⟩

end CUtil.Tracker
