import Verif.SlidingConc.Spec
set_option linter.unusedSimpArgs false
set_option linter.unusedVariables false

/-! C89: the sliding window average with any number of threads. -/

namespace CUtil.SlidingConc
open CUtil.Sliding CUtil.Conc Spec

/-- The statements one after the other are the body of C29. -/
theorem body_eq (w : Window) (x : Int) :
    body w x = (do let w ← changeSum w x; let w ← storeValue w x; let w ← countIt w; let w ← nextSlot w; setAverage w) := by
  unfold body changeSum
  by_cases h0 : w.window_count = 0
  · simp [h0]
  · rw [if_neg h0, if_neg h0]
    by_cases hf : full w
    · have hf' : w.window_count ≤ w.next_available_slot := hf
      rw [if_pos hf]
      simp only [if_pos hf', location]
      cases count w.counts (Int.tmod w.next_available_slot w.window_count) with
      | ub => rfl
      | ok c =>
        simp only [C.ok_bind]
        cases i64 (x - c) with
        | ub => rfl
        | ok d =>
          simp only [C.ok_bind]
          cases i64 (w.current_sum + d) with
          | ub => rfl
          | ok s =>
            simp only [C.ok_bind, storeValue, location]
            cases setCount w.counts (Int.tmod w.next_available_slot w.window_count) x with
            | ub => rfl
            | ok m =>
              simp only [C.ok_bind, countIt]
              rw [if_pos (show full { w with current_sum := s, counts := m } from hf')]
              simp only [C.ok_bind, nextSlot]
              cases i32 (w.next_available_slot + 1) <;> rfl
    · have hf' : ¬ w.window_count ≤ w.next_available_slot := hf
      rw [if_neg hf]
      simp only [if_neg hf', location]
      cases i64 (w.current_sum + x) with
      | ub => rfl
      | ok s =>
        simp only [C.ok_bind, storeValue, location]
        cases setCount w.counts (Int.tmod w.next_available_slot w.window_count) x with
        | ub => rfl
        | ok m =>
          simp only [C.ok_bind, countIt]
          rw [if_neg (show ¬ full { w with current_sum := s, counts := m } from hf')]
          cases i64 (w.current_count + 1) with
          | ub => rfl
          | ok n =>
            simp only [C.ok_bind, nextSlot]
            cases i32 (w.next_available_slot + 1) <;> rfl

/-- Holds the lock exclusively. -/
def isExcl : Pc → Bool
  | .aSum _ _ | .aStore _ _ | .aCount _ _ | .aSlot _ _ | .aAverage _ _ | .aUnlock _ _ => true
  | _ => false

/-- Holds it shared. -/
def isShared : Pc → Bool
  | .gRead | .gUnlock _ => true
  | _ => false

/-- The window `w` when the thread at `pc` began its section with the window `w0`. -/
def At (w0 : Window) (w : Window) : Pc → Prop
  | .aSum _ _ => w = w0
  | .aStore _ x => changeSum w0 x = C.ok w
  | .aCount _ x => (do let w ← changeSum w0 x; storeValue w x) = C.ok w
  | .aSlot _ x => (do let w ← changeSum w0 x; let w ← storeValue w x; countIt w) = C.ok w
  | .aAverage _ x => (do let w ← changeSum w0 x; let w ← storeValue w x; let w ← countIt w; nextSlot w) = C.ok w
  | .aUnlock _ _ => w = w0
  | _ => False

/-- The call's number and value, while it is on its way or has returned. -/
def call : Pc → Option (Nat × Int × Bool)
  | .aLock i x | .aSum i x | .aStore i x | .aCount i x | .aSlot i x | .aAverage i x => some (i, x, false)
  | .aUnlock i x | .aRet i x => some (i, x, true)
  | _ => none

structure Inv (width : Int) (s : Sys) : Prop where
  pos : 1 ≤ width ∧ width ≤ 2147483647
  ex : ∀ t, isExcl (s.pc t) = true ↔ s.excl = some t
  sh : ∀ t, isShared (s.pc t) = true ↔ s.shared t = true
  one : ∀ t, s.excl = some t → ∀ u, s.shared u = false
  free : s.excl = none → Good width (values s) → Sliding.Inv width.toNat (values s) s.w
  held : ∀ t, s.excl = some t → ∃ w0, (Good width (values s) → Sliding.Inv width.toNat (values s) w0) ∧ At w0 s.w (s.pc t)
  since : ∀ t, s.pc t ≠ .out → s.since t ≤ s.hist.length
  unl : ∀ t v, s.pc t = .gUnlock v → Good width (values s) → v = average width (values s)
  ret : ∀ t v, s.pc t = .gRet v → ∃ k, s.since t ≤ k ∧ k ≤ s.hist.length ∧
    (Good width ((values s).take k) → v = average width ((values s).take k))
  nums : ∀ t i x d, call (s.pc t) = some (i, x, d) → i < s.fresh ∧ s.asked i = x ∧ (d = true ↔ i ∈ s.hist.map Prod.fst) ∧
    (d = true → ∃ k, s.since t ≤ k ∧ s.hist[k]? = some (i, x))
  diff : ∀ t u i x d y e, call (s.pc t) = some (i, x, d) → call (s.pc u) = some (i, y, e) → t = u
  past : ∀ p ∈ s.hist, p.1 < s.fresh ∧ s.asked p.1 = p.2
  nodup : (s.hist.map Prod.fst).Nodup
  bad : s.bad = true → ∃ t i x, call (s.pc t) = some (i, x, false) ∧ s.asked i = x ∧ ¬ Good width (values s ++ [x])

theorem good_prefix {width : Int} {xs ys : List Int} (h : Good width (xs ++ ys)) : Good width xs := by
  obtain ⟨⟨h1, h2⟩, h3⟩ := h
  rw [List.length_append] at h1 h3
  refine ⟨⟨fun k hk => ?_, fun k a b ha hb => ?_⟩, by omega⟩
  · have := h1 k (by omega)
    rwa [List.take_append_of_le_length hk] at this
  · refine h2 k a b ?_ ?_
    · rw [List.getElem?_append_left (List.getElem?_eq_some_iff.1 ha).1]; exact ha
    · rw [List.getElem?_append_left (List.getElem?_eq_some_iff.1 hb).1]; exact hb

theorem good_take {width : Int} {xs : List Int} (k : Nat) (h : Good width xs) : Good width (xs.take k) := by
  rw [← List.take_append_drop k xs] at h
  exact good_prefix h

theorem avg_of {width : Int} {xs : List Int} {w : Window} (h : Sliding.Inv width.toNat xs w) : w.current_average = average width xs := by
  rw [h.avg]
  unfold average lastN
  by_cases hx : xs = []
  · rw [if_pos hx, if_pos hx]
  · rw [if_neg hx, if_neg hx, List.length_drop]
    congr 2
    omega

theorem body_good {width : Int} (hp : 1 ≤ width ∧ width ≤ 2147483647) {xs : List Int} {w : Window} {x : Int}
    (h : Sliding.Inv width.toNat xs w) (g : Good width (xs ++ [x])) : ∃ w', body w x = C.ok w' ∧ Sliding.Inv width.toNat (xs ++ [x]) w' := by
  obtain ⟨w', e, i⟩ := addAll_inv (w := width.toNat) (by omega) [x] xs w h g.1 g.2
  refine ⟨w', ?_, i⟩
  simp only [addAll] at e
  cases hb : body w x with
  | ub => rw [hb] at e; cases e
  | ok v => rw [hb] at e; simpa using e

theorem values_snoc (s : Sys) (i : Nat) (x : Int) : (s.hist ++ [(i, x)]).map Prod.snd = values s ++ [x] := by simp [values]

theorem upd_same {α : Type} (f : Nat → α) (t : Nat) : upd f t (f t) = f := by
  funext u; rw [upd_apply]; split
  · rename_i h; rw [h]
  · rfl

/-- A statement that adds nothing to the history. -/
theorem move {width : Int} {s : Sys} (h : Inv width s) (hbad : s.bad = false) (t : Nat) (p : Pc) (ex : Option Nat) (sh : Bool) (w : Window)
    (hin : s.pc t ≠ .out)
    (h1 : isExcl p = true ↔ ex = some t) (h2 : ∀ u, u ≠ t → (ex = some u ↔ s.excl = some u))
    (h3 : isShared p = sh) (h4 : ∀ u, ex = some u → sh = false ∧ ∀ v, v ≠ t → s.shared v = false)
    (h5 : ex = none → Good width (values s) → Sliding.Inv width.toNat (values s) w)
    (h6 : ex = some t → ∃ w0, (Good width (values s) → Sliding.Inv width.toNat (values s) w0) ∧ At w0 w p)
    (h7 : ∀ u, u ≠ t → ex = some u → w = s.w)
    (h8 : ∀ v, p = .gUnlock v → Good width (values s) → v = average width (values s))
    (h9 : ∀ v, p = .gRet v → s.pc t = .gUnlock v)
    (h10 : call p = call (s.pc t) ∨ call p = none) :
    Inv width { s with w := w, excl := ex, shared := upd s.shared t sh, pc := upd s.pc t p } where
  pos := h.pos
  ex u := by
    show isExcl (upd s.pc t p u) = true ↔ ex = some u
    by_cases hu : u = t
    · subst hu; rw [upd_self]; exact h1
    · rw [upd_ne _ _ hu, h2 u hu]; exact h.ex u
  sh u := by
    show isShared (upd s.pc t p u) = true ↔ upd s.shared t sh u = true
    by_cases hu : u = t
    · subst hu; rw [upd_self, upd_self, h3]
    · rw [upd_ne _ _ hu, upd_ne _ _ hu]; exact h.sh u
  one u hu v := by
    show upd s.shared t sh v = false
    by_cases hv : v = t
    · subst hv; rw [upd_self]; exact (h4 u hu).1
    · rw [upd_ne _ _ hv]; exact (h4 u hu).2 v hv
  free := h5
  held u hu := by
    have hu' : ex = some u := hu
    show ∃ w0, (Good width (values s) → Sliding.Inv width.toNat (values s) w0) ∧ At w0 w (upd s.pc t p u)
    by_cases e : u = t
    · subst e; rw [upd_self]; exact h6 hu
    · rw [upd_ne _ _ e, h7 u e hu]; exact h.held u ((h2 u e).1 hu)
  since u hu := by
    show s.since u ≤ s.hist.length
    by_cases e : u = t
    · subst e; exact h.since u hin
    · exact h.since u (by have := hu; simp only [upd_ne _ _ e] at this; exact this)
  unl u v hu := by
    by_cases e : u = t
    · subst e; simp only [upd_self] at hu; exact h8 v hu
    · simp only [upd_ne _ _ e] at hu; exact h.unl u v hu
  ret u v hu := by
    by_cases e : u = t
    · subst e
      simp only [upd_self] at hu
      have hg := h9 v hu
      refine ⟨s.hist.length, h.since u hin, Nat.le_refl _, fun g => ?_⟩
      have ht : (values s).take s.hist.length = values s := by
        rw [List.take_of_length_le]; simp [values]
      have g' : Good width ((values s).take s.hist.length) := g
      show v = average width ((values s).take s.hist.length)
      rw [ht] at g' ⊢
      exact h.unl u v hg g'
    · simp only [upd_ne _ _ e] at hu; exact h.ret u v hu
  nums u i x d hu := by
    by_cases e : u = t
    · subst e
      simp only [upd_self] at hu
      rcases h10 with q | q
      · rw [q] at hu; exact h.nums u i x d hu
      · rw [q] at hu; cases hu
    · simp only [upd_ne _ _ e] at hu; exact h.nums u i x d hu
  diff u v i x d y e hu hv := by
    have key : ∀ u i x d, call (upd s.pc t p u) = some (i, x, d) → call (s.pc u) = some (i, x, d) := by
      intro u i x d hu
      by_cases e : u = t
      · subst e
        rw [upd_self] at hu
        rcases h10 with q | q
        · rw [← q]; exact hu
        · rw [q] at hu; cases hu
      · rwa [upd_ne _ _ e] at hu
    exact h.diff u v i x d y e (key _ _ _ _ hu) (key _ _ _ _ hv)
  past := h.past
  nodup := h.nodup
  bad q := by
    have q' : s.bad = true := q
    rw [hbad] at q'; cases q'

/-- A call is made. -/
theorem enter {width : Int} {s : Sys} (h : Inv width s) (hbad : s.bad = false) (t : Nat) (p : Pc) (fresh : Nat) (asked : Nat → Int)
    (hout : s.pc t = .out) (he : isExcl p = false) (hs : isShared p = false) (hg : ∀ v, p ≠ .gUnlock v) (hr : ∀ v, p ≠ .gRet v)
    (hf : s.fresh ≤ fresh) (ha : ∀ i, i < s.fresh → asked i = s.asked i)
    (hc : ∀ i x d, call p = some (i, x, d) → s.fresh ≤ i ∧ i < fresh ∧ asked i = x ∧ d = false) :
    Inv width { s with pc := upd s.pc t p, fresh := fresh, asked := asked, since := upd s.since t s.hist.length } where
  pos := h.pos
  ex u := by
    show isExcl (upd s.pc t p u) = true ↔ s.excl = some u
    by_cases hu : u = t
    · subst hu; rw [upd_self, he]
      have := h.ex u; rw [hout] at this; exact this
    · rw [upd_ne _ _ hu]; exact h.ex u
  sh u := by
    show isShared (upd s.pc t p u) = true ↔ s.shared u = true
    by_cases hu : u = t
    · subst hu; rw [upd_self, hs]
      have := h.sh u; rw [hout] at this; exact this
    · rw [upd_ne _ _ hu]; exact h.sh u
  one := h.one
  free := h.free
  held u hu := by
    have ne : u ≠ t := by
      rintro rfl
      have := (h.ex u).2 hu; rw [hout] at this; cases this
    show ∃ w0, (Good width (values s) → Sliding.Inv width.toNat (values s) w0) ∧ At w0 s.w (upd s.pc t p u)
    rw [upd_ne _ _ ne]; exact h.held u hu
  since u hu := by
    show upd s.since t s.hist.length u ≤ s.hist.length
    by_cases e : u = t
    · subst e; rw [upd_self]; exact Nat.le_refl _
    · rw [upd_ne _ _ e]; exact h.since u (by have := hu; simp only [upd_ne _ _ e] at this; exact this)
  unl u v hu := by
    by_cases e : u = t
    · subst e; simp only [upd_self] at hu; exact absurd hu (hg v)
    · simp only [upd_ne _ _ e] at hu; exact h.unl u v hu
  ret u v hu := by
    by_cases e : u = t
    · subst e; simp only [upd_self] at hu; exact absurd hu (hr v)
    · simp only [upd_ne _ _ e] at hu ⊢; exact h.ret u v hu
  nums u i x d hu := by
    by_cases e : u = t
    · subst e
      simp only [upd_self] at hu
      obtain ⟨a, b, c, rfl⟩ := hc i x d hu
      refine ⟨b, c, ⟨fun q => (nomatch q), fun q => ?_⟩, fun q => (nomatch q)⟩
      obtain ⟨r, hr', e⟩ := List.mem_map.1 q
      have := (h.past r hr').1
      omega
    · simp only [upd_ne _ _ e] at hu ⊢
      obtain ⟨a, b, c⟩ := h.nums u i x d hu
      exact ⟨by show i < fresh; omega, by show asked i = x; rw [ha i a]; exact b, c⟩
  diff u v i x d y e hu hv := by
    have hu' : call (upd s.pc t p u) = some (i, x, d) := hu
    have hv' : call (upd s.pc t p v) = some (i, y, e) := hv
    by_cases q : u = t
    · by_cases r : v = t
      · rw [q, r]
      · subst q
        rw [upd_self] at hu'; rw [upd_ne _ _ r] at hv'
        have := (h.nums v i y e hv').1; have := (hc i x d hu').1; omega
    · by_cases r : v = t
      · subst r
        rw [upd_self] at hv'; rw [upd_ne _ _ q] at hu'
        have := (h.nums u i x d hu').1; have := (hc i y e hv').1; omega
      · rw [upd_ne _ _ q] at hu'; rw [upd_ne _ _ r] at hv'
        exact h.diff u v i x d y e hu' hv'
  past q hq := by
    obtain ⟨a, b⟩ := h.past q hq
    exact ⟨by show q.1 < fresh; omega, by show asked q.1 = q.2; rw [ha _ a]; exact b⟩
  nodup := h.nodup
  bad q := by
    have q' : s.bad = true := q
    rw [hbad] at q'; cases q'

/-- The last statement of add. -/
theorem added {width : Int} {s : Sys} (h : Inv width s) (t i : Nat) (x : Int) (w : Window) (hpc : s.pc t = .aAverage i x)
    (hw : setAverage s.w = C.ok w) (hbad : s.bad = false) :
    Inv width { s with w := w, pc := upd s.pc t (.aUnlock i x), hist := s.hist ++ [(i, x)] } := by
  have hx : s.excl = some t := (h.ex t).1 (by rw [hpc]; rfl)
  obtain ⟨w0, hw0, hat⟩ := h.held t hx
  rw [hpc] at hat
  have hb : body w0 x = C.ok w := by
    rw [body_eq]
    simp only [At] at hat
    cases h1 : changeSum w0 x with
    | ub => rw [h1] at hat; cases hat
    | ok a =>
      rw [h1] at hat
      simp only [C.ok_bind] at hat ⊢
      cases h2 : storeValue a x with
      | ub => rw [h2] at hat; cases hat
      | ok b =>
        rw [h2] at hat
        simp only [C.ok_bind] at hat ⊢
        cases h3 : countIt b with
        | ub => rw [h3] at hat; cases hat
        | ok c =>
          rw [h3] at hat
          simp only [C.ok_bind] at hat ⊢
          rw [hat]; simpa using hw
  obtain ⟨n1, n2, n3, n4⟩ := h.nums t i x false (by rw [hpc]; rfl)
  have hnew : i ∉ s.hist.map Prod.fst := fun q => nomatch n3.2 q
  have hinv : Good width (values s ++ [x]) → Sliding.Inv width.toNat (values s ++ [x]) w := by
    intro g
    obtain ⟨w', e, j⟩ := body_good h.pos (hw0 (good_prefix g)) g
    rw [hb] at e
    cases e
    exact j
  have nosh : ∀ u, isShared (s.pc u) = false := by
    intro u
    have := h.one t hx u
    cases q : isShared (s.pc u) with
    | false => rfl
    | true => rw [(h.sh u).1 q] at this; cases this
  refine ⟨h.pos, ?_, ?_, h.one, ?_, ?_, ?_, ?_, ?_, ?_, ?_, ?_, ?_, ?_⟩
  · intro u
    show isExcl (upd s.pc t (.aUnlock i x) u) = true ↔ s.excl = some u
    by_cases e : u = t
    · subst e; rw [upd_self]; simp [isExcl, hx]
    · rw [upd_ne _ _ e]; exact h.ex u
  · intro u
    show isShared (upd s.pc t (.aUnlock i x) u) = true ↔ s.shared u = true
    by_cases e : u = t
    · subst e; rw [upd_self]; have := h.one u hx u; rw [this]; simp [isShared]
    · rw [upd_ne _ _ e]; exact h.sh u
  · intro q; have q' : s.excl = none := q; rw [hx] at q'; cases q'
  · intro u hu
    have : u = t := by have q : s.excl = some u := hu; rw [hx] at q; cases q; rfl
    subst this
    refine ⟨w, ?_, ?_⟩
    · show Good width ((s.hist ++ [(i, x)]).map Prod.snd) → Sliding.Inv width.toNat ((s.hist ++ [(i, x)]).map Prod.snd) w
      rw [values_snoc]; exact hinv
    · show At w w (upd s.pc u (.aUnlock i x) u)
      rw [upd_self]; rfl
  · intro u hu
    show s.since u ≤ (s.hist ++ [(i, x)]).length
    rw [List.length_append]
    have : s.since u ≤ s.hist.length := by
      apply h.since
      by_cases e : u = t
      · subst e; rw [hpc]; simp
      · have := hu; simp only [upd_ne _ _ e] at this; exact this
    omega
  · intro u v hu
    have hu' : upd s.pc t (.aUnlock i x) u = .gUnlock v := hu
    by_cases e : u = t
    · subst e; rw [upd_self] at hu'; cases hu'
    · rw [upd_ne _ _ e] at hu'; have := nosh u; rw [hu'] at this; cases this
  · intro u v hu
    have hu' : upd s.pc t (.aUnlock i x) u = .gRet v := hu
    by_cases e : u = t
    · subst e; rw [upd_self] at hu'; cases hu'
    · rw [upd_ne _ _ e] at hu'
      obtain ⟨k, a, b, c⟩ := h.ret u v hu'
      refine ⟨k, a, ?_, ?_⟩
      · show k ≤ (s.hist ++ [(i, x)]).length; rw [List.length_append]; omega
      · show Good width (((s.hist ++ [(i, x)]).map Prod.snd).take k) → v = average width (((s.hist ++ [(i, x)]).map Prod.snd).take k)
        rw [values_snoc, List.take_append_of_le_length (by simp [values]; exact b)]
        exact c
  · intro u j y d hu
    have hu' : call (upd s.pc t (.aUnlock i x) u) = some (j, y, d) := hu
    show j < s.fresh ∧ s.asked j = y ∧ (d = true ↔ j ∈ (s.hist ++ [(i, x)]).map Prod.fst) ∧
      (d = true → ∃ k, s.since u ≤ k ∧ (s.hist ++ [(i, x)])[k]? = some (j, y))
    by_cases e : u = t
    · subst e
      rw [upd_self] at hu'
      cases hu'
      refine ⟨n1, n2, by simp, fun _ => ⟨s.hist.length, h.since u (by rw [hpc]; simp), by simp⟩⟩
    · rw [upd_ne _ _ e] at hu'
      obtain ⟨a, b, c, f⟩ := h.nums u j y d hu'
      refine ⟨a, b, ?_, fun q => ?_⟩
      · have ne : j ≠ i := by
          rintro rfl
          exact e (h.diff u t j y d x false hu' (by rw [hpc]; rfl))
        rw [c]; simp [ne]
      · obtain ⟨k, k1, k2⟩ := f q
        exact ⟨k, k1, by rw [List.getElem?_append_left (List.getElem?_eq_some_iff.1 k2).1]; exact k2⟩
  · intro u v j y d z e hu hv
    have key : ∀ u j y d, call (upd s.pc t (.aUnlock i x) u) = some (j, y, d) → ∃ d', call (s.pc u) = some (j, y, d') := by
      intro u j y d hu
      by_cases q : u = t
      · subst q; rw [upd_self] at hu; cases hu; exact ⟨false, by rw [hpc]; rfl⟩
      · rw [upd_ne _ _ q] at hu; exact ⟨d, hu⟩
    obtain ⟨d1, e1⟩ := key u j y d hu
    obtain ⟨d2, e2⟩ := key v j z e hv
    exact h.diff u v j y d1 z d2 e1 e2
  · intro q hq
    have hq' : q ∈ s.hist ++ [(i, x)] := hq
    rcases List.mem_append.1 hq' with a | a
    · exact h.past q a
    · rw [List.mem_singleton] at a; subst a; exact ⟨n1, n2⟩
  · show ((s.hist ++ [(i, x)]).map Prod.fst).Nodup
    rw [List.map_append, List.nodup_append]
    refine ⟨h.nodup, by simp, ?_⟩
    intro a ha b hb e
    simp at hb
    subst e; subst hb
    exact hnew ha
  · intro q
    have q' : s.bad = true := q
    rw [hbad] at q'; cases q'

/-- The window has been undefined only if the values go out of range. -/
theorem broke {width : Int} {s : Sys} (h : Inv width s) (t : Nat) (hu : statement s.w (s.pc t) = some C.ub) :
    ∃ t i x, call (s.pc t) = some (i, x, false) ∧ s.asked i = x ∧ ¬ Good width (values s ++ [x]) := by
  have main : ∀ i x w0, call (s.pc t) = some (i, x, false) → (Good width (values s) → Sliding.Inv width.toNat (values s) w0) → body w0 x = C.ub →
      ∃ t i x, call (s.pc t) = some (i, x, false) ∧ s.asked i = x ∧ ¬ Good width (values s ++ [x]) := by
    intro i x w0 hc h0 hb
    refine ⟨t, i, x, hc, (h.nums t i x false hc).2.1, fun g => ?_⟩
    obtain ⟨w', e, _⟩ := body_good h.pos (h0 (good_prefix g)) g
    rw [hb] at e; cases e
  have hold : isExcl (s.pc t) = true → ∃ w0, (Good width (values s) → Sliding.Inv width.toNat (values s) w0) ∧ At w0 s.w (s.pc t) :=
    fun q => h.held t ((h.ex t).1 q)
  cases hp : s.pc t <;> rw [hp] at hu hold <;> simp only [statement] at hu <;> first | (exfalso; simp at hu; done) | skip
  all_goals
    obtain ⟨w0, h0, hat⟩ := hold rfl
    rename_i i x
    refine main i x w0 (by rw [hp]; rfl) h0 ?_
    rw [body_eq]
    simp only [At] at hat
    injection hu with hu
  · rw [← hat, hu]; rfl
  · rw [hat]; simp only [C.ok_bind]; rw [hu]; rfl
  · cases h1 : changeSum w0 x with
    | ub => rfl
    | ok a =>
      rw [h1] at hat
      simp only [C.ok_bind] at hat ⊢
      rw [hat]; simp only [C.ok_bind]; rw [hu]; rfl
  · cases h1 : changeSum w0 x with
    | ub => rfl
    | ok a =>
      rw [h1] at hat
      simp only [C.ok_bind] at hat ⊢
      cases h2 : storeValue a x with
      | ub => rfl
      | ok b =>
        rw [h2] at hat
        simp only [C.ok_bind] at hat ⊢
        rw [hat]; simp only [C.ok_bind]; rw [hu]; rfl
  · cases h1 : changeSum w0 x with
    | ub => rfl
    | ok a =>
      rw [h1] at hat
      simp only [C.ok_bind] at hat ⊢
      cases h2 : storeValue a x with
      | ub => rfl
      | ok b =>
        rw [h2] at hat
        simp only [C.ok_bind] at hat ⊢
        cases h3 : countIt b with
        | ub => rfl
        | ok c =>
          rw [h3] at hat
          simp only [C.ok_bind] at hat ⊢
          rw [hat]; simp only [C.ok_bind]; exact hu

/-- A statement inside the exclusive section. -/
theorem inside {width : Int} {s : Sys} (h : Inv width s) (hbad : s.bad = false) (t : Nat) (p : Pc) (w : Window) (hin : isExcl (s.pc t) = true) (hp : isExcl p = true)
    (hc : call p = call (s.pc t)) (hat : ∀ w0, At w0 s.w (s.pc t) → At w0 w p) :
    Inv width { s with w := w, pc := upd s.pc t p } := by
  have hx := (h.ex t).1 hin
  have nos := h.one t hx
  have hm := move h hbad t p (some t) (s.shared t) w (by intro q; rw [q] at hin; cases hin) (by simp [hp])
    (fun u hu => by rw [hx]) (by rw [nos t]; cases p <;> simp_all [isExcl, isShared])
    (fun u _ => ⟨nos t, fun v _ => nos v⟩) (fun q => nomatch q)
    (fun _ => by obtain ⟨w0, a, b⟩ := h.held t hx; exact ⟨w0, a, hat w0 b⟩)
    (fun u hu q => by injection q with q; exact absurd q.symm hu)
    (fun v q => by rw [q] at hp; cases hp) (fun v q => by rw [q] at hp; cases hp) (Or.inl hc)
  rw [upd_same, ← hx] at hm
  exact hm

theorem step_inv {width : Int} {s s' : Sys} (h : Inv width s) (hbad : s.bad = false) (st : Step s s') : Inv width s' := by
  cases st with
  | callAdd t x hp =>
    refine enter h hbad t (.aLock s.fresh x) (s.fresh + 1) (upd s.asked s.fresh x) hp rfl rfl (fun _ => by simp) (fun _ => by simp) (by omega)
      (fun i hi => upd_ne _ _ (by omega)) ?_
    intro i y d q
    simp only [call, Option.some.injEq, Prod.mk.injEq] at q
    obtain ⟨rfl, rfl, rfl⟩ := q
    exact ⟨Nat.le_refl _, Nat.lt_succ_self _, upd_self _ _ _, rfl⟩
  | callGet t hp =>
    exact enter h hbad t .gLock s.fresh s.asked hp rfl rfl (fun _ => by simp) (fun _ => by simp) (Nat.le_refl _) (fun i hi => rfl) (fun i y d q => nomatch q)
  | aLock t i x hp he hs =>
    have hm := move h hbad t (.aSum i x) (some t) (s.shared t) s.w (by rw [hp]; simp) (by simp [isExcl]) (fun u hu => by rw [he]; simp [Ne.symm hu])
      (by rw [hs t]; rfl) (fun u _ => ⟨hs t, fun v _ => hs v⟩) (fun q => nomatch q) (fun _ => ⟨s.w, h.free he, rfl⟩)
      (fun u hu q => by injection q with q; exact absurd q.symm hu) (fun v q => nomatch q) (fun v q => nomatch q) (Or.inl (by rw [hp]; rfl))
    rw [upd_same] at hm
    exact hm
  | aSum t i x w hp hw =>
    refine inside h hbad t _ w (by rw [hp]; rfl) rfl (by rw [hp]; rfl) (fun w0 q => ?_)
    rw [hp] at q; simp only [At] at q ⊢
    rw [← q]; exact hw
  | aStore t i x w hp hw =>
    refine inside h hbad t _ w (by rw [hp]; rfl) rfl (by rw [hp]; rfl) (fun w0 q => ?_)
    rw [hp] at q; simp only [At] at q ⊢
    rw [q]; exact hw
  | aCount t i x w hp hw =>
    refine inside h hbad t _ w (by rw [hp]; rfl) rfl (by rw [hp]; rfl) (fun w0 q => ?_)
    rw [hp] at q; simp only [At] at q ⊢
    cases h1 : changeSum w0 x with
    | ub => rw [h1] at q; cases q
    | ok a =>
      rw [h1] at q
      simp only [C.ok_bind] at q ⊢
      rw [q]; exact hw
  | aSlot t i x w hp hw =>
    refine inside h hbad t _ w (by rw [hp]; rfl) rfl (by rw [hp]; rfl) (fun w0 q => ?_)
    rw [hp] at q; simp only [At] at q ⊢
    cases h1 : changeSum w0 x with
    | ub => rw [h1] at q; cases q
    | ok a =>
      rw [h1] at q
      simp only [C.ok_bind] at q ⊢
      cases h2 : storeValue a x with
      | ub => rw [h2] at q; cases q
      | ok b =>
        rw [h2] at q
        simp only [C.ok_bind] at q ⊢
        rw [q]; exact hw
  | aAverage t i x w hp hw => exact added h t i x w hp hw hbad
  | undefined t hu =>
    have hb := broke h t hu
    exact ⟨h.pos, h.ex, h.sh, h.one, h.free, h.held, h.since, h.unl, h.ret, h.nums, h.diff, h.past, h.nodup, fun _ => hb⟩
  | aUnlock t i x hp =>
    have hx : s.excl = some t := (h.ex t).1 (by rw [hp]; rfl)
    have nos := h.one t hx
    have hm := move h hbad t (.aRet i x) none (s.shared t) s.w (by rw [hp]; simp) (by simp [isExcl]) (fun u hu => by rw [hx]; simp [Ne.symm hu])
      (by rw [nos t]; rfl) (fun u q => nomatch q)
      (fun _ g => by
        obtain ⟨w0, a, b⟩ := h.held t hx
        rw [hp] at b
        simp only [At] at b
        rw [b]; exact a g)
      (fun q => nomatch q) (fun u _ q => nomatch q) (fun v q => nomatch q) (fun v q => nomatch q) (Or.inl (by rw [hp]; rfl))
    rw [upd_same] at hm
    exact hm
  | aRet t i x hp =>
    have hx : ¬ s.excl = some t := fun q => by have := (h.ex t).2 q; rw [hp] at this; cases this
    have hsh : s.shared t = false := by
      cases q : s.shared t with
      | false => rfl
      | true => have := (h.sh t).2 q; rw [hp] at this; cases this
    have hm := move h hbad t .out s.excl (s.shared t) s.w (by rw [hp]; simp) (by simp [isExcl, hx]) (fun u hu => Iff.rfl)
      (by rw [hsh]; rfl) (fun u q => ⟨hsh, fun v _ => h.one u q v⟩) h.free (fun q => absurd q hx) (fun _ _ _ => rfl)
      (fun v q => nomatch q) (fun v q => nomatch q) (Or.inr rfl)
    rw [upd_same] at hm
    exact hm
  | gLock t hp he =>
    exact move h hbad t .gRead s.excl true s.w (by rw [hp]; simp) (by simp [isExcl, he]) (fun u hu => Iff.rfl)
      rfl (fun u q => by rw [he] at q; cases q) h.free (fun q => by rw [he] at q; cases q) (fun _ _ _ => rfl)
      (fun v q => nomatch q) (fun v q => nomatch q) (Or.inr rfl)
  | gRead t hp =>
    have hsh : s.shared t = true := (h.sh t).1 (by rw [hp]; rfl)
    have he : s.excl = none := by
      cases q : s.excl with
      | none => rfl
      | some u => have := h.one u q t; rw [hsh] at this; cases this
    have hm := move h hbad t (.gUnlock s.w.current_average) s.excl (s.shared t) s.w (by rw [hp]; simp) (by simp [isExcl, he]) (fun u hu => Iff.rfl)
      (by rw [hsh]; rfl) (fun u q => by rw [he] at q; cases q) h.free (fun q => by rw [he] at q; cases q) (fun _ _ _ => rfl)
      (fun v q g => by injection q with q; rw [← q]; exact avg_of (h.free he g)) (fun v q => nomatch q) (Or.inr rfl)
    rw [upd_same] at hm
    exact hm
  | gUnlock t v hp =>
    have hsh : s.shared t = true := (h.sh t).1 (by rw [hp]; rfl)
    have he : s.excl = none := by
      cases q : s.excl with
      | none => rfl
      | some u => have := h.one u q t; rw [hsh] at this; cases this
    exact move h hbad t (.gRet v) s.excl false s.w (by rw [hp]; simp) (by simp [isExcl, he]) (fun u hu => Iff.rfl)
      rfl (fun u q => by rw [he] at q; cases q) h.free (fun q => by rw [he] at q; cases q) (fun _ _ _ => rfl)
      (fun v q => nomatch q) (fun v' q => by injection q with q; rw [hp, q]) (Or.inr rfl)
  | gRet t v hp =>
    have hx : ¬ s.excl = some t := fun q => by have := (h.ex t).2 q; rw [hp] at this; cases this
    have hsh : s.shared t = false := by
      cases q : s.shared t with
      | false => rfl
      | true => have := (h.sh t).2 q; rw [hp] at this; cases this
    have hm := move h hbad t .out s.excl (s.shared t) s.w (by rw [hp]; simp) (by simp [isExcl, hx]) (fun u hu => Iff.rfl)
      (by rw [hsh]; rfl) (fun u q => ⟨hsh, fun v _ => h.one u q v⟩) h.free (fun q => absurd q hx) (fun _ _ _ => rfl)
      (fun v q => nomatch q) (fun v q => nomatch q) (Or.inr rfl)
    rw [upd_same] at hm
    exact hm

theorem reach_inv {width : Int} {s : Sys} (hr : Reach width s) : Inv width s := by
  induction hr with
  | step _ hb st ih => exact step_inv ih hb st
  | @start w hw hc =>
    have hs := create_spec true true width hw
    have hp : 1 ≤ width := by
      apply Decidable.byContradiction
      intro q
      rw [if_neg (by omega), hc] at hs
      cases hs
    rw [if_pos ⟨hp, rfl, rfl⟩] at hs
    obtain ⟨w', e, i, _⟩ := hs
    rw [hc] at e
    cases e
    exact ⟨⟨hp, hw⟩, fun t => by simp [start, isExcl], fun t => by simp [start, isShared], fun t q => (nomatch q), fun _ _ => i, fun t q => (nomatch q),
      fun t q => absurd rfl q, fun t v q => (nomatch q), fun t v q => (nomatch q), fun t i x d q => (nomatch q), fun t u i x d y e q => (nomatch q),
      fun p q => (nomatch q), List.nodup_nil, fun q => (nomatch q)⟩

/-! ## The theorems -/

/-- C89: a get that returns gives the average of the last values of some moment between its call and its return. -/
theorem get_average {width : Int} {s : Sys} {t : Nat} {v : Option (Int × Int)} (hr : Reach width s) (hp : s.pc t = .gRet v) (hg : Good width (values s)) :
    ∃ k, s.since t ≤ k ∧ k ≤ (values s).length ∧ v = average width ((values s).take k) := by
  obtain ⟨k, a, b, c⟩ := (reach_inv hr).ret t v hp
  exact ⟨k, a, by simp [values]; exact b, c (good_take k hg)⟩

/-- C89: an add that returns has added its value, once, after its call. -/
theorem add_counted {width : Int} {s : Sys} {t i : Nat} {x : Int} (hr : Reach width s) (hp : s.pc t = .aRet i x) :
    s.asked i = x ∧ (∃ k, s.since t ≤ k ∧ s.hist[k]? = some (i, x)) ∧ (s.hist.map Prod.fst).Nodup := by
  have h := reach_inv hr
  obtain ⟨_, a, _, b⟩ := h.nums t i x true (by rw [hp]; rfl)
  exact ⟨a, b rfl, h.nodup⟩

/-- C89: nothing else is added: every value is that of a call, and no call adds twice. -/
theorem only_calls {width : Int} {s : Sys} (hr : Reach width s) :
    (∀ p ∈ s.hist, p.1 < s.fresh ∧ s.asked p.1 = p.2) ∧ (s.hist.map Prod.fst).Nodup :=
  ⟨(reach_inv hr).past, (reach_inv hr).nodup⟩

/-- C89: while a thread writes the window no other thread writes or reads it. -/
theorem race_free {width : Int} {s : Sys} {t u : Nat} (hr : Reach width s) (hw : Writes (s.pc t)) (hu : Writes (s.pc u) ∨ Reads (s.pc u)) : u = t := by
  have h := reach_inv hr
  have wx : ∀ t, Writes (s.pc t) → s.excl = some t := by
    intro t q
    apply (h.ex t).1
    cases e : s.pc t <;> rw [e] at q <;> first | rfl | exact q.elim
  have ht := wx t hw
  rcases hu with q | q
  · have := wx u q; rw [ht] at this; cases this; rfl
  · have := (h.sh u).1 (by cases e : s.pc u <;> rw [e] at q <;> first | rfl | exact q.elim)
    rw [h.one t ht u] at this; cases this

/-- C89: undefined behaviour needs a call whose value, added to those added, goes out of range. -/
theorem undefined_only {width : Int} {s : Sys} (hr : Reach width s) (hb : s.bad = true) :
    ∃ i, i < s.fresh ∧ i ∉ s.hist.map Prod.fst ∧ ¬ Good width (values s ++ [s.asked i]) := by
  have h := reach_inv hr
  obtain ⟨t, i, x, hc, ha, hg⟩ := h.bad hb
  obtain ⟨a, _, b, _⟩ := h.nums t i x false hc
  refine ⟨i, a, fun q => ?_, by rw [ha]; exact hg⟩
  exact Bool.noConfusion (b.2 q)

/-- C89: with all threads outside the window is that of the values added, in their order. -/
theorem quiet_average {width : Int} {s : Sys} (hr : Reach width s) (hq : ∀ t, s.pc t = .out) (hg : Good width (values s)) :
    s.w.current_average = average width (values s) := by
  have h := reach_inv hr
  refine avg_of (h.free ?_ hg)
  cases e : s.excl with
  | none => rfl
  | some t => have := (h.ex t).2 e; rw [hq t] at this; cases this

/-- C89: the values added stay, in their order. -/
theorem hist_grows {s s' : Sys} (st : Step s s') : s.hist <+: s'.hist := by
  cases st with
  | aAverage => exact List.prefix_append _ _
  | _ => exact List.prefix_refl _

/-- C89: the lock never blocks everybody: a thread inside a call can move, or one that holds the lock can. -/
theorem never_stuck {width : Int} {s : Sys} (hr : Reach width s) (t : Nat) (ht : s.pc t ≠ .out) :
    ∃ u s', s.pc u ≠ .out ∧ Step s s' ∧ (s'.pc u ≠ s.pc u ∨ s'.bad = true) := by
  have h := reach_inv hr
  have go : ∀ u, s.pc u ≠ .out → ¬ Waits (s.pc u) → ∃ u s', s.pc u ≠ .out ∧ Step s s' ∧ (s'.pc u ≠ s.pc u ∨ s'.bad = true) := by
    intro u h1 h2
    cases e : s.pc u with
    | out => exact absurd e h1
    | aLock i x => rw [e] at h2; exact absurd trivial h2
    | gLock => rw [e] at h2; exact absurd trivial h2
    | aSum i x =>
      cases q : changeSum s.w x with
      | ok w => exact ⟨u, _, h1, .aSum s u i x w e q, Or.inl (by simp [e])⟩
      | ub => exact ⟨u, _, h1, .undefined s u (by rw [e]; simp [statement, q]), Or.inr rfl⟩
    | aStore i x =>
      cases q : storeValue s.w x with
      | ok w => exact ⟨u, _, h1, .aStore s u i x w e q, Or.inl (by simp [e])⟩
      | ub => exact ⟨u, _, h1, .undefined s u (by rw [e]; simp [statement, q]), Or.inr rfl⟩
    | aCount i x =>
      cases q : countIt s.w with
      | ok w => exact ⟨u, _, h1, .aCount s u i x w e q, Or.inl (by simp [e])⟩
      | ub => exact ⟨u, _, h1, .undefined s u (by rw [e]; simp [statement, q]), Or.inr rfl⟩
    | aSlot i x =>
      cases q : nextSlot s.w with
      | ok w => exact ⟨u, _, h1, .aSlot s u i x w e q, Or.inl (by simp [e])⟩
      | ub => exact ⟨u, _, h1, .undefined s u (by rw [e]; simp [statement, q]), Or.inr rfl⟩
    | aAverage i x =>
      cases q : setAverage s.w with
      | ok w => exact ⟨u, _, h1, .aAverage s u i x w e q, Or.inl (by simp [e])⟩
      | ub => exact ⟨u, _, h1, .undefined s u (by rw [e]; simp [statement, q]), Or.inr rfl⟩
    | aUnlock i x => exact ⟨u, _, h1, .aUnlock s u i x e, Or.inl (by simp [e])⟩
    | aRet i x => exact ⟨u, _, h1, .aRet s u i x e, Or.inl (by simp [e])⟩
    | gRead => exact ⟨u, _, h1, .gRead s u e, Or.inl (by simp [e])⟩
    | gUnlock v => exact ⟨u, _, h1, .gUnlock s u v e, Or.inl (by simp [e])⟩
    | gRet v => exact ⟨u, _, h1, .gRet s u v e, Or.inl (by simp [e])⟩
  cases he : s.excl with
  | some u =>
    have hu := (h.ex u).2 he
    exact go u (by intro q; rw [q] at hu; cases hu) (by intro q; cases e : s.pc u <;> rw [e] at hu q <;> first | exact q | cases hu)
  | none =>
    by_cases hsh : ∃ u, s.shared u = true
    · obtain ⟨u, hu⟩ := hsh
      have hu := (h.sh u).2 hu
      exact go u (by intro q; rw [q] at hu; cases hu) (by intro q; cases e : s.pc u <;> rw [e] at hu q <;> first | exact q | cases hu)
    · have hno : ∀ u, s.shared u = false := fun u => by
        cases q : s.shared u with
        | false => rfl
        | true => exact absurd ⟨u, q⟩ hsh
      by_cases hw : Waits (s.pc t)
      · cases e : s.pc t <;> rw [e] at hw <;> try (exact hw.elim)
        · rename_i i x
          exact ⟨t, _, ht, .aLock s t i x e he hno, Or.inl (by simp [e])⟩
        · exact ⟨t, _, ht, .gLock s t e he, Or.inl (by simp [e])⟩
      · exact go t ht hw

/-! ## The hypotheses are met -/

/-- A window with two places. -/
def two : Window := ⟨2, 0, 0, 0, none, [some 0, some 0]⟩

/-- The same after 5. -/
def twoFive : Window := ⟨2, 5, 1, 1, some (5, 1), [some 5, some 0]⟩

theorem good_five : Good 2 [5] := by
  refine ⟨⟨fun k hk => ?_, fun k a b ha hb => ?_⟩, by decide⟩
  · have : k = 0 ∨ k = 1 := by simp at hk; omega
    rcases this with rfl | rfl <;> simp [lastN, Fits]
  · have h1 := (List.getElem?_eq_some_iff.1 ha).1
    have h2 := (List.getElem?_eq_some_iff.1 hb).1
    simp at h1 h2

/-- Thread 0 adds 5 while thread 1, which called before, waits for the lock; then both return. -/
example : ∃ s, Reach 2 s ∧ s.pc 0 = .aRet 0 5 ∧ s.pc 1 = .gRet (some (5, 1)) ∧ s.since 1 = 0 ∧ values s = [5] ∧ Good 2 (values s) ∧
    average 2 (values s) = some (5, 1) := by
  have r0 : Reach 2 (start two) := .start (by decide) rfl
  have r1 := Reach.step r0 rfl (.callAdd _ 0 5 rfl)
  have r2 := Reach.step r1 rfl (.callGet _ 1 rfl)
  have r3 := Reach.step r2 rfl (.aLock _ 0 0 5 rfl rfl (fun _ => rfl))
  have r4 := Reach.step r3 rfl (.aSum _ 0 0 5 ⟨2, 5, 0, 0, none, [some 0, some 0]⟩ rfl rfl)
  have r5 := Reach.step r4 rfl (.aStore _ 0 0 5 ⟨2, 5, 0, 0, none, [some 5, some 0]⟩ rfl rfl)
  have r6 := Reach.step r5 rfl (.aCount _ 0 0 5 ⟨2, 5, 1, 0, none, [some 5, some 0]⟩ rfl rfl)
  have r7 := Reach.step r6 rfl (.aSlot _ 0 0 5 ⟨2, 5, 1, 1, none, [some 5, some 0]⟩ rfl rfl)
  have r8 := Reach.step r7 rfl (.aAverage _ 0 0 5 twoFive rfl rfl)
  have r9 := Reach.step r8 rfl (.aUnlock _ 0 0 5 rfl)
  have r10 := Reach.step r9 rfl (.gLock _ 1 rfl rfl)
  have r11 := Reach.step r10 rfl (.gRead _ 1 rfl)
  have r12 := Reach.step r11 rfl (.gUnlock _ 1 _ rfl)
  exact ⟨_, r12, rfl, rfl, rfl, rfl, good_five, by decide⟩

/-- Two calls of add: one writes, the other waits (`race_free`, `never_stuck`). -/
example : ∃ s, Reach 2 s ∧ Writes (s.pc 0) ∧ Waits (s.pc 1) ∧ s.pc 1 ≠ .out := by
  have r0 : Reach 2 (start two) := .start (by decide) rfl
  have r1 := Reach.step r0 rfl (.callAdd _ 0 5 rfl)
  have r2 := Reach.step r1 rfl (.callAdd _ 1 7 rfl)
  have r3 := Reach.step r2 rfl (.aLock _ 0 0 5 rfl rfl (fun _ => rfl))
  exact ⟨_, r3, trivial, trivial, fun q => nomatch q⟩

/-- A value out of range is undefined behaviour (`undefined_only`). -/
example : ∃ s, Reach 2 s ∧ s.bad = true := by
  have r0 : Reach 2 (start two) := .start (by decide) rfl
  have r1 := Reach.step r0 rfl (.callAdd _ 0 9223372036854775808 rfl)
  have r2 := Reach.step r1 rfl (.aLock _ 0 0 9223372036854775808 rfl rfl (fun _ => rfl))
  have r3 := Reach.step r2 rfl (.undefined _ 0 rfl)
  exact ⟨_, r3, rfl⟩

end CUtil.SlidingConc
