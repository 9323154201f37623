import Verif.StringHeap.Lemmas
set_option linter.unusedSimpArgs false
set_option linter.unusedVariables false
/-
C67: the memory of strings.c.
-/
namespace CUtil.StringHeap
open CUtil CUtil.Conc
open CUtil.Strings (SIZE_MAX allocs slen Fmt)

variable {h : Heap} {W U : Nat → Option Mem}

/-- What a changing function can do to the heap. -/
inductive Moves (h : Heap) (p q : Nat) (m m' : Mem) : Heap → Prop
  | same : m' = m → Moves h p q m m' h
  | moved : Moves h p q m m' (moved h p q m')
  | inPlace : Moves h p q m m' (inPlace h q m')

theorem ok_inj {m m' : Mem} {f f' : Bool} (e : C.ok (some m, f) = C.ok (some m', f')) : m = m' ∧ f = f' := by
  cases e; exact ⟨rfl, rfl⟩

theorem Rep.nx (r : Rep h W U) : h.next ≠ 0 := by have := r.null.2.2; omega

theorem st_ne0 (r : Rep h W U) {p x} (hst : h.st p = some x) : p ≠ 0 := by
  intro e; subst e; rw [r.null.1] at hst; cases hst

theorem concat_step (r : Rep h W U) {p q : Nat} {m ms m' : Mem} {f : Bool} {s : Src} {a : Bool} (hst : h.st p = some (some q)) (hm : h.mem q = some m)
    (g : Gives h p s ms) (hv : Strings.concat (some m) (.ext ms) a = C.ok (some m', f)) :
    ∃ h', concat h p s a = C.ok (h', f) ∧ Moves h p q m m' h' := by
  have p0 := st_ne0 r hst
  have q0 := (r.blk hst).1
  have nx := r.nx
  unfold Strings.concat at hv
  dsimp only at hv
  obtain ⟨n1, e1, hv⟩ := C.bind_eq_ok.1 hv
  obtain ⟨n2, e2, hv⟩ := C.bind_eq_ok.1 hv
  cases al : allocs a (n1 + (n2 + 1)) with
  | false =>
    rw [if_pos al] at hv
    obtain ⟨rfl, rfl⟩ := ok_inj hv
    exact ⟨h, by simp [concat, p0, g.ne_null, getS_of hst, strlen_of (src_blk hm), strlen_of g.src, e1, e2, realloc_of q0 hm, al], .same rfl⟩
  | true =>
    rw [if_neg (by rw [al]; simp)] at hv
    obtain ⟨m2, e3, hv⟩ := C.bind_eq_ok.1 hv
    obtain ⟨rfl, rfl⟩ := ok_inj hv
    exact ⟨_, by simp [concat, p0, g.ne_null, getS_of hst, strlen_of (src_blk hm), strlen_of g.src, e1, e2, realloc_of q0 hm, al, nx, setS_moved (x := 0) hst,
      getS_moved, copyIn_moved r hst g, e3], .moved⟩

/-- The block of another string as a source. -/
theorem gives_other (r : Rep h W U) {p1 p2 q2 : Nat} {m2 : Mem} (hst2 : h.st p2 = some (some q2)) (hm2 : h.mem q2 = some m2) (ne : p1 ≠ p2) :
    Gives h p1 (.blk q2 0) m2 := ⟨m2, hm2, by simp, by simp, fun e => ne (r.sep _ _ _ e hst2)⟩

theorem concat_with_STRING_step (r : Rep h W U) {p q p2 q2 : Nat} {m m2 m' : Mem} {f a : Bool} (hst : h.st p = some (some q)) (hm : h.mem q = some m)
    (hst2 : h.st p2 = some (some q2)) (hm2 : h.mem q2 = some m2) (ne : p ≠ p2)
    (hv : Strings.concat_with_STRING (some m) (some m2) false a = C.ok (some m', f)) :
    ∃ h', concat_with_STRING h p p2 a = C.ok (h', f) ∧ Moves h p q m m' h' := by
  have p0 := st_ne0 r hst
  have p20 := st_ne0 r hst2
  have q0 := (r.blk hst).1
  have nx := r.nx
  have g := gives_other r hst2 hm2 ne
  unfold Strings.concat_with_STRING at hv
  simp only [Bool.false_eq_true, if_false] at hv
  obtain ⟨n1, e1, hv⟩ := C.bind_eq_ok.1 hv
  obtain ⟨n2, e2, hv⟩ := C.bind_eq_ok.1 hv
  cases al : allocs a (n1 + (n2 + 1)) with
  | false =>
    rw [if_pos al] at hv
    obtain ⟨rfl, rfl⟩ := ok_inj hv
    exact ⟨h, by simp [concat_with_STRING, p0, p20, getS_of hst, getS_of hst2, strlen_of (src_blk hm), strlen_of g.src, e1, e2, realloc_of q0 hm, al], .same rfl⟩
  | true =>
    rw [if_neg (by rw [al]; simp)] at hv
    obtain ⟨m3, e3, hv⟩ := C.bind_eq_ok.1 hv
    obtain ⟨rfl, rfl⟩ := ok_inj hv
    have gm : getS (moved h p q (reallocMem m (n1 + (n2 + 1)))) p2 = C.ok q2 := by
      simp [getS, moved, upd_apply, Ne.symm ne, hst2]
    exact ⟨_, by simp [concat_with_STRING, p0, p20, getS_of hst, getS_of hst2, strlen_of (src_blk hm), strlen_of g.src, e1, e2, realloc_of q0 hm, al, nx,
      setS_moved (x := 0) hst, getS_moved, gm, copyIn_moved r hst g, e3], .moved⟩

theorem copy_step (r : Rep h W U) {p q : Nat} {m ms m' : Mem} {f : Bool} {s : Src} {a : Bool} (hst : h.st p = some (some q)) (hm : h.mem q = some m)
    (g : Gives h p s ms) (hv : Strings.copy (some m) (.ext ms) a = C.ok (some m', f)) :
    ∃ h', copy h p s a = C.ok (h', f) ∧ Moves h p q m m' h' := by
  have p0 := st_ne0 r hst
  have q0 := (r.blk hst).1
  have nx := r.nx
  have ns : s ≠ .blk q 0 := by
    intro e; subst e
    obtain ⟨_, _, _, _, x⟩ := g
    exact x hst
  unfold Strings.copy at hv
  dsimp only at hv
  obtain ⟨n2, e2, hv⟩ := C.bind_eq_ok.1 hv
  cases al : allocs a (1 + n2) with
  | false =>
    rw [if_pos al] at hv
    obtain ⟨rfl, rfl⟩ := ok_inj hv
    exact ⟨h, by simp [copy, p0, g.ne_null, getS_of hst, ns, strlen_of g.src, e2, realloc_of q0 hm, al], .same rfl⟩
  | true =>
    rw [if_neg (by rw [al]; simp)] at hv
    obtain ⟨m2, e3, hv⟩ := C.bind_eq_ok.1 hv
    obtain ⟨rfl, rfl⟩ := ok_inj hv
    exact ⟨_, by simp [copy, p0, g.ne_null, getS_of hst, ns, strlen_of g.src, e2, realloc_of q0 hm, al, nx, setS_moved (x := 0) hst,
      getS_moved, copyIn_moved r hst g, e3], .moved⟩

theorem copy_n_step (r : Rep h W U) {p q n : Nat} {m ms m' : Mem} {f : Bool} {s : Src} {a : Bool} (hst : h.st p = some (some q)) (hm : h.mem q = some m)
    (g : Gives h p s ms) (hv : Strings.copy_n (some m) (.ext ms) n a = C.ok (some m', f)) :
    ∃ h', copy_n h p s n a = C.ok (h', f) ∧ Moves h p q m m' h' := by
  have p0 := st_ne0 r hst
  have q0 := (r.blk hst).1
  have nx := r.nx
  unfold Strings.copy_n at hv
  dsimp only at hv
  obtain ⟨n2, e2, hv⟩ := C.bind_eq_ok.1 hv
  generalize hk : (if n2 > n then n else n2) = k at hv
  cases al : allocs a (1 + k) with
  | false =>
    rw [if_pos al] at hv
    obtain ⟨rfl, rfl⟩ := ok_inj hv
    refine ⟨h, ?_, .same rfl⟩
    unfold copy_n
    simp only [strlen_of g.src, e2, C.ok_bind, hk]
    simp [p0, g.ne_null, getS_of hst, realloc_of q0 hm, al]
  | true =>
    rw [if_neg (by rw [al]; simp)] at hv
    obtain ⟨m2, e3, hv⟩ := C.bind_eq_ok.1 hv
    obtain ⟨m3, e4, hv⟩ := C.bind_eq_ok.1 hv
    obtain ⟨rfl, rfl⟩ := ok_inj hv
    refine ⟨_, ?_, .moved⟩
    unfold copy_n
    simp only [strlen_of g.src, e2, C.ok_bind, hk]
    simp [p0, g.ne_null, getS_of hst, realloc_of q0 hm, al, nx, setS_moved (x := 0) hst, getS_moved, copyIn_moved r hst g, e3, onBlock_moved, e4]

theorem sprintf_step (r : Rep h W U) {p q : Nat} {m m' : Mem} {f : Bool} {x : Fmt} {a : Bool} (hst : h.st p = some (some q)) (hm : h.mem q = some m)
    (hv : Strings.sprintf (some m) (some x) a = C.ok (some m', f)) :
    ∃ h', sprintf h p (some x) a = C.ok (h', f) ∧ Moves h p q m m' h' := by
  have p0 := st_ne0 r hst
  have q0 := (r.blk hst).1
  have nx := r.nx
  unfold Strings.sprintf at hv
  dsimp only at hv
  cases o1 : x.ok1 with
  | false =>
    rw [if_pos o1] at hv
    obtain ⟨rfl, rfl⟩ := ok_inj hv
    exact ⟨h, by simp [sprintf, p0, o1], .same rfl⟩
  | true =>
    rw [if_neg (by simp [o1])] at hv
    by_cases l0 : x.text.length = 0
    · rw [if_pos l0] at hv
      obtain ⟨rfl, rfl⟩ := ok_inj hv
      refine ⟨h, ?_, .same rfl⟩
      unfold sprintf
      simp only [p0, o1, l0, if_pos, if_neg, C.pure_eq]
      simp
    · rw [if_neg l0] at hv
      obtain ⟨n1, e1, hv⟩ := C.bind_eq_ok.1 hv
      cases al : allocs a (n1 + (x.text.length + 1)) with
      | false =>
        rw [if_pos al] at hv
        obtain ⟨rfl, rfl⟩ := ok_inj hv
        refine ⟨h, ?_, .same rfl⟩
        unfold sprintf
        dsimp only
        rw [if_neg p0, if_neg (by simp [o1]), if_neg l0]
        simp [getS_of hst, strlen_of (src_blk hm), e1, realloc_of q0 hm, al]
      | true =>
        rw [if_neg (by rw [al]; simp)] at hv
        cases o2 : x.ok2 with
        | false =>
          rw [if_pos o2] at hv
          obtain ⟨m2, e3, hv⟩ := C.bind_eq_ok.1 hv
          obtain ⟨m3, e4, hv⟩ := C.bind_eq_ok.1 hv
          obtain ⟨rfl, rfl⟩ := ok_inj hv
          refine ⟨_, ?_, .moved⟩
          unfold sprintf
          dsimp only
          rw [if_neg p0, if_neg (by simp [o1]), if_neg l0]
          simp [getS_of hst, strlen_of (src_blk hm), e1, realloc_of q0 hm, al, nx, setS_moved (x := 0) hst, getS_moved, o2, onBlock_moved, e3, e4]
        | true =>
          rw [if_neg (by simp [o2])] at hv
          obtain ⟨m2, e3, hv⟩ := C.bind_eq_ok.1 hv
          obtain ⟨rfl, rfl⟩ := ok_inj hv
          refine ⟨_, ?_, .moved⟩
          unfold sprintf
          dsimp only
          rw [if_neg p0, if_neg (by simp [o1]), if_neg l0]
          simp only [getS_of hst, strlen_of (src_blk hm), e1, realloc_of q0 hm, al, C.ok_bind, if_true, nx, ne_eq, not_false_eq_true, setS_moved (x := 0) hst, getS_moved, o2,
            Bool.true_eq_false, if_false, onBlock_moved, e3, C.pure_eq]

theorem quote_step (r : Rep h W U) {p q : Nat} {m m' : Mem} {f : Bool} {a : Bool} (hst : h.st p = some (some q)) (hm : h.mem q = some m)
    (hv : Strings.quote (some m) a = C.ok (some m', f)) : ∃ h', quote h p a = C.ok (h', f) ∧ Moves h p q m m' h' := by
  have p0 := st_ne0 r hst
  have q0 := (r.blk hst).1
  have nx := r.nx
  unfold Strings.quote at hv
  dsimp only at hv
  obtain ⟨n1, e1, hv⟩ := C.bind_eq_ok.1 hv
  unfold quote
  rw [if_neg p0]
  simp only [getS_of hst, strlen_of (src_blk hm), e1, C.ok_bind, realloc_of q0 hm]
  cases al : allocs a (2 + 1 + n1) with
  | false =>
    rw [if_pos al] at hv
    obtain ⟨rfl, rfl⟩ := ok_inj hv
    exact ⟨h, by simp, .same rfl⟩
  | true =>
    rw [if_neg (by rw [al]; simp)] at hv
    obtain ⟨m2, e2, hv⟩ := C.bind_eq_ok.1 hv
    obtain ⟨m3, e3, hv⟩ := C.bind_eq_ok.1 hv
    obtain ⟨m4, e4, hv⟩ := C.bind_eq_ok.1 hv
    obtain ⟨m5, e5, hv⟩ := C.bind_eq_ok.1 hv
    obtain ⟨rfl, rfl⟩ := ok_inj hv
    refine ⟨_, ?_, .moved⟩
    simp only [if_true, C.ok_bind, nx, if_false, setS_moved (x := 0) hst, getS_moved, onBlock_moved, e2, e3, e4, e5, C.pure_eq]

theorem empty_step (r : Rep h W U) {p q : Nat} {m m' : Mem} {f : Bool} {a : Bool} (hst : h.st p = some (some q)) (hm : h.mem q = some m)
    (hv : Strings.empty (some m) a = C.ok (some m', f)) : ∃ h', empty h p a = C.ok (h', f) ∧ Moves h p q m m' h' := by
  have p0 := st_ne0 r hst
  have q0 := (r.blk hst).1
  have nx := r.nx
  unfold Strings.empty at hv
  dsimp only at hv
  unfold empty
  rw [if_neg p0]
  simp only [getS_of hst, C.ok_bind, realloc_of q0 hm]
  cases a with
  | false =>
    rw [if_pos rfl] at hv
    obtain ⟨rfl, rfl⟩ := ok_inj hv
    exact ⟨h, by simp [allocs], .same rfl⟩
  | true =>
    rw [if_neg (by simp)] at hv
    obtain ⟨m2, e2, hv⟩ := C.bind_eq_ok.1 hv
    obtain ⟨rfl, rfl⟩ := ok_inj hv
    refine ⟨_, ?_, .moved⟩
    have al : allocs true 1 = true := by simp [allocs, SIZE_MAX]
    simp only [al, if_true, C.ok_bind, nx, if_false, setS_moved (x := 0) hst, getS_moved, onBlock_moved, e2, C.pure_eq]

theorem replace_step (r : Rep h W U) {p q : Nat} {m m' : Mem} {f : Bool} {c d : UInt8} (hst : h.st p = some (some q)) (hm : h.mem q = some m)
    (hv : Strings.replace (some m) c d = C.ok (some m', f)) : ∃ h', replace h p c d = C.ok (h', f) ∧ Moves h p q m m' h' := by
  have p0 := st_ne0 r hst
  unfold Strings.replace at hv
  dsimp only at hv
  unfold replace
  rw [if_neg p0]
  by_cases cd : c = d
  · rw [if_pos cd] at hv ⊢
    obtain ⟨rfl, rfl⟩ := ok_inj hv
    exact ⟨h, rfl, .same rfl⟩
  · rw [if_neg cd] at hv ⊢
    obtain ⟨n1, e1, hv⟩ := C.bind_eq_ok.1 hv
    obtain ⟨m2, e2, hv⟩ := C.bind_eq_ok.1 hv
    obtain ⟨rfl, rfl⟩ := ok_inj hv
    refine ⟨_, ?_, .inPlace⟩
    simp [getS_of hst, strlen_of (src_blk hm), e1, onBlock, hm, e2, inPlace]

/-- What a constructor can do to the heap. -/
inductive Makes (h : Heap) : Option Mem → Heap → Nat → Prop
  | failed (n : Nat) : h.next ≤ n → Makes h none (wasted h n) 0
  | made (m : Mem) : Makes h (some m) (fresh2 h m) h.next

theorem Makes.failed0 (h : Heap) : Makes h none h 0 := .failed h.next (Nat.le_refl _)

theorem new_step (r : Rep h W U) (a1 a2 : Bool) {b : Option Mem} (hv : Strings.new a1 a2 = C.ok b) :
    ∃ h' x, new h a1 a2 = C.ok (h', x) ∧ Makes h b h' x := by
  have nx := r.nx
  unfold Strings.new at hv
  unfold new
  cases a1 with
  | false =>
    rw [if_pos rfl] at hv; cases hv
    exact ⟨h, 0, rfl, .failed0 h⟩
  | true =>
    rw [if_neg (by simp)] at hv
    simp only [mallocS_true, nx, if_false, mallocB_of]
    cases al : allocs a2 1 with
    | false =>
      rw [if_pos al] at hv; cases hv
      exact ⟨_, 0, by simp [setS_alloced, freeS_alloced r], .failed (h.next + 1) (by omega)⟩
    | true =>
      rw [if_neg (by rw [al]; simp)] at hv
      obtain ⟨m2, e2, hv⟩ := C.bind_eq_ok.1 hv
      cases hv
      exact ⟨_, _, by simp [setS_fresh, onBlock_fresh, e2], .made _⟩

theorem construct_step (r : Rep h W U) (a1 a2 : Bool) {s : Src} {ms : Mem} {b : Option Mem} (g : Gives h 0 s ms)
    (hv : Strings.construct (some ms) a1 a2 = C.ok b) :
    ∃ h' x, construct h s a1 a2 = C.ok (h', x) ∧ Makes h b h' x := by
  have nx := r.nx
  unfold Strings.construct at hv
  dsimp only at hv
  unfold construct
  rw [if_neg g.ne_null]
  cases a1 with
  | false =>
    rw [if_pos rfl] at hv; cases hv
    exact ⟨h, 0, rfl, .failed0 h⟩
  | true =>
    rw [if_neg (by simp)] at hv
    obtain ⟨n1, e1, hv⟩ := C.bind_eq_ok.1 hv
    simp only [mallocS_true, nx, ne_eq, not_false_eq_true, if_true, strlen_of (g.src_alloced r), e1, C.ok_bind, mallocB_of]
    cases al : allocs a2 (1 + n1) with
    | false =>
      rw [if_pos al] at hv; cases hv
      exact ⟨_, 0, by simp [setS_alloced, freeS_alloced r], .failed (h.next + 1) (by omega)⟩
    | true =>
      rw [if_neg (by rw [al]; simp)] at hv
      obtain ⟨m2, e2, hv⟩ := C.bind_eq_ok.1 hv
      cases hv
      exact ⟨_, _, by simp [setS_fresh, copyIn_fresh r g, e2], .made _⟩

theorem gives_self (r : Rep h W U) {p q : Nat} {m : Mem} (hst : h.st p = some (some q)) (hm : h.mem q = some m) : Gives h 0 (.blk q 0) m :=
  ⟨m, hm, by simp, by simp, by rw [r.null.1]; simp⟩

theorem clone_step (r : Rep h W U) {p q : Nat} {m : Mem} (hst : h.st p = some (some q)) (hm : h.mem q = some m) (a1 a2 : Bool) {b : Option Mem}
    (hv : Strings.clone (some m) a1 a2 = C.ok b) : ∃ h' x, clone h p a1 a2 = C.ok (h', x) ∧ Makes h b h' x := by
  have nx := r.nx
  have p0 := st_ne0 r hst
  have pn : p ≠ h.next := Nat.ne_of_lt (r.lt hst)
  have g := gives_self r hst hm
  have ga : getS (alloced h) p = C.ok q := by simp [getS, alloced, upd_apply, pn, hst]
  unfold Strings.clone at hv
  dsimp only at hv
  unfold clone
  rw [if_neg p0]
  cases a1 with
  | false =>
    rw [if_pos rfl] at hv; cases hv
    exact ⟨h, 0, rfl, .failed0 h⟩
  | true =>
    rw [if_neg (by simp)] at hv
    obtain ⟨n1, e1, hv⟩ := C.bind_eq_ok.1 hv
    simp only [mallocS_true, nx, ne_eq, not_false_eq_true, if_true, ga, strlen_of (g.src_alloced r), e1, C.ok_bind, mallocB_of]
    cases al : allocs a2 (1 + n1) with
    | false =>
      rw [if_pos al] at hv; cases hv
      exact ⟨_, 0, by simp [setS_alloced, freeS_alloced r], .failed (h.next + 1) (by omega)⟩
    | true =>
      rw [if_neg (by rw [al]; simp)] at hv
      obtain ⟨m2, e2, hv⟩ := C.bind_eq_ok.1 hv
      cases hv
      have gf : ∀ x, getS (fresh2 h x) p = C.ok q := by intro x; simp [getS, fresh2, upd_apply, pn, hst]
      exact ⟨_, _, by simp [setS_fresh, gf, copyIn_fresh r g, e2], .made _⟩

theorem construct_n_step (r : Rep h W U) (n : Nat) (a1 a2 : Bool) {s : Src} {ms : Mem} {b : Option Mem} (g : Gives h 0 s ms)
    (hv : Strings.construct_n (some ms) n a1 a2 = C.ok b) :
    ∃ h' x, construct_n h s n a1 a2 = C.ok (h', x) ∧ Makes h b h' x := by
  have nx := r.nx
  unfold Strings.construct_n at hv
  dsimp only at hv
  obtain ⟨n1, e1, hv⟩ := C.bind_eq_ok.1 hv
  unfold construct_n
  rw [if_neg g.ne_null, strlen_of g.src, e1, C.ok_bind]
  by_cases nl : n > n1
  · rw [if_pos nl] at hv ⊢; cases hv
    exact ⟨h, 0, rfl, .failed0 h⟩
  rw [if_neg nl] at hv ⊢
  cases a1 with
  | false =>
    rw [if_pos rfl] at hv; cases hv
    exact ⟨h, 0, rfl, .failed0 h⟩
  | true =>
    rw [if_neg (by simp)] at hv
    simp only [mallocS_true, nx, ne_eq, not_false_eq_true, if_true, mallocB_of]
    cases al : allocs a2 (n + 1) with
    | false =>
      rw [if_pos al] at hv; cases hv
      exact ⟨_, 0, by simp [setS_alloced, freeS_alloced r], .failed (h.next + 1) (by omega)⟩
    | true =>
      rw [if_neg (by rw [al]; simp)] at hv
      obtain ⟨m2, e2, hv⟩ := C.bind_eq_ok.1 hv
      obtain ⟨m3, e3, hv⟩ := C.bind_eq_ok.1 hv
      cases hv
      exact ⟨_, _, by simp [setS_fresh, copyIn_fresh r g, e2, onBlock_fresh, e3], .made _⟩

theorem new_quoted_step (r : Rep h W U) (a1 a2 : Bool) {s : Src} {ms : Mem} {b : Option Mem} (g : Gives h 0 s ms)
    (hv : Strings.new_quoted (some ms) a1 a2 = C.ok b) :
    ∃ h' x, new_quoted h s a1 a2 = C.ok (h', x) ∧ Makes h b h' x := by
  have nx := r.nx
  unfold Strings.new_quoted at hv
  dsimp only at hv
  unfold new_quoted
  rw [if_neg g.ne_null]
  cases a1 with
  | false =>
    rw [if_pos rfl] at hv; cases hv
    exact ⟨h, 0, rfl, .failed0 h⟩
  | true =>
    rw [if_neg (by simp)] at hv
    obtain ⟨n1, e1, hv⟩ := C.bind_eq_ok.1 hv
    simp only [mallocS_true, nx, ne_eq, not_false_eq_true, if_true, strlen_of (g.src_alloced r), e1, C.ok_bind, mallocB_of]
    cases al : allocs a2 (3 + n1) with
    | false =>
      rw [if_pos al] at hv; cases hv
      exact ⟨_, 0, by simp [setS_alloced, freeS_alloced r], .failed (h.next + 1) (by omega)⟩
    | true =>
      rw [if_neg (by rw [al]; simp)] at hv
      obtain ⟨m2, e2, hv⟩ := C.bind_eq_ok.1 hv
      obtain ⟨m3, e3, hv⟩ := C.bind_eq_ok.1 hv
      obtain ⟨m4, e4, hv⟩ := C.bind_eq_ok.1 hv
      obtain ⟨m5, e5, hv⟩ := C.bind_eq_ok.1 hv
      cases hv
      exact ⟨_, _, by simp [setS_fresh, copyIn_fresh r g, e2, onBlock_fresh, e3, e4, e5], .made _⟩

theorem new_JSON_step (r : Rep h W U) (a1 a2 : Bool) {s : Src} {ms : Mem} {b : Option Mem} (g : Gives h 0 s ms)
    (hv : Strings.new_JSON (some ms) a1 a2 = C.ok b) :
    ∃ h' x, new_JSON h s a1 a2 = C.ok (h', x) ∧ Makes h b h' x := by
  have nx := r.nx
  unfold Strings.new_JSON at hv
  dsimp only at hv
  obtain ⟨t, e1, hv⟩ := C.bind_eq_ok.1 hv
  unfold new_JSON
  rw [if_neg g.ne_null, g.src, C.ok_bind, e1, C.ok_bind]
  dsimp only
  cases ec : Strings.jsonCount t (0, 0) with
  | none =>
    simp only [ec] at hv; cases hv
    exact ⟨h, 0, rfl, .failed0 h⟩
  | some c =>
    obtain ⟨nc, ne⟩ := c
    simp only [ec] at hv
    dsimp only
    cases a1 with
    | false =>
      rw [if_pos rfl] at hv; cases hv
      exact ⟨h, 0, rfl, .failed0 h⟩
    | true =>
      rw [if_neg (by simp)] at hv
      simp only [mallocS_true, nx, if_false]
      by_cases c1 : t.length > SIZE_MAX - 3
      · rw [if_pos c1] at hv; cases hv
        rw [if_pos (.inl c1)]
        exact ⟨_, 0, by simp [alloced, freeS_alloced r], .failed (h.next + 1) (by omega)⟩
      rw [if_neg c1] at hv
      by_cases c2 : SIZE_MAX - ne < t.length + 3
      · rw [if_pos c2] at hv; cases hv
        rw [if_pos (.inr (.inl c2))]
        exact ⟨_, 0, by simp [alloced, freeS_alloced r], .failed (h.next + 1) (by omega)⟩
      rw [if_neg c2] at hv
      by_cases c3 : (SIZE_MAX - (t.length + 3 + ne)) / 5 < nc
      · rw [if_pos c3] at hv; cases hv
        rw [if_pos (.inr (.inr c3))]
        exact ⟨_, 0, by simp [alloced, freeS_alloced r], .failed (h.next + 1) (by omega)⟩
      rw [if_neg c3] at hv
      rw [if_neg (by rintro (x | x | x) <;> contradiction)]
      have fits : t.length + 5 * nc + ne + 3 ≤ SIZE_MAX := by
        simp only [SIZE_MAX] at c1 c2 c3 ⊢; omega
      cases a2 with
      | false =>
        rw [if_pos rfl] at hv; cases hv
        exact ⟨_, 0, by simp [mallocB_of, allocs, setS_alloced, freeS_alloced r], .failed (h.next + 1) (by omega)⟩
      | true =>
        rw [if_neg (by simp)] at hv
        have al : allocs true (t.length + 5 * nc + ne + 3) = true := by
          unfold allocs; rw [decide_eq_true fits]; rfl
        obtain ⟨m2, e2, hv⟩ := C.bind_eq_ok.1 hv
        obtain ⟨m3, e3, hv⟩ := C.bind_eq_ok.1 hv
        obtain ⟨m4, e4, hv⟩ := C.bind_eq_ok.1 hv
        obtain ⟨m5, e5, hv⟩ := C.bind_eq_ok.1 hv
        cases hv
        refine ⟨_, _, ?_, .made _⟩
        simp only [mallocB_of, al, if_true, setS_fresh, C.ok_bind, Nat.add_eq_zero_iff, Nat.one_ne_zero, and_false, if_false, onBlock_fresh, e2, e3, e4, e5, C.pure_eq]

theorem construct_sprintf_step (r : Rep h W U) (x : Fmt) (a1 a2 : Bool) {b : Option Mem}
    (hv : Strings.construct_sprintf (some x) a1 a2 = C.ok b) :
    ∃ h' y, construct_sprintf h (some x) a1 a2 = C.ok (h', y) ∧ Makes h b h' y := by
  have nx := r.nx
  unfold Strings.construct_sprintf at hv
  dsimp only at hv
  unfold construct_sprintf
  dsimp only
  cases o1 : x.ok1 with
  | false =>
    rw [if_pos o1] at hv; cases hv
    exact ⟨h, 0, rfl, .failed0 h⟩
  | true =>
    rw [if_neg (by simp [o1])] at hv
    rw [if_neg (by simp)]
    by_cases l0 : x.text.length > 0
    · rw [if_pos l0] at hv ⊢
      cases a1 with
      | false =>
        rw [if_pos rfl] at hv; cases hv
        exact ⟨h, 0, rfl, .failed0 h⟩
      | true =>
        rw [if_neg (by simp)] at hv
        simp only [mallocS_true, nx, ne_eq, not_false_eq_true, if_true, mallocB_of]
        cases al : allocs a2 (x.text.length + 1) with
        | false =>
          rw [if_pos al] at hv; cases hv
          exact ⟨_, 0, by simp [setS_alloced, freeS_alloced r], .failed (h.next + 1) (by omega)⟩
        | true =>
          rw [if_neg (by rw [al]; simp)] at hv
          cases o2 : x.ok2 with
          | false =>
            rw [if_pos o2] at hv; cases hv
            refine ⟨wasted h (h.next + 1 + 1), 0, ?_, .failed _ (by omega)⟩
            have n1 : h.next + 1 ≠ 0 := by omega
            have m0 : h.mem (h.next + 1) = none := (r.fresh _ (by omega)).2
            have s0 : h.st h.next = none := (r.fresh _ (by omega)).1
            have fb : freeB (fresh2 h (uninit (x.text.length + 1))) (h.next + 1) = C.ok ⟨upd h.st h.next (some (some (h.next + 1))), h.mem, h.next + 1 + 1⟩ := by
              simp [freeB, fresh2, upd_upd, upd_id h.mem _ _ m0]
            simp only [if_true, setS_fresh, C.ok_bind, Nat.add_eq_zero_iff, Nat.one_ne_zero, and_false, not_false_eq_true, getS_fresh, fb]
            simp [freeS, nx, upd_upd, upd_id h.st _ _ s0, wasted]
          | true =>
            rw [if_neg (by simp [o2])] at hv
            obtain ⟨m2, e2, hv⟩ := C.bind_eq_ok.1 hv
            cases hv
            refine ⟨_, _, ?_, .made _⟩
            simp only [if_true, setS_fresh, C.ok_bind, Nat.add_eq_zero_iff, Nat.one_ne_zero, and_false, not_false_eq_true, Bool.true_eq_false, if_false, onBlock_fresh, e2, C.pure_eq]
    · rw [if_neg l0] at hv ⊢
      exact new_step r a1 a2 hv

theorem from_byte_array_step (r : Rep h W U) (a1 a2 : Bool) {s : Src} {bytes : List UInt8} {n : Nat} {b : Option Mem}
    (g : s = .null ∨ Gives h 0 s (bytes.map some))
    (hv : Strings.from_byte_array (if s = .null then none else some bytes) n a1 a2 = C.ok b) :
    ∃ h' x, from_byte_array h s n a1 a2 = C.ok (h', x) ∧ Makes h b h' x := by
  have nx := r.nx
  unfold Strings.from_byte_array at hv
  unfold from_byte_array
  have sn : ((if s = Src.null then none else some bytes) = none) ↔ s = .null := by split <;> simp_all
  by_cases c0 : s = .null ∧ n > 0
  · rw [if_pos ⟨sn.2 c0.1, c0.2⟩] at hv; cases hv
    rw [if_pos c0]
    exact ⟨h, 0, rfl, .failed0 h⟩
  rw [if_neg (fun x => c0 ⟨sn.1 x.1, x.2⟩)] at hv
  rw [if_neg c0]
  cases a1 with
  | false =>
    rw [if_pos rfl] at hv; cases hv
    exact ⟨h, 0, rfl, .failed0 h⟩
  | true =>
    rw [if_neg (by simp)] at hv
    simp only [mallocS_true, nx, if_false, mallocB_of]
    cases al : allocs a2 (1 + n) with
    | false =>
      rw [if_pos al] at hv; cases hv
      exact ⟨_, 0, by simp [setS_alloced, freeS_alloced r], .failed (h.next + 1) (by omega)⟩
    | true =>
      rw [if_neg (by rw [al]; simp)] at hv
      obtain ⟨m2, e2, hv⟩ := C.bind_eq_ok.1 hv
      obtain ⟨m3, e3, hv⟩ := C.bind_eq_ok.1 hv
      cases hv
      refine ⟨_, _, ?_, .made _⟩
      rcases g with g | g
      · subst g
        have n0 : n = 0 := by simp at c0; exact c0
        subst n0
        have : m2 = uninit 1 := by
          simp [memcpy, uninit] at e2
          exact e2.symm
        subst this
        simp only [if_true, setS_fresh, C.ok_bind, Nat.add_eq_zero_iff, Nat.one_ne_zero, and_false, if_false, C.pure_eq, onBlock_fresh, e3]
      · simp only [if_neg g.ne_null, Option.getD_some] at e2
        simp only [if_true, setS_fresh, C.ok_bind, Nat.add_eq_zero_iff, Nat.one_ne_zero, and_false, if_false, C.pure_eq, if_neg g.ne_null, copyIn_fresh r g, e2, onBlock_fresh, e3]

theorem delete_step (r : Rep h W U) {p q : Nat} (hst : h.st p = some (some q)) :
    delete h p = C.ok ⟨upd h.st p none, upd h.mem q none, h.next⟩ := by
  have p0 := st_ne0 r hst
  obtain ⟨q0, m, hm, _⟩ := r.blk hst
  simp [delete, p0, getS_of hst, freeB, q0, hm, setS, hst, freeS, upd_upd]

theorem new_with_memory_step (r : Rep h W U) {q : Nat} (q0 : q ≠ 0) :
    new_with_memory h q true = C.ok (⟨upd h.st h.next (some (some q)), h.mem, h.next + 1⟩, h.next) ∧ new_with_memory h q false = C.ok (h, 0) := by
  have nx := r.nx
  constructor
  · simp [new_with_memory, q0, mallocS, nx, setS, upd_upd]
  · simp [new_with_memory, q0, mallocS]

/-- The string a call changes or deletes. -/
def Call.target : Call → Nat
  | .new .. | .clone .. | .construct .. | .constructN .. | .constructSprintf .. | .newWithMemory .. | .newQuoted .. | .newJSON .. | .fromByteArray .. => 0
  | .delete p | .concat p .. | .concatString p .. | .copy p .. | .copyN p .. | .sprintf p .. | .quote p _ | .empty p _ | .replace p .. => p
  | .userMalloc .. | .userFree _ => 0

/-- The block of the user that a call frees. -/
def Call.frees : Call → Nat
  | .userFree q => q
  | _ => 0

/-- Everything about one call: see the theorems below. -/
structure Fine (h h' : Heap) (w : World) (c : Call) : Prop where
  rep : Rep h' w.str w.blk
  good : Good w.str
  st : ∀ x, x ≠ c.target → x < h.next → h'.st x = h.st x
  mem : ∀ q, h.st c.target ≠ some (some q) → q ≠ c.frees → q < h.next → h'.mem q = h.mem q

theorem good_upd {b : Mem} (g : Good W) (p : Nat) (h1 : Text b) : Good (upd W p (some b)) := by
  intro p' b' e
  simp only [upd_apply] at e
  split at e
  · cases e; exact h1
  · exact g p' b' e

theorem good_del (g : Good W) (p : Nat) : Good (upd W p none) := by
  intro p' b' e
  simp only [upd_apply] at e
  split at e
  · cases e
  · exact g p' b' e

/-- A function that changes the string at `p`, from its step lemma and what Verif/Strings says. -/
theorem change_fine (r : Rep h W U) (g : Good W) (c : Call) {p q : Nat} (hc : c.target = p) (hf : c.frees = 0) {m m' : Mem} {f : Bool} {x : C (Heap × Bool)}
    (hst : h.st p = some (some q)) (hm : h.mem q = some m) (hx : ∃ h', x = C.ok (h', f) ∧ Moves h p q m m' h') (h1 : Text m') :
    ∃ h', asOk x = C.ok (h', (changed W U p (some m', f)).2) ∧ Fine h h' (changed W U p (some m', f)).1 c := by
  obtain ⟨h', e, s⟩ := hx
  obtain ⟨q0, m0, hm0, hw⟩ := r.blk hst
  rw [hm] at hm0; cases hm0
  refine ⟨h', by rw [e]; rfl, ?_⟩
  cases s with
  | same em =>
    rw [← em] at hw
    exact ⟨by simp only [changed]; rw [upd_id W p _ hw]; exact r, good_upd g p h1, fun _ _ _ => rfl, fun _ _ _ _ => rfl⟩
  | moved =>
    refine ⟨r.moved hst m', good_upd g p h1, fun x hx _ => upd_ne _ _ (hc ▸ hx), fun q' hq _ l => ?_⟩
    have : q' ≠ q := fun y => hq (by rw [hc, y]; exact hst)
    show upd (upd h.mem q none) h.next (some m') q' = _
    rw [upd_ne _ _ (Nat.ne_of_lt l), upd_ne _ _ this]
  | inPlace =>
    refine ⟨r.inPlace hst m', good_upd g p h1, fun x hx _ => rfl, fun q' hq _ l => ?_⟩
    have : q' ≠ q := fun y => hq (by rw [hc, y]; exact hst)
    exact upd_ne _ _ this

theorem make_fine (r : Rep h W U) (g : Good W) (c : Call) (hc : c.target = 0) {b : Option Mem} {x : C (Heap × Nat)}
    (hx : ∃ h' p, x = C.ok (h', p) ∧ Makes h b h' p) (hb : ∀ m, b = some m → Text m) :
    ∃ h', asHandle x = C.ok (h', (made W U h.next b).2) ∧ Fine h h' (made W U h.next b).1 c := by
  obtain ⟨h', p, e, s⟩ := hx
  cases s with
  | failed n hn => exact ⟨_, by rw [e]; rfl, r.wasted n hn, g, fun _ _ _ => rfl, fun _ _ _ _ => rfl⟩
  | made m =>
    refine ⟨_, by rw [e]; rfl, r.fresh2 m, good_upd g _ (hb m rfl), fun x _ l => upd_ne _ _ (Nat.ne_of_lt l), fun q _ _ l => upd_ne _ _ ?_⟩
    omega

theorem null_fine (r : Rep h W U) (g : Good W) (c : Call) : Fine h h ⟨W, U⟩ c := ⟨r, g, fun _ _ _ => rfl, fun _ _ _ _ => rfl⟩

/-- A refused call on a string. -/
theorem kept_fine (r : Rep h W U) (g : Good W) (c : Call) {p : Nat} {m : Mem} (hp : W p = some m) : Fine h h ⟨upd W p (some m), U⟩ c := by
  rw [upd_id W p _ hp]; exact null_fine r g c

/-- C67, one call. Whatever allocations fail: the call is defined, answers what Verif/Strings says and makes of the strings what Verif/Strings says
(`effect`); afterwards the heap holds exactly those strings and the user's blocks. So nothing is leaked, freed twice or used after it was freed. All other
strings and blocks stay what they are and where they are, so pointers into them stay valid. -/
theorem call_fine (r : Rep h W U) (g : Good W) (c : Call) (v : Valid h W U c) :
    ∃ h' w ans, exec h c = C.ok (h', ans) ∧ effect h W U h.next c = C.ok (w, ans) ∧ Fine h h' w c := by
  have w0 := r.W0
  have u0 := r.U0
  have some_of : ∀ p, W p ≠ none → ∃ m q, W p = some m ∧ h.st p = some (some q) ∧ h.mem q = some m := fun p hp => by
    cases e : W p with
    | none => exact absurd e hp
    | some b =>
      obtain ⟨q, e1, _, e3⟩ := r.live p b e
      exact ⟨b, q, rfl, e1, e3⟩
  cases c with
  | new a1 a2 =>
    obtain ⟨b, e1, e2, e3⟩ := Strings.new_spec a1 a2
    obtain ⟨h', e, f⟩ := make_fine r g (.new a1 a2) rfl (new_step r a1 a2 e1) (fun m e => ⟨_, e3 m e⟩)
    exact ⟨h', _, _, e, by simp [effect, e1], f⟩
  | clone p a1 a2 =>
    rcases v with rfl | v
    · exact ⟨h, ⟨W, U⟩, .handle 0, by simp [exec, clone, asHandle], by simp [effect, w0, Strings.clone, made], null_fine r g _⟩
    · obtain ⟨m, q, hp, hst, hm⟩ := some_of p v
      obtain ⟨s, hs⟩ := g p m hp
      obtain ⟨b, e0, e1, e2, e3⟩ := Strings.construct_spec m s a1 a2 hs
      obtain ⟨h', e, f⟩ := make_fine r g (.clone p a1 a2) rfl (clone_step r hst hm a1 a2 e1) (fun m e => ⟨_, e3 m e⟩)
      exact ⟨h', _, _, e, by simp [effect, hp, e1], f⟩
  | construct src ms a1 a2 =>
    rcases v with rfl | ⟨v, s, hs⟩
    · exact ⟨h, ⟨W, U⟩, .handle 0, by simp [exec, construct, asHandle], by simp [effect, val, Strings.construct, made], null_fine r g _⟩
    · obtain ⟨b, e1, _, e2, e3⟩ := Strings.construct_spec ms s a1 a2 hs
      obtain ⟨h', e, f⟩ := make_fine r g (.construct src ms a1 a2) rfl (construct_step r a1 a2 v e1) (fun m e => ⟨_, e3 m e⟩)
      exact ⟨h', _, _, e, by simp [effect, val, v.ne_null, e1], f⟩
  | constructN src ms n a1 a2 =>
    rcases v with rfl | ⟨v, s, hs⟩
    · exact ⟨h, ⟨W, U⟩, .handle 0, by simp [exec, construct_n, asHandle], by simp [effect, val, Strings.construct_n, made], null_fine r g _⟩
    · obtain ⟨b, e1, e2, e3⟩ := Strings.construct_n_spec ms s n a1 a2 hs
      obtain ⟨h', e, f⟩ := make_fine r g (.constructN src ms n a1 a2) rfl (construct_n_step r n a1 a2 v e1) (fun m e => ⟨_, e3 m e⟩)
      exact ⟨h', _, _, e, by simp [effect, val, v.ne_null, e1], f⟩
  | constructSprintf f a1 a2 =>
    cases f with
    | none => exact ⟨h, ⟨W, U⟩, .handle 0, by simp [exec, construct_sprintf, asHandle], by simp [effect, Strings.construct_sprintf, made], null_fine r g _⟩
    | some x =>
      obtain ⟨b, e1, e2, e3⟩ := Strings.construct_sprintf_spec x.text x.ok1 x.ok2 a1 a2 x.junk
      obtain ⟨h', e, f⟩ := make_fine r g (.constructSprintf (some x) a1 a2) rfl (construct_sprintf_step r x a1 a2 e1) (fun m e => ⟨_, e3 m e⟩)
      exact ⟨h', _, _, e, by simp only [effect]; rw [show Strings.construct_sprintf (some x) a1 a2 = C.ok b from e1]; rfl, f⟩
  | newWithMemory q a =>
    rcases v with rfl | ⟨m, hu, t⟩
    · exact ⟨h, ⟨W, U⟩, .handle 0, by simp [exec, new_with_memory, asHandle], by simp [effect, u0, Strings.new_with_memory], null_fine r g _⟩
    · obtain ⟨u1, u2⟩ := r.user q m hu
      have q0 : q ≠ 0 := by intro e; subst e; rw [u0] at hu; cases hu
      have ql := r.ltm u1
      obtain ⟨e1, e2⟩ := new_with_memory_step r q0
      cases a with
      | false => exact ⟨h, ⟨W, U⟩, .handle 0, by simp [exec, e2, asHandle], by simp [effect, hu, Strings.new_with_memory], null_fine r g _⟩
      | true =>
        refine ⟨_, ⟨upd W h.next (some m), upd U q none⟩, .handle h.next, by simp only [exec, e1, asHandle, C.ok_bind]; rfl, by simp [effect, hu, Strings.new_with_memory], ?_⟩
        have rr := r.attach (q := q) m q0 (Nat.ne_of_lt ql) (h.next + 1) (by omega) u2
        rw [upd_id h.mem q _ u1] at rr
        exact ⟨rr, good_upd g _ t, fun x _ l => upd_ne _ _ (Nat.ne_of_lt l), fun _ _ _ _ => rfl⟩
  | newQuoted src ms a1 a2 =>
    rcases v with rfl | ⟨v, s, hs⟩
    · exact ⟨h, ⟨W, U⟩, .handle 0, by simp [exec, new_quoted, asHandle], by simp [effect, val, Strings.new_quoted, made], null_fine r g _⟩
    · obtain ⟨b, e1, e2, e3⟩ := Strings.new_quoted_spec ms s a1 a2 hs
      obtain ⟨h', e, f⟩ := make_fine r g (.newQuoted src ms a1 a2) rfl (new_quoted_step r a1 a2 v e1) (fun m e => ⟨_, e3 m e⟩)
      exact ⟨h', _, _, e, by simp [effect, val, v.ne_null, e1], f⟩
  | newJSON src ms a1 a2 =>
    rcases v with rfl | ⟨v, s, hs⟩
    · exact ⟨h, ⟨W, U⟩, .handle 0, by simp [exec, new_JSON, asHandle], by simp [effect, val, Strings.new_JSON, made], null_fine r g _⟩
    · obtain ⟨b, e1, e2, e3⟩ := Strings.new_JSON_spec ms s a1 a2 hs
      obtain ⟨h', e, f⟩ := make_fine r g (.newJSON src ms a1 a2) rfl (new_JSON_step r a1 a2 v e1) (fun m e => ⟨_, (e3 m e).2⟩)
      exact ⟨h', _, _, e, by simp [effect, val, v.ne_null, e1], f⟩
  | fromByteArray src bytes n a1 a2 =>
    have : ∃ b, Strings.from_byte_array (if src = .null then none else some bytes) n a1 a2 = C.ok b ∧ ∀ m, b = some m → Text m := by
      rcases v with rfl | ⟨v, vn⟩
      · simp only [if_true]
        by_cases n0 : 0 < n
        · exact ⟨none, (Strings.from_byte_array_spec (List.replicate n 0) n a1 a2 (by simp)).2.1 n0, by simp⟩
        · have : n = 0 := by omega
          subst this
          cases a1 with
          | false => exact ⟨none, by simp [Strings.from_byte_array], by simp⟩
          | true =>
            cases a2 with
            | false => exact ⟨none, by simp [Strings.from_byte_array, allocs], by simp⟩
            | true => exact ⟨_, (Strings.from_byte_array_spec [] 0 true true (by simp)).2.2, fun m e => by cases e; exact ⟨[], rfl⟩⟩
      · rw [if_neg v.ne_null]
        obtain ⟨b, e1, e2, e3⟩ := (Strings.from_byte_array_spec bytes n a1 a2 vn).1
        exact ⟨b, e1, fun m e => ⟨_, e3 m e⟩⟩
    obtain ⟨b, hv, hb⟩ := this
    obtain ⟨h', e, f⟩ := make_fine r g (.fromByteArray src bytes n a1 a2) rfl (from_byte_array_step r a1 a2 (v.imp id (·.1)) hv) hb
    exact ⟨h', _, _, e, by simp [effect, hv], f⟩
  | delete p =>
    rcases v with rfl | v
    · refine ⟨h, ⟨W, U⟩, .nothing, by simp [exec, delete, asNothing], ?_, null_fine r g _⟩
      simp [effect]; exact upd_id W 0 none w0
    · obtain ⟨m, q, hp, hst, hm⟩ := some_of p v
      refine ⟨_, ⟨upd W p none, U⟩, .nothing, by simp [exec, delete_step r hst, asNothing], rfl, r.delete hst, good_del g p, fun x hx _ => upd_ne _ _ hx, ?_⟩
      intro q' hq _ _
      exact upd_ne _ _ (fun y => hq (by rw [y]; exact hst))
  | concat p src ms a =>
    obtain ⟨v1, v2⟩ := v
    rcases v1 with rfl | v1
    · exact ⟨h, ⟨W, U⟩, .ok false, by simp [exec, concat, asOk], by simp [effect, w0, Strings.concat, changed], null_fine r g _⟩
    · obtain ⟨m, q, hp, hst, hm⟩ := some_of p v1
      rcases v2 with rfl | ⟨v2, t, ht⟩
      · exact ⟨h, _, .ok false, by simp [exec, concat, asOk], by simp [effect, hp, vsrc, Strings.concat, changed], kept_fine r g _ hp⟩
      · obtain ⟨s, hs⟩ := g p m hp
        obtain ⟨m', f, e1, e2, _⟩ := Strings.call_outcome (.concat ms) (.concat t) m s a hs ht
        simp only [Strings.Call.exec] at e1
        obtain ⟨h', e, fi⟩ := change_fine (p := p) r g (.concat p src ms a) rfl rfl hst hm (concat_step r hst hm v2 e1) ⟨_, e2⟩
        exact ⟨h', _, _, e, by simp [effect, hp, vsrc, v2.ne_null, e1], fi⟩
  | concatString p1 p2 a =>
    obtain ⟨v1, v2, v3⟩ := v
    rcases v1 with rfl | v1
    · refine ⟨h, ⟨W, U⟩, .ok false, by simp [exec, concat_with_STRING, asOk], ?_, null_fine r g _⟩
      simp [effect, w0, Strings.concat_with_STRING, changed]
    · obtain ⟨m, q, hp, hst, hm⟩ := some_of p1 v1
      have p0 := st_ne0 r hst
      rcases v2 with rfl | v2
      · exact ⟨h, _, .ok false, by simp [exec, concat_with_STRING, asOk], by simp [effect, hp, w0, Strings.concat_with_STRING, changed], kept_fine r g _ hp⟩
      · obtain ⟨m2, q2, hp2, hst2, hm2⟩ := some_of p2 v2
        have ne : p1 ≠ p2 := v3.resolve_left p0
        obtain ⟨s, hs⟩ := g p1 m hp
        obtain ⟨t, ht⟩ := g p2 m2 hp2
        obtain ⟨m', f, e1, e2, _⟩ := Strings.call_outcome (.concat_with_STRING m2) (.concat t) m s a hs ht
        simp only [Strings.Call.exec] at e1
        obtain ⟨h', e, fi⟩ := change_fine (p := p1) r g (.concatString p1 p2 a) rfl rfl hst hm (concat_with_STRING_step r hst hm hst2 hm2 ne e1) ⟨_, e2⟩
        exact ⟨h', _, _, e, by simp [effect, hp, hp2, ne, e1], fi⟩
  | copy p src ms a =>
    obtain ⟨v1, v2⟩ := v
    rcases v1 with rfl | v1
    · exact ⟨h, ⟨W, U⟩, .ok false, by simp [exec, copy, asOk], by simp [effect, w0, Strings.copy, changed], null_fine r g _⟩
    · obtain ⟨m, q, hp, hst, hm⟩ := some_of p v1
      have p0 := st_ne0 r hst
      rcases v2 with (rfl | ⟨v2, t, ht⟩) | ⟨q', rfl, hst'⟩
      · exact ⟨h, _, .ok false, by simp [exec, copy, asOk], by simp [effect, hp, vsrc, Strings.copy, changed], kept_fine r g _ hp⟩
      · obtain ⟨s, hs⟩ := g p m hp
        obtain ⟨m', f, e1, e2, _⟩ := Strings.call_outcome (.copy ms) (.copy t) m s a hs ht
        simp only [Strings.Call.exec] at e1
        obtain ⟨h', e, fi⟩ := change_fine (p := p) r g (.copy p src ms a) rfl rfl hst hm (copy_step r hst hm v2 e1) ⟨_, e2⟩
        refine ⟨h', _, _, e, ?_, fi⟩
        cases src with
        | null => exact v2.elim
        | ext x => simp [effect, hp, vsrc, e1]
        | blk q' off =>
          have nq : h.st p ≠ some (some q') := v2.choose_spec.2.2.2
          cases off with
          | zero => simp [effect, hp, vsrc, nq, e1]
          | succ k => simp [effect, hp, vsrc, e1]
      · rw [hst] at hst'; cases hst'
        refine ⟨h, _, .ok true, by simp [exec, copy, asOk, p0, getS_of hst], ?_, kept_fine r g _ hp⟩
        simp [effect, hp, hst, Strings.copy, changed]
  | copyN p src ms n a =>
    obtain ⟨v1, v2⟩ := v
    rcases v1 with rfl | v1
    · exact ⟨h, ⟨W, U⟩, .ok false, by simp [exec, copy_n, asOk], by simp [effect, w0, Strings.copy_n, changed], null_fine r g _⟩
    · obtain ⟨m, q, hp, hst, hm⟩ := some_of p v1
      rcases v2 with rfl | ⟨v2, t, ht⟩
      · exact ⟨h, _, .ok false, by simp [exec, copy_n, asOk], by simp [effect, hp, vsrc, Strings.copy_n, changed], kept_fine r g _ hp⟩
      · obtain ⟨s, hs⟩ := g p m hp
        obtain ⟨m', f, e1, e2, _⟩ := Strings.call_outcome (.copy_n ms n) (.copy_n t n) m s a hs ⟨ht, rfl⟩
        simp only [Strings.Call.exec] at e1
        obtain ⟨h', e, fi⟩ := change_fine (p := p) r g (.copyN p src ms n a) rfl rfl hst hm (copy_n_step r hst hm v2 e1) ⟨_, e2⟩
        exact ⟨h', _, _, e, by simp [effect, hp, vsrc, v2.ne_null, e1], fi⟩
  | sprintf p f a =>
    obtain ⟨v1, v2⟩ := v
    cases f with
    | none =>
      rcases v1 with rfl | v1
      · exact ⟨h, ⟨W, U⟩, .ok false, by simp [exec, sprintf, asOk], by simp [effect, w0, Strings.sprintf, changed], null_fine r g _⟩
      · obtain ⟨m, q, hp, hst, hm⟩ := some_of p v1
        exact ⟨h, _, .ok false, by simp [exec, sprintf, asOk], by simp [effect, hp, Strings.sprintf, changed], kept_fine r g _ hp⟩
    | some x =>
      rcases v1 with rfl | v1
      · exact ⟨h, ⟨W, U⟩, .ok false, by simp [exec, sprintf, asOk], by simp [effect, w0, Strings.sprintf, changed], null_fine r g _⟩
      · obtain ⟨m, q, hp, hst, hm⟩ := some_of p v1
        obtain ⟨s, hs⟩ := g p m hp
        have : ∃ m' f, Strings.sprintf (some m) (some x) a = C.ok (some m', f) ∧ Text m' := by
          by_cases hf : x.ok1 = false ∨ (x.ok2 = false ∧ x.text ≠ [])
          · obtain ⟨m', e1, e2⟩ := Strings.sprintf_failure m s x.text x.ok1 x.ok2 a x.junk hs (v2 x rfl) hf
            exact ⟨m', false, e1, _, e2⟩
          · obtain ⟨m', f, e1, e2, _⟩ := Strings.call_outcome (.sprintf x.text) (.sprintf x.text) m s a hs rfl
            simp only [Strings.Call.exec] at e1
            refine ⟨m', f, ?_, _, e2⟩
            have o1 : x.ok1 = true := by simpa using fun y => hf (.inl y)
            unfold Strings.sprintf at e1 ⊢
            dsimp only at e1 ⊢
            rw [if_neg (by simp)] at e1
            rw [if_neg (by simp [o1])]
            by_cases l0 : x.text.length = 0
            · rw [if_pos l0] at e1 ⊢; exact e1
            · have o2 : x.ok2 = true := by
                have : x.text ≠ [] := fun y => l0 (by rw [y]; rfl)
                simpa using fun y => hf (.inr ⟨y, this⟩)
              rw [if_neg l0] at e1 ⊢
              obtain ⟨n1, e3, e1⟩ := C.bind_eq_ok.1 e1
              rw [e3, C.ok_bind]
              split at e1
              · rw [if_pos ‹_›]; exact e1
              · rw [if_neg ‹_›, if_neg (by simp [o2])]
                rw [if_neg (by simp)] at e1
                exact e1
        obtain ⟨m', f, hv, ht⟩ := this
        obtain ⟨h', e, fi⟩ := change_fine (p := p) r g (.sprintf p (some x) a) rfl rfl hst hm (sprintf_step r hst hm hv) ht
        exact ⟨h', _, _, e, by simp [effect, hp, hv], fi⟩
  | quote p a =>
    rcases v with rfl | v
    · exact ⟨h, ⟨W, U⟩, .ok false, by simp [exec, quote, asOk], by simp [effect, w0, Strings.quote, changed], null_fine r g _⟩
    · obtain ⟨m, q, hp, hst, hm⟩ := some_of p v
      obtain ⟨s, hs⟩ := g p m hp
      obtain ⟨m', f, e1, e2, _⟩ := Strings.call_outcome .quote .quote m s a hs trivial
      simp only [Strings.Call.exec] at e1
      obtain ⟨h', e, fi⟩ := change_fine (p := p) r g (.quote p a) rfl rfl hst hm (quote_step r hst hm e1) ⟨_, e2⟩
      exact ⟨h', _, _, e, by simp [effect, hp, e1], fi⟩
  | empty p a =>
    rcases v with rfl | v
    · exact ⟨h, ⟨W, U⟩, .ok false, by simp [exec, empty, asOk], by simp [effect, w0, Strings.empty, changed], null_fine r g _⟩
    · obtain ⟨m, q, hp, hst, hm⟩ := some_of p v
      obtain ⟨s, hs⟩ := g p m hp
      obtain ⟨m', f, e1, e2, _⟩ := Strings.call_outcome .empty .empty m s a hs trivial
      simp only [Strings.Call.exec] at e1
      obtain ⟨h', e, fi⟩ := change_fine (p := p) r g (.empty p a) rfl rfl hst hm (empty_step r hst hm e1) ⟨_, e2⟩
      exact ⟨h', _, _, e, by simp [effect, hp, e1], fi⟩
  | replace p c d =>
    rcases v with rfl | v
    · exact ⟨h, ⟨W, U⟩, .ok false, by simp [exec, replace, asOk], by simp [effect, w0, Strings.replace, changed], null_fine r g _⟩
    · obtain ⟨m, q, hp, hst, hm⟩ := some_of p v
      obtain ⟨s, hs⟩ := g p m hp
      obtain ⟨m', f, e1, e2, _⟩ := Strings.call_outcome (.replace c d) (.replace c d) m s true hs ⟨rfl, rfl⟩
      simp only [Strings.Call.exec] at e1
      obtain ⟨h', e, fi⟩ := change_fine (p := p) r g (.replace p c d) rfl rfl hst hm (replace_step r hst hm e1) ⟨_, e2⟩
      exact ⟨h', _, _, e, by simp [effect, hp, e1], fi⟩
  | userMalloc m a =>
    cases a with
    | false => exact ⟨h, ⟨W, U⟩, .handle 0, by simp [exec, userMalloc, asHandle], by simp [effect], null_fine r g _⟩
    | true =>
      refine ⟨_, ⟨W, upd U h.next (some m)⟩, .handle h.next, rfl, by simp [effect], r.userNew m, g, fun _ _ _ => rfl, ?_⟩
      intro q _ _ l
      exact upd_ne _ _ (Nat.ne_of_lt l)
  | userFree q =>
    rcases v with rfl | v
    · refine ⟨h, ⟨W, U⟩, .nothing, by simp [exec, freeB, asNothing], ?_, null_fine r g _⟩
      simp [effect]; exact upd_id U 0 none u0
    · cases hu : U q with
      | none => exact absurd hu v
      | some m =>
        have u1 := (r.user q m hu).1
        have q0 : q ≠ 0 := by intro e; subst e; rw [u0] at hu; cases hu
        refine ⟨_, ⟨W, upd U q none⟩, .nothing, by simp [exec, freeB, q0, u1, asNothing], rfl, r.userFree hu, g, fun _ _ _ => rfl, ?_⟩
        intro q' _ hq _
        exact upd_ne _ _ hq

/-! ### All histories -/

/-- A heap on which nothing was allocated yet. -/
def heap0 : Heap := ⟨fun _ => none, fun _ => none, 1⟩

/-- The states a program reaches that uses strings.h as it should, together with the strings and blocks it has. -/
inductive Hist : Heap → World → Prop
  | init : Hist heap0 ⟨fun _ => none, fun _ => none⟩
  | call {h w c h' w' ans ans'} : Hist h w → Valid h w.str w.blk c → exec h c = C.ok (h', ans) → effect h w.str w.blk h.next c = C.ok (w', ans') → Hist h' w'

/-- C67: at any time the heap holds exactly the strings and blocks the program has. -/
theorem exact_always {h w} (x : Hist h w) : Rep h w.str w.blk ∧ Good w.str := by
  induction x with
  | init => exact ⟨⟨by simp, by simp [heap0], by simp [heap0], by simp, by simp [heap0], by simp [heap0], by simp [heap0]⟩, by simp [Good]⟩
  | call x v e1 e2 ih =>
    obtain ⟨h', W', ans, f1, f2, f3⟩ := call_fine ih.1 ih.2 _ v
    rw [f1] at e1; cases e1
    rw [f2] at e2; cases e2
    exact ⟨f3.rep, f3.good⟩

/-- C67: no call is ever undefined, and it does to the strings and answers exactly what Verif/Strings (C21) says. -/
theorem always_defined {h w} (x : Hist h w) (c : Call) (v : Valid h w.str w.blk c) :
    ∃ h' w' ans, exec h c = C.ok (h', ans) ∧ effect h w.str w.blk h.next c = C.ok (w', ans) ∧ Hist h' w' := by
  obtain ⟨r, g⟩ := exact_always x
  obtain ⟨h', W', ans, f1, f2, f3⟩ := call_fine r g c v
  exact ⟨h', W', ans, f1, f2, .call x v f1 f2⟩

/-- C67: a program that has deleted all its strings and freed its own blocks, except those it gave to STRING_new_with_memory, has nothing allocated. -/
theorem nothing_left {h w} (x : Hist h w) (e : ∀ p, w.str p = none) (e' : ∀ q, w.blk q = none) : Empty h := by
  obtain ⟨r, g⟩ := exact_always x
  intro p
  refine ⟨r.dead p (e p), ?_⟩
  cases hm : h.mem p with
  | none => rfl
  | some m =>
    rcases r.owned p m hm with ⟨p', f⟩ | f
    · rw [r.dead p' (e p')] at f; cases f
    · rw [e' p] at f; cases f

/-- C67: a call on one string leaves the others, and the memory of the pointers STRING_c_str gave for them, as they are. -/
theorem others_stay {h w} (x : Hist h w) (c : Call) (v : Valid h w.str w.blk c) {h' ans} (e : exec h c = C.ok (h', ans)) {p : Nat} {m : Mem} (hp : w.str p = some m)
    (hne : p ≠ c.target) : ∃ q, c_str h p = C.ok q ∧ c_str h' p = C.ok q ∧ h.mem q = some m ∧ h'.mem q = some m := by
  obtain ⟨r, g⟩ := exact_always x
  obtain ⟨h1, W1, a1, f1, f2, f3⟩ := call_fine r g c v
  rw [f1] at e; cases e
  obtain ⟨q, hst, q0, hq⟩ := r.live p m hp
  have s := f3.st p hne (r.lt hst)
  have p0 := r.ne0 hp
  refine ⟨q, by simp [c_str, p0, getS, hst], by simp [c_str, p0, getS, s, hst], hq, ?_⟩
  rw [f3.mem q (fun y => hne (r.sep _ _ _ hst y)) ?_ (r.ltm hq), hq]
  intro y
  cases c with
  | userFree q' =>
    simp only [Call.frees] at y; subst y
    rcases v with v | v
    · exact q0 v
    · cases hu : w.blk q with
      | none => exact v hu
      | some m' => exact (r.user q m' hu).2 p hst
  | _ => exact q0 y

/-- C67: the readers never touch memory that is not there, and report what the string holds. -/
theorem readers_fine {h w} (x : Hist h w) {p p2 : Nat} {m m2 : Mem} (hp : w.str p = some m) (hp2 : w.str p2 = some m2) :
    length h p = Strings.length (some m) ∧ (∃ n, length h p = C.ok n) ∧ (∃ q, c_str h p = C.ok q ∧ h.mem q = some m) ∧
    compare h p p2 = Strings.compare (some m) (some m2) ∧ (∃ n, compare h p p2 = C.ok n) ∧
    length h 0 = C.ok 0 ∧ c_str h 0 = C.ok 0 ∧ compare h 0 0 = C.ok 0 ∧ compare h 0 p = C.ok 1 ∧ compare h p 0 = C.ok (-1) := by
  obtain ⟨r, g⟩ := exact_always x
  obtain ⟨q, hst, q0, hq⟩ := r.live p m hp
  obtain ⟨q2, hst2, q20, hq2⟩ := r.live p2 m2 hp2
  have p0 := r.ne0 hp
  have p20 := r.ne0 hp2
  obtain ⟨s, hs⟩ := g p m hp
  obtain ⟨t, ht⟩ := g p2 m2 hp2
  have e1 : length h p = Strings.length (some m) := by simp [length, p0, getS_of hst, strlen_of (src_blk hq), Strings.length]
  have e2 : compare h p p2 = Strings.compare (some m) (some m2) := by
    simp [compare, p0, p20, getS_of hst, getS_of hst2, src_blk hq, src_blk hq2, Strings.compare]
  obtain ⟨c, hc, _⟩ := (Strings.compare_spec m m2 s t hs ht).1
  exact ⟨e1, ⟨_, e1.trans (Strings.length_spec m s hs).1⟩, ⟨q, by simp [c_str, p0, getS_of hst], hq⟩, e2, ⟨c, e2.trans hc⟩, by simp [length], by simp [c_str],
    by simp [compare], by simp [compare, p0], by simp [compare, p0]⟩

/-- C67 needs that the source is not in the string itself (but for STRING_copy of the whole): it is read after `realloc` gave it up. -/
theorem own_source_undefined {h w} (x : Hist h w) {p q : Nat} {m : Mem} (hp : w.str p = some m) (hq : c_str h p = C.ok q) (off n : Nat) {s t : List UInt8}
    (hs : cstr m = C.ok s) (ho : off ≤ m.length) (ht : cstr (m.drop off) = C.ok t) (hn : s.length + t.length + 1 ≤ SIZE_MAX) :
    concat h p (.blk q off) true = C.ub ∧ copy_n h p (.blk q off) n true = C.ub ∧ (off ≠ 0 → copy h p (.blk q off) true = C.ub) ∧
    copy h p (.blk q 0) true = C.ok (h, true) := by
  obtain ⟨r, g⟩ := exact_always x
  have nx := r.nx
  have p0 := r.ne0 hp
  obtain ⟨q', hst, q0, hm⟩ := r.live p m hp
  have : q' = q := by simpa [c_str, p0, getS_of hst] using hq
  subst this
  have qn : q' ≠ h.next := Nat.ne_of_lt (r.ltm hm)
  have so : strlen h (.blk q' off) = C.ok t.length := by simp [strlen, srcMem, hm, ho, slen, ht]
  have sm : strlen h (.blk q' 0) = C.ok s.length := by simp [strlen, srcMem, hm, slen, hs]
  have al : ∀ k, k ≤ s.length + t.length + 1 → allocs true k = true := by
    intro k hk; unfold allocs; rw [decide_eq_true (Nat.le_trans hk hn)]; rfl
  have gone : ∀ x d k, copyIn (moved h p q' x) h.next d (.blk q' off) k = C.ub := by
    intro x d k
    simp [copyIn, if_neg qn, srcMem, moved, upd_apply, qn]
  refine ⟨?_, ?_, ?_, by simp [copy, p0, getS_of hst]⟩
  · unfold concat
    rw [if_neg (by simp [p0]), getS_of hst, C.ok_bind, sm, C.ok_bind, so, C.ok_bind, realloc_of q0 hm, if_pos (al _ (by omega)), C.ok_bind]
    simp [nx, setS_moved (x := 0) hst, getS_moved, gone]
  · unfold copy_n
    rw [if_neg (by simp [p0]), so, C.ok_bind]
    simp only [getS_of hst, C.ok_bind]
    rw [realloc_of q0 hm, if_pos (al _ (by split <;> omega)), C.ok_bind]
    simp [nx, setS_moved (x := 0) hst, getS_moved, gone]
  · intro o0
    unfold copy
    rw [if_neg (by simp [p0]), getS_of hst, C.ok_bind, if_pos (by simp [o0]), so, C.ok_bind, realloc_of q0 hm, if_pos (al _ (by omega)), C.ok_bind]
    simp [nx, setS_moved (x := 0) hst, getS_moved, gone]

/-- C67 needs that a string is not concatenated with itself: the terminator read last has then been overwritten. -/
theorem with_itself_undefined {h w} (x : Hist h w) {p : Nat} {m : Mem} (hp : w.str p = some m) {s : List UInt8} (hs : cstr m = C.ok s)
    (hn : s.length + (s.length + 1) ≤ SIZE_MAX) : concat_with_STRING h p p true = C.ub := by
  obtain ⟨r, g⟩ := exact_always x
  have nx := r.nx
  have p0 := r.ne0 hp
  obtain ⟨q, hst, q0, hm⟩ := r.live p m hp
  have sm : strlen h (.blk q 0) = C.ok s.length := by simp [strlen, srcMem, hm, slen, hs]
  have al : allocs true (s.length + (s.length + 1)) = true := by unfold allocs; rw [decide_eq_true hn]; rfl
  have ov : ∀ b : Mem, Strings.memcpySame b s.length 0 (s.length + 1) = C.ub := by
    intro b
    unfold Strings.memcpySame
    rw [if_neg (by omega)]
  unfold concat_with_STRING
  rw [if_neg (by simp [p0]), getS_of hst, C.ok_bind, sm, C.ok_bind, C.ok_bind, sm, C.ok_bind, realloc_of q0 hm, if_pos al, C.ok_bind]
  simp [nx, setS_moved (x := 0) hst, getS_moved, copyIn, onBlock_moved, ov]

/-- C67 needs that the memory given to STRING_new_with_memory is not used for anything else: given twice, it is freed twice. -/
theorem given_twice_undefined {h w} (x : Hist h w) {q : Nat} {m : Mem} (hq : w.blk q = some m) :
    (do
      let (h, s1) ← new_with_memory h q true
      let (h, s2) ← new_with_memory h q true
      let h ← delete h s1
      delete h s2 : C Heap) = C.ub := by
  obtain ⟨r, g⟩ := exact_always x
  have nx := r.nx
  obtain ⟨u1, u2⟩ := r.user q m hq
  have q0 : q ≠ 0 := by intro e; subst e; rw [r.U0] at hq; cases hq
  have n1 : h.next ≠ h.next + 1 := by omega
  simp [new_with_memory, q0, mallocS, nx, setS, upd_upd, delete, getS, upd_apply, freeB, u1, freeS, n1, Ne.symm n1]

/-! ### Witness -/

/-- A program: construct "ab", clone it (refused once for lack of memory), concatenate the clone, wrap a block of its own, delete everything. -/
def program (h : Heap) : C (Heap × List Ans) := do
  let (h, a1) ← exec h (.construct (.ext [some 97, some 98, some 0]) [some 97, some 98, some 0] true true)
  let (h, a2) ← exec h (.clone 1 true false)
  let (h, a3) ← exec h (.clone 1 true true)
  let (h, a4) ← exec h (.concatString 1 4 true)
  let (h, a5) ← exec h (.delete 4)
  let (h, a6) ← exec h (.delete 1)
  let (h, a7) ← exec h (.userMalloc [some 97, some 0] true)
  let (h, a8) ← exec h (.newWithMemory 7 true)
  let (h, a9) ← exec h (.delete 8)
  pure (h, [a1, a2, a3, a4, a5, a6, a7, a8, a9])

example : ∃ h, program heap0 = C.ok (h, [.handle 1, .handle 0, .handle 4, .ok true, .nothing, .nothing, .handle 7, .handle 8, .nothing]) ∧ h.st 1 = none ∧ h.mem 2 = none ∧
    h.mem 5 = none ∧ h.mem 6 = none ∧ h.mem 7 = none := ⟨_, rfl, by decide, by decide, by decide, by decide, by decide⟩

/-- The hypotheses of `own_source_undefined` and of `given_twice_undefined` are met. -/
example : ∃ h w, Hist h w ∧ w.str 1 = some [some 97, some 98, some 0] ∧ c_str h 1 = C.ok 2 :=
  ⟨_, _, .call (c := .construct (.ext [some 97, some 98, some 0]) [some 97, some 98, some 0] true true) .init (.inr ⟨rfl, [97, 98], rfl⟩) rfl rfl, rfl, rfl⟩

example : ∃ h w, Hist h w ∧ w.blk 1 = some [some 97, some 0] :=
  ⟨_, _, .call (c := .userMalloc [some 97, some 0] true) .init trivial rfl rfl, rfl⟩

end CUtil.StringHeap
