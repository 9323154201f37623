import Verif.BufferHeap.Lemmas
set_option linter.unusedSimpArgs false
set_option linter.unusedVariables false
/-
C66: the memory of buffer.c.
-/
namespace CUtil.BufferHeap
open CUtil CUtil.Conc
open CUtil.Buffer (BUF)

variable {h : Heap} {W : Nat → Option BUF}

theorem build_step (r : Rep h W) {p : Nat} {b b' : BUF} {f : Bool} (hp : W p = some b) (source : Src) (bytes : List UInt8) (n : Nat) (a : Bool)
    (hs : source = .null ∨ Gives h p source bytes n) (hv : Buffer.build (some b) (val source bytes) n a = C.ok (some b', f)) :
    ∃ h', build h p source n a = C.ok (h', f) ∧ StepTo h h' W p b' := by
  have p0 := r.ne0 hp
  unfold build
  rw [if_neg p0]
  unfold Buffer.build at hv
  dsimp only at hv
  by_cases n0 : n = 0
  · rw [if_pos n0] at hv ⊢
    simp only [C.ok.injEq, Prod.mk.injEq, Option.some.injEq] at hv
    obtain ⟨rfl, rfl⟩ := hv
    rcases r.cases hp with ⟨k, rfl, hst⟩ | ⟨m, k, q, rfl, hst, q0, hm⟩
    · have := r.sdrop hp hst 0
      rw [upd_id h.mem 0 none r.null.2.1] at this
      exact ⟨_, by simp [getPtr, hst, freeB, setPtr, setSize, upd_upd], this⟩
    · exact ⟨_, by simp [getPtr, hst, freeB, q0, hm, setPtr, setSize, upd_upd], r.sdrop hp hst 0⟩
  · rw [if_neg n0] at hv ⊢
    rcases hs with hs | g
    · subst hs
      simp only [val, if_pos] at hv
      simp only [C.ok.injEq, Prod.mk.injEq, Option.some.injEq] at hv
      obtain ⟨rfl, rfl⟩ := hv
      exact ⟨h, by simp, r.ssame hp⟩
    · rw [if_neg g.ne_null]
      simp only [val, if_neg g.ne_null] at hv
      cases a with
      | false =>
        simp only [if_pos, C.ok.injEq, Prod.mk.injEq, Option.some.injEq] at hv
        obtain ⟨rfl, rfl⟩ := hv
        rcases r.cases hp with ⟨k, rfl, hst⟩ | ⟨m, k, q, rfl, hst, q0, hm⟩
        · exact ⟨h, by simp [getPtr, hst, reallocB, mallocB], r.ssame hp⟩
        · exact ⟨h, by simp [getPtr, hst, reallocB, q0, hm], r.ssame hp⟩
      | true =>
        rw [if_neg (by simp)] at hv
        obtain ⟨m', hm', hv⟩ := C.bind_eq_ok.1 hv
        simp only [C.pure_eq, C.ok.injEq, Prod.mk.injEq, Option.some.injEq] at hv
        obtain ⟨rfl, rfl⟩ := hv
        have nx : h.next ≠ 0 := by have := r.null.2.2; omega
        rcases r.cases hp with ⟨k, rfl, hst⟩ | ⟨m, k, q, rfl, hst, q0, hm⟩
        · simp only [Option.getD_none] at hm'
          have e : reallocMem ([] : Mem) n = uninit n := by simp [reallocMem]
          rw [e] at hm'
          refine ⟨_, ?_, r.sblock0 hp hst m' n⟩
          simp only [getPtr, hst, C.ok_bind, reallocB, if_pos, mallocB, if_neg nx, setPtr, setSize, upd_self, upd_upd]
          rw [copyIn_eq (src := bytes.map some) (dst := uninit n) (r.src g (q := 0) (.inl rfl) (fun x _ hx => by simp [upd_ne _ _ (Nat.ne_of_lt hx)])) (by simp), hm']
          simp [upd_upd]
        · simp only [Option.getD_some] at hm'
          refine ⟨_, ?_, r.sblock hp hst m' n⟩
          simp only [getPtr, hst, C.ok_bind, reallocB, if_neg q0, hm, if_pos, mallocB, if_neg nx, setPtr, setSize, upd_self, upd_upd]
          rw [copyIn_eq (src := bytes.map some) (dst := reallocMem m n) (r.src g (q := q) (.inr ⟨_, hst⟩)
            (fun x hx hl => by simp [upd_ne _ _ (Nat.ne_of_lt hl), upd_ne _ _ hx])) (by simp), hm']
          simp [upd_upd]

/-- From an equation between results to its parts. -/
theorem ok_inj {b b' : BUF} {f f' : Bool} (e : C.ok (some b, f) = C.ok (some b', f')) : b = b' ∧ f = f' := by
  simp only [C.ok.injEq, Prod.mk.injEq, Option.some.injEq] at e; exact e

theorem append_build_step (r : Rep h W) {p : Nat} {b b' : BUF} {f : Bool} (hp : W p = some b) (source : Src) (bytes : List UInt8) (n : Nat) (a : Bool)
    (hs : source = .null ∨ Gives h p source bytes n) (hv : Buffer.append_build (some b) (val source bytes) n a = C.ok (some b', f)) :
    ∃ h', append_build h p source n a = C.ok (h', f) ∧ StepTo h h' W p b' := by
  have p0 := r.ne0 hp
  have nx : h.next ≠ 0 := by have := r.null.2.2; omega
  unfold append_build
  unfold Buffer.append_build at hv
  dsimp only at hv
  rcases hs with hs | g
  · subst hs
    simp only [val, if_pos] at hv
    obtain ⟨rfl, rfl⟩ := ok_inj hv
    exact ⟨h, by simp, r.ssame hp⟩
  · simp only [val, if_neg g.ne_null] at hv
    by_cases n0 : n = 0
    · rw [if_pos n0] at hv
      obtain ⟨rfl, rfl⟩ := ok_inj hv
      exact ⟨h, by simp [n0], r.ssame hp⟩
    · rw [if_neg n0] at hv
      rw [if_neg (by simp [p0, n0, g.ne_null])]
      rcases r.cases hp with ⟨k, rfl, hst⟩ | ⟨m, k, q, rfl, hst, q0, hm⟩
      · dsimp only at hv
        cases a with
        | false =>
          simp only [Buffer.safemalloc] at hv
          obtain ⟨rfl, rfl⟩ := ok_inj hv
          refine ⟨h, ?_, r.ssame hp⟩
          simp [getPtr, hst, safemalloc, mallocB, setPtr]
          show (⟨upd h.st p _, h.mem, h.next⟩ : Heap) = h
          rw [upd_id h.st p _ hst]
        | true =>
          simp only [Buffer.safemalloc, if_pos, if_neg n0, Option.getD_some] at hv
          obtain ⟨m', hm', hv⟩ := C.bind_eq_ok.1 hv
          obtain ⟨rfl, rfl⟩ := ok_inj hv
          refine ⟨_, ?_, r.sblock0 hp hst m' n⟩
          simp only [getPtr, hst, C.ok_bind, if_pos, safemalloc, mallocB, if_neg nx, if_neg n0, setPtr, setSize, upd_self, upd_upd, C.pure_eq]
          rw [if_neg (by simp)]
          rw [copyIn_eq (src := bytes.map some) (dst := uninit n) (r.src g (q := 0) (.inl rfl) (fun x _ hx => by simp [upd_ne _ _ (Nat.ne_of_lt hx)])) (by simp), hm']
          simp [upd_upd]
      · dsimp only at hv
        by_cases c : a = false ∨ k + n > Buffer.SIZE_MAX
        · rw [if_pos c] at hv
          obtain ⟨rfl, rfl⟩ := ok_inj hv
          refine ⟨h, ?_, r.ssame hp⟩
          have : ¬ (a = true ∧ k + n ≤ SIZE_MAX) := by
            rcases c with c | c
            · simp [c]
            · simp only [SIZE_MAX, Buffer.SIZE_MAX] at *; omega
          simp [getPtr, getSize, hst, q0, reallocFlex, reallocB, hm, this]
        · rw [if_neg c] at hv
          obtain ⟨m', hm', hv⟩ := C.bind_eq_ok.1 hv
          obtain ⟨rfl, rfl⟩ := ok_inj hv
          refine ⟨_, ?_, r.sblock hp hst m' (k + n)⟩
          have : (a && decide (k + n ≤ SIZE_MAX)) = true := by
            simp only [not_or, SIZE_MAX, Buffer.SIZE_MAX] at *
            simp; exact ⟨by simpa using c.1, by omega⟩
          simp only [getPtr, getSize, hst, C.ok_bind, reallocFlex, this, reallocB, if_neg q0, hm, if_pos, mallocB, if_neg nx, setPtr, upd_self, upd_upd]
          rw [copyIn_eq (src := bytes.map some) (dst := reallocMem m (k + n)) (r.src g (q := q) (.inr ⟨_, hst⟩)
            (fun x hx hl => by simp [upd_ne _ _ (Nat.ne_of_lt hl), upd_ne _ _ hx])) (by simp), hm']
          simp [upd_upd, setSize]

theorem pre_build_step (r : Rep h W) {p : Nat} {b b' : BUF} {f : Bool} (hp : W p = some b) (n : Nat) (a : Bool)
    (hv : Buffer.pre_build (some b) n a = (some b', f)) :
    ∃ h', pre_build h p n a = C.ok (h', f) ∧ StepTo h h' W p b' := by
  have p0 := r.ne0 hp
  have nx : h.next ≠ 0 := by have := r.null.2.2; omega
  unfold pre_build
  rw [if_neg p0]
  unfold Buffer.pre_build at hv
  dsimp only at hv
  by_cases n0 : n = 0
  · rw [if_pos n0] at hv ⊢
    cases hv
    exact ⟨h, rfl, r.ssame hp⟩
  · rw [if_neg n0] at hv ⊢
    rcases r.cases hp with ⟨k, rfl, hst⟩ | ⟨m, k, q, rfl, hst, q0, hm⟩
    · cases a with
      | false =>
        simp at hv
        obtain ⟨rfl, rfl⟩ := hv
        refine ⟨h, ?_, r.ssame hp⟩
        simp [getPtr, hst, mallocB, setPtr]
        show (⟨upd h.st p _, h.mem, h.next⟩ : Heap) = h
        rw [upd_id h.st p _ hst]
      | true =>
        simp at hv
        obtain ⟨rfl, rfl⟩ := hv
        refine ⟨_, ?_, r.sblock0 hp hst (uninit n) n⟩
        simp [getPtr, hst, mallocB, setPtr, setSize, nx, upd_upd]
    · cases hv
      exact ⟨h, by simp [getPtr, hst, q0], r.ssame hp⟩

theorem unbuild_step (r : Rep h W) {p : Nat} {b b' : BUF} {f : Bool} (hp : W p = some b)
    (hv : Buffer.unbuild (some b) = (some b', f)) :
    ∃ h', unbuild h p = C.ok (h', f) ∧ StepTo h h' W p b' := by
  have p0 := r.ne0 hp
  unfold unbuild
  rw [if_neg p0]
  unfold Buffer.unbuild at hv
  rcases r.cases hp with ⟨k, rfl, hst⟩ | ⟨m, k, q, rfl, hst, q0, hm⟩
  · cases hv
    exact ⟨h, by simp [getPtr, hst], r.ssame hp⟩
  · cases hv
    exact ⟨_, by simp [getPtr, hst, freeB, q0, hm, setPtr, setSize, upd_upd], r.sdrop hp hst 0⟩

theorem enlarge_step (r : Rep h W) {p : Nat} {b b' : BUF} {f : Bool} (hp : W p = some b) (n : Nat) (a : Bool)
    (hv : Buffer.enlarge (some b) n a = (some b', f)) :
    ∃ h', enlarge h p n a = C.ok (h', f) ∧ StepTo h h' W p b' := by
  have p0 := r.ne0 hp
  have nx : h.next ≠ 0 := by have := r.null.2.2; omega
  unfold enlarge
  rw [if_neg p0]
  unfold Buffer.enlarge at hv
  dsimp only at hv
  by_cases n0 : n = 0
  · rw [if_pos n0] at hv ⊢
    cases hv
    exact ⟨h, rfl, r.ssame hp⟩
  · rw [if_neg n0] at hv ⊢
    by_cases c : a = false ∨ b.size + n > Buffer.SIZE_MAX
    · rw [if_pos c] at hv
      cases hv
      refine ⟨h, ?_, r.ssame hp⟩
      have : ¬ (a = true ∧ b.size + n ≤ SIZE_MAX) := by
        rcases c with c | c
        · simp [c]
        · simp only [SIZE_MAX, Buffer.SIZE_MAX] at *; omega
      rcases r.cases hp with ⟨k, rfl, hst⟩ | ⟨m, k, q, rfl, hst, q0, hm⟩ <;> dsimp only at this
      · simp [getPtr, getSize, hst, reallocFlex, reallocB, mallocB, this]
      · simp [getPtr, getSize, hst, q0, reallocFlex, reallocB, hm, this]
    · rw [if_neg c] at hv
      have : a = true ∧ b.size + n ≤ SIZE_MAX := by
        simp only [not_or, SIZE_MAX, Buffer.SIZE_MAX] at *
        exact ⟨by simpa using c.1, by omega⟩
      rcases r.cases hp with ⟨k, rfl, hst⟩ | ⟨m, k, q, rfl, hst, q0, hm⟩ <;> dsimp only at this
      · have e : ∀ x, reallocMem ([] : Mem) x = uninit x := by simp [reallocMem]
        simp only [Option.getD_none, e, Prod.mk.injEq, Option.some.injEq] at hv
        obtain ⟨rfl, rfl⟩ := hv
        refine ⟨_, ?_, r.sblock0 hp hst (uninit (k + n)) (k + n)⟩
        simp [getPtr, getSize, hst, reallocFlex, reallocB, mallocB, this.1, this.2, nx, setPtr, setSize, upd_upd]
      · simp only [Option.getD_some, Prod.mk.injEq, Option.some.injEq] at hv
        obtain ⟨rfl, rfl⟩ := hv
        refine ⟨_, ?_, r.sblock hp hst _ (k + n)⟩
        simp [getPtr, getSize, hst, reallocFlex, reallocB, q0, hm, this.1, this.2, nx, setPtr, setSize, upd_upd]

theorem shrink_step (r : Rep h W) {p : Nat} {b b' : BUF} {f : Bool} (hp : W p = some b) (n : Nat) (e a : Bool)
    (hv : Buffer.shrink (some b) n e a = C.ok (some b', f)) :
    ∃ h', shrink h p n e a = C.ok (h', f) ∧ StepTo h h' W p b' := by
  have p0 := r.ne0 hp
  have nx : h.next ≠ 0 := by have := r.null.2.2; omega
  unfold shrink
  rw [if_neg p0]
  unfold Buffer.shrink at hv
  dsimp only at hv
  have hsz : getSize h p = C.ok b.size := by
    obtain ⟨q, hst, _⟩ := r.live p b hp
    simp [getSize, hst]
  by_cases n0 : n = 0
  · rw [if_pos n0] at hv ⊢
    obtain ⟨rfl, rfl⟩ := ok_inj hv
    exact ⟨h, rfl, r.ssame hp⟩
  · rw [if_neg n0] at hv ⊢
    rw [hsz, C.ok_bind]
    by_cases c : n > b.size
    · rw [if_pos c] at hv ⊢
      obtain ⟨rfl, rfl⟩ := ok_inj hv
      exact ⟨h, rfl, r.ssame hp⟩
    · rw [if_neg c] at hv ⊢
      dsimp only
      by_cases z : b.size - n = 0
      · rw [if_pos z] at hv ⊢
        obtain ⟨rfl, rfl⟩ := ok_inj hv
        rcases r.cases hp with ⟨k, rfl, hst⟩ | ⟨m, k, q, rfl, hst, q0, hm⟩
        · have := r.sdrop hp hst 0
          rw [upd_id h.mem 0 none r.null.2.1] at this
          exact ⟨_, by simp [getPtr, hst, freeB, setPtr, setSize, upd_upd], this⟩
        · exact ⟨_, by simp [getPtr, hst, freeB, q0, hm, setPtr, setSize, upd_upd], r.sdrop hp hst 0⟩
      · rw [if_neg z] at hv ⊢
        cases a with
        | false =>
          rw [if_pos rfl] at hv
          obtain ⟨rfl, rfl⟩ := ok_inj hv
          exact ⟨h, by simp [mallocB], r.ssame hp⟩
        | true =>
          rw [if_neg (by simp)] at hv
          obtain ⟨m', hm', hv⟩ := C.bind_eq_ok.1 hv
          obtain ⟨rfl, rfl⟩ := ok_inj hv
          rcases r.cases hp with ⟨k, rfl, hst⟩ | ⟨m, k, q, rfl, hst, q0, hm⟩
          · dsimp only at z
            simp only [Option.getD_none, memcpy, List.length_nil] at hm'
            rw [if_neg (by omega)] at hm'
            cases hm'
          · simp only [Option.getD_some] at hm' ⊢
            refine ⟨_, ?_, r.sblock hp hst m' (k - n)⟩
            have hq := r.ltm hm
            have qn : q ≠ h.next := by omega
            simp only [mallocB, if_pos, if_neg nx, getPtr, hst, C.ok_bind, srcAt, if_neg q0]
            have hoff : (if e = true then 0 else n) + (k - n) ≤ m.length := by
              by_cases hh : (if e = true then 0 else n) + (k - n) ≤ m.length
              · exact hh
              · simp [memcpy, hh] at hm'
            rw [copyIn_eq (src := m.drop (if e = true then 0 else n)) (dst := uninit (k - n))
              (by simp only [srcMem, upd_ne _ _ qn, hm]; rw [if_pos (by omega)]) (by simp)]
            have hcp : memcpy (uninit (k - n)) 0 (m.drop (if e = true then 0 else n)) 0 (k - n) = C.ok m' := by
              rw [← hm']
              unfold memcpy
              rw [List.drop_drop, List.length_drop]
              by_cases z : 0 + (k - n) ≤ (uninit (k - n) : Mem).length
              · rw [if_pos (show 0 + (k - n) ≤ m.length - (if e = true then 0 else n) ∧ _ from ⟨by omega, z⟩), if_pos (show _ ∧ _ from ⟨hoff, z⟩)]; simp
              · exact absurd (by simp) z
            rw [hcp, C.ok_bind]
            simp only [freeB, if_neg q0, upd_ne _ _ qn, hm, C.ok_bind, setPtr, setSize, hst, upd_self, upd_upd, C.pure_eq]
            simp only [C.ok.injEq, Prod.mk.injEq, Heap.mk.injEq, true_and, and_true]
            rw [upd_comm _ _ _ _ _ (Ne.symm qn)]

theorem append_step (r : Rep h W) {p1 p2 : Nat} {b1 b2 b' : BUF} {f : Bool} (hp1 : W p1 = some b1) (hp2 : W p2 = some b2) (a : Bool)
    (hv : Buffer.append (some b1) (some b2) (decide (p1 = p2)) a = C.ok (some b', f)) :
    ∃ h', append h p1 p2 a = C.ok (h', f) ∧ StepTo h h' W p1 b' := by
  have z1 := r.ne0 hp1
  have z2 := r.ne0 hp2
  have nx : h.next ≠ 0 := by have := r.null.2.2; omega
  unfold append
  unfold Buffer.append at hv
  dsimp only at hv
  by_cases same : p1 = p2
  · rw [if_pos (by simp [same])] at hv
    obtain ⟨rfl, rfl⟩ := ok_inj hv
    exact ⟨h, by simp [same], r.ssame hp1⟩
  · rw [if_neg (by simp [same])] at hv
    rw [if_neg (by simp [same, z1, z2])]
    rcases r.cases hp1 with ⟨k1, rfl, hst1⟩ | ⟨m1, k1, q1, rfl, hst1, q10, hm1⟩
    · obtain ⟨rfl, rfl⟩ := ok_inj hv
      exact ⟨h, by simp [getPtr, hst1], r.ssame hp1⟩
    · rcases r.cases hp2 with ⟨k2, rfl, hst2⟩ | ⟨m2, k2, q2, rfl, hst2, q20, hm2⟩
      · obtain ⟨rfl, rfl⟩ := ok_inj hv
        exact ⟨h, by simp [getPtr, hst1, hst2], r.ssame hp1⟩
      · dsimp only at hv
        by_cases n0 : k2 = 0
        · rw [if_pos n0] at hv
          obtain ⟨rfl, rfl⟩ := ok_inj hv
          exact ⟨h, by simp [getPtr, getSize, hst1, hst2, q10, q20, n0], r.ssame hp1⟩
        · rw [if_neg n0] at hv
          by_cases c : a = false ∨ k1 + k2 > Buffer.SIZE_MAX
          · rw [if_pos c] at hv
            obtain ⟨rfl, rfl⟩ := ok_inj hv
            refine ⟨h, ?_, r.ssame hp1⟩
            have : ¬ (a = true ∧ k1 + k2 ≤ SIZE_MAX) := by
              rcases c with c | c
              · simp [c]
              · simp only [SIZE_MAX, Buffer.SIZE_MAX] at *; omega
            simp [getPtr, getSize, hst1, hst2, q10, q20, n0, reallocFlex, reallocB, hm1, this]
          · rw [if_neg c] at hv
            obtain ⟨m', hm', hv⟩ := C.bind_eq_ok.1 hv
            obtain ⟨rfl, rfl⟩ := ok_inj hv
            refine ⟨_, ?_, r.sblock hp1 hst1 m' (k1 + k2)⟩
            have : (a && decide (k1 + k2 ≤ SIZE_MAX)) = true := by
              simp only [not_or, SIZE_MAX, Buffer.SIZE_MAX] at *
              simp; exact ⟨by simpa using c.1, by omega⟩
            have hq2 := r.ltm hm2
            have qn : q2 ≠ h.next := by omega
            have qq : q2 ≠ q1 := fun x => same (r.sep _ _ _ _ _ hst1 (x ▸ hst2) q10)
            simp only [getPtr, getSize, hst1, hst2, C.ok_bind, if_neg q10, if_neg q20, if_neg n0, reallocFlex, this, reallocB, hm1, if_pos, if_neg nx,
              setPtr, upd_self, upd_upd, srcAt]
            rw [copyIn_eq (src := m2) (dst := reallocMem m1 (k1 + k2)) (by simp [srcMem, upd_ne _ _ qn, upd_ne _ _ qq, hm2]) (by simp), hm']
            simp [upd_upd, setSize]

theorem prepend_step (r : Rep h W) {p1 p2 : Nat} {b1 b2 b' : BUF} {f : Bool} (hp1 : W p1 = some b1) (hp2 : W p2 = some b2) (a : Bool)
    (hv : Buffer.prepend (some b1) (some b2) (decide (p1 = p2)) a = C.ok (some b', f)) :
    ∃ h', prepend h p1 p2 a = C.ok (h', f) ∧ StepTo h h' W p1 b' := by
  have z1 := r.ne0 hp1
  have z2 := r.ne0 hp2
  have nx : h.next ≠ 0 := by have := r.null.2.2; omega
  unfold prepend
  unfold Buffer.prepend at hv
  dsimp only at hv
  by_cases same : p1 = p2
  · rw [if_pos (by simp [same])] at hv
    obtain ⟨rfl, rfl⟩ := ok_inj hv
    exact ⟨h, by simp [same], r.ssame hp1⟩
  · rw [if_neg (by simp [same])] at hv
    rw [if_neg (by simp [same, z1, z2])]
    rcases r.cases hp1 with ⟨k1, rfl, hst1⟩ | ⟨m1, k1, q1, rfl, hst1, q10, hm1⟩
    · obtain ⟨rfl, rfl⟩ := ok_inj hv
      exact ⟨h, by simp [getPtr, hst1], r.ssame hp1⟩
    · rcases r.cases hp2 with ⟨k2, rfl, hst2⟩ | ⟨m2, k2, q2, rfl, hst2, q20, hm2⟩
      · obtain ⟨rfl, rfl⟩ := ok_inj hv
        exact ⟨h, by simp [getPtr, hst1, hst2], r.ssame hp1⟩
      · dsimp only at hv
        by_cases n0 : k2 = 0
        · rw [if_pos n0] at hv
          obtain ⟨rfl, rfl⟩ := ok_inj hv
          exact ⟨h, by simp [getPtr, getSize, hst1, hst2, q10, q20, n0], r.ssame hp1⟩
        · rw [if_neg n0] at hv
          by_cases c : a = false ∨ k1 + k2 > Buffer.SIZE_MAX
          · rw [if_pos c] at hv
            obtain ⟨rfl, rfl⟩ := ok_inj hv
            refine ⟨h, ?_, r.ssame hp1⟩
            have : ¬ (a = true ∧ k1 + k2 ≤ SIZE_MAX) := by
              rcases c with c | c
              · simp [c]
              · simp only [SIZE_MAX, Buffer.SIZE_MAX] at *; omega
            simp [getPtr, getSize, hst1, hst2, q10, q20, n0, reallocFlex, reallocB, mallocB, this]
          · rw [if_neg c] at hv
            obtain ⟨x, hx, hv⟩ := C.bind_eq_ok.1 hv
            obtain ⟨m', hm', hv⟩ := C.bind_eq_ok.1 hv
            obtain ⟨rfl, rfl⟩ := ok_inj hv
            refine ⟨_, ?_, r.sblock hp1 hst1 m' (k1 + k2)⟩
            have : (a && decide (k1 + k2 ≤ SIZE_MAX)) = true := by
              simp only [not_or, SIZE_MAX, Buffer.SIZE_MAX] at *
              simp; exact ⟨by simpa using c.1, by omega⟩
            have hq1 := r.ltm hm1
            have hq2 := r.ltm hm2
            have qn1 : q1 ≠ h.next := by omega
            have qn2 : q2 ≠ h.next := by omega
            simp only [getPtr, getSize, hst1, hst2, C.ok_bind, if_neg q10, if_neg q20, if_neg n0, reallocFlex, this, reallocB, mallocB, if_pos, if_neg nx, srcAt]
            rw [copyIn_eq (src := m2) (dst := uninit (k1 + k2)) (by simp [srcMem, upd_ne _ _ qn2, hm2]) (by simp), hx, C.ok_bind, C.ok_bind]
            rw [copyIn_eq (src := m1) (dst := x) (by simp [srcMem, upd_ne _ _ qn1, hm1]) (by simp), hm', C.ok_bind, C.ok_bind]
            simp only [freeB, if_neg q10, upd_ne _ _ qn1, hm1, C.ok_bind, setPtr, setSize, hst1, upd_self, upd_upd, C.pure_eq]
            simp only [C.ok.injEq, Prod.mk.injEq, Heap.mk.injEq, true_and, and_true]
            rw [upd_comm _ _ _ _ _ (Ne.symm qn1)]

theorem fillLoop_eq (m : Mem) (c : UInt8) (i n : Nat) : fillLoop m c i n = Buffer.fillLoop m c i n := by
  induction n generalizing m i with
  | zero => rfl
  | succ n ih => simp only [fillLoop, Buffer.fillLoop, ih]

theorem fill_step (r : Rep h W) {p : Nat} {b b' : BUF} {f : Bool} (hp : W p = some b) (c : UInt8)
    (hv : Buffer.fill (some b) c = C.ok (some b', f)) :
    ∃ h', fill h p c = C.ok (h', f) ∧ StepTo h h' W p b' := by
  have p0 := r.ne0 hp
  unfold fill
  rw [if_neg p0]
  unfold Buffer.fill at hv
  dsimp only at hv
  rcases r.cases hp with ⟨k, rfl, hst⟩ | ⟨m, k, q, rfl, hst, q0, hm⟩
  · dsimp only at hv
    by_cases k0 : k = 0
    · rw [if_pos k0] at hv
      obtain ⟨rfl, rfl⟩ := ok_inj hv
      exact ⟨h, by simp [getPtr, getSize, hst, k0], r.ssame hp⟩
    · rw [if_neg k0] at hv; cases hv
  · dsimp only at hv
    obtain ⟨m', hm', hv⟩ := C.bind_eq_ok.1 hv
    obtain ⟨rfl, rfl⟩ := ok_inj hv
    by_cases k0 : k = 0
    · subst k0
      simp only [Buffer.fillLoop, C.ok.injEq] at hm'; subst hm'
      exact ⟨h, by simp [getPtr, getSize, hst], r.ssame hp⟩
    · refine ⟨_, ?_, r.swrite hp hst q0 m'⟩
      simp [getPtr, getSize, hst, k0, hm, fillLoop_eq, hm']

/-- A constructor: the new buffer is at a new address; the others stay what and where they are. -/
structure MadeAt (h h' : Heap) (W W' : Nat → Option BUF) : Prop where
  rep : Rep h' W'
  st : ∀ x, x < h.next → h'.st x = h.st x
  mem : ∀ q, q < h.next → h'.mem q = h.mem q

theorem MadeAt.none (r : Rep h W) : MadeAt h h W W := ⟨r, fun _ _ => rfl, fun _ _ => rfl⟩

/-- The structure was allocated and freed again. -/
theorem Rep.again (r : Rep h W) (n : Nat) (hn : h.next ≤ n) (s : Option St) : MadeAt h ⟨upd (upd h.st h.next s) h.next none, h.mem, n⟩ W W := by
  rw [upd_upd, upd_id h.st h.next none (r.fresh _ (Nat.le_refl _)).1]
  exact ⟨r.next n hn, fun _ _ => rfl, fun _ _ => rfl⟩

theorem Rep.mnew (r : Rep h W) (n : Nat) :
    MadeAt h ⟨upd h.st h.next (some ⟨some 0, some n⟩), h.mem, h.next + 1⟩ W (upd W h.next (some ⟨.none, n⟩)) :=
  ⟨r.new n, fun x hx => upd_ne _ _ (Nat.ne_of_lt hx), fun _ _ => rfl⟩

theorem Rep.mnewBlock (r : Rep h W) (m : Mem) (n : Nat) :
    MadeAt h ⟨upd h.st h.next (some ⟨some (h.next + 1), some n⟩), upd h.mem (h.next + 1) (some m), h.next + 1 + 1⟩ W (upd W h.next (some ⟨some m, n⟩)) :=
  ⟨r.newBlock m n, fun x hx => upd_ne _ _ (Nat.ne_of_lt hx), fun q hq => upd_ne _ _ (by omega)⟩

theorem new_step (r : Rep h W) (a : Bool) :
    ∃ h' p, new h a = C.ok (h', p) ∧ MadeAt h h' W (made W h.next (Buffer.new a)).1 ∧ (made W h.next (Buffer.new a)).2 = .handle p := by
  have nx : h.next ≠ 0 := by have := r.null.2.2; omega
  cases a with
  | false => exact ⟨h, 0, by simp [new, mallocS], .none r, rfl⟩
  | true => exact ⟨_, h.next, by simp [new, mallocS, nx, setPtr, setSize, upd_upd], r.mnew 0, rfl⟩

theorem create_with_size_step (r : Rep h W) (n : Nat) (a1 a2 : Bool) :
    ∃ h' p, create_with_size h n a1 a2 = C.ok (h', p) ∧ MadeAt h h' W (made W h.next (Buffer.create_with_size n a1 a2)).1 ∧
      (made W h.next (Buffer.create_with_size n a1 a2)).2 = .handle p := by
  have nx : h.next ≠ 0 := by have := r.null.2.2; omega
  have nl := r.null.1
  have n1 : h.next + 1 ≠ h.next := by omega
  cases a1 with
  | false => exact ⟨h, 0, by simp [create_with_size, mallocS], .none r, rfl⟩
  | true =>
    by_cases n0 : n = 0
    · subst n0
      exact ⟨_, h.next, by simp [create_with_size, mallocS, nx, setPtr, setSize, upd_upd], r.mnew 0, rfl⟩
    · cases a2 with
      | false =>
        refine ⟨_, 0, ?_, by simp [Buffer.create_with_size, n0, made]; exact r.again (h.next + 1) (by omega) .none, by simp [Buffer.create_with_size, n0, made]⟩
        simp [create_with_size, mallocS, mallocB, nx, n0, setPtr, setSize, getSize, freeS, upd_upd]
      | true =>
        refine ⟨_, h.next, ?_, by simp [Buffer.create_with_size, n0, made]; exact r.mnewBlock (uninit n) n, by simp [Buffer.create_with_size, n0, made]⟩
        simp [create_with_size, mallocS, mallocB, nx, n0, setPtr, setSize, getSize, freeS, upd_upd]

theorem create_step (r : Rep h W) (source : Src) (bytes : List UInt8) (n : Nat) (a1 a2 : Bool) (hs : source = .null ∨ Gives h 0 source bytes n) :
    ∃ h' p b, create h source n a1 a2 = C.ok (h', p) ∧ Buffer.create (if source = .null then .none else some bytes) n a1 a2 = C.ok b ∧
      MadeAt h h' W (made W h.next b).1 ∧ (made W h.next b).2 = .handle p := by
  have nx : h.next ≠ 0 := by have := r.null.2.2; omega
  rcases hs with hs | g
  · subst hs
    exact ⟨h, 0, .none, by simp [create], by simp [Buffer.create], .none r, rfl⟩
  · have sn := g.ne_null
    simp only [if_neg sn]
    cases a1 with
    | false => exact ⟨h, 0, .none, by simp [create, sn, mallocS], by simp [Buffer.create], .none r, rfl⟩
    | true =>
      cases a2 with
      | false =>
        refine ⟨_, 0, .none, ?_, by simp [Buffer.create, Buffer.safemalloc], r.again (h.next + 1) (by omega) .none, rfl⟩
        simp [create, sn, mallocS, nx, safemalloc, mallocB, setPtr, getPtr, freeS, upd_upd]
      | true =>
        obtain ⟨b, e1, -, -⟩ := (Buffer.create_spec bytes n true true g.1).1
        have e2 := e1
        simp only [Buffer.create, Buffer.safemalloc, if_pos, Option.getD_some] at e2
        rw [if_neg (by simp)] at e2
        obtain ⟨m', hm', e2⟩ := C.bind_eq_ok.1 e2
        simp only [C.pure_eq, C.ok.injEq] at e2; subst e2
        refine ⟨_, h.next, _, ?_, e1, r.mnewBlock m' n, rfl⟩
        have c := copyIn_eq (h1 := ⟨upd h.st h.next (some ⟨some (h.next + 1), some n⟩), upd h.mem (h.next + 1) (some (uninit (if n = 0 then 1 else n))), h.next + 1 + 1⟩)
          (q := h.next + 1) (src := bytes.map some) (dst := uninit (if n = 0 then 1 else n)) (source := source)
          (r.src g (q := 0) (.inl rfl) (fun x _ hx => upd_ne _ _ (by omega))) (by simp) 0 n
        rw [hm', C.ok_bind] at c
        simp only [upd_upd] at c
        simp [create, sn, mallocS, nx, safemalloc, mallocB, setPtr, getPtr, setSize, upd_upd, c]

theorem clone_step (r : Rep h W) {p : Nat} {b : BUF} (hp : W p = some b) (hb : Buffer.Wf b) (a1 a2 : Bool) :
    ∃ h' p' x, clone h p a1 a2 = C.ok (h', p') ∧ Buffer.clone (some b) a1 a2 = C.ok x ∧
      MadeAt h h' W (made W h.next x).1 ∧ (made W h.next x).2 = .handle p' := by
  have nx : h.next ≠ 0 := by have := r.null.2.2; omega
  have p0 := r.ne0 hp
  cases a1 with
  | false => exact ⟨h, 0, .none, by simp [clone, p0, mallocS], by simp [Buffer.clone], .none r, rfl⟩
  | true =>
    obtain ⟨q, hst, hq⟩ := r.live p b hp
    have pl := r.lt hst
    have pn : p ≠ h.next := by omega
    cases a2 with
    | false =>
      refine ⟨_, 0, .none, ?_, by simp [Buffer.clone, Buffer.safemalloc], r.again (h.next + 1) (by omega) .none, rfl⟩
      simp [clone, p0, mallocS, nx, safemalloc, mallocB, setPtr, getPtr, getSize, upd_ne _ _ pn, hst, freeS, upd_upd]
    | true =>
      obtain ⟨x, e1, -, -⟩ := (Buffer.clone_spec b true true hb).1
      have e2 := e1
      simp only [Buffer.clone, Buffer.safemalloc, if_pos, Option.getD_some] at e2
      rw [if_neg (by simp)] at e2
      obtain ⟨m', hm', e2⟩ := C.bind_eq_ok.1 e2
      simp only [C.pure_eq, C.ok.injEq] at e2; subst e2
      refine ⟨_, h.next, _, ?_, e1, r.mnewBlock m' b.size, rfl⟩
      rcases r.cases hp with ⟨k, rfl, hst'⟩ | ⟨m, k, q', rfl, hst', q0, hm⟩
      · rw [hst'] at hst; cases hst
        have k0 : k = 0 := Buffer.wf_none hb
        subst k0
        simp [memcpy] at hm'
        subst hm'
        simp [clone, p0, mallocS, nx, safemalloc, mallocB, setPtr, getPtr, setSize, getSize, upd_ne _ _ pn, hst', upd_upd, copyIn, srcAt]
      · rw [hst'] at hst; cases hst
        simp only [Option.getD_some] at hm'
        have ql := r.ltm hm
        have qn : q ≠ h.next + 1 := by omega
        have c := copyIn_eq (h1 := ⟨upd h.st h.next (some ⟨some (h.next + 1), some k⟩), upd h.mem (h.next + 1) (some (uninit (if k = 0 then 1 else k))), h.next + 1 + 1⟩)
          (q := h.next + 1) (src := m) (dst := uninit (if k = 0 then 1 else k)) (source := .blk q 0)
          (by simp [srcMem, upd_ne _ _ qn, hm]) (by simp) 0 k
        rw [hm', C.ok_bind] at c
        simp only [upd_upd] at c
        simp [clone, p0, mallocS, nx, safemalloc, mallocB, setPtr, getPtr, setSize, getSize, upd_ne _ _ pn, hst', upd_upd, srcAt, q0, c]

theorem delete_step (r : Rep h W) {p : Nat} {b : BUF} (hp : W p = some b) :
    ∃ h', delete h p = C.ok h' ∧ Rep h' (upd W p .none) ∧ (∀ x, x ≠ p → h'.st x = h.st x) ∧
      (∀ q, (∀ n, h.st p ≠ some ⟨some q, n⟩) → h'.mem q = h.mem q) := by
  have p0 := r.ne0 hp
  rcases r.cases hp with ⟨k, rfl, hst⟩ | ⟨m, k, q, rfl, hst, q0, hm⟩
  · have := r.delete hp hst
    rw [upd_id h.mem 0 .none r.null.2.1] at this
    exact ⟨_, by simp [delete, p0, getPtr, hst, freeS], this, fun x hx => upd_ne _ _ hx, fun _ _ => rfl⟩
  · exact ⟨_, by simp [delete, p0, getPtr, hst, freeS, freeB, q0, hm], r.delete hp hst, fun x hx => upd_ne _ _ hx,
      fun q' e => upd_ne _ _ (fun x => e _ (x ▸ hst))⟩

/-- The buffer a call changes or deletes. -/
def Call.target : Call → Nat
  | .new _ | .create .. | .createWithSize .. | .clone .. => 0
  | .delete p | .build p .. | .appendBuild p .. | .preBuild p .. | .unbuild p | .enlarge p .. | .shrink p .. | .append p .. | .prepend p .. | .fill p _ => p

/-- Everything about one call: see the theorems below. -/
structure Fine (h h' : Heap) (W W' : Nat → Option BUF) (c : Call) : Prop where
  rep : Rep h' W'
  good : Good W'
  st : ∀ x, x ≠ c.target → x < h.next → h'.st x = h.st x
  mem : ∀ q, (∀ n, h.st c.target ≠ some ⟨some q, n⟩) → q < h.next → h'.mem q = h.mem q

theorem good_upd {b : BUF} (g : Good W) (p : Nat) (h1 : Buffer.Wf b) (h2 : b.size ≤ SIZE_MAX) : Good (upd W p (some b)) := by
  intro p' b' e
  simp only [upd_apply] at e
  split at e
  · cases e; exact ⟨h1, h2⟩
  · exact g p' b' e

theorem good_del (g : Good W) (p : Nat) : Good (upd W p .none) := by
  intro p' b' e
  simp only [upd_apply] at e
  split at e
  · cases e
  · exact g p' b' e

/-- A function that changes the buffer at `p`, from its step lemma and what Verif/Buffer says. -/
theorem change_fine (r : Rep h W) (g : Good W) (c : Call) {p : Nat} (hc : c.target = p) {b b' : BUF} {f : Bool} {x : C (Heap × Bool)}
    (hp : W p = some b) (hx : ∃ h', x = C.ok (h', f) ∧ StepTo h h' W p b') (h1 : Buffer.Wf b') (h2 : b'.size ≤ SIZE_MAX) :
    ∃ h', asOk x = C.ok (h', (changed W p (some b', f)).2) ∧ Fine h h' W (changed W p (some b', f)).1 c := by
  obtain ⟨h', e, s⟩ := hx
  refine ⟨h', by rw [e]; rfl, s.rep, good_upd g p h1 h2, ?_, ?_⟩
  · intro x hx _; exact s.st x (hc ▸ hx)
  · intro q hq l; exact s.mem q (hc ▸ hq) l

theorem make_fine (r : Rep h W) (g : Good W) (c : Call) (hc : c.target = 0) {b : Option BUF} {x : C (Heap × Nat)}
    (hx : ∃ h' p, x = C.ok (h', p) ∧ MadeAt h h' W (made W h.next b).1 ∧ (made W h.next b).2 = .handle p)
    (hb : ∀ b', b = some b' → Buffer.Wf b' ∧ b'.size ≤ SIZE_MAX) :
    ∃ h', asHandle x = C.ok (h', (made W h.next b).2) ∧ Fine h h' W (made W h.next b).1 c := by
  obtain ⟨h', p, e, s, e'⟩ := hx
  refine ⟨h', by rw [e, e']; rfl, s.rep, ?_, fun x _ l => s.st x l, fun q _ l => s.mem q l⟩
  cases b with
  | none => exact g
  | some b => exact good_upd g _ (hb b rfl).1 (hb b rfl).2

theorem null_fine (r : Rep h W) (g : Good W) (c : Call) : Fine h h W W c := ⟨r, g, fun _ _ _ => rfl, fun _ _ _ => rfl⟩

/-- C66, one call. Whatever allocations fail: the call is defined, answers what Verif/Buffer says and makes of the buffers what Verif/Buffer says
(`effect`); afterwards the heap holds exactly those buffers. So nothing is leaked, freed twice or used after it was freed. All other buffers stay
what they are and where they are, so pointers into them stay valid. -/
theorem call_fine (r : Rep h W) (g : Good W) (c : Call) (v : Valid h W c) :
    ∃ h' W' ans, exec h c = C.ok (h', ans) ∧ effect W h.next c = C.ok (W', ans) ∧ Fine h h' W W' c := by
  have w0 := r.W0
  have some_of : ∀ p, W p ≠ .none → ∃ b, W p = some b := fun p hp => by
    cases e : W p with
    | none => exact absurd e hp
    | some b => exact ⟨b, rfl⟩
  cases c with
  | new a =>
    obtain ⟨h', e, f⟩ := make_fine r g (.new a) rfl (new_step r a) (fun b e => by
      cases a <;> simp [Buffer.new] at e
      subst e; exact ⟨rfl, by simp [SIZE_MAX]⟩)
    exact ⟨h', _, _, e, rfl, f⟩
  | create s bytes n a1 a2 =>
    obtain ⟨h', p', x, e1, e2, e3, e4⟩ := create_step r s bytes n a1 a2 v.2
    obtain ⟨h'', e, f⟩ := make_fine r g (.create s bytes n a1 a2) rfl ⟨h', p', e1, e3, e4⟩ (fun b' e => by
      subst e
      rcases v.2 with rfl | g'
      · simp [Buffer.create] at e2
      · rw [if_neg g'.ne_null] at e2
        obtain ⟨y, y1, y2, y3⟩ := (Buffer.create_spec bytes n a1 a2 g'.1).1
        rw [y1] at e2; cases e2
        refine ⟨(y3 b' rfl).1, ?_⟩
        cases a1 <;> simp [Buffer.create] at y1
        cases a2 <;> simp [Buffer.create, Buffer.safemalloc] at y1
        obtain ⟨m', _, y1⟩ := C.bind_eq_ok.1 y1
        cases y1; exact v.1)
    exact ⟨h'', _, _, e, by simp [effect, e2], f⟩
  | createWithSize n a1 a2 =>
    obtain ⟨h', e, f⟩ := make_fine r g (.createWithSize n a1 a2) rfl (create_with_size_step r n a1 a2) (fun b e => by
      have := (Buffer.new_spec true a1 a2 n).2.2.1 b e
      refine ⟨this.1, ?_⟩
      cases a1 <;> simp [Buffer.create_with_size] at e
      by_cases n0 : n = 0
      · simp [n0] at e; subst e; simp [SIZE_MAX]
      · simp [n0] at e; obtain ⟨_, rfl⟩ := e; exact v)
    exact ⟨h', _, _, e, rfl, f⟩
  | clone p a1 a2 =>
    rcases v with rfl | v
    · exact ⟨h, W, .handle 0, by simp [exec, clone, asHandle], by simp [effect, w0, Buffer.clone, made], null_fine r g _⟩
    · obtain ⟨b, hp⟩ := some_of p v
      obtain ⟨gb, gs⟩ := g p b hp
      obtain ⟨h', p', x, e1, e2, e3, e4⟩ := clone_step r hp gb a1 a2
      obtain ⟨h'', e, f⟩ := make_fine r g (.clone p a1 a2) rfl ⟨h', p', e1, e3, e4⟩ (fun b' e => by
        subst e
        obtain ⟨y, y1, y2, y3⟩ := (Buffer.clone_spec b a1 a2 gb).1
        rw [y1] at e2; cases e2
        refine ⟨(y3 b' rfl).1, ?_⟩
        cases a1 <;> simp [Buffer.clone] at y1
        cases a2 <;> simp [Buffer.clone, Buffer.safemalloc] at y1
        obtain ⟨m', _, y1⟩ := C.bind_eq_ok.1 y1
        cases y1; exact gs)
      exact ⟨h'', _, _, e, by simp [effect, hp, e2], f⟩
  | delete p =>
    rcases v with rfl | v
    · refine ⟨h, W, .nothing, by simp [exec, delete], ?_, null_fine r g _⟩
      simp [effect]; exact upd_id W 0 .none w0
    · obtain ⟨b, hp⟩ := some_of p v
      obtain ⟨h', e1, e2, e3, e4⟩ := delete_step r hp
      exact ⟨h', _, .nothing, by simp [exec, e1], rfl, e2, good_del g p, fun x hx _ => e3 x hx, fun q hq _ => e4 q hq⟩
  | build p s bytes n a =>
    obtain ⟨v1, v2, v3⟩ := v
    rcases v1 with rfl | v1
    · exact ⟨h, W, .ok false, by simp [exec, build, asOk], by simp [effect, w0, Buffer.build, changed], null_fine r g _⟩
    · obtain ⟨b, hp⟩ := some_of p v1
      obtain ⟨gb, gs⟩ := g p b hp
      have : ∃ b' f, Buffer.build (some b) (val s bytes) n a = C.ok (some b', f) ∧ Buffer.Wf b' ∧ b'.size ≤ SIZE_MAX := by
        rcases v3 with rfl | v3
        · by_cases n0 : n = 0
          · exact ⟨⟨.none, 0⟩, true, by simp [Buffer.build, n0], rfl, by simp [SIZE_MAX]⟩
          · exact ⟨b, false, by simp [Buffer.build, n0, val], gb, gs⟩
        · obtain ⟨b', f, e1, e2, e3, _⟩ := Buffer.call_outcome (.build bytes n) b a gb gs ⟨v3.1, v2⟩
          refine ⟨b', f, ?_, e2, e3⟩
          rw [val, if_neg v3.ne_null]; exact e1
      obtain ⟨b', f, hv, h1, h2⟩ := this
      obtain ⟨h', e, fi⟩ := change_fine r g (.build p s bytes n a) rfl hp (build_step r hp s bytes n a v3 hv) h1 h2
      exact ⟨h', _, _, e, by simp [effect, hp, hv]; rfl, fi⟩
  | appendBuild p s bytes n a =>
    obtain ⟨v1, v2, v3⟩ := v
    rcases v1 with rfl | v1
    · exact ⟨h, W, .ok false, by simp [exec, append_build, asOk], by simp [effect, w0, Buffer.append_build, changed], null_fine r g _⟩
    · obtain ⟨b, hp⟩ := some_of p v1
      obtain ⟨gb, gs⟩ := g p b hp
      have : ∃ b' f, Buffer.append_build (some b) (val s bytes) n a = C.ok (some b', f) ∧ Buffer.Wf b' ∧ b'.size ≤ SIZE_MAX := by
        rcases v3 with rfl | v3
        · exact ⟨b, false, by simp [Buffer.append_build, val], gb, gs⟩
        · obtain ⟨b', f, e1, e2, e3, _⟩ := Buffer.call_outcome (.append_build bytes n) b a gb gs ⟨v3.1, v2⟩
          refine ⟨b', f, ?_, e2, e3⟩
          rw [val, if_neg v3.ne_null]; exact e1
      obtain ⟨b', f, hv, h1, h2⟩ := this
      obtain ⟨h', e, fi⟩ := change_fine r g (.appendBuild p s bytes n a) rfl hp (append_build_step r hp s bytes n a v3 hv) h1 h2
      exact ⟨h', _, _, e, by simp [effect, hp, hv]; rfl, fi⟩
  | preBuild p n a =>
    obtain ⟨v1, v2⟩ := v
    rcases v1 with rfl | v1
    · exact ⟨h, W, .ok false, by simp [exec, pre_build, asOk], by simp [effect, w0, Buffer.pre_build, changed], null_fine r g _⟩
    · obtain ⟨b, hp⟩ := some_of p v1
      obtain ⟨gb, gs⟩ := g p b hp
      obtain ⟨b', f, hv, h1, h2, _⟩ := Buffer.call_outcome (.pre_build n) b a gb gs v2
      simp only [Buffer.Call.exec, C.ok.injEq] at hv
      obtain ⟨h', e, fi⟩ := change_fine r g (.preBuild p n a) rfl hp (pre_build_step r hp n a hv) h1 h2
      exact ⟨h', _, _, e, by simp [effect, hp, hv]; rfl, fi⟩
  | unbuild p =>
    rcases v with rfl | v
    · exact ⟨h, W, .ok false, by simp [exec, unbuild, asOk], by simp [effect, w0, Buffer.unbuild, changed], null_fine r g _⟩
    · obtain ⟨b, hp⟩ := some_of p v
      obtain ⟨gb, gs⟩ := g p b hp
      obtain ⟨b', f, hv, h1, h2, _⟩ := Buffer.call_outcome .unbuild b true gb gs trivial
      simp only [Buffer.Call.exec, C.ok.injEq] at hv
      obtain ⟨h', e, fi⟩ := change_fine r g (.unbuild p) rfl hp (unbuild_step r hp hv) h1 h2
      exact ⟨h', _, _, e, by simp [effect, hp, hv]; rfl, fi⟩
  | enlarge p n a =>
    obtain ⟨v1, v2⟩ := v
    rcases v1 with rfl | v1
    · exact ⟨h, W, .ok false, by simp [exec, enlarge, asOk], by simp [effect, w0, Buffer.enlarge, changed], null_fine r g _⟩
    · obtain ⟨b, hp⟩ := some_of p v1
      obtain ⟨gb, gs⟩ := g p b hp
      obtain ⟨b', f, hv, h1, h2, _⟩ := Buffer.call_outcome (.enlarge n) b a gb gs v2
      simp only [Buffer.Call.exec, C.ok.injEq] at hv
      obtain ⟨h', e, fi⟩ := change_fine r g (.enlarge p n a) rfl hp (enlarge_step r hp n a hv) h1 h2
      exact ⟨h', _, _, e, by simp [effect, hp, hv]; rfl, fi⟩
  | shrink p n e a =>
    rcases v with rfl | v
    · exact ⟨h, W, .ok false, by simp [exec, shrink, asOk], by simp [effect, w0, Buffer.shrink, changed], null_fine r g _⟩
    · obtain ⟨b, hp⟩ := some_of p v
      obtain ⟨gb, gs⟩ := g p b hp
      obtain ⟨b', f, hv, h1, h2, _⟩ := Buffer.call_outcome (.shrink n e) b a gb gs trivial
      simp only [Buffer.Call.exec] at hv
      obtain ⟨h', e', fi⟩ := change_fine r g (.shrink p n e a) rfl hp (shrink_step r hp n e a hv) h1 h2
      exact ⟨h', _, _, e', by simp [effect, hp, hv]; rfl, fi⟩
  | append p1 p2 a =>
    obtain ⟨v1, v2⟩ := v
    rcases v1 with rfl | v1
    · exact ⟨h, W, .ok false, by simp [exec, append, asOk], by simp [effect, w0, Buffer.append, changed], null_fine r g _⟩
    · obtain ⟨b1, hp1⟩ := some_of p1 v1
      obtain ⟨gb, gs⟩ := g p1 b1 hp1
      rcases v2 with rfl | v2
      · refine ⟨h, upd W p1 (some b1), .ok false, by simp [exec, append, asOk], by simp [effect, hp1, w0, Buffer.append, changed], ?_⟩
        rw [upd_id W p1 _ hp1]; exact null_fine r g _
      · obtain ⟨b2, hp2⟩ := some_of p2 v2
        have : ∃ b' f, Buffer.append (some b1) (some b2) (decide (p1 = p2)) a = C.ok (some b', f) ∧ Buffer.Wf b' ∧ b'.size ≤ SIZE_MAX := by
          by_cases same : p1 = p2
          · exact ⟨b1, false, by simp [Buffer.append, same], gb, gs⟩
          · obtain ⟨b', f, e1, e2, e3, _⟩ := Buffer.call_outcome (.append b2) b1 a gb gs (g p2 b2 hp2).1
            simp only [Buffer.Call.exec] at e1
            exact ⟨b', f, by simp [same, e1], e2, e3⟩
        obtain ⟨b', f, hv, h1, h2⟩ := this
        obtain ⟨h', e, fi⟩ := change_fine r g (.append p1 p2 a) rfl hp1 (append_step r hp1 hp2 a hv) h1 h2
        exact ⟨h', _, _, e, by simp [effect, hp1, hp2, hv]; rfl, fi⟩
  | prepend p1 p2 a =>
    obtain ⟨v1, v2⟩ := v
    rcases v1 with rfl | v1
    · exact ⟨h, W, .ok false, by simp [exec, prepend, asOk], by simp [effect, w0, Buffer.prepend, changed], null_fine r g _⟩
    · obtain ⟨b1, hp1⟩ := some_of p1 v1
      obtain ⟨gb, gs⟩ := g p1 b1 hp1
      rcases v2 with rfl | v2
      · refine ⟨h, upd W p1 (some b1), .ok false, by simp [exec, prepend, asOk], by simp [effect, hp1, w0, Buffer.prepend, changed], ?_⟩
        rw [upd_id W p1 _ hp1]; exact null_fine r g _
      · obtain ⟨b2, hp2⟩ := some_of p2 v2
        have : ∃ b' f, Buffer.prepend (some b1) (some b2) (decide (p1 = p2)) a = C.ok (some b', f) ∧ Buffer.Wf b' ∧ b'.size ≤ SIZE_MAX := by
          by_cases same : p1 = p2
          · exact ⟨b1, false, by simp [Buffer.prepend, same], gb, gs⟩
          · obtain ⟨b', f, e1, e2, e3, _⟩ := Buffer.call_outcome (.prepend b2) b1 a gb gs (g p2 b2 hp2).1
            simp only [Buffer.Call.exec] at e1
            exact ⟨b', f, by simp [same, e1], e2, e3⟩
        obtain ⟨b', f, hv, h1, h2⟩ := this
        obtain ⟨h', e, fi⟩ := change_fine r g (.prepend p1 p2 a) rfl hp1 (prepend_step r hp1 hp2 a hv) h1 h2
        exact ⟨h', _, _, e, by simp [effect, hp1, hp2, hv]; rfl, fi⟩
  | fill p c =>
    rcases v with rfl | v
    · exact ⟨h, W, .ok false, by simp [exec, fill, asOk], by simp [effect, w0, Buffer.fill, changed], null_fine r g _⟩
    · obtain ⟨b, hp⟩ := some_of p v
      obtain ⟨gb, gs⟩ := g p b hp
      obtain ⟨b', f, hv, h1, h2, _⟩ := Buffer.call_outcome (.fill c) b true gb gs trivial
      simp only [Buffer.Call.exec] at hv
      obtain ⟨h', e', fi⟩ := change_fine r g (.fill p c) rfl hp (fill_step r hp c hv) h1 h2
      exact ⟨h', _, _, e', by simp [effect, hp, hv]; rfl, fi⟩

/-! ### All histories -/

/-- A heap on which nothing was allocated yet. -/
def heap0 : Heap := ⟨fun _ => .none, fun _ => .none, 1⟩

/-- The states a program reaches that uses buffer.h as it should, together with the buffers it has. -/
inductive Hist : Heap → (Nat → Option BUF) → Prop
  | init : Hist heap0 (fun _ => .none)
  | call {h W c h' W' ans ans'} : Hist h W → Valid h W c → exec h c = C.ok (h', ans) → effect W h.next c = C.ok (W', ans') → Hist h' W'

/-- C66: at any time the heap holds exactly the buffers the program has. -/
theorem exact_always {h W} (x : Hist h W) : Rep h W ∧ Good W := by
  induction x with
  | init => exact ⟨⟨by simp, by simp [heap0], by simp [heap0], by simp [heap0], by simp [heap0], by simp [heap0]⟩, by simp [Good]⟩
  | call x v e1 e2 ih =>
    obtain ⟨h', W', ans, f1, f2, f3⟩ := call_fine ih.1 ih.2 _ v
    rw [f1] at e1; cases e1
    rw [f2] at e2; cases e2
    exact ⟨f3.rep, f3.good⟩

/-- C66: no call is ever undefined, and it does to the buffers and answers exactly what Verif/Buffer (C20) says. -/
theorem always_defined {h W} (x : Hist h W) (c : Call) (v : Valid h W c) :
    ∃ h' W' ans, exec h c = C.ok (h', ans) ∧ effect W h.next c = C.ok (W', ans) ∧ Hist h' W' := by
  obtain ⟨r, g⟩ := exact_always x
  obtain ⟨h', W', ans, f1, f2, f3⟩ := call_fine r g c v
  exact ⟨h', W', ans, f1, f2, .call x v f1 f2⟩

/-- C66: a program that has deleted all its buffers has nothing allocated. -/
theorem nothing_left {h W} (x : Hist h W) (e : ∀ p, W p = .none) : Empty h := by
  obtain ⟨r, g⟩ := exact_always x
  intro p
  refine ⟨r.dead p (e p), ?_⟩
  cases hm : h.mem p with
  | none => rfl
  | some m =>
    obtain ⟨p', n, f⟩ := r.owned p m hm
    rw [r.dead p' (e p')] at f; cases f

/-- C66: a call on one buffer leaves the others, and the memory of the pointers BUFFER_content and BUFFER_u_char gave for them, as they are. -/
theorem others_stay {h W} (x : Hist h W) (c : Call) (v : Valid h W c) {h' ans} (e : exec h c = C.ok (h', ans)) {p : Nat} {b : BUF} (hp : W p = some b)
    (hne : p ≠ c.target) : h'.st p = h.st p ∧ (∀ q, content h p true = C.ok (some q) → content h' p true = C.ok (some q) ∧ h'.mem q = h.mem q) := by
  obtain ⟨r, g⟩ := exact_always x
  obtain ⟨h1, W1, a1, f1, f2, f3⟩ := call_fine r g c v
  rw [f1] at e; cases e
  obtain ⟨q, hst, hq⟩ := r.live p b hp
  have s := f3.st p hne (r.lt hst)
  refine ⟨s, fun q' e => ?_⟩
  have p0 := r.ne0 hp
  simp only [content, if_neg (show ¬ (p = 0 ∨ true = false) by simp [p0]), getPtr, s, hst, C.ok_bind, C.pure_eq, C.ok.injEq, Option.some.injEq] at e ⊢
  subst e
  refine ⟨rfl, ?_⟩
  by_cases q0 : q = 0
  · rw [q0, f3.rep.null.2.1, r.null.2.1]
  · rw [if_neg q0] at hq
    cases hm : h.mem q with
    | none => exact absurd hm hq.2
    | some m =>
      rw [← hm]
      exact f3.mem q (fun n e => hne (r.sep _ _ _ _ _ hst e q0)) (r.ltm hm)

/-- C66: the readers never touch memory that is not there, and report what the buffer holds. -/
theorem readers_fine {h W} (x : Hist h W) {p : Nat} {b : BUF} (hp : W p = some b) :
    length h p = C.ok (Buffer.length (some b)) ∧ size h p true = C.ok (Buffer.size (some b) true) ∧
    (∃ q, content h p true = C.ok (some q) ∧ h.mem q = b.buffer) ∧
    (∃ q, u_char h p = C.ok q ∧ h.mem q = Buffer.u_char (some b)) ∧
    length h 0 = C.ok 0 ∧ size h 0 true = C.ok .none ∧ size h p false = C.ok .none ∧ content h 0 true = C.ok .none ∧ content h p false = C.ok .none ∧
    u_char h 0 = C.ok 0 := by
  obtain ⟨r, g⟩ := exact_always x
  have p0 := r.ne0 hp
  obtain ⟨q, hst, hq⟩ := r.live p b hp
  have hb : h.mem q = b.buffer := by
    by_cases q0 : q = 0
    · rw [if_pos q0] at hq; rw [hq, q0]; exact r.null.2.1
    · rw [if_neg q0] at hq; exact hq.1.symm
  refine ⟨by simp [length, p0, getSize, hst, Buffer.length], by simp [size, p0, getSize, hst, Buffer.size], ⟨q, by simp [content, p0, getPtr, hst], hb⟩, ?_,
    by simp [length], by simp [size], by simp [size], by simp [content], by simp [content], by simp [u_char]⟩
  by_cases z : b.size = 0
  · exact ⟨0, by simp [u_char, p0, getSize, hst, z], by simp [Buffer.u_char, z, r.null.2.1]⟩
  · exact ⟨q, by simp [u_char, p0, getSize, getPtr, hst, z], by simp [Buffer.u_char, z, hb]⟩

/-- C66 needs that the source is not the storage of the buffer itself: it is read after `realloc` gave it up. -/
theorem own_source_undefined {h W} (x : Hist h W) {p q k : Nat} {m : Mem} (hp : W p = some ⟨some m, k⟩) (hq : content h p true = C.ok (some q)) (n off : Nat)
    (n0 : n ≠ 0) (hn : k + n ≤ SIZE_MAX) : build h p (.blk q off) n true = C.ub ∧ append_build h p (.blk q off) n true = C.ub := by
  obtain ⟨r, g⟩ := exact_always x
  have nx : h.next ≠ 0 := by have := r.null.2.2; omega
  have p0 := r.ne0 hp
  rcases r.cases hp with ⟨k', e, hst⟩ | ⟨m', k', q', e, hst, q0, hm⟩
  · cases e
  · cases e
    have : q' = q := by simpa [content, p0, getPtr, hst] using hq
    subst this
    have ql := r.ltm hm
    have qn : q' ≠ h.next := by omega
    constructor
    · simp [build, p0, n0, getPtr, hst, reallocB, q0, hm, nx, setPtr, setSize, upd_upd, copyIn, srcMem, upd_ne _ _ qn]
    · simp [append_build, p0, n0, getPtr, getSize, hst, reallocFlex, reallocB, q0, hm, hn, nx, setPtr, setSize, upd_upd, copyIn, srcMem, upd_ne _ _ qn]

/-! ### Witness -/

/-- A program: create "ab", clone it (refused once for lack of memory), append the clone to the first, delete both. -/
def program (h : Heap) : C (Heap × List Ans) := do
  let (h, a1) ← exec h (.create (.ext [97, 98]) [97, 98] 2 true true)
  let (h, a2) ← exec h (.clone 1 true false)
  let (h, a3) ← exec h (.clone 1 true true)
  let (h, a4) ← exec h (.append 1 4 true)
  let (h, a5) ← exec h (.delete 4)
  let (h, a6) ← exec h (.delete 1)
  pure (h, [a1, a2, a3, a4, a5, a6])

example : ∃ h, program heap0 = C.ok (h, [.handle 1, .handle 0, .handle 4, .ok true, .nothing, .nothing]) ∧ h.st 1 = .none ∧ h.mem 2 = .none ∧
    h.mem 5 = .none ∧ h.mem 6 = .none := ⟨_, rfl, by decide, by decide, by decide, by decide⟩

/-- After the creation and the clone, appending a buffer's own bytes is undefined, appending the other's is not. -/
example : (do
    let (h, _) ← exec heap0 (.create (.ext [97, 98]) [97, 98] 2 true true)
    let (h, _) ← exec h (.clone 1 true true)
    let (h, a) ← exec h (.appendBuild 1 (.blk 4 1) [98] 1 true)
    pure (a, h.mem 5) : C (Ans × Option Mem)) = C.ok (.ok true, some [some 97, some 98, some 98]) := by decide

/-- The hypotheses of `own_source_undefined` are met after one creation. -/
example : ∃ h W, Hist h W ∧ W 1 = some ⟨some [some 97, some 98], 2⟩ ∧ content h 1 true = C.ok (some 2) :=
  ⟨_, _, .call (c := .create (.ext [97, 98]) [97, 98] 2 true true) .init ⟨by decide, .inr ⟨by decide, rfl⟩⟩ rfl rfl, rfl, rfl⟩

end CUtil.BufferHeap
