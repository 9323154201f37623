import Verif.BufferHeap.Spec
import Verif.Buffer.Props
set_option linter.unusedSimpArgs false
set_option linter.unusedVariables false
namespace CUtil.BufferHeap
open CUtil CUtil.Conc
open CUtil.Buffer (BUF)

theorem upd_upd {α : Type} (f : Nat → α) (t : Nat) (v w : α) : upd (upd f t v) t w = upd f t w := by
  funext u; simp only [upd]; split <;> rfl

theorem upd_id {α : Type} (f : Nat → α) (t : Nat) (v : α) (h : f t = v) : upd f t v = f := by
  funext u; simp only [upd]; split
  · rename_i e; rw [e, h]
  · rfl

theorem upd_comm {α : Type} (f : Nat → α) (t u : Nat) (v w : α) (h : t ≠ u) : upd (upd f t v) u w = upd (upd f u w) t v := by
  funext x; simp only [upd]; grind

variable {h : Heap} {W : Nat → Option BUF}

theorem Rep.ne0 (r : Rep h W) {p b} (hp : W p = some b) : p ≠ 0 := by
  intro e; subst e
  obtain ⟨q, h1, _⟩ := r.live 0 b hp
  rw [r.null.1] at h1; cases h1

theorem Rep.lt (r : Rep h W) {p x} (hp : h.st p = some x) : p < h.next := by
  apply Nat.lt_of_not_le
  intro e
  rw [(r.fresh p e).1] at hp; cases hp

theorem Rep.ltm (r : Rep h W) {q x} (hp : h.mem q = some x) : q < h.next := by
  apply Nat.lt_of_not_le
  intro e
  rw [(r.fresh q e).2] at hp; cases hp

theorem Rep.W0 (r : Rep h W) : W 0 = none := by
  cases e : W 0 with
  | none => rfl
  | some b => exact absurd rfl (r.ne0 e)

theorem Rep.Wst (r : Rep h W) {p n q} (e : h.st p = some ⟨q, n⟩) : ∃ b, W p = some b := by
  cases w : W p with
  | none => rw [r.dead p w] at e; cases e
  | some b => exact ⟨b, rfl⟩

/-- The storage of `p` is replaced by a new block. -/
theorem Rep.block (r : Rep h W) {p q : Nat} {b : BUF} (hp : W p = some b) (hst : h.st p = some ⟨some q, some b.size⟩) (m : Mem) (n : Nat) :
    Rep ⟨upd h.st p (some ⟨some h.next, some n⟩), upd (upd h.mem q none) h.next (some m), h.next + 1⟩ (upd W p (some ⟨some m, n⟩)) := by
  have hn := r.null
  have hq : q < h.next := by
    by_cases q0 : q = 0
    · omega
    obtain ⟨q', e, f⟩ := r.live p b hp
    rw [hst] at e; cases e
    rw [if_neg q0] at f
    cases e : h.mem q with
    | none => exact absurd e f.2
    | some x => exact r.ltm e
  have hpl := r.lt hst
  refine ⟨?_, ?_, ?_, ?_, ?_, ?_⟩
  · intro p' b' e
    simp only [upd_apply] at e ⊢
    split at e
    · rename_i x; subst x; cases e
      exact ⟨h.next, by simp, by rw [if_neg (by omega)]; simp⟩
    · rename_i ne
      obtain ⟨q', f1, f2⟩ := r.live p' b' e
      refine ⟨q', by simp [ne, f1], ?_⟩
      by_cases q0 : q' = 0
      · simpa [q0] using f2
      · rw [if_neg q0] at f2 ⊢
        have a1 : q' ≠ q := fun x => ne (r.sep _ _ _ _ _ f1 (x ▸ hst) q0)
        have a2 : q' ≠ h.next := by
          intro x; rw [x, (r.fresh _ (Nat.le_refl _)).2] at f2; exact f2.2 rfl
        simpa [a1, a2] using f2
  · intro p' e
    simp only [upd_apply] at e ⊢
    split at e
    · cases e
    · rename_i ne; simp [ne, r.dead p' e]
  · intro p1 p2 n1 n2 q' e1 e2 q0
    have nx : ∀ p' n', h.st p' = some ⟨some q', n'⟩ → q' ≠ h.next := by
      intro p' n' e x
      obtain ⟨b', w⟩ := r.Wst e
      obtain ⟨q'', f1, f2⟩ := r.live p' b' w
      rw [e] at f1; cases f1
      rw [if_neg q0, x, (r.fresh _ (Nat.le_refl _)).2] at f2
      exact f2.2 rfl
    simp only [upd_apply] at e1 e2
    split at e1 <;> split at e2
    · simp_all
    · cases e1; exact absurd rfl (nx _ _ e2)
    · cases e2; exact absurd rfl (nx _ _ e1)
    · exact r.sep _ _ _ _ _ e1 e2 q0
  · intro q' m' e
    simp only [upd_apply] at e ⊢
    split at e
    · rename_i x; subst x
      exact ⟨p, some n, by simp⟩
    · split at e
      · cases e
      · rename_i x y
        obtain ⟨p', n', f⟩ := r.owned q' m' e
        refine ⟨p', n', ?_⟩
        have : p' ≠ p := by
          intro z; subst z; rw [hst] at f; cases f; exact y rfl
        simp [this, f]
  · intro p' e
    have e' : h.next + 1 ≤ p' := e
    have a1 : p' ≠ p := by omega
    have a2 : p' ≠ h.next := by omega
    have a3 : p' ≠ q := by omega
    obtain ⟨f1, f2⟩ := r.fresh p' (by omega)
    simp [upd_apply, a1, a2, a3, f1, f2]
  · have a1 : 0 ≠ p := fun x => r.ne0 hp x.symm
    have a2 : 0 ≠ h.next := by omega
    refine ⟨by simp [upd_apply, a1, hn.1], by simp [upd_apply, a2, hn.2.1], by simp⟩

/-- The storage of `p` is given up. -/
theorem Rep.drop (r : Rep h W) {p q : Nat} {b : BUF} (hp : W p = some b) (hst : h.st p = some ⟨some q, some b.size⟩) (n : Nat) :
    Rep ⟨upd h.st p (some ⟨some 0, some n⟩), upd h.mem q none, h.next⟩ (upd W p (some ⟨none, n⟩)) := by
  have hn := r.null
  have hpl := r.lt hst
  refine ⟨?_, ?_, ?_, ?_, ?_, ?_⟩
  · intro p' b' e
    simp only [upd_apply] at e ⊢
    split at e
    · rename_i x; subst x; cases e
      exact ⟨0, by simp, by simp⟩
    · rename_i ne
      obtain ⟨q', f1, f2⟩ := r.live p' b' e
      refine ⟨q', by simp [ne, f1], ?_⟩
      by_cases q0 : q' = 0
      · simpa [q0] using f2
      · rw [if_neg q0] at f2 ⊢
        have a1 : q' ≠ q := fun x => ne (r.sep _ _ _ _ _ f1 (x ▸ hst) q0)
        simpa [a1] using f2
  · intro p' e
    simp only [upd_apply] at e ⊢
    split at e
    · cases e
    · rename_i ne; simp [ne, r.dead p' e]
  · intro p1 p2 n1 n2 q' e1 e2 q0
    simp only [upd_apply] at e1 e2
    split at e1 <;> split at e2
    · simp_all
    · cases e1; exact absurd rfl q0
    · cases e2; exact absurd rfl q0
    · exact r.sep _ _ _ _ _ e1 e2 q0
  · intro q' m' e
    simp only [upd_apply] at e ⊢
    split at e
    · cases e
    · rename_i y
      obtain ⟨p', n', f⟩ := r.owned q' m' e
      refine ⟨p', n', ?_⟩
      have : p' ≠ p := by
        intro z; subst z; rw [hst] at f; cases f; exact y rfl
      simp [this, f]
  · intro p' e
    have e' : h.next ≤ p' := e
    have a1 : p' ≠ p := by omega
    obtain ⟨f1, f2⟩ := r.fresh p' (by omega)
    refine ⟨by simp [upd_apply, a1, f1], ?_⟩
    simp only [upd_apply]; split <;> simp [f2]
  · have a1 : 0 ≠ p := fun x => r.ne0 hp x.symm
    refine ⟨by simp [upd_apply, a1, hn.1], by simp [upd_apply, hn.2.1], hn.2.2⟩

/-- The buffer `p` is deleted. -/
theorem Rep.delete (r : Rep h W) {p q : Nat} {b : BUF} (hp : W p = some b) (hst : h.st p = some ⟨some q, some b.size⟩) :
    Rep ⟨upd h.st p none, upd h.mem q none, h.next⟩ (upd W p none) := by
  have hn := r.null
  have hpl := r.lt hst
  refine ⟨?_, ?_, ?_, ?_, ?_, ?_⟩
  · intro p' b' e
    simp only [upd_apply] at e ⊢
    split at e
    · cases e
    · rename_i ne
      obtain ⟨q', f1, f2⟩ := r.live p' b' e
      refine ⟨q', by simp [ne, f1], ?_⟩
      by_cases q0 : q' = 0
      · simpa [q0] using f2
      · rw [if_neg q0] at f2 ⊢
        have a1 : q' ≠ q := fun x => ne (r.sep _ _ _ _ _ f1 (x ▸ hst) q0)
        simpa [a1] using f2
  · intro p' e
    simp only [upd_apply] at e ⊢
    split at e
    · rename_i x; simp [x]
    · rename_i ne; simp [ne, r.dead p' e]
  · intro p1 p2 n1 n2 q' e1 e2 q0
    simp only [upd_apply] at e1 e2
    split at e1 <;> split at e2
    · simp_all
    · cases e1
    · cases e2
    · exact r.sep _ _ _ _ _ e1 e2 q0
  · intro q' m' e
    simp only [upd_apply] at e ⊢
    split at e
    · cases e
    · rename_i y
      obtain ⟨p', n', f⟩ := r.owned q' m' e
      refine ⟨p', n', ?_⟩
      have : p' ≠ p := by
        intro z; subst z; rw [hst] at f; cases f; exact y rfl
      simp [this, f]
  · intro p' e
    have e' : h.next ≤ p' := e
    obtain ⟨f1, f2⟩ := r.fresh p' (by omega)
    simp only [upd_apply]; constructor <;> split <;> simp [f1, f2]
  · refine ⟨?_, ?_, hn.2.2⟩ <;> simp only [upd_apply] <;> split <;> simp [hn]

/-- The bytes of `p` are changed in place. -/
theorem Rep.write (r : Rep h W) {p q : Nat} {b : BUF} (hp : W p = some b) (hst : h.st p = some ⟨some q, some b.size⟩) (q0 : q ≠ 0) (m : Mem) :
    Rep ⟨h.st, upd h.mem q (some m), h.next⟩ (upd W p (some ⟨some m, b.size⟩)) := by
  have hn := r.null
  have hpl := r.lt hst
  have hq : q < h.next := by
    obtain ⟨q', e, f⟩ := r.live p b hp
    rw [hst] at e; cases e
    rw [if_neg q0] at f
    cases e : h.mem q with
    | none => exact absurd e f.2
    | some x => exact r.ltm e
  refine ⟨?_, ?_, r.sep, ?_, ?_, ?_⟩
  · intro p' b' e
    simp only [upd_apply] at e ⊢
    split at e
    · rename_i x; subst x; cases e
      exact ⟨q, hst, by simp [q0]⟩
    · rename_i ne
      obtain ⟨q', f1, f2⟩ := r.live p' b' e
      refine ⟨q', f1, ?_⟩
      by_cases z0 : q' = 0
      · simpa [z0] using f2
      · rw [if_neg z0] at f2 ⊢
        have a1 : q' ≠ q := fun x => ne (r.sep _ _ _ _ _ f1 (x ▸ hst) z0)
        simpa [a1] using f2
  · intro p' e
    simp only [upd_apply] at e
    split at e
    · cases e
    · exact r.dead p' e
  · intro q' m' e
    simp only [upd_apply] at e
    split at e
    · rename_i x; subst x; exact ⟨p, _, hst⟩
    · exact r.owned q' m' e
  · intro p' e
    have e' : h.next ≤ p' := e
    obtain ⟨f1, f2⟩ := r.fresh p' (by omega)
    have : p' ≠ q := by omega
    simp [upd_apply, this, f1, f2]
  · refine ⟨hn.1, ?_, hn.2.2⟩
    simp [upd_apply, Ne.symm q0, hn.2.1]

/-- Only the size field of a buffer without storage changes. -/
theorem Rep.next (r : Rep h W) (n : Nat) (hn : h.next ≤ n) : Rep ⟨h.st, h.mem, n⟩ W :=
  ⟨r.live, r.dead, r.sep, r.owned, fun p hp => r.fresh p (Nat.le_trans hn hp), r.null.1, r.null.2.1, Nat.lt_of_lt_of_le r.null.2.2 hn⟩

/-- A new buffer without storage. -/
theorem Rep.new (r : Rep h W) (n : Nat) :
    Rep ⟨upd h.st h.next (some ⟨some 0, some n⟩), h.mem, h.next + 1⟩ (upd W h.next (some ⟨none, n⟩)) := by
  have hn := r.null
  refine ⟨?_, ?_, ?_, ?_, ?_, ?_⟩
  · intro p' b' e
    simp only [upd_apply] at e ⊢
    split at e
    · rename_i x; subst x; cases e
      exact ⟨0, by simp, by simp⟩
    · rename_i ne
      obtain ⟨q', f1, f2⟩ := r.live p' b' e
      exact ⟨q', by simp [ne, f1], f2⟩
  · intro p' e
    simp only [upd_apply] at e ⊢
    split at e
    · cases e
    · rename_i ne; simp [ne, r.dead p' e]
  · intro p1 p2 n1 n2 q' e1 e2 q0
    simp only [upd_apply] at e1 e2
    split at e1 <;> split at e2
    · simp_all
    · cases e1; exact absurd rfl q0
    · cases e2; exact absurd rfl q0
    · exact r.sep _ _ _ _ _ e1 e2 q0
  · intro q' m' e
    obtain ⟨p', n', f⟩ := r.owned q' m' e
    have := r.lt f
    exact ⟨p', n', by dsimp only; rw [upd_ne _ _ (by omega)]; exact f⟩
  · intro p' e
    have e' : h.next + 1 ≤ p' := e
    obtain ⟨f1, f2⟩ := r.fresh p' (by omega)
    exact ⟨by dsimp only; rw [upd_ne _ _ (by omega)]; exact f1, f2⟩
  · exact ⟨by dsimp only; rw [upd_ne _ _ (by omega)]; exact hn.1, hn.2.1, by simp⟩

/-- A new buffer with storage. -/
theorem Rep.newBlock (r : Rep h W) (m : Mem) (n : Nat) :
    Rep ⟨upd h.st h.next (some ⟨some (h.next + 1), some n⟩), upd h.mem (h.next + 1) (some m), h.next + 1 + 1⟩ (upd W h.next (some ⟨some m, n⟩)) := by
  have r1 := r.new n
  have r2 := r1.block (p := h.next) (q := 0) (b := ⟨none, n⟩) (by simp) (by simp) m n
  simp only [upd_upd] at r2
  rw [upd_id h.mem 0 none r.null.2.1] at r2
  exact r2

/-- A buffer without storage gets some. -/
theorem Rep.block0 (r : Rep h W) {p k : Nat} (hp : W p = some ⟨none, k⟩) (hst : h.st p = some ⟨some 0, some k⟩) (m : Mem) (n : Nat) :
    Rep ⟨upd h.st p (some ⟨some h.next, some n⟩), upd h.mem h.next (some m), h.next + 1⟩ (upd W p (some ⟨some m, n⟩)) := by
  have := r.block hp hst m n
  rwa [upd_id h.mem 0 none r.null.2.1] at this

/-- Nothing changes. -/
theorem Rep.same (r : Rep h W) {p : Nat} {b : BUF} (hp : W p = some b) : Rep h (upd W p (some b)) := by
  rw [upd_id W p _ hp]; exact r

/-- The two sorts of buffers. -/
theorem Rep.cases (r : Rep h W) {p : Nat} {b : BUF} (hp : W p = some b) :
    (∃ n, b = ⟨none, n⟩ ∧ h.st p = some ⟨some 0, some n⟩) ∨
    (∃ m n q, b = ⟨some m, n⟩ ∧ h.st p = some ⟨some q, some n⟩ ∧ q ≠ 0 ∧ h.mem q = some m) := by
  obtain ⟨q, h1, h2⟩ := r.live p b hp
  obtain ⟨buf, n⟩ := b
  by_cases q0 : q = 0
  · subst q0
    simp at h2; subst h2
    exact .inl ⟨n, rfl, h1⟩
  · rw [if_neg q0] at h2
    dsimp only at h2
    cases e : h.mem q with
    | none => exact absurd e h2.2
    | some m =>
      have : buf = some m := by rw [h2.1, e]
      subst this
      exact .inr ⟨m, n, q, rfl, h1, q0, e⟩

/-- The buffer `p` becomes `b'`; the others stay what and where they are. -/
structure StepTo (h h' : Heap) (W : Nat → Option BUF) (p : Nat) (b' : BUF) : Prop where
  rep : Rep h' (upd W p (some b'))
  st : ∀ x, x ≠ p → h'.st x = h.st x
  mem : ∀ q, (∀ n, h.st p ≠ some ⟨some q, n⟩) → q < h.next → h'.mem q = h.mem q

theorem Rep.sblock (r : Rep h W) {p q : Nat} {b : BUF} (hp : W p = some b) (hst : h.st p = some ⟨some q, some b.size⟩) (m : Mem) (n : Nat) :
    StepTo h ⟨upd h.st p (some ⟨some h.next, some n⟩), upd (upd h.mem q none) h.next (some m), h.next + 1⟩ W p ⟨some m, n⟩ :=
  ⟨r.block hp hst m n, fun x hx => upd_ne _ _ hx, fun q' e l => by
    have : q' ≠ q := fun x => e _ (x ▸ hst)
    dsimp only
    rw [upd_ne _ _ (Nat.ne_of_lt l), upd_ne _ _ this]⟩

theorem Rep.sblock0 (r : Rep h W) {p k : Nat} (hp : W p = some ⟨none, k⟩) (hst : h.st p = some ⟨some 0, some k⟩) (m : Mem) (n : Nat) :
    StepTo h ⟨upd h.st p (some ⟨some h.next, some n⟩), upd h.mem h.next (some m), h.next + 1⟩ W p ⟨some m, n⟩ :=
  ⟨r.block0 hp hst m n, fun x hx => upd_ne _ _ hx, fun q' e l => upd_ne _ _ (Nat.ne_of_lt l)⟩

theorem Rep.sdrop (r : Rep h W) {p q : Nat} {b : BUF} (hp : W p = some b) (hst : h.st p = some ⟨some q, some b.size⟩) (n : Nat) :
    StepTo h ⟨upd h.st p (some ⟨some 0, some n⟩), upd h.mem q none, h.next⟩ W p ⟨none, n⟩ :=
  ⟨r.drop hp hst n, fun x hx => upd_ne _ _ hx, fun q' e l => upd_ne _ _ (fun x => e _ (x ▸ hst))⟩

theorem Rep.swrite (r : Rep h W) {p q : Nat} {b : BUF} (hp : W p = some b) (hst : h.st p = some ⟨some q, some b.size⟩) (q0 : q ≠ 0) (m : Mem) :
    StepTo h ⟨h.st, upd h.mem q (some m), h.next⟩ W p ⟨some m, b.size⟩ :=
  ⟨r.write hp hst q0 m, fun _ _ => rfl, fun q' e l => upd_ne _ _ (fun x => e _ (x ▸ hst))⟩

theorem Rep.ssame (r : Rep h W) {p : Nat} {b : BUF} (hp : W p = some b) : StepTo h h W p b := ⟨r.same hp, fun _ _ => rfl, fun _ _ _ => rfl⟩

theorem copyIn_eq {h1 : Heap} {source : Src} {src dst : Mem} {q : Nat} (hs : srcMem h1 source = C.ok src) (hd : h1.mem q = some dst) (d n : Nat) :
    copyIn h1 q d source n = (do
      let m ← memcpy dst d src 0 n
      C.ok ⟨h1.st, upd h1.mem q (some m), h1.next⟩) := by
  have hn : source ≠ .null := by intro e; subst e; cases hs
  unfold copyIn
  rw [if_neg (fun x => hn x.2), hd]
  dsimp only
  rw [hs, C.ok_bind]

/-- A source that is not the storage of `p` is still there when the storage of `p` is gone and new blocks came. -/
theorem Rep.src (r : Rep h W) {p n : Nat} {source : Src} {bytes : List UInt8} (g : Gives h p source bytes n) {h1 : Heap} {q : Nat}
    (hst : q = 0 ∨ ∃ k, h.st p = some ⟨some q, k⟩) (hm : ∀ x, x ≠ q → x < h.next → h1.mem x = h.mem x) : srcMem h1 source = C.ok (bytes.map some) := by
  obtain ⟨g1, g2⟩ := g
  cases source with
  | null => exact g2.elim
  | ext m => simp only at g2; subst g2; rfl
  | blk q' off =>
    obtain ⟨m, e1, e2, e3, e4⟩ := g2
    have : q' ≠ q := by
      intro x; subst x
      rcases hst with hst | ⟨k, hst⟩
      · subst hst; rw [r.null.2.1] at e1; cases e1
      · exact e4 k hst
    have e1' : h1.mem q' = some m := by rw [hm q' this (r.ltm e1)]; exact e1
    simp only [srcMem, e1', if_pos e2, e3]

theorem Gives.ne_null {h : Heap} {p n : Nat} {source : Src} {bytes : List UInt8} (g : Gives h p source bytes n) : source ≠ .null := by
  intro e; subst e; exact g.2

end CUtil.BufferHeap
