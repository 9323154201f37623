import Verif.StringHeap.Spec
import Verif.Strings.Props
set_option linter.unusedSimpArgs false
set_option linter.unusedVariables false
namespace CUtil.StringHeap
open CUtil CUtil.Conc
open CUtil.Strings (SIZE_MAX allocs slen Fmt)

theorem upd_upd {α : Type} (f : Nat → α) (t : Nat) (v w : α) : upd (upd f t v) t w = upd f t w := by
  funext u; simp only [upd]; split <;> rfl

theorem upd_id {α : Type} (f : Nat → α) (t : Nat) (v : α) (h : f t = v) : upd f t v = f := by
  funext u; simp only [upd]; split
  · rename_i e; rw [e, h]
  · rfl

/-- The string `p`, which had the block `q`, has a new one. -/
def moved (h : Heap) (p q : Nat) (m : Mem) : Heap := ⟨upd h.st p (some (some h.next)), upd (upd h.mem q none) h.next (some m), h.next + 1⟩

/-- The block `q` is written to. -/
def inPlace (h : Heap) (q : Nat) (m : Mem) : Heap := ⟨h.st, upd h.mem q (some m), h.next⟩

/-- A structure was allocated. -/
def alloced (h : Heap) : Heap := ⟨upd h.st h.next (some none), h.mem, h.next + 1⟩

/-- There is a new string with a block. -/
def fresh2 (h : Heap) (m : Mem) : Heap := ⟨upd h.st h.next (some (some (h.next + 1))), upd h.mem (h.next + 1) (some m), h.next + 1 + 1⟩

/-- The structure was allocated and freed again. -/
def wasted (h : Heap) (n : Nat) : Heap := ⟨h.st, h.mem, n⟩

variable {h : Heap} {W U : Nat → Option Mem}

theorem Rep.ne0 (r : Rep h W U) {p b} (hp : W p = some b) : p ≠ 0 := by
  intro e; subst e
  obtain ⟨q, h1, _⟩ := r.live 0 b hp
  rw [r.null.1] at h1; cases h1

theorem Rep.lt (r : Rep h W U) {p x} (hp : h.st p = some x) : p < h.next := by
  apply Nat.lt_of_not_le
  intro e
  rw [(r.fresh p e).1] at hp; cases hp

theorem Rep.ltm (r : Rep h W U) {q x} (hp : h.mem q = some x) : q < h.next := by
  apply Nat.lt_of_not_le
  intro e
  rw [(r.fresh q e).2] at hp; cases hp

theorem Rep.W0 (r : Rep h W U) : W 0 = none := by
  cases e : W 0 with
  | none => rfl
  | some b => exact absurd rfl (r.ne0 e)

theorem Rep.U0 (r : Rep h W U) : U 0 = none := by
  cases e : U 0 with
  | none => rfl
  | some b =>
    have := (r.user 0 b e).1
    rw [r.null.2.1] at this; cases this

theorem Rep.Wst (r : Rep h W U) {p q} (e : h.st p = some q) : ∃ b, W p = some b := by
  cases w : W p with
  | none => rw [r.dead p w] at e; cases e
  | some b => exact ⟨b, rfl⟩

/-- A pointer of a structure is to a block. -/
theorem Rep.blk (r : Rep h W U) {p q} (e : h.st p = some (some q)) : q ≠ 0 ∧ ∃ m, h.mem q = some m ∧ W p = some m := by
  obtain ⟨b, w⟩ := r.Wst e
  obtain ⟨q', e1, e2, e3⟩ := r.live p b w
  rw [e] at e1; cases e1
  exact ⟨e2, b, e3, w⟩

theorem Rep.moved (r : Rep h W U) {p q : Nat} (hst : h.st p = some (some q)) (m : Mem) : Rep (moved h p q m) (upd W p (some m)) U := by
  have hn := r.null
  obtain ⟨q0, m0, hm, hw⟩ := r.blk hst
  have hq := r.ltm hm
  have hpl := r.lt hst
  unfold StringHeap.moved
  refine ⟨?_, ?_, ?_, ?_, ?_, ?_, ?_⟩
  · intro p' b' e
    simp only [upd_apply] at e ⊢
    split at e
    · rename_i x; subst x; cases e
      exact ⟨h.next, by simp, by omega, by simp⟩
    · rename_i ne
      obtain ⟨q', f1, f2, f3⟩ := r.live p' b' e
      have a1 : q' ≠ q := fun x => ne (r.sep _ _ _ f1 (x ▸ hst))
      have a2 : q' ≠ h.next := Nat.ne_of_lt (r.ltm f3)
      exact ⟨q', by simp [ne, f1], f2, by simp [a1, a2, f3]⟩
  · intro p' e
    simp only [upd_apply] at e ⊢
    split at e
    · cases e
    · rename_i ne; simp [ne, r.dead p' e]
  · intro p1 p2 q' e1 e2
    have nx : ∀ p', h.st p' = some (some q') → q' ≠ h.next := by
      intro p' e
      obtain ⟨_, m', hm', _⟩ := r.blk e
      exact Nat.ne_of_lt (r.ltm hm')
    simp only [upd_apply] at e1 e2
    split at e1 <;> split at e2
    · simp_all
    · cases e1; exact absurd rfl (nx _ e2)
    · cases e2; exact absurd rfl (nx _ e1)
    · exact r.sep _ _ _ e1 e2
  · intro q' m' e
    obtain ⟨f1, f2⟩ := r.user q' m' e
    have a1 : q' ≠ q := fun x => f2 p (x ▸ hst)
    have a2 : q' ≠ h.next := Nat.ne_of_lt (r.ltm f1)
    refine ⟨by simp [upd_apply, a1, a2, f1], fun p' => ?_⟩
    simp only [upd_apply]
    split
    · simp; exact fun x => a2 x.symm
    · exact f2 p'
  · intro q' m' e
    simp only [upd_apply] at e ⊢
    split at e
    · rename_i x; subst x
      exact .inl ⟨p, by simp⟩
    · split at e
      · cases e
      · rename_i x y
        rcases r.owned q' m' e with ⟨p', f⟩ | f
        · refine .inl ⟨p', ?_⟩
          have : p' ≠ p := by
            intro z; subst z; rw [hst] at f; cases f; exact y rfl
          simp [this, f]
        · exact .inr f
  · intro p' e
    have e' : h.next + 1 ≤ p' := e
    have a1 : p' ≠ p := by omega
    have a2 : p' ≠ h.next := by omega
    have a3 : p' ≠ q := by omega
    obtain ⟨f1, f2⟩ := r.fresh p' (by omega)
    simp [upd_apply, a1, a2, a3, f1, f2]
  · have a1 : 0 ≠ p := fun x => r.ne0 hw x.symm
    have a2 : 0 ≠ h.next := by omega
    refine ⟨by simp [upd_apply, a1, hn.1], by simp [upd_apply, a2, hn.2.1], by simp⟩

theorem Rep.inPlace (r : Rep h W U) {p q : Nat} (hst : h.st p = some (some q)) (m : Mem) : Rep (inPlace h q m) (upd W p (some m)) U := by
  have hn := r.null
  obtain ⟨q0, m0, hm, hw⟩ := r.blk hst
  have hq := r.ltm hm
  unfold StringHeap.inPlace
  refine ⟨?_, ?_, r.sep, ?_, ?_, ?_, ?_⟩
  · intro p' b' e
    simp only [upd_apply] at e ⊢
    split at e
    · rename_i x; subst x; cases e
      exact ⟨q, hst, q0, by simp⟩
    · rename_i ne
      obtain ⟨q', f1, f2, f3⟩ := r.live p' b' e
      have a1 : q' ≠ q := fun x => ne (r.sep _ _ _ f1 (x ▸ hst))
      exact ⟨q', f1, f2, by simp [a1, f3]⟩
  · intro p' e
    simp only [upd_apply] at e
    split at e
    · cases e
    · exact r.dead p' e
  · intro q' m' e
    obtain ⟨f1, f2⟩ := r.user q' m' e
    have a1 : q' ≠ q := fun x => f2 p (x ▸ hst)
    exact ⟨by simp [upd_apply, a1, f1], f2⟩
  · intro q' m' e
    simp only [upd_apply] at e
    split at e
    · rename_i x; subst x; exact .inl ⟨p, hst⟩
    · exact r.owned q' m' e
  · intro p' e
    have e' : h.next ≤ p' := e
    obtain ⟨f1, f2⟩ := r.fresh p' (by omega)
    have : p' ≠ q := by omega
    simp [upd_apply, this, f1, f2]
  · exact ⟨hn.1, by simp [upd_apply, Ne.symm q0, hn.2.1], hn.2.2⟩

/-- A structure at a fresh address is given the block `q`, which is fresh as well or was the user's. -/
theorem Rep.attach (r : Rep h W U) {q : Nat} (m : Mem) (q0 : q ≠ 0) (qn : q ≠ h.next) (n : Nat) (hn' : h.next < n ∧ q < n)
    (hq : ∀ p, h.st p ≠ some (some q)) :
    Rep ⟨upd h.st h.next (some (some q)), upd h.mem q (some m), n⟩ (upd W h.next (some m)) (upd U q none) := by
  have hn := r.null
  refine ⟨?_, ?_, ?_, ?_, ?_, ?_, ?_⟩
  · intro p' b' e
    simp only [upd_apply] at e ⊢
    split at e
    · rename_i x; subst x; cases e
      exact ⟨q, by simp, q0, by simp⟩
    · rename_i ne
      obtain ⟨q', f1, f2, f3⟩ := r.live p' b' e
      have : q' ≠ q := fun x => hq p' (x ▸ f1)
      exact ⟨q', by simp [ne, f1], f2, by simp [this, f3]⟩
  · intro p' e
    simp only [upd_apply] at e ⊢
    split at e
    · cases e
    · rename_i ne; simp [ne, r.dead p' e]
  · intro p1 p2 q' e1 e2
    simp only [upd_apply] at e1 e2
    split at e1 <;> split at e2
    · simp_all
    · cases e1; exact absurd e2 (hq _)
    · cases e2; exact absurd e1 (hq _)
    · exact r.sep _ _ _ e1 e2
  · intro q' m' e
    simp only [upd_apply] at e ⊢
    split at e
    · cases e
    · rename_i ne
      obtain ⟨f1, f2⟩ := r.user q' m' e
      refine ⟨by simp [ne, f1], fun p' => ?_⟩
      split
      · simp; exact fun x => ne x.symm
      · exact f2 p'
  · intro q' m' e
    simp only [upd_apply] at e ⊢
    split at e
    · rename_i x; subst x; exact .inl ⟨h.next, by simp⟩
    · rename_i ne
      rcases r.owned q' m' e with ⟨p', f⟩ | f
      · have := r.lt f
        exact .inl ⟨p', by rw [if_neg (by omega)]; exact f⟩
      · exact .inr (by simp [ne, f])
  · intro p' e
    have e' : n ≤ p' := e
    have a1 : p' ≠ h.next := by omega
    have a2 : p' ≠ q := by omega
    obtain ⟨f1, f2⟩ := r.fresh p' (by omega)
    simp [upd_apply, a1, a2, f1, f2]
  · have a1 : 0 ≠ h.next := by omega
    exact ⟨by simp [upd_apply, a1, hn.1], by simp [upd_apply, Ne.symm q0, hn.2.1], by simp; omega⟩

theorem Rep.fresh2 (r : Rep h W U) (m : Mem) : Rep (fresh2 h m) (upd W h.next (some m)) U := by
  have hU : U (h.next + 1) = none := by
    cases e : U (h.next + 1) with
    | none => rfl
    | some x =>
      have := r.ltm (r.user _ _ e).1
      omega
  have := r.attach (q := h.next + 1) m (by omega) (by omega) (h.next + 1 + 1) (by omega) (fun p e => by
    have := r.ltm (r.blk e).2.choose_spec.1
    omega)
  rwa [upd_id U _ none hU] at this

/-- The string `p` is deleted. -/
theorem Rep.delete (r : Rep h W U) {p q : Nat} (hst : h.st p = some (some q)) : Rep ⟨upd h.st p none, upd h.mem q none, h.next⟩ (upd W p none) U := by
  have hn := r.null
  refine ⟨?_, ?_, ?_, ?_, ?_, ?_, ?_⟩
  · intro p' b' e
    simp only [upd_apply] at e ⊢
    split at e
    · cases e
    · rename_i ne
      obtain ⟨q', f1, f2, f3⟩ := r.live p' b' e
      have a1 : q' ≠ q := fun x => ne (r.sep _ _ _ f1 (x ▸ hst))
      exact ⟨q', by simp [ne, f1], f2, by simp [a1, f3]⟩
  · intro p' e
    simp only [upd_apply] at e ⊢
    split at e
    · rename_i x; simp [x]
    · rename_i ne; simp [ne, r.dead p' e]
  · intro p1 p2 q' e1 e2
    simp only [upd_apply] at e1 e2
    split at e1 <;> split at e2
    · simp_all
    · cases e1
    · cases e2
    · exact r.sep _ _ _ e1 e2
  · intro q' m' e
    obtain ⟨f1, f2⟩ := r.user q' m' e
    have a1 : q' ≠ q := fun x => f2 p (x ▸ hst)
    refine ⟨by simp [upd_apply, a1, f1], fun p' => ?_⟩
    simp only [upd_apply]
    split
    · simp
    · exact f2 p'
  · intro q' m' e
    simp only [upd_apply] at e ⊢
    split at e
    · cases e
    · rename_i y
      rcases r.owned q' m' e with ⟨p', f⟩ | f
      · refine .inl ⟨p', ?_⟩
        have : p' ≠ p := by
          intro z; subst z; rw [hst] at f; cases f; exact y rfl
        simp [this, f]
      · exact .inr f
  · intro p' e
    have e' : h.next ≤ p' := e
    obtain ⟨f1, f2⟩ := r.fresh p' (by omega)
    simp only [upd_apply]; constructor <;> split <;> simp [f1, f2]
  · refine ⟨?_, ?_, hn.2.2⟩ <;> simp only [upd_apply] <;> split <;> simp [hn]

theorem Rep.wasted (r : Rep h W U) (n : Nat) (hn : h.next ≤ n) : Rep (wasted h n) W U :=
  ⟨r.live, r.dead, r.sep, r.user, r.owned, fun p hp => r.fresh p (Nat.le_trans hn hp), r.null.1, r.null.2.1, Nat.lt_of_lt_of_le r.null.2.2 hn⟩

/-- The user gets a block. -/
theorem Rep.userNew (r : Rep h W U) (m : Mem) : Rep ⟨h.st, upd h.mem h.next (some m), h.next + 1⟩ W (upd U h.next (some m)) := by
  have hn := r.null
  refine ⟨?_, r.dead, r.sep, ?_, ?_, ?_, ?_⟩
  · intro p' b' e
    obtain ⟨q', f1, f2, f3⟩ := r.live p' b' e
    exact ⟨q', f1, f2, by dsimp only; rw [upd_ne _ _ (Nat.ne_of_lt (r.ltm f3))]; exact f3⟩
  · intro q' m' e
    simp only [upd_apply] at e ⊢
    split at e
    · rename_i x; subst x; cases e
      exact ⟨by simp, fun p x => absurd (r.ltm (r.blk x).2.choose_spec.1) (Nat.lt_irrefl _)⟩
    · rename_i ne
      obtain ⟨f1, f2⟩ := r.user q' m' e
      exact ⟨by simp [ne, f1], f2⟩
  · intro q' m' e
    simp only [upd_apply] at e ⊢
    split at e
    · rename_i x; subst x; cases e; exact .inr (by simp)
    · rename_i ne
      rcases r.owned q' m' e with f | f
      · exact .inl f
      · exact .inr (by simp [ne, f])
  · intro p' e
    have e' : h.next + 1 ≤ p' := e
    obtain ⟨f1, f2⟩ := r.fresh p' (by omega)
    exact ⟨f1, by dsimp only; rw [upd_ne _ _ (by omega)]; exact f2⟩
  · exact ⟨hn.1, by dsimp only; rw [upd_ne _ _ (by omega)]; exact hn.2.1, by simp⟩

/-- The user frees one of their blocks. -/
theorem Rep.userFree (r : Rep h W U) {q : Nat} {m : Mem} (hq : U q = some m) : Rep ⟨h.st, upd h.mem q none, h.next⟩ W (upd U q none) := by
  have hn := r.null
  obtain ⟨u1, u2⟩ := r.user q m hq
  refine ⟨?_, r.dead, r.sep, ?_, ?_, ?_, ?_⟩
  · intro p' b' e
    obtain ⟨q', f1, f2, f3⟩ := r.live p' b' e
    have : q' ≠ q := fun x => u2 p' (x ▸ f1)
    exact ⟨q', f1, f2, by simp [upd_apply, this, f3]⟩
  · intro q' m' e
    simp only [upd_apply] at e ⊢
    split at e
    · cases e
    · rename_i ne
      obtain ⟨f1, f2⟩ := r.user q' m' e
      exact ⟨by simp [ne, f1], f2⟩
  · intro q' m' e
    simp only [upd_apply] at e ⊢
    split at e
    · cases e
    · rename_i ne
      rcases r.owned q' m' e with f | f
      · exact .inl f
      · exact .inr (by simp [ne, f])
  · intro p' e
    have e' : h.next ≤ p' := e
    obtain ⟨f1, f2⟩ := r.fresh p' (by omega)
    refine ⟨f1, ?_⟩
    simp only [upd_apply]; split <;> simp [f2]
  · refine ⟨hn.1, ?_, hn.2.2⟩
    simp only [upd_apply]; split <;> simp [hn]

/-! ### The steps of the functions -/

theorem Gives.ne_null {p : Nat} {source : Src} {m : Mem} (g : Gives h p source m) : source ≠ .null := by
  intro e; subst e; exact g

theorem Gives.src {p : Nat} {source : Src} {m : Mem} (g : Gives h p source m) : srcMem h source = C.ok m := by
  cases source with
  | null => exact g.elim
  | ext m' => simp only [Gives] at g; subst g; rfl
  | blk q off =>
    obtain ⟨m', e1, e2, e3, _⟩ := g
    simp [srcMem, e1, e2, e3]

/-- A block as a source. -/
theorem src_blk {q : Nat} {m : Mem} (hm : h.mem q = some m) : srcMem h (.blk q 0) = C.ok m := by simp [srcMem, hm]

theorem strlen_of {s : Src} {m : Mem} (e : srcMem h s = C.ok m) : strlen h s = slen m := by simp [strlen, e]

theorem getS_of {p q : Nat} (hst : h.st p = some (some q)) : getS h p = C.ok q := by simp [getS, hst]

theorem realloc_of {q : Nat} {m : Mem} (q0 : q ≠ 0) (hm : h.mem q = some m) (n : Nat) (a : Bool) :
    reallocB h q n a =
      if allocs a n then C.ok (⟨h.st, upd (upd h.mem q none) h.next (some (reallocMem m n)), h.next + 1⟩, h.next) else C.ok (h, 0) := by
  simp [reallocB, q0, hm]

theorem setS_moved {p q x : Nat} (hst : h.st p = some (some q)) (m : Mem) :
    setS ⟨h.st, upd (upd h.mem q none) h.next (some m), h.next + 1⟩ p h.next = C.ok (StringHeap.moved h p q m) := by
  simp [setS, hst, StringHeap.moved]

theorem getS_moved (p q : Nat) (m : Mem) : getS (StringHeap.moved h p q m) p = C.ok h.next := by simp [getS, StringHeap.moved]

theorem onBlock_moved (p q : Nat) (m : Mem) (f : Mem → C Mem) :
    onBlock (StringHeap.moved h p q m) h.next f = (do let m' ← f m; C.ok (StringHeap.moved h p q m')) := by
  simp [onBlock, StringHeap.moved, upd_upd]

theorem Gives.src_moved (r : Rep h W U) {p q : Nat} (hst : h.st p = some (some q)) {source : Src} {ms : Mem} (g : Gives h p source ms) (m : Mem) :
    srcMem (StringHeap.moved h p q m) source = C.ok ms := by
  cases source with
  | null => exact g.elim
  | ext m' => simp only [Gives] at g; subst g; rfl
  | blk q' off =>
    obtain ⟨m', e1, e2, e3, e4⟩ := g
    have a1 : q' ≠ q := fun x => e4 (x ▸ hst)
    have a2 : q' ≠ h.next := Nat.ne_of_lt (r.ltm e1)
    simp [srcMem, StringHeap.moved, upd_apply, a1, a2, e1, e2, e3]

theorem copyIn_ne {h1 : Heap} {q d n : Nat} {source : Src} {ms : Mem} (hs : srcMem h1 source = C.ok ms) (hq : ∀ off, source ≠ .blk q off) :
    copyIn h1 q d source n = onBlock h1 q (fun m => memcpy m d ms 0 n) := by
  unfold copyIn
  cases source with
  | null => cases hs
  | ext m' => simp only [hs, C.ok_bind]
  | blk q' off =>
    have : q' ≠ q := fun x => hq off (by rw [x])
    simp only [if_neg this, hs, C.ok_bind]

theorem Gives.not_at (r : Rep h W U) {p : Nat} {source : Src} {ms : Mem} (g : Gives h p source ms) {x : Nat} (hx : h.next ≤ x) (off : Nat) :
    source ≠ .blk x off := by
  intro e; subst e
  obtain ⟨m', e1, _⟩ := g
  have := r.ltm e1
  omega

theorem copyIn_moved (r : Rep h W U) {p q : Nat} (hst : h.st p = some (some q)) {source : Src} {ms : Mem} (g : Gives h p source ms) (m : Mem) (d n : Nat) :
    copyIn (StringHeap.moved h p q m) h.next d source n = (do let m' ← memcpy m d ms 0 n; C.ok (StringHeap.moved h p q m')) := by
  rw [copyIn_ne (g.src_moved r hst m) (g.not_at r (Nat.le_refl _)), onBlock_moved]

theorem mallocS_true (h : Heap) : mallocS h true = (alloced h, h.next) := rfl
theorem mallocS_false (h : Heap) : mallocS h false = (h, 0) := rfl

theorem mallocB_of (h : Heap) (n : Nat) (a : Bool) :
    mallocB (alloced h) n a = if allocs a n then (⟨upd h.st h.next (some none), upd h.mem (h.next + 1) (some (uninit n)), h.next + 1 + 1⟩, h.next + 1) else (alloced h, 0) := by
  simp [mallocB, alloced]

theorem setS_fresh (h : Heap) (m : Mem) :
    setS ⟨upd h.st h.next (some none), upd h.mem (h.next + 1) (some m), h.next + 1 + 1⟩ h.next (h.next + 1) = C.ok (StringHeap.fresh2 h m) := by
  simp [setS, StringHeap.fresh2, upd_upd]

theorem setS_alloced (h : Heap) (q : Nat) : setS (alloced h) h.next q = C.ok ⟨upd h.st h.next (some (some q)), h.mem, h.next + 1⟩ := by
  simp [setS, alloced, upd_upd]

theorem getS_fresh (h : Heap) (m : Mem) : getS (StringHeap.fresh2 h m) h.next = C.ok (h.next + 1) := by simp [getS, StringHeap.fresh2]

theorem onBlock_fresh (h : Heap) (m : Mem) (f : Mem → C Mem) :
    onBlock (StringHeap.fresh2 h m) (h.next + 1) f = (do let m' ← f m; C.ok (StringHeap.fresh2 h m')) := by
  simp [onBlock, StringHeap.fresh2, upd_upd]

theorem Gives.src_alloced (r : Rep h W U) {p : Nat} {source : Src} {ms : Mem} (g : Gives h p source ms) : srcMem (alloced h) source = C.ok ms := by
  have := g.src
  cases source <;> simpa [srcMem, alloced] using this

theorem Gives.src_fresh (r : Rep h W U) {p : Nat} {source : Src} {ms : Mem} (g : Gives h p source ms) (m : Mem) : srcMem (StringHeap.fresh2 h m) source = C.ok ms := by
  cases source with
  | null => exact g.elim
  | ext m' => simp only [Gives] at g; subst g; rfl
  | blk q' off =>
    obtain ⟨m', e1, e2, e3, e4⟩ := g
    have a2 : q' ≠ h.next + 1 := by have := r.ltm e1; omega
    simp [srcMem, StringHeap.fresh2, upd_apply, a2, e1, e2, e3]

theorem copyIn_fresh (r : Rep h W U) {p : Nat} {source : Src} {ms : Mem} (g : Gives h p source ms) (m : Mem) (d n : Nat) :
    copyIn (StringHeap.fresh2 h m) (h.next + 1) d source n = (do let m' ← memcpy m d ms 0 n; C.ok (StringHeap.fresh2 h m')) := by
  rw [copyIn_ne (g.src_fresh r m) (g.not_at r (Nat.le_succ _)), onBlock_fresh]

theorem freeS_alloced (r : Rep h W U) (x : Option Nat) : freeS ⟨upd h.st h.next (some x), h.mem, h.next + 1⟩ h.next = C.ok (StringHeap.wasted h (h.next + 1)) := by
  have : h.next ≠ 0 := by have := r.null.2.2; omega
  simp [freeS, this, upd_upd, StringHeap.wasted]
  exact upd_id _ _ _ (r.fresh _ (Nat.le_refl _)).1

end CUtil.StringHeap
