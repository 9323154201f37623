import Verif.Live
import Verif.CancelToken.Props
set_option linter.unusedSimpArgs false
set_option linter.unusedVariables false
/-
C78: in every fair execution every call on a cancellation token returns, and after a cancel the callbacks registered before are called. Callbacks return and do not themselves register or drop
registrations (that deadlocks: Verif/Dispatcher).
-/
namespace CUtil.CancelToken
open CUtil.Conc CUtil.Live

/-- The thread makes a step in a call that is not the failure of an allocation: a thread that waits for the dispatcher's lock does not come out of it by running out of memory. -/
def Moves (t : Nat) (s s' : Sys) : Prop :=
  Step s s' ∧ s.pc t ≠ .out ∧ s'.pc t ≠ s.pc t ∧ (∀ i, s.pc t = .rAlloc i → s'.pc t = .rReg i) ∧ (∀ i, s.pc t = .rReg i → s'.pc t = .rOk i)

/-- A fair execution: a thread that can go on all the time does so in the end. -/
structure FairRun (c : Bool) (σ : Nat → Sys) : Prop where
  run : Run (Reach c) Step σ
  fair : ∀ t, Fair (Moves t) σ

/-- During the dispatch the cancelling thread is at it. -/
def InvA (s : Sys) : Prop := s.phase = 2 → ∃ rest, s.pc s.winner = .cAt rest

set_option maxHeartbeats 4000000 in
theorem invA_step {c : Bool} {s s' : Sys} (hs : InvS c s) (h : InvA s) (st : Step s s') : InvA s' := by
  have s1 := hs.lock
  have s2 := hs.at_
  have s3 := hs.nc
  clear hs
  unfold InvA at *
  cases st with
  | cLock t e =>
    intro _
    have hw := ((s1 t).1 e).2
    exact ⟨_, by rw [show s.winner = t from hw]; exact upd_self ..⟩
  | _ => simp only [upd]; grind

structure InvF (c : Bool) (s : Sys) : Prop where
  st : InvS c s
  l : InvL s
  d : InvD s
  a : InvA s

theorem invF_reach {c : Bool} {s : Sys} (r : Reach c s) : InvF c s := by
  obtain ⟨h1, h2, h3⟩ := inv_reach r
  refine ⟨h1, h2, h3, ?_⟩
  clear h1 h2 h3
  induction r with
  | init => intro h; simp [init] at h
  | step r st ih => exact invA_step (inv_reach r).1 ih st

variable {c : Bool} {σ : Nat → Sys}

theorem FairRun.inv (h : FairRun c σ) (i : Nat) : InvF c (σ i) := invF_reach (h.run.reach (fun _ _ r st => r.step st) i)

/-- The place does not wait for the lock. -/
def Goes (p : Pc) : Prop := p ≠ .out ∧ (∀ i, p ≠ .rReg i) ∧ ∀ i, p ≠ .uRem i

theorem goes_enabled {s : Sys} {t : Nat} (hp : Goes (s.pc t)) : Enabled (Moves t) s := by
  obtain ⟨p1, p2, p3⟩ := hp
  have mv : ∀ q, s.pc t ≠ q → (upd s.pc t q) t ≠ s.pc t := fun q hq => by rw [upd_self]; exact Ne.symm hq
  cases e : s.pc t with
  | out => exact absurd e p1
  | rReg i => exact absurd e (p2 i)
  | uRem i => exact absurd e (p3 i)
  | rRead i =>
    cases hc : s.canceled with
    | true => exact ⟨_, .rReadCanceled s t i e hc, p1, mv _ (by simp [e]), by simp [e], by simp [e]⟩
    | false => exact ⟨_, .rReadNot s t i e hc, p1, mv _ (by simp [e]), by simp [e], by simp [e]⟩
  | rCall i => exact ⟨_, .rCall s t i e, p1, mv _ (by simp [e]), by simp [e], by simp [e]⟩
  | rAlloc i => exact ⟨_, .rAllocOk s t i e, p1, mv _ (by simp [e]), by simp [e], by simp [e]⟩
  | rOk i => exact ⟨_, .rOk s t i e, p1, mv _ (by simp [e]), by simp [e], by simp [e]⟩
  | rNull i => exact ⟨_, .rNull s t i e, p1, mv _ (by simp [e]), by simp [e], by simp [e]⟩
  | cCas =>
    cases hc : s.canceled with
    | true => exact ⟨_, .cCasFail s t e hc, p1, mv _ (by simp [e]), by simp [e], by simp [e]⟩
    | false => exact ⟨_, .cCasOk s t e hc, p1, mv _ (by simp [e]), by simp [e], by simp [e]⟩
  | cLock => exact ⟨_, .cLock s t e, p1, mv _ (by simp [e]), by simp [e], by simp [e]⟩
  | cAt rest =>
    cases rest with
    | nil => exact ⟨_, .cEnd s t e, p1, mv _ (by simp [e]), by simp [e], by simp [e]⟩
    | cons i rest => exact ⟨_, .cCall s t i rest e, p1, mv _ (by simp [e]), by simp [e], by simp [e]⟩
  | cOk => exact ⟨_, .cOk s t e, p1, mv _ (by simp [e]), by simp [e], by simp [e]⟩
  | cFail => exact ⟨_, .cFail s t e, p1, mv _ (by simp [e]), by simp [e], by simp [e]⟩
  | iRead => exact ⟨_, .iRead s t e, p1, mv _ (by simp [e]), by simp [e], by simp [e]⟩
  | iRet b => exact ⟨_, .iRet s t b e, p1, mv _ (by simp [e]), by simp [e], by simp [e]⟩

theorem wait_enabled {s : Sys} {t : Nat} (hr : s.readers = 0) (hp : (∃ i, s.pc t = .rReg i) ∨ ∃ i, s.pc t = .uRem i) : Enabled (Moves t) s := by
  rcases hp with ⟨i, e⟩ | ⟨i, e⟩
  · exact ⟨_, .rRegOk s t i e hr, by simp [e], by simp [e], by simp [e], by simp [e]⟩
  · exact ⟨_, .uRem s t i e hr, by simp [e], by simp [e], by simp [e], by simp [e]⟩

/-- Where a thread can be next. -/
def Next : Pc → Pc → Prop
  | .rRead i, q => q = .rCall i ∨ q = .rAlloc i
  | .rCall i, q => q = .rNull i
  | .rAlloc i, q => q = .rNull i ∨ q = .rReg i
  | .rReg i, q => q = .rNull i ∨ q = .rOk i
  | .rOk _, q => q = .out
  | .rNull _, q => q = .out
  | .uRem _, q => q = .out
  | .cCas, q => q = .cLock ∨ q = .cFail
  | .cLock, q => ∃ l, q = .cAt l
  | .cAt (_ :: rest), q => q = .cAt rest
  | .cAt [], q => q = .cOk
  | .cOk, q => q = .out
  | .cFail, q => q = .out
  | .iRead, q => ∃ b, q = .iRet b
  | .iRet _, q => q = .out
  | .out, _ => True

theorem step_next {s s' : Sys} (st : Step s s') (t : Nat) : s'.pc t = s.pc t ∨ Next (s.pc t) (s'.pc t) := by
  cases st <;> simp only [upd] <;> split <;> (first | exact Or.inl rfl | (rename_i hu; subst hu; rename_i e; right; simp [e, Next]) | (rename_i hu; subst hu; right; simp_all [Next]))

/-- A thread that does not wait for the lock goes on. -/
theorem goes_on (h : FairRun c σ) (t : Nat) (p : Pc) (hp : Goes p) : LeadsTo σ (fun s => s.pc t = p) (fun s => Next p (s.pc t)) :=
  ensures h.inv h.run.next (h.fair t)
    (fun s s' hi e st => by
      rcases step_next st t with h1 | h1
      · exact .inl (h1.trans e)
      · exact .inr (e ▸ h1))
    (fun s hi e => goes_enabled (e ▸ hp))
    (fun s s' hi e m => by
      rcases step_next m.1 t with h1 | h1
      · exact absurd h1 m.2.2.1
      · exact e ▸ h1)

theorem phase_mono {c : Bool} {s s' : Sys} (hi : InvF c s) (st : Step s s') : s.phase ≤ s'.phase := by
  have a1 := hi.st.nc
  have a2 := hi.st.at_
  have a3 := hi.st.lock
  clear hi
  cases st <;> simp only [] <;> grind

set_option maxHeartbeats 1000000 in
theorem winner_stays {c : Bool} {s s' : Sys} (hi : InvF c s) (st : Step s s') (hp : 1 ≤ s.phase) : s'.winner = s.winner := by
  have a1 := hi.st.nc
  clear hi
  cases st <;> simp only [] <;> grind

/-- The dispatch comes to its end. -/
theorem dispatch_ends (h : FairRun c σ) : LeadsTo σ (fun s => 1 ≤ s.phase) (fun s => s.phase = 3) := by
  have h3 : ∀ {s : Sys}, InvF c s → s.phase ≤ 3 := by
    intro s hi
    cases c with
    | true => have := hi.st.ph rfl; omega
    | false =>
      cases hc : s.canceled with
      | true => exact (hi.st.pc1 rfl hc).2
      | false => have := hi.st.nc hc; omega
  -- the lock is acquired
  have l1 : ∀ w, LeadsTo σ (fun s => s.phase = 1 ∧ s.winner = w) (fun s => s.phase = 3 ∨ (s.phase = 2 ∧ s.winner = w)) := by
    intro w
    refine ensures2 h.inv h.run.next (h.fair w) (fun s s' hi hi' ⟨e1, e2⟩ st => ?_) (fun s hi ⟨e1, e2⟩ => ?_) (fun s s' hi hi' ⟨e1, e2⟩ m => ?_)
    · have hm := phase_mono hi st
      have hw := winner_stays hi st (by omega)
      have := h3 hi'
      by_cases hq : s'.phase = 1
      · exact .inl ⟨hq, hw.trans e2⟩
      · by_cases hq : s'.phase = 2
        · exact .inr (.inr ⟨hq, hw.trans e2⟩)
        · exact .inr (.inl (by omega))
    · refine goes_enabled ?_
      rw [(hi.st.lock w).2 ⟨e1, e2⟩]
      exact ⟨by simp, by simp, by simp⟩
    · have el := (hi.st.lock w).2 ⟨e1, e2⟩
      have hw := winner_stays hi m.1 (by omega)
      rcases step_next m.1 w with h1 | h1
      · exact absurd h1 m.2.2.1
      · rw [el] at h1
        obtain ⟨l, h1⟩ := h1
        exact .inr (hi'.st.at_ w l h1)
  -- the targets are called
  have l2 : ∀ w, LeadsTo σ (fun s => s.phase = 2 ∧ s.winner = w) (fun s => s.phase = 3) := by
    intro w
    refine .rank (fun s => match s.pc w with | .cAt rest => rest.length | _ => 0) fun n => ?_
    refine ensures2 h.inv h.run.next (h.fair w) (fun s s' hi hi' ⟨⟨e1, e2⟩, en⟩ st => ?_) (fun s hi ⟨⟨e1, e2⟩, en⟩ => ?_) (fun s s' hi hi' ⟨⟨e1, e2⟩, en⟩ m => ?_)
    · have hm := phase_mono hi st
      have hw := winner_stays hi st (by omega)
      have := h3 hi'
      by_cases hq : s'.phase = 3
      · exact .inr (.inl hq)
      · have hq : s'.phase = 2 := by omega
        obtain ⟨rest, ep⟩ := hi.a e1
        rw [e2] at ep
        rcases step_next st w with h1 | h1
        · left; exact ⟨⟨hq, hw.trans e2⟩, by rw [h1]; exact en⟩
        · rw [ep] at h1 en
          cases rest with
          | nil => have := hi'.st.ok w h1; omega
          | cons i rest =>
            right; right
            have h1 : s'.pc w = .cAt rest := h1
            rw [h1]
            exact ⟨⟨hq, hw.trans e2⟩, by subst en; simp⟩
    · obtain ⟨rest, ep⟩ := hi.a e1
      rw [e2] at ep
      exact goes_enabled (by rw [ep]; exact ⟨by simp, by simp, by simp⟩)
    · obtain ⟨rest, ep⟩ := hi.a e1
      rw [e2] at ep
      have hw := winner_stays hi m.1 (by omega)
      rcases step_next m.1 w with h1 | h1
      · exact absurd h1 m.2.2.1
      · rw [ep] at h1 en
        cases rest with
        | nil => exact .inl (hi'.st.ok w h1).1
        | cons i rest =>
          right
          have h1 : s'.pc w = .cAt rest := h1
          rw [h1]
          exact ⟨hi'.st.at_ w rest h1, by subst en; simp⟩
  intro i hp
  have hi := h3 (h.inv i)
  by_cases e3 : (σ i).phase = 3
  · exact ⟨i, Nat.le_refl i, e3⟩
  · by_cases e2 : (σ i).phase = 2
    · exact l2 _ i ⟨e2, rfl⟩
    · exact ((l1 _).chain (l2 _)) i ⟨by omega, rfl⟩

/-- A thread that waits for the lock gets it: there is at most one dispatch in the life of the token. -/
theorem wait_ends (h : FairRun c σ) (t : Nat) (p : Pc) (hp : (∃ i, p = .rReg i) ∨ ∃ i, p = .uRem i) : LeadsTo σ (fun s => s.pc t = p) (fun s => Next p (s.pc t)) := by
  have en : ∀ s, InvF c s → s.phase ≠ 2 → s.pc t = p → Enabled (Moves t) s := fun s hi hph e => by
    refine wait_enabled (by rw [hi.st.rd, if_neg hph]) ?_
    rw [e]; exact hp
  have dn : ∀ s s', s.pc t = p → Moves t s s' → Next p (s'.pc t) := fun s s' e m => by
    rcases step_next m.1 t with h1 | h1
    · exact absurd h1 m.2.2.1
    · exact e ▸ h1
  have h3 : LeadsTo σ (fun s => s.pc t = p ∧ s.phase = 3) (fun s => Next p (s.pc t)) := by
    refine ensures2 h.inv h.run.next (h.fair t) (fun s s' hi hi' ⟨e1, e2⟩ st => ?_) (fun s hi ⟨e1, e2⟩ => en s hi (by omega) e1) (fun s s' hi _ ⟨e1, _⟩ m => dn s s' e1 m)
    have hm := phase_mono hi st
    have : s'.phase = 3 := by
      cases c with
      | true => have := hi.st.ph rfl; omega
      | false =>
        cases hc : s'.canceled with
        | true => have := (hi'.st.pc1 rfl hc).2; omega
        | false => have := hi'.st.nc hc; omega
    rcases step_next st t with h1 | h1
    · exact .inl ⟨h1.trans e1, this⟩
    · exact .inr (e1 ▸ h1)
  -- it is where it was, or has gone on, at any later time
  have h2 : LeadsTo σ (fun s => s.pc t = p ∧ 1 ≤ s.phase) (fun s => Next p (s.pc t)) := by
    intro i ⟨e, hph⟩
    obtain ⟨j, hj, ej⟩ := dispatch_ends h i hph
    obtain ⟨k, rfl⟩ := Nat.le.dest hj
    clear hj
    have : ∀ k, (∃ m, i ≤ m ∧ Next p ((σ m).pc t)) ∨ (σ (i + k)).pc t = p := by
      intro k
      induction k with
      | zero => exact .inr e
      | succ k ih =>
        rcases ih with ih | ih
        · exact .inl ih
        · rcases h.run.next (i + k) with st | eq
          · rcases step_next st t with h1 | h1
            · exact .inr (h1.trans ih)
            · exact .inl ⟨i + k + 1, by omega, ih ▸ h1⟩
          · right; rw [show i + (k + 1) = i + k + 1 from rfl, eq]; exact ih
    rcases this k with hq | hq
    · exact hq
    · obtain ⟨m, hm, hn⟩ := h3 (i + k) ⟨hq, ej⟩
      exact ⟨m, by omega, hn⟩
  have h1 : LeadsTo σ (fun s => s.pc t = p ∧ s.phase = 0) (fun s => Next p (s.pc t) ∨ (s.pc t = p ∧ 1 ≤ s.phase)) := by
    refine ensures2 h.inv h.run.next (h.fair t) (fun s s' hi hi' ⟨e1, e2⟩ st => ?_) (fun s hi ⟨e1, e2⟩ => en s hi (by omega) e1) (fun s s' hi _ ⟨e1, _⟩ m => .inl (dn s s' e1 m))
    rcases step_next st t with h1 | h1
    · by_cases hq : s'.phase = 0
      · exact .inl ⟨h1.trans e1, hq⟩
      · exact .inr (.inr ⟨h1.trans e1, by omega⟩)
    · exact .inr (.inl (e1 ▸ h1))
  intro i e
  by_cases hq : (σ i).phase = 0
  · exact (h1.chain h2) i ⟨e, hq⟩
  · exact h2 i ⟨e, by omega⟩

theorem place_goes_on (h : FairRun c σ) (t : Nat) (p : Pc) (hp : p ≠ .out) : LeadsTo σ (fun s => s.pc t = p) (fun s => Next p (s.pc t)) := by
  by_cases hg : Goes p
  · exact goes_on h t p hg
  · refine wait_ends h t p ?_
    cases p <;> simp_all [Goes]

/-- **Every call on the token returns.** -/
theorem call_returns (h : FairRun c σ) (t : Nat) : LeadsTo σ (fun s => s.pc t ≠ .out) (fun s => s.pc t = .out) := by
  have one : ∀ (p : Pc), p ≠ .out → (∀ q, Next p q → LeadsTo σ (fun s => s.pc t = q) (fun s => s.pc t = .out)) → LeadsTo σ (fun s => s.pc t = p) (fun s => s.pc t = .out) := by
    intro p hp hn i e
    obtain ⟨j, hj, hq⟩ := place_goes_on h t p hp i e
    obtain ⟨k, hk, hr⟩ := hn _ hq j rfl
    exact ⟨k, by omega, hr⟩
  have out : ∀ q, q = .out → LeadsTo σ (fun s => s.pc t = q) (fun s => s.pc t = .out) := fun q hq => .of_imp fun s e => e.trans hq
  have rOk : ∀ i, LeadsTo σ (fun s => s.pc t = .rOk i) (fun s => s.pc t = .out) := fun i => one _ (by simp) out
  have rNull : ∀ i, LeadsTo σ (fun s => s.pc t = .rNull i) (fun s => s.pc t = .out) := fun i => one _ (by simp) out
  have rReg : ∀ i, LeadsTo σ (fun s => s.pc t = .rReg i) (fun s => s.pc t = .out) := fun i => one _ (by simp) fun q hq => by
    rcases hq with rfl | rfl
    · exact rNull i
    · exact rOk i
  have rAlloc : ∀ i, LeadsTo σ (fun s => s.pc t = .rAlloc i) (fun s => s.pc t = .out) := fun i => one _ (by simp) fun q hq => by
    rcases hq with rfl | rfl
    · exact rNull i
    · exact rReg i
  have rCall : ∀ i, LeadsTo σ (fun s => s.pc t = .rCall i) (fun s => s.pc t = .out) := fun i => one _ (by simp) fun q hq => by
    cases hq; exact rNull i
  have rRead : ∀ i, LeadsTo σ (fun s => s.pc t = .rRead i) (fun s => s.pc t = .out) := fun i => one _ (by simp) fun q hq => by
    rcases hq with rfl | rfl
    · exact rCall i
    · exact rAlloc i
  have uRem : ∀ i, LeadsTo σ (fun s => s.pc t = .uRem i) (fun s => s.pc t = .out) := fun i => one _ (by simp) out
  have cOk : LeadsTo σ (fun s => s.pc t = .cOk) (fun s => s.pc t = .out) := one _ (by simp) out
  have cFail : LeadsTo σ (fun s => s.pc t = .cFail) (fun s => s.pc t = .out) := one _ (by simp) out
  have cAt : ∀ l, LeadsTo σ (fun s => s.pc t = .cAt l) (fun s => s.pc t = .out) := by
    intro l
    induction l with
    | nil => exact one _ (by simp) fun q hq => by cases hq; exact cOk
    | cons i l ih => exact one _ (by simp) fun q hq => by cases hq; exact ih
  have cLock : LeadsTo σ (fun s => s.pc t = .cLock) (fun s => s.pc t = .out) := one _ (by simp) fun q ⟨l, hq⟩ => by
    cases hq; exact cAt l
  have cCas : LeadsTo σ (fun s => s.pc t = .cCas) (fun s => s.pc t = .out) := one _ (by simp) fun q hq => by
    rcases hq with rfl | rfl
    · exact cLock
    · exact cFail
  have iRet : ∀ b, LeadsTo σ (fun s => s.pc t = .iRet b) (fun s => s.pc t = .out) := fun b => one _ (by simp) out
  have iRead : LeadsTo σ (fun s => s.pc t = .iRead) (fun s => s.pc t = .out) := one _ (by simp) fun q ⟨b, hq⟩ => by
    cases hq; exact iRet b
  intro i hne
  cases e : (σ i).pc t with
  | out => exact absurd e hne
  | rRead j => exact rRead j i e
  | rCall j => exact rCall j i e
  | rAlloc j => exact rAlloc j i e
  | rReg j => exact rReg j i e
  | rOk j => exact rOk j i e
  | rNull j => exact rNull j i e
  | uRem j => exact uRem j i e
  | cCas => exact cCas i e
  | cLock => exact cLock i e
  | cAt l => exact cAt l i e
  | cOk => exact cOk i e
  | cFail => exact cFail i e
  | iRead => exact iRead i e
  | iRet b => exact iRet b i e

theorem before_stays {c : Bool} {s s' : Sys} (hi : InvF c s) (st : Step s s') (hp : 1 ≤ s.phase) : s'.before = s.before := by
  rcases before_is_registered st with h | ⟨h, _⟩
  · exact h
  · have := hi.st.nc h; omega

/-- **After a cancel every callback registered before is called, once, unless its registration was dropped in time.** -/
theorem cancel_notifies (h : FairRun c σ) (i : Nat) : LeadsTo σ (fun s => s.succ = 1 ∧ i ∈ s.before) (fun s => s.called i = 1 ∨ s.disposed i = true) := by
  intro n ⟨e, hb⟩
  have hr : ∀ n, Reach c (σ n) := h.run.reach (fun _ _ r st => r.step st)
  have hph : 1 ≤ (σ n).phase := by
    have hi := (h.inv n).st
    cases c with
    | true => have := (hi.ct rfl).2; omega
    | false =>
      have h1 := hi.cf rfl
      cases hc : (σ n).canceled with
      | true => exact (hi.pc1 rfl hc).1
      | false => rw [hc] at h1; simp at h1; omega
  obtain ⟨m, hm, em⟩ := dispatch_ends h n hph
  obtain ⟨k, rfl⟩ := Nat.le.dest hm
  have keep : ∀ k, 1 ≤ (σ (n + k)).phase ∧ i ∈ (σ (n + k)).before := by
    intro k
    induction k with
    | zero => exact ⟨hph, hb⟩
    | succ k ih =>
      rcases h.run.next (n + k) with st | eq
      · exact ⟨Nat.le_trans ih.1 (phase_mono (h.inv _) st), by rw [show n + (k + 1) = n + k + 1 from rfl, before_stays (h.inv _) st ih.1]; exact ih.2⟩
      · rw [show n + (k + 1) = n + k + 1 from rfl, eq]; exact ih
  refine ⟨n + k, hm, ?_⟩
  rcases (h.inv (n + k)).d.p23 (by omega) i (keep k).2 with hs | hd
  · exact .inl (registered_before_dispatch_called (hr _) em i hs)
  · exact .inr hd

/-- **A registration with a cancelled token is called back by the registering call.** -/
theorem register_notifies (h : FairRun c σ) (t i : Nat) : LeadsTo σ (fun s => s.pc t = .rRead i ∧ s.canceled = true) (fun s => s.called i = 1) := by
  have hr : ∀ n, Reach c (σ n) := h.run.reach (fun _ _ r st => r.step st)
  have l1 : LeadsTo σ (fun s => s.pc t = .rRead i ∧ s.canceled = true) (fun s => s.pc t = .rCall i) := by
    refine ensures (I := fun s => Reach c s) hr h.run.next (h.fair t) (fun s s' hi ⟨e1, e2⟩ st => ?_) (fun s hi ⟨e1, e2⟩ => ?_) (fun s s' hi ⟨e1, e2⟩ m => ?_)
    · rcases (register_after_cancel hi st t i).1 e1 e2 with h1 | h1
      · exact .inl ⟨h1, canceled_stays (.step (.refl s) st) e2⟩
      · exact .inr h1
    · exact goes_enabled (by rw [e1]; exact ⟨by simp, by simp, by simp⟩)
    · rcases (register_after_cancel hi m.1 t i).1 e1 e2 with h1 | h1
      · exact absurd (h1.trans e1.symm) m.2.2.1
      · exact h1
  have l2 : LeadsTo σ (fun s => s.pc t = .rCall i) (fun s => s.called i = 1) := by
    refine ensures (I := fun s => Reach c s) hr h.run.next (h.fair t) (fun s s' hi e1 st => ?_) (fun s hi e1 => ?_) (fun s s' hi e1 m => ?_)
    · rcases (register_after_cancel hi st t i).2 e1 with h1 | h1
      · exact .inl h1
      · exact .inr h1.2
    · exact goes_enabled (by rw [e1]; exact ⟨by simp, by simp, by simp⟩)
    · rcases (register_after_cancel hi m.1 t i).2 e1 with h1 | h1
      · exact absurd (h1.trans e1.symm) m.2.2.1
      · exact h1.2
  exact l1.trans l2

set_option maxHeartbeats 1000000 in
/-- **Once a registration has been dropped (the call that drops it has returned) its callback is not called any more.** -/
theorem silent_after_drop {c : Bool} {s s' : Sys} (r : Reach c s) (st : Step s s') (i : Nat) (hd : s.disposed i = true) : s'.called i = s.called i ∧ s'.disposed i = true := by
  obtain ⟨hS, hL, hD⟩ := inv_reach r
  have a1 := hL.lt
  have a2 := hL.rlt
  have a3 := hD.p2
  have a4 := hD.p2r
  have a5 := hS.at_
  clear hS hL hD r
  cases st <;> simp only [upd] <;> grind [regOf]

/-! ### Fair executions exist -/

/-- Every finite execution that comes to rest is a part of a fair one. -/
theorem fair_run_exists {s e : Sys} (h : Reach c s) (p : Path Step s e) (q : ∀ t, e.pc t = .out) : ∃ σ n, FairRun c σ ∧ σ 0 = s ∧ ∀ j, n ≤ j → σ j = e := by
  obtain ⟨σ, n, r, h0, hn⟩ := exists_run (Step := Step) (fun _ _ r st => Reach.step r st) h p
  exact ⟨σ, n, ⟨r, fun t => fair_of_end hn fun ⟨s', _, h1, _⟩ => h1 (q t)⟩, h0, hn⟩

/-- A callback is registered, then the token is cancelled: the thread that cancels has set the state and called nothing. -/
example : ∃ σ, FairRun false σ ∧ (σ 0).succ = 1 ∧ 0 ∈ (σ 0).before ∧ (σ 0).called 0 = 0 ∧ (σ 0).pc 1 = .cLock := by
  have h1 := Reach.init.step (c := false) (.register _ 0 rfl)
  have h2 := h1.step (.rReadNot _ 0 0 (by simp [init]) rfl)
  have h3 := h2.step (.rAllocOk _ 0 0 (by simp))
  have h4 := h3.step (.rRegOk _ 0 0 (by simp) rfl)
  have h5 := h4.step (.rOk _ 0 0 (by simp))
  have g1 := h5.step (.cancel _ 1 rfl)
  have g2 := g1.step (.cCasOk _ 1 (by simp) rfl)
  obtain ⟨σ, n, f, h0, -⟩ := fair_run_exists g2
    (.cons (.cLock _ 1 (by simp)) (.cons (.cCall _ 1 0 [] rfl) (.cons (.cEnd _ 1 rfl) (.cons (.cOk _ 1 rfl) (.nil _)))))
    (fun t => by simp only [upd, init]; grind)
  exact ⟨σ, f, by rw [h0]; rfl, by rw [h0]; exact List.mem_singleton.2 rfl, by rw [h0]; rfl, by rw [h0]; rfl⟩

/-- A registration that waits while the dispatch runs, and a drop. -/
example : ∃ σ, FairRun false σ ∧ (σ 0).pc 2 = .rReg 1 ∧ (σ 0).pc 3 = .uRem 0 ∧ (σ 0).phase = 2 := by
  have h1 := Reach.init.step (c := false) (.register _ 0 rfl)
  have h2 := h1.step (.rReadNot _ 0 0 (by simp [init]) rfl)
  have h3 := h2.step (.rAllocOk _ 0 0 (by simp))
  have h4 := h3.step (.rRegOk _ 0 0 (by simp) rfl)
  have h5 := h4.step (.rOk _ 0 0 (by simp))
  have h6 := h5.step (.register _ 2 rfl)
  have h7 := h6.step (.rReadNot _ 2 1 rfl rfl)
  have h8 := h7.step (.rAllocOk _ 2 1 rfl)
  have g1 := h8.step (.cancel _ 1 rfl)
  have g2 := g1.step (.cCasOk _ 1 (by simp) rfl)
  have g3 := g2.step (.cLock _ 1 rfl)
  have g4 := g3.step (.drop _ 3 0 rfl rfl)
  obtain ⟨σ, n, f, h0, -⟩ := fair_run_exists g4
    (.cons (.cCall _ 1 0 [] rfl) (.cons (.cEnd _ 1 rfl) (.cons (.cOk _ 1 rfl) (.cons (.rRegOk _ 2 1 rfl rfl) (.cons (.rOk _ 2 1 rfl) (.cons (.uRem _ 3 0 rfl rfl) (.nil _)))))))
    (fun t => by simp only [upd, init]; grind)
  exact ⟨σ, f, by rw [h0]; rfl, by rw [h0]; rfl, by rw [h0]⟩

/-- A registration with a cancelled token, and a dropped registration. -/
example : (∃ s, Reach false s ∧ s.pc 0 = .rRead 0 ∧ s.canceled = true) ∧ ∃ s, Reach false s ∧ s.disposed 0 = true := by
  constructor
  · have g1 := Reach.init.step (c := false) (.cancel _ 1 rfl)
    have g2 := g1.step (.cCasOk _ 1 rfl rfl)
    have g3 := g2.step (.register _ 0 rfl)
    exact ⟨_, g3, rfl, rfl⟩
  · have h1 := Reach.init.step (c := false) (.register _ 0 rfl)
    have h2 := h1.step (.rReadNot _ 0 0 (by simp [init]) rfl)
    have h3 := h2.step (.rAllocOk _ 0 0 (by simp))
    have h4 := h3.step (.rRegOk _ 0 0 (by simp) rfl)
    have h5 := h4.step (.rOk _ 0 0 (by simp))
    have h6 := h5.step (.drop _ 3 0 rfl rfl)
    have h7 := h6.step (.uRem _ 3 0 rfl rfl)
    exact ⟨_, h7, rfl⟩

end CUtil.CancelToken
