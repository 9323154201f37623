import Verif.CancelToken.Lemmas
/-
C40: the cancellation token, for every interleaving of any number of threads.  C41: a notification can be lost.
-/
namespace CUtil.CancelToken
open CUtil.Conc
set_option linter.unusedSimpArgs false
set_option linter.unusedVariables false

theorem Steps.reach {c : Bool} {s s' : Sys} (st : Steps s s') (r : Reach c s) : Reach c s' := by
  induction st with
  | refl => exact r
  | step _ st ih => exact ih.step st

/-- **C40**: at most one cancel call succeeds in any execution, none if the token was created cancelled. -/
theorem cancel_at_most_once {c : Bool} {s : Sys} (r : Reach c s) : s.succ ≤ (if c then 0 else 1) := by
  have h := (inv_reach r).1
  cases c with
  | true => simp [(h.ct rfl).2]
  | false => have := h.cf rfl; rw [this]; split <;> simp

/-- **C40**: a cancel call fails only if the token was created cancelled or another one succeeds: exactly one of the calls made succeeds. -/
theorem cancel_fails_only_if_canceled {c : Bool} {s : Sys} (r : Reach c s) (t : Nat) (h : s.pc t = .cFail) : c = true ∨ s.succ = 1 := by
  have hi := (inv_reach r).1
  cases c with
  | true => exact Or.inl rfl
  | false => right; rw [hi.cf rfl, hi.fail t h]; rfl

/-- **C40**: a cancel call returning success is the one counted. -/
theorem cancel_success_counted {c : Bool} {s : Sys} (r : Reach c s) (t : Nat) (h : s.pc t = .cOk) : c = false ∧ s.succ = 1 ∧ s.canceled = true := by
  have hi := (inv_reach r).1
  have h3 := hi.ok t h
  have hc : c = false := by
    cases c with
    | true => have := hi.ph rfl; omega
    | false => rfl
  have hcc : s.canceled = true := by
    cases hq : s.canceled with
    | true => rfl
    | false => have := hi.nc hq; omega
  exact ⟨hc, by rw [hi.cf hc, hcc]; rfl, hcc⟩

/-- **C40**: the token is cancelled exactly when it was created so or a cancel call has succeeded. -/
theorem canceled_iff {c : Bool} {s : Sys} (r : Reach c s) : s.canceled = true ↔ c = true ∨ s.succ = 1 := by
  have hi := (inv_reach r).1
  cases c with
  | true => simp [(hi.ct rfl).1]
  | false => rw [hi.cf rfl]; cases s.canceled <;> simp

/-- **C40**: cancelled once, cancelled for ever. -/
theorem canceled_stays {s s' : Sys} (st : Steps s s') (h : s.canceled = true) : s'.canceled = true := by
  induction st with
  | refl => exact h
  | step _ st ih => cases st <;> first | exact ih | rfl

/-- **C40**: `cancellation_token_is_canceled` answers with the truth at the moment it reads. -/
theorem is_canceled_answers {s s' : Sys} (st : Step s s') (t : Nat) (b : Bool) (h : s.pc t ≠ .iRet b) (h' : s'.pc t = .iRet b) : b = s.canceled := by
  cases st <;> simp only [upd] at h' <;> grind

/-- **C40**: once the token is cancelled, every call that has not read the state yet will answer true. -/
theorem is_canceled_true_after {s s' s'' : Sys} (h : s.canceled = true) (st : Steps s s') (st' : Step s' s'') (t : Nat) (b : Bool)
    (h1 : s'.pc t ≠ .iRet b) (h2 : s''.pc t = .iRet b) : b = true := by
  rw [is_canceled_answers st' t b h1 h2]
  exact canceled_stays st h

/-- **C40**: before any cancel call succeeds, every answer is false. -/
theorem is_canceled_false_before {s : Sys} (r : Reach false s) (h : s.succ = 0) (t : Nat) (b : Bool) (hb : s.pc t = .iRet b) : b = false := by
  have hc : ∀ {s : Sys}, Reach false s → s.succ = 0 → s.canceled = false := by
    intro s r h
    have := (inv_reach r).1.cf rfl
    cases hq : s.canceled with
    | false => rfl
    | true => rw [hq] at this; simp at this; omega
  have : ∀ {s : Sys}, Reach false s → s.succ = 0 → ∀ t b, s.pc t = .iRet b → b = false := by
    intro s r
    induction r with
    | init => intro _ t b hb; simp [init] at hb
    | step r st ih =>
      rename_i s1 s2
      intro h0 t b hb
      have hs : s1.succ = 0 := by
        cases st <;> first | exact h0 | (simp at h0)
      by_cases e : s1.pc t = .iRet b
      · exact ih hs t b e
      · rw [is_canceled_answers st t b e hb]; exact hc r hs
  exact this r h t b hb

/-- **C40**: when the successful cancel call returns, every callback that was registered when it took effect has been called exactly once,
unless its registration was disposed of. -/
theorem cancel_calls_registered {c : Bool} {s : Sys} (r : Reach c s) (t : Nat) (h : s.pc t = .cOk) (i : Nat) (hi : i ∈ s.before) (hd : s.disposed i = false) :
    s.called i = 1 := by
  obtain ⟨hS, hL, hD⟩ := inv_reach r
  have h3 := hS.ok t h
  have h1 := hD.p23 (by omega) i hi
  rw [hd] at h1
  have hsn : i ∈ s.snap := by simpa using h1
  rw [hD.cnt i, (hL.slt i hsn).2, hD.p3 h3.1]
  simp [hsn]

/-- **C40**: `before` is what it is called: the registrations in the list at the step by which cancel takes effect, and every registration
returned and not dropped is one of them. -/
theorem before_is_registered {s s' : Sys} (st : Step s s') : s'.before = s.before ∨ (s.canceled = false ∧ s'.canceled = true ∧ s'.before = s.L) := by
  cases st with
  | cCasOk t hpc hc => exact Or.inr ⟨hc, rfl, rfl⟩
  | _ => exact Or.inl rfl

theorem returned_is_registered {c : Bool} {s : Sys} (r : Reach c s) (i : Nat) (h : s.owned i = true ∨ ∃ t, s.pc t = .rOk i) : i ∈ s.L := by
  obtain ⟨hS, hL, hD⟩ := inv_reach r
  rcases h with h | ⟨t, h⟩
  · exact hL.own i h
  · exact (hL.hand t i (by simp [h, handOf])).1

/-- **C40/C41**: no callback is ever called twice. -/
theorem called_at_most_once {c : Bool} {s : Sys} (r : Reach c s) (i : Nat) : s.called i ≤ 1 := by
  obtain ⟨hS, hL, hD⟩ := inv_reach r
  rw [hD.cnt i]
  by_cases hm : i ∈ s.done
  · have : i ∈ s.snap := hD.sub i hm
    rw [(hL.slt i this).2]; simp [hm]
  · simp only [if_neg hm]; split <;> omega

/-- **C40/C41**: no callback is called unless the token is cancelled. -/
theorem called_only_if_canceled {c : Bool} {s : Sys} (r : Reach c s) (h : s.canceled = false) (i : Nat) : s.called i = 0 := by
  induction r with
  | init => rfl
  | step r st ih =>
    rename_i s1 s2
    obtain ⟨hS, hL, hD⟩ := inv_reach r
    cases st with
    | rCall t j hpc => have := hS.rc t j hpc; rw [this] at h; cases h
    | cCall t j rest hpc =>
      have := hS.at_ t _ hpc
      have := hS.nc h
      omega
    | cCasOk t hpc hc => cases h
    | _ => exact ih h

/-- **C41 (the part that holds)**: a register call that reads the state after cancellation calls the callback itself: it goes on to the
call, and after the call the callback has been called, once. -/
theorem register_after_cancel {c : Bool} {s s' : Sys} (r : Reach c s) (st : Step s s') (t i : Nat) :
    (s.pc t = .rRead i → s.canceled = true → s'.pc t = .rRead i ∨ s'.pc t = .rCall i) ∧
    (s.pc t = .rCall i → s'.pc t = .rCall i ∨ (s'.pc t = .rNull i ∧ s'.called i = 1)) := by
  have h1 : s'.called i ≤ 1 := called_at_most_once (r.step st) i
  constructor
  · intro h hc; cases st <;> simp only [upd] <;> grind
  · intro h; cases st <;> simp only [upd] at h1 ⊢ <;> grind

/-- **C41 (the part that holds)**: a callback in the list when the cancel call's dispatch gets the lock is called by it, exactly once. -/
theorem registered_before_dispatch_called {c : Bool} {s : Sys} (r : Reach c s) (h : s.phase = 3) (i : Nat) (hi : i ∈ s.snap) : s.called i = 1 := by
  obtain ⟨hS, hL, hD⟩ := inv_reach r
  rw [hD.cnt i, (hL.slt i hi).2, hD.p3 h]
  simp [hi]

/-- **C41 (the part that holds)**: all in all, a callback whose registration was returned for a token that is cancelled, once the cancel
call has dispatched, has been called exactly once or was not in the list yet when the dispatch got the lock. -/
theorem notified_or_late_partial {c : Bool} {s : Sys} (r : Reach c s) (h : s.phase = 3) (i : Nat) (hi : i ∈ s.L) :
    s.called i = 1 ∨ (i ∉ s.snap ∧ s.called i = 0) := by
  obtain ⟨hS, hL, hD⟩ := inv_reach r
  by_cases hm : i ∈ s.snap
  · exact Or.inl (registered_before_dispatch_called r h i hm)
  · right
    refine ⟨hm, ?_⟩
    rw [hD.cnt i, (hL.lt i hi).2.1, hD.p3 h]
    simp [hm]

/-- Such a late callback is lost: the cancel call is over, the callback has not been called, and no register call is at it any more. -/
structure Lost (s : Sys) (i : Nat) : Prop where
  can : s.canceled = true
  ph : s.phase = 3
  lt : i < s.fresh
  zero : s.called i = 0
  noreg : ∀ t, regOf (s.pc t) ≠ some i

set_option maxHeartbeats 1000000 in
theorem lost_step {c : Bool} {s s' : Sys} (r : Reach c s) (st : Step s s') {i : Nat} (h : Lost s i) : Lost s' i := by
  obtain ⟨h1, h2, h3, h4, h5⟩ := h
  obtain ⟨hS, -, -⟩ := inv_reach r
  have a := hS.at_
  have l := hS.lock
  clear hS r
  cases st <;> constructor <;> simp only [upd] <;> grind [regOf]

/-- **C41 (false)**: once lost, it is never called, however the execution goes on. -/
theorem lost_forever {c : Bool} {s s' : Sys} (r : Reach c s) {i : Nat} (h : Lost s i) (st : Steps s s') : s'.called i = 0 := by
  have : Lost s' i ∧ Reach c s' := by
    induction st with
    | refl => exact ⟨h, r⟩
    | step _ st ih => exact ⟨lost_step ih.2 st ih.1, ih.2.step st⟩
  exact this.1.zero

/-- **C41 is false**: thread 0 registers; after it has read "not cancelled", thread 1 cancels, successfully and completely; then thread 0
registers its target and returns a registration.  The token is cancelled, the registration was returned, and its callback is never called. -/
theorem notification_lost : ∃ s, Reach false s ∧ s.pc 0 = .rOk 0 ∧ s.pc 1 = .cOk ∧ s.canceled = true ∧ s.disposed 0 = false ∧
    ∀ s', Steps s s' → s'.called 0 = 0 := by
  have h1 := Reach.init.step (c := false) (.register _ 0 rfl)
  have h2 := h1.step (.rReadNot _ 0 0 (by simp [init]) rfl)
  have h3 := h2.step (.cancel _ 1 rfl)
  have h4 := h3.step (.cCasOk _ 1 (by simp) rfl)
  have h5 := h4.step (.cLock _ 1 (by simp))
  have h6 := h5.step (.cEnd _ 1 (by simp [init]))
  have h7 := h6.step (.rAllocOk _ 0 0 (by simp [upd, init]))
  have h8 := h7.step (.rRegOk _ 0 0 (by simp) rfl)
  refine ⟨_, h8, by simp, by simp [upd], rfl, rfl, fun s' st => lost_forever h8 ⟨rfl, rfl, by simp [init], rfl, ?_⟩ st⟩
  intro t
  simp only [upd, init]
  grind [regOf]

/-- C40: once the drop of a registration has returned, its callback is never called any more. -/
theorem not_called_after_drop {c : Bool} {s s' : Sys} (r : Reach c s) (i : Nat) (hd : s.disposed i = true) (st : Steps s s') :
    s'.called i = s.called i ∧ s'.disposed i = true := by
  induction st with
  | refl => exact ⟨rfl, hd⟩
  | step st1 st2 ih =>
    rename_i s1 s2
    obtain ⟨hS, hL, hD⟩ := inv_reach (st1.reach r)
    obtain ⟨ih1, ih2⟩ := ih
    have key : s2.called i = s1.called i ∧ s2.disposed i = true := by
      cases st2 with
      | rCall t j hpc =>
        have hj := (hL.rlt t j (by rw [hpc]; rfl)).2.2.2.2
        have hne : i ≠ j := by intro q; rw [← q, ih2] at hj; cases hj
        exact ⟨upd_ne _ _ hne, ih2⟩
      | cCall t j rest hpc =>
        have hm : j ∈ s1.L := by
          rw [hD.p2 (hS.at_ t _ hpc).1, hD.p2r t _ hpc]
          exact List.mem_append_right _ List.mem_cons_self
        have hj := (hL.lt j hm).2.2
        have hne : i ≠ j := by intro q; rw [← q, ih2] at hj; cases hj
        exact ⟨upd_ne _ _ hne, ih2⟩
      | uRem t j hpc hr =>
        refine ⟨rfl, ?_⟩
        show upd s1.disposed j true i = true
        rw [upd_apply]; split
        · rfl
        · exact ih2
      | _ => exact ⟨rfl, ih2⟩
    exact ⟨key.1.trans ih1, key.2⟩

/-- C40: the drop of a registration does not return while cancel is calling callbacks. -/
theorem drop_waits {c : Bool} {s s' : Sys} (r : Reach c s) (t u i : Nat) (rest : List Nat) (hu : s.pc u = .cAt rest) (ht : s.pc t = .uRem i) (st : Step s s') :
    s'.pc t = .uRem i := by
  obtain ⟨hS, hL, hD⟩ := inv_reach r
  have hr : s.readers = 1 := by rw [hS.rd, if_pos (hS.at_ u _ hu).1]
  cases st <;> simp only [upd_apply] <;> grind

/-! ## The theorems speak about executions that exist -/

/-- A callback registered, then a successful cancel that has called it, and a second cancel that failed. -/
example : ∃ s, Reach false s ∧ s.pc 1 = .cOk ∧ s.pc 2 = .cFail ∧ 0 ∈ s.before ∧ s.disposed 0 = false ∧ s.called 0 = 1 := by
  have h1 := Reach.init.step (c := false) (.register _ 0 rfl)
  have h2 := h1.step (.rReadNot _ 0 0 (by simp [init]) rfl)
  have h3 := h2.step (.rAllocOk _ 0 0 (by simp))
  have h4 := h3.step (.rRegOk _ 0 0 (by simp) rfl)
  have h5 := h4.step (.rOk _ 0 0 (by simp))
  have g1 := h5.step (.cancel _ 1 rfl)
  have g2 := g1.step (.cCasOk _ 1 (by simp) rfl)
  have g3 := g2.step (.cLock _ 1 (by simp))
  have g4 := g3.step (.cCall _ 1 0 [] (by simp [init]))
  have g5 := g4.step (.cEnd _ 1 (by simp))
  have g6 := g5.step (.cancel _ 2 rfl)
  have g7 := g6.step (.cCasFail _ 2 (by simp) rfl)
  exact ⟨_, g7, by simp [upd], by simp, by simp [init], rfl, rfl⟩

/-- A callback registered on a cancelled token. -/
example : ∃ s, Reach true s ∧ s.pc 0 = .rNull 0 ∧ s.called 0 = 1 := by
  have h1 := Reach.init.step (c := true) (.register _ 0 rfl)
  have h2 := h1.step (.rReadCanceled _ 0 0 (by simp [init]) rfl)
  have h3 := h2.step (.rCall _ 0 0 (by simp))
  exact ⟨_, h3, by simp, rfl⟩

/-- Answers before and after. -/
example : ∃ s, Reach false s ∧ s.succ = 1 ∧ s.pc 2 = .iRet false ∧ s.pc 3 = .iRet true := by
  have h1 := Reach.init.step (c := false) (.isCanceled _ 2 rfl)
  have h2 := h1.step (.iRead _ 2 (by simp))
  have h3 := h2.step (.cancel _ 1 rfl)
  have h4 := h3.step (.cCasOk _ 1 (by simp) rfl)
  have h5 := h4.step (.isCanceled _ 3 rfl)
  have h6 := h5.step (.iRead _ 3 (by simp))
  exact ⟨_, h6, rfl, by simp [upd, init], by simp⟩

/-- A registration dropped before the cancel: its callback is not called (`not_called_after_drop`). -/
example : ∃ s s', Reach false s ∧ s.disposed 0 = true ∧ Steps s s' ∧ s'.canceled = true ∧ s'.pc 1 = .cOk ∧ s'.called 0 = 0 := by
  have h1 := Reach.init.step (c := false) (.register _ 0 rfl)
  have h2 := h1.step (.rReadNot _ 0 0 (by simp [init]) rfl)
  have h3 := h2.step (.rAllocOk _ 0 0 (by simp))
  have h4 := h3.step (.rRegOk _ 0 0 (by simp) rfl)
  have h5 := h4.step (.rOk _ 0 0 (by simp))
  have h6 := h5.step (.drop _ 0 0 (by simp) (by simp))
  have h7 := h6.step (.uRem _ 0 0 (by simp) rfl)
  exact ⟨_, _, h7, by simp, ((((Steps.refl _).step (.cancel _ 1 rfl)).step (.cCasOk _ 1 (by simp) rfl)).step (.cLock _ 1 (by simp))).step
    (.cEnd _ 1 (by simp [init, without])), rfl, by simp, rfl⟩

/-- A drop that waits for a cancel (`drop_waits`). -/
example : ∃ s, Reach false s ∧ s.pc 1 = .cAt [0] ∧ s.pc 2 = .uRem 0 := by
  have h1 := Reach.init.step (c := false) (.register _ 0 rfl)
  have h2 := h1.step (.rReadNot _ 0 0 (by simp [init]) rfl)
  have h3 := h2.step (.rAllocOk _ 0 0 (by simp))
  have h4 := h3.step (.rRegOk _ 0 0 (by simp) rfl)
  have h5 := h4.step (.rOk _ 0 0 (by simp))
  have g1 := h5.step (.cancel _ 1 rfl)
  have g2 := g1.step (.cCasOk _ 1 (by simp) rfl)
  have g3 := g2.step (.cLock _ 1 (by simp))
  have g4 := g3.step (.drop _ 2 0 (by simp [upd, init]) (by simp))
  exact ⟨_, g4, by simp [upd, init], by simp⟩

end CUtil.CancelToken
