import Verif.Channel.Toks
import Verif.Channel.Reasons
/-
C43 and C44: the channel.
-/
set_option linter.unusedSimpArgs false
set_option linter.unusedVariables false

namespace CUtil.Channel
open CUtil.Conc

/-! ### C43: for all interleavings, whatever the callers do -/

/-- C43: the list never holds both a waiting push and a waiting pull, and never anything else: either all its operations have only a pull, or all have
only a push. -/
theorem queue_one_kind {cfg s} (h : Reach cfg s) :
    (∀ o ∈ s.q, s.cons o = none ∧ ∃ r, s.avail o = some r ∧ s.kind r = .pull) ∨
    (∀ o ∈ s.q, s.avail o = none ∧ ∃ r, s.cons o = some r ∧ s.kind r = .push) := by
  have hq := qs h
  cases hc : s.q with
  | nil => left; simp
  | cons o rest =>
    have ho : o ∈ s.q := by rw [hc]; exact List.mem_cons_self
    rw [← hc]
    rcases hq.one o ho with h1 | h1
    · right
      intro o' ho'
      have ha := (hq.same o o' ho ho').1 h1.1
      rcases hq.one o' ho' with h2 | h2
      · obtain ⟨r, hr⟩ := Option.ne_none_iff_exists'.1 h2.2
        exact ⟨ha, r, hr, (hq.co o' r hr).2.1⟩
      · exact absurd ha h2.1
    · left
      intro o' ho'
      rcases hq.one o' ho' with h2 | h2
      · exact absurd ((hq.same o o' ho ho').2 h2.1) h1.1
      · obtain ⟨r, hr⟩ := Option.ne_none_iff_exists'.1 h2.1
        exact ⟨h2.2, r, hr, (hq.av o' r hr).2.1⟩

theorem zip_append_of_nil (l : List (Nat × Nat)) (a b : List Nat) (h : a = [] ∨ b = []) : (l.map (·.1) ++ a).zip (l.map (·.2) ++ b) = l := by
  induction l with
  | nil => rcases h with h | h <;> simp [h]
  | cons x l ih => simpa using ih

/-- C43: first in, first out: the pairs matched so far are, in order, the i-th pull not cancelled (or abandoned) with the i-th push not cancelled (or
abandoned), for as long as there are both. -/
theorem fifo {cfg s} (h : Reach cfg s) : s.matched = (live s .pull).zip (live s .push) := by
  have hl := lv h
  rw [hl.pull, hl.push, zip_append_of_nil]
  rcases queue_one_kind h with h1 | h1
  · right; rw [List.filterMap_eq_nil_iff]; exact fun o ho => (h1 o ho).1
  · left; rw [List.filterMap_eq_nil_iff]; exact fun o ho => (h1 o ho).1

/-- C43: the callback of a request is called with OK at most once. -/
theorem delivered_once {cfg s} (h : Reach cfg s) : OnceEach (delivered s.log) := (cl h).onceD

/-- C43: a call with OK gives both correlation ids, those of a matched pair, and gives the pull exactly the data of that push. -/
theorem delivered_matched {cfg s} (h : Reach cfg s) (c : Call) (hc : c ∈ s.log) (hr : c.res = .ok) :
    ∃ a b, c.pull = some a ∧ c.push = some b ∧ (a, b) ∈ (live s .pull).zip (live s .push) ∧
      ((c.req = a ∧ c.data = some (s.dat b)) ∨ (c.req = b ∧ c.data = none)) := by
  obtain ⟨h1, h2, h3⟩ := (cl h).val c hc hr
  obtain ⟨a, ha⟩ := Option.isSome_iff_exists.1 h1
  obtain ⟨b, hb⟩ := Option.isSome_iff_exists.1 h2
  obtain ⟨h4, h5⟩ := h3 a b ha hb
  exact ⟨a, b, ha, hb, fifo h ▸ h4, h5⟩

/-- C43: no push's data is delivered (with OK) to two pulls. -/
theorem data_once {cfg s} (h : Reach cfg s) (c c' : Call) (hc : c ∈ s.log) (hc' : c' ∈ s.log) (hr : c.res = .ok) (hr' : c'.res = .ok)
    (hd : c.data ≠ none) (hd' : c'.data ≠ none) (hp : c.push = c'.push) : c = c' := by
  have hq := qs h
  obtain ⟨h1, h2, h3⟩ := (cl h).val c hc hr
  obtain ⟨h1', h2', h3'⟩ := (cl h).val c' hc' hr'
  obtain ⟨a, ha⟩ := Option.isSome_iff_exists.1 h1
  obtain ⟨b, hb⟩ := Option.isSome_iff_exists.1 h2
  obtain ⟨a', ha'⟩ := Option.isSome_iff_exists.1 h1'
  obtain ⟨b', hb'⟩ := Option.isSome_iff_exists.1 h2'
  obtain ⟨h4, h5⟩ := h3 a b ha hb
  obtain ⟨h4', h5'⟩ := h3' a' b' ha' hb'
  have hbb : b = b' := by rw [hb, hb'] at hp; injection hp
  subst hbb
  obtain ⟨o, hoa, hob⟩ := hq.mt a b h4
  obtain ⟨o', hoa', hob'⟩ := hq.mt a' b h4'
  have := hq.coInj o o' b hob hob'
  subst this
  rw [hoa] at hoa'
  injection hoa' with hoa'
  subst hoa'
  rcases h5 with h5 | h5
  · rcases h5' with h5' | h5'
    · cases c; cases c'; simp_all
    · exact absurd h5'.2 hd'
  · exact absurd h5.2 hd

/-! ### C44: with careful callers (`cfg.quiet`) -/

/-- C44: no callback is called twice. -/
theorem once_partial {cfg s} (hq : cfg.quiet = true) (h : Reach cfg s) : OnceEach s.log := (cl h).once hq

/-- C44: nothing undefined happens: no NULL channel is dereferenced, nothing released is touched, no execution is ended that was not begun. -/
theorem safe_partial {cfg s} (hq : cfg.quiet = true) (h : Reach cfg s) : s.bad = false := (tk hq h).ok

/-- The callback of request `r` is still to come: its operation waits in the list, is being abandoned, was given to the threadpool, or is in the hands
of a thread that will run or schedule it. -/
def toCome (s : Sys) (r : Nat) : Prop :=
  ∃ o, (s.avail o = some r ∨ s.cons o = some r) ∧ (o ∈ s.q ∨ o ∈ s.loc ∨ 0 < s.pend o ∨ ∃ t, pre (s.pc t) = some o)

/-- With a threadpool that accepts all work no operation is lost. -/
theorem no_lost {cfg s} (hs : cfg.sched = true) (h : Reach cfg s) (o : Nat) : s.place o ≠ .lost := by
  induction h with
  | init => simp [init]
  | step hr st ih =>
    cases st <;> first
      | exact ih
      | (exfalso; simp_all; done)
      | (dsimp only; simp only [upd]; split <;> first | exact ih | simp)
      | (dsimp only; split <;> first | exact ih | simp)

/-- C44: no request is ever forgotten: the callback of every accepted request was called, is about to be called, or is still to come — if the threadpool
accepts the work given to it. -/
theorem accounted_partial {cfg s} (hq : cfg.quiet = true) (hs : cfg.sched = true) (h : Reach cfg s) (r : Nat) (hr : r < s.nreq) :
    called s r ∨ (∃ t, aboutToCall s t r) ∨ toCome s r := by
  obtain ⟨o, ho⟩ := owner h r hr
  have hl := pl h
  have hc := cl h
  have hg : good cfg s o = true := by simp [good, hq]
  have hlt : o < s.nops := by
    rcases ho with ho | ho
    · exact ((qs h).av o r ho).2.2
    · exact ((qs h).co o r ho).2.2
  have hin : ∀ {r}, r ∈ reqsOf s.log → called s r := by
    intro r h
    simp only [reqsOf, List.mem_map] at h
    exact h
  cases hp : s.place o with
  | fresh =>
    exfalso
    exact not_fresh h o hlt hp
  | queue => exact .inr (.inr ⟨o, ho, .inl ((hl.q o).1 hp)⟩)
  | loc => exact .inr (.inr ⟨o, ho, .inr (.inl ((hl.l o hg).1 hp))⟩)
  | sched => exact .inr (.inr ⟨o, ho, .inr (.inr (.inl ((hl.p o hg).1 hp)))⟩)
  | run t => exact .inr (.inr ⟨o, ho, .inr (.inr (.inr ⟨t, (hl.r o t hg).1 hp⟩))⟩)
  | lost => exact absurd hp (no_lost hs h o)
  | done =>
    left
    apply hin
    rcases ho with ho | ho
    · exact hc.xA o r hg ho hp
    · exact hc.xC o r hg ho hp
  | fin t =>
    have hpo := (hl.f o t hg).1 hp
    rcases ho with ho | ho
    · cases hb : beforeA (s.pc t) with
      | none => exact .inl (hin (hc.yA t o r hg ho hpo hb))
      | some o' =>
        refine .inr (.inl ⟨t, ?_⟩)
        revert hb hpo
        cases hpc : s.pc t <;> simp [beforeA, post, aboutToCall, hpc]
        all_goals intro e _; subst e; exact .inl ho
    · cases hb : beforeC (s.pc t) with
      | none => exact .inl (hin (hc.yC t o r hg ho hpo hb))
      | some o' =>
        refine .inr (.inl ⟨t, ?_⟩)
        revert hb hpo
        cases hpc : s.pc t <;> simp [beforeC, post, aboutToCall, hpc]
        all_goals intro e _; subst e; first | exact .inr ho | exact ho

theorem idle_closed' {cfg s} (h : Reach cfg s) : (s.sm = .closed ∨ s.sm = .opening → s.execs = 0) ∧ ∀ t, s.pc t = .cEnd → s.execs = 0 := by
  induction h with
  | init => simp [init]
  | step hr st ih =>
    have hs := sm hr
    have hcl := hs.cl
    obtain ⟨i1, i2⟩ := ih
    cases st <;> constructor <;> simp only [upd] at * <;> grind [closer, back_facts]

/-- No execution is under way when the channel is closed. -/
theorem idle_closed {cfg s} (h : Reach cfg s) (hc : s.sm = .closed ∨ s.sm = .opening ∨ ∃ t, s.pc t = .cEnd) : s.execs = 0 := by
  rcases hc with h1 | h1 | ⟨t, h1⟩
  · exact (idle_closed' h).1 (.inl h1)
  · exact (idle_closed' h).1 (.inr h1)
  · exact (idle_closed' h).2 t h1

/-- C44: after channel_close nothing is pending: once the close has ended (and until the next open has) no operation waits, and the callback of every
request ever accepted was called or is being called by a thread already inside execute_callbacks. -/
theorem closed_nothing_pending_partial {cfg s} (hq : cfg.quiet = true) (hs : cfg.sched = true) (h : Reach cfg s)
    (hc : s.sm = .closed ∨ s.sm = .opening ∨ ∃ t, s.pc t = .cEnd) : s.q = [] ∧ s.loc = [] ∧ ∀ r, r < s.nreq → called s r ∨ ∃ t, aboutToCall s t r := by
  have ht := tk hq h
  have h0 := idle_closed h hc
  have htk : s.toks = [] := by
    have := ht.len
    rw [h0] at this
    exact List.eq_nil_of_length_eq_zero this.symm
  have hnb : ∀ r, toCome s r → False := by
    rintro r ⟨o, ho, hw⟩
    have hl := pl h
    have hg : good cfg s o = true := by simp [good, hq]
    have hb : begun (s.place o) = true := by
      rcases hw with hw | hw | hw | ⟨t, hw⟩
      · rw [(hl.q o).2 hw]; rfl
      · rw [(hl.l o hg).2 hw]; rfl
      · rw [(hl.p o hg).2 hw]; rfl
      · rw [(hl.r o t hg).2 hw]; rfl
    rcases ho with ho | ho
    · have := (ht.rA o r ho).1 hb; rw [htk] at this; exact absurd this (by simp)
    · have := (ht.rC o r ho).1 hb; rw [htk] at this; exact absurd this (by simp)
  have hown : ∀ o, o ∈ s.q → ∃ r, s.avail o = some r ∨ s.cons o = some r := by
    intro o ho
    rcases (qs h).one o ho with h1 | h1
    · obtain ⟨r, hr⟩ := Option.ne_none_iff_exists'.1 h1.2; exact ⟨r, .inr hr⟩
    · obtain ⟨r, hr⟩ := Option.ne_none_iff_exists'.1 h1.1; exact ⟨r, .inl hr⟩
  refine ⟨?_, ?_, ?_⟩
  · cases hqq : s.q with
    | nil => rfl
    | cons o rest =>
      exfalso
      have ho : o ∈ s.q := by rw [hqq]; exact List.mem_cons_self
      obtain ⟨r, hr⟩ := hown o ho
      exact hnb r ⟨o, hr, .inl ho⟩
  · have hsm := sm h
    rcases hc with hc | hc | ⟨t, hc⟩
    · exact (hsm.loc (by simp [hc])).1
    · exact (hsm.loc (by simp [hc])).1
    · exact (hsm.wt t (.inr hc)).1
  · intro r hr
    rcases accounted_partial hq hs h r hr with h1 | h1 | h1
    · exact .inl h1
    · exact .inr h1
    · exact absurd h1 (fun h => hnb r h)

/-- Later states. -/
inductive Later (cfg : Cfg) : Sys → Sys → Prop
  | refl (s) : Later cfg s s
  | step {s s' s''} : Later cfg s s' → Step cfg s' s'' → Later cfg s s''

theorem Later.reach {cfg s s'} (h : Reach cfg s) (l : Later cfg s s') : Reach cfg s' := by
  induction l with
  | refl => exact h
  | step _ st ih => exact ih.step st

/-- C44: nothing can keep a thread from calling the callbacks it is about to call: left to itself it takes at most three steps. -/
theorem about_to_call_progress {cfg s} (t r : Nat) (h : aboutToCall s t r) : ∃ s', Later cfg s s' ∧ called s' r := by
  have key5 : ∀ (s : Sys) o x k, s.pc t = .e5 o x k → s.cons o = some r → ∃ s', Step cfg s s' ∧ called s' r := by
    intro s o x k hp hc
    exact ⟨_, .e5 s t o x k r hp hc, _, List.mem_cons_self, rfl⟩
  have key4 : ∀ (s : Sys) o x k, s.pc t = .e4 o x k → (s.avail o = some r ∨ s.cons o = some r) → ∃ s', Later cfg s s' ∧ called s' r := by
    intro s o x k hp hc
    rcases hc with hc | hc
    · exact ⟨_, .step (.refl s) (.e4 s t o x k r hp hc), _, List.mem_cons_self, rfl⟩
    · cases ha : s.avail o with
      | none =>
        obtain ⟨s', st, hs'⟩ := key5 { s with pc := upd s.pc t (.e5 o x k) } o x k (upd_self _ _ _) hc
        exact ⟨s', .step (.step (.refl s) (.e4No s t o x k hp ha)) st, hs'⟩
      | some a =>
        obtain ⟨s', st, hs'⟩ := key5 { s with log := { req := a, res := x, pull := s.avail o, push := s.cons o, data := s.data o } :: s.log, pc := upd s.pc t (.e5 o x k) }
          o x k (upd_self _ _ _) hc
        exact ⟨s', .step (.step (.refl s) (.e4 s t o x k a hp ha)) st, hs'⟩
  rcases h with ⟨o, x, k, hp | hp, hc⟩ | ⟨o, x, k, hp, hc⟩
  · obtain ⟨s', st, hs'⟩ := key4 { s with chan := upd s.chan o false, pc := upd s.pc t (.e4 o x k) } o x k (upd_self _ _ _) hc
    refine ⟨s', ?_, hs'⟩
    have h1 : Later cfg s _ := .step (.refl s) (.e3 s t o x k hp)
    clear hs'
    induction st with
    | refl => exact h1
    | step _ st ih => exact ih.step st
  · exact key4 s o x k hp hc
  · obtain ⟨s', st, hs'⟩ := key5 s o x k hp hc
    exact ⟨s', .step (.refl s) st, hs'⟩

/-! ### C44 does not hold in general -/

theorem lost_step {cfg s s'} (hq : cfg.quiet = true) (h : Reach cfg s) (st : Step cfg s s') (o : Nat) (ho : s.place o = .lost) :
    s'.place o = .lost ∧ (∀ r, s.avail o = some r → s'.avail o = some r) ∧ (∀ r, s.cons o = some r → s'.cons o = some r) := by
  have hl := pl h
  have hg : ∀ o, good cfg s o = true := fun o => by simp [good, hq]
  have e1 : o ∉ s.q := fun h => by have := (hl.q o).2 h; simp [ho] at this
  have e2 : o ∉ s.loc := fun h => by have := (hl.l o (hg o)).2 h; simp [ho] at this
  have e3 : ¬ 0 < s.pend o := fun h => by have := (hl.p o (hg o)).2 h; simp [ho] at this
  have e4 : ∀ t, pre (s.pc t) ≠ some o := fun t h => by have := (hl.r o t (hg o)).2 h; simp [ho] at this
  have e5 : ∀ t, post (s.pc t) ≠ some o := fun t h => by have := (hl.f o t (hg o)).2 h; simp [ho] at this
  have e6 : ∀ t, s.pc t ≠ .cTake o := fun t h => by have := hl.t o t (hg o) h; simp [ho] at this
  have e7 : o ≠ s.nops := fun h => by have := (hl.fr o (by omega)).1; simp [ho] at this
  have hqh : ∀ o' rest, s.q = o' :: rest → o ≠ o' := fun o' rest e h => e1 (by rw [e, h]; exact List.mem_cons_self)
  clear hl hg
  cases st <;> simp only [upd] <;> grind [pre, post, mine]

/-- C44 does not hold if the threadpool can fail: a request that was waiting when `threadpool_schedule_work` failed is lost for good: its callback is never
called, and no close ever returns. -/
theorem lost_forever {cfg s s'} (hq : cfg.quiet = true) (h : Reach cfg s) (o r : Nat) (ho : s.place o = .lost) (hr : s.avail o = some r ∨ s.cons o = some r)
    (l : Later cfg s s') : ¬ called s' r ∧ (∀ t, s'.pc t ≠ .cEnd) ∧ s'.sm ≠ .closed := by
  have key : s'.place o = .lost ∧ (s'.avail o = some r ∨ s'.cons o = some r) := by
    induction l with
    | refl => exact ⟨ho, hr⟩
    | step l' st ih =>
      obtain ⟨i1, i2⟩ := ih
      obtain ⟨j1, j2, j3⟩ := lost_step hq (Later.reach h l') st o i1
      exact ⟨j1, i2.elim (fun i => .inl (j2 r i)) (fun i => .inr (j3 r i))⟩
  have h' := Later.reach h l
  have hc := cl h'
  have ht := tk hq h'
  have hg : good cfg s' o = true := by simp [good, hq]
  have he : s'.execs ≠ 0 := by
    intro h0
    have htk : s'.toks = [] := List.eq_nil_of_length_eq_zero (by rw [← ht.len, h0])
    have hb : begun (s'.place o) = true := by rw [key.1]; rfl
    rcases key.2 with e | e
    · have := (ht.rA o r e).1 hb; rw [htk] at this; exact absurd this (by simp)
    · have := (ht.rC o r e).1 hb; rw [htk] at this; exact absurd this (by simp)
  refine ⟨?_, ?_, ?_⟩
  · rintro ⟨c, hm, hcr⟩
    have hin : r ∈ reqsOf s'.log := List.mem_map.2 ⟨c, hm, hcr⟩
    rcases key.2 with e | e
    · have := (hc.lA o r hg e hin).1; rw [key.1] at this; exact absurd this (by simp [over])
    · have := (hc.lC o r hg e hin).1; rw [key.1] at this; exact absurd this (by simp [over])
  · intro t hp; exact he (idle_closed h' (.inr (.inr ⟨t, hp⟩)))
  · intro hp; exact he (idle_closed h' (.inl hp))

/-- A channel just opened. -/
def opened : Sys :=
  { init with sm := .opened, isOpen := true, pc := fun _ => .out }

theorem reach_opened (cfg : Cfg) : Reach cfg opened := by
  have h0 : Reach cfg _ := Reach.init
  have h1 := h0.step (.open_ _ 0 rfl)
  have h2 := h1.step (.oGranted _ 0 (by simp) rfl)
  have h3 := h2.step (.oSet _ 0 (by simp))
  have h4 := h3.step (.oEnd _ 0 (by simp))
  have e : ({ init with sm := .opened, isOpen := true, pc := upd (upd (upd (upd init.pc 0 .oBegin) 0 .oSet) 0 .oEnd) 0 .out } : Sys) = opened := by
    have : upd (upd (upd (upd init.pc 0 .oBegin) 0 .oSet) 0 .oEnd) 0 .out = fun _ => Pc.out := by
      funext u; simp only [upd, init]; grind
    rw [opened, this]
  exact e ▸ h4

/-- The hypotheses of `lost_forever` are met: a push waits, the pull that comes cannot be scheduled. -/
theorem schedule_failure_loses : ∃ s, Reach ⟨true, false⟩ s ∧ s.place 0 = .lost ∧ s.cons 0 = some 0 ∧ ∀ t, s.pc t = .out := by
  have h1 := (reach_opened ⟨true, false⟩).step (.request _ 0 .push 7 rfl)
  have h2 := h1.step (.rGranted _ 0 .push 7 rfl rfl)
  have h3 := h2.step (.pushEnq _ 0 7 rfl rfl (by intro o r h; cases h))
  have h4 := h3.step (.rRet _ 0 _ rfl)
  have h5 := h4.step (.request _ 0 .pull 0 rfl)
  have h6 := h5.step (.rGranted _ 0 .pull 0 rfl rfl)
  have h7 := h6.step (.pullDeqFail _ 0 0 0 [] rfl rfl rfl rfl rfl (by intro _ u; simp only [upd, opened, init]; grind [aim]))
  have h8 := h7.step (.rEnd _ 0 rfl)
  have h9 := h8.step (.rRet _ 0 _ rfl)
  exact ⟨_, h9, rfl, rfl, by intro t; simp only [upd, opened, init]; grind⟩

/-- … and so does a cancel whose operation the threadpool refuses. -/
theorem schedule_failure_in_cancel_loses : ∃ s, Reach ⟨true, false⟩ s ∧ s.place 0 = .lost ∧ s.cons 0 = some 0 ∧ ∀ t, s.pc t = .out := by
  have h1 := (reach_opened ⟨true, false⟩).step (.request _ 0 .push 7 rfl)
  have h2 := h1.step (.rGranted _ 0 .push 7 rfl rfl)
  have h3 := h2.step (.pushEnq _ 0 7 rfl rfl (by intro o r h; cases h))
  have h4 := h3.step (.rRet _ 0 _ rfl)
  have h5 := h4.step (.cancel _ 0 0 rfl (by decide) (fun _ => ⟨by decide, by intro u; simp only [upd, opened, init]; grind [aim]⟩))
  have h6 := h5.step (.xChan _ 0 0 rfl rfl)
  have h7 := h6.step (.xGranted _ 0 0 rfl rfl)
  have h8 := h7.step (.xFoundQ _ 0 0 rfl (by decide))
  have h9 := h8.step (.xResOk _ 0 0 true rfl rfl)
  have h10 := h9.step (.xSet _ 0 0 true rfl)
  have h11 := h10.step (.xSchedFail _ 0 0 rfl rfl)
  have h12 := h11.step (.xEnd _ 0 rfl)
  exact ⟨_, h12, rfl, rfl, by intro t; simp only [upd, opened, init]; grind⟩

/-- C44 does not hold if cancel may be called at any time: cancelling an operation whose callbacks were called dereferences a NULL channel. -/
theorem cancel_after_completion_is_undefined : ∃ s, Reach ⟨false, true⟩ s ∧ s.bad = true ∧ s.log.length = 2 := by
  have h1 := (reach_opened ⟨false, true⟩).step (.request _ 0 .push 7 rfl)
  have h2 := h1.step (.rGranted _ 0 .push 7 rfl rfl)
  have h3 := h2.step (.pushEnq _ 0 7 rfl rfl (by intro o r h; cases h))
  have h4 := h3.step (.request _ 1 .pull 0 rfl)
  have h5 := h4.step (.rGranted _ 1 .pull 0 rfl rfl)
  have h6 := h5.step (.pullDeq _ 1 0 0 [] 0 rfl rfl rfl rfl rfl (by simp))
  have h7 := h6.step (.work _ 2 0 rfl (by decide))
  have h8 := h7.step (.e1 _ 2 0 .worker rfl)
  have h9 := h8.step (.e2 _ 2 0 .ok .worker rfl)
  have h10 := h9.step (.e3 _ 2 0 .ok .worker rfl)
  have h11 := h10.step (.e4 _ 2 0 .ok .worker 1 rfl rfl)
  have h12 := h11.step (.e5 _ 2 0 .ok .worker 0 rfl rfl)
  have h13 := h12.step (.e6 _ 2 0 .worker rfl)
  have h14 := h13.step (.cancel _ 2 0 rfl (by decide) (by simp))
  have h15 := h14.step (.xNull _ 2 0 rfl rfl)
  exact ⟨_, h15, rfl, rfl⟩

/-- C44: a cancel that races with a close: the callback is called twice. -/
theorem cancel_races_with_close : ∃ s, Reach ⟨false, true⟩ s ∧ ¬ OnceEach s.log := by
  have h1 := (reach_opened ⟨false, true⟩).step (.request _ 0 .pull 0 rfl)
  have h2 := h1.step (.rGranted _ 0 .pull 0 rfl rfl)
  have h3 := h2.step (.pullEnq _ 0 0 rfl rfl (by intro o r h; cases h))
  have h4 := h3.step (.cancel _ 1 0 rfl (by decide) (by simp))
  have h5 := h4.step (.xChan _ 1 0 rfl rfl)
  have h6 := h5.step (.xGranted _ 1 0 rfl rfl)
  have h7 := h6.step (.close _ 2 rfl)
  have h8 := h7.step (.cGranted _ 2 rfl rfl)
  have h9 := h8.step (.cMove _ 2 rfl (by simp))
  have h10 := h9.step (.cHead _ 2 0 [] rfl rfl)
  have h11 := h10.step (.xFoundLoc _ 1 0 rfl (by simp) (by decide))
  have h12 := h11.step (.cTake _ 2 0 rfl)
  have h13 := h12.step (.cRes _ 2 0 rfl)
  have h14 := h13.step (.e1 _ 2 0 .closer rfl)
  have h15 := h14.step (.e2 _ 2 0 .abandoned .closer rfl)
  have h16 := h15.step (.e3 _ 2 0 .abandoned .closer rfl)
  have h17 := h16.step (.e4 _ 2 0 .abandoned .closer 0 rfl rfl)
  have h18 := h17.step (.xResNo _ 1 0 true rfl (by decide))
  have h19 := h18.step (.xSchedOk _ 1 0 rfl)
  have h20 := h19.step (.work _ 3 0 rfl (by decide))
  have h21 := h20.step (.e1 _ 3 0 .worker rfl)
  have h22 := h21.step (.e2 _ 3 0 .abandoned .worker rfl)
  have h23 := h22.step (.e3 _ 3 0 .abandoned .worker rfl)
  have h24 := h23.step (.e4 _ 3 0 .abandoned .worker 0 rfl rfl)
  exact ⟨_, h24, by simp [OnceEach, opened, init]⟩

/-- A cancel that comes after a push and a pull met: both callbacks are called with CANCELLED, and the data is handed to the pull all the same. -/
theorem cancel_after_match_delivers_cancelled : ∃ s, Reach ⟨false, true⟩ s ∧ s.bad = false ∧
    { req := 1, res := .cancelled, pull := some 1, push := some 0, data := some 7 } ∈ s.log := by
  have h1 := (reach_opened ⟨false, true⟩).step (.request _ 0 .push 7 rfl)
  have h2 := h1.step (.rGranted _ 0 .push 7 rfl rfl)
  have h3 := h2.step (.pushEnq _ 0 7 rfl rfl (by intro o r h; cases h))
  have h4 := h3.step (.request _ 1 .pull 0 rfl)
  have h5 := h4.step (.rGranted _ 1 .pull 0 rfl rfl)
  have h6 := h5.step (.pullDeq _ 1 0 0 [] 0 rfl rfl rfl rfl rfl (by simp))
  have h7 := h6.step (.cancel _ 2 0 rfl (by decide) (by simp))
  have h8 := h7.step (.xChan _ 2 0 rfl rfl)
  have h9 := h8.step (.xGranted _ 2 0 rfl rfl)
  have h10 := h9.step (.xNotFound _ 2 0 rfl (by simp) (by simp [opened, init]))
  have h11 := h10.step (.xResOk _ 2 0 false rfl rfl)
  have h12 := h11.step (.xSet _ 2 0 false rfl)
  have h13 := h12.step (.work _ 3 0 rfl (by decide))
  have h14 := h13.step (.e1 _ 3 0 .worker rfl)
  have h15 := h14.step (.e2 _ 3 0 .cancelled .worker rfl)
  have h16 := h15.step (.e3 _ 3 0 .cancelled .worker rfl)
  have h17 := h16.step (.e4 _ 3 0 .cancelled .worker 1 rfl rfl)
  exact ⟨_, h17, rfl, List.mem_cons_self⟩

/-- … and a cancel of an operation that has left the list follows the link left in its entry, which may be that of an operation already released. -/
theorem cancel_follows_dangling_link : ∃ s, Reach ⟨false, true⟩ s ∧ s.bad = true := by
  have h1 := (reach_opened ⟨false, true⟩).step (.request _ 0 .push 7 rfl)
  have h2 := h1.step (.rGranted _ 0 .push 7 rfl rfl)
  have h3 := h2.step (.pushEnq _ 0 7 rfl rfl (by intro o r h; cases h))
  have h4 := h3.step (.request _ 1 .push 8 rfl)
  have h5 := h4.step (.rGranted _ 1 .push 8 rfl rfl)
  have h6 := h5.step (.pushEnq _ 1 8 rfl rfl (by intro o r h; cases h; decide))
  have h7 := h6.step (.request _ 2 .pull 0 rfl)
  have h8 := h7.step (.rGranted _ 2 .pull 0 rfl rfl)
  have h9 := h8.step (.pullDeq _ 2 0 0 [1] 0 rfl rfl rfl rfl rfl (by simp))
  have h10 := h9.step (.request _ 3 .pull 0 rfl)
  have h11 := h10.step (.rGranted _ 3 .pull 0 rfl rfl)
  have h12 := h11.step (.pullDeq _ 3 0 1 [] 1 rfl rfl rfl rfl rfl (by simp))
  have h13 := h12.step (.work _ 4 1 rfl (by decide))
  have h14 := h13.step (.e1 _ 4 1 .worker rfl)
  have h15 := h14.step (.e2 _ 4 1 .ok .worker rfl)
  have h16 := h15.step (.e3 _ 4 1 .ok .worker rfl)
  have h17 := h16.step (.e4 _ 4 1 .ok .worker 3 rfl rfl)
  have h18 := h17.step (.e5 _ 4 1 .ok .worker 1 rfl rfl)
  have h19 := h18.step (.e6 _ 4 1 .worker rfl)
  have h20 := h19.step (.release _ 1 (by decide) (by intro h; exact absurd h (by decide)))
  have h21 := h20.step (.release _ 1 (by decide) (by intro _ u; simp only [upd, opened, init]; grind [xing, back]))
  have h22 := h21.step (.cancel _ 5 0 rfl (by decide) (by simp))
  have h23 := h22.step (.xChan _ 5 0 rfl rfl)
  have h24 := h23.step (.xGranted _ 5 0 rfl rfl)
  have h25 := h24.step (.xNotFound _ 5 0 rfl (by simp) (by simp [opened, init]))
  exact ⟨_, h25, rfl⟩

/-! ### Why a callback says "cancelled" or "abandoned" -/

/-- C61: whatever the callers do, a callback is called with CANCELLED only if async_op_cancel was called before for the operation that carries its
request. -/
theorem cancelled_only_if_asked {cfg s C K} (h : Hist cfg s C K) (c : Call) (hc : c ∈ s.log) (hr : c.res = .cancelled) :
    ∃ o, C o ∧ (s.avail o = some c.req ∨ s.cons o = some c.req) := (cn h).l c hc hr

/-- C61: … and with ABANDONED only if channel_close was granted before, and the request had been taken, unmatched, out of the list of the channel. -/
theorem abandoned_only_if_closed {cfg s C K} (h : Hist cfg s C K) (c : Call) (hc : c ∈ s.log) (hr : c.res = .abandoned) :
    K ∧ s.removed c.req = true ∧ ∀ p ∈ s.matched, p.1 ≠ c.req ∧ p.2 ≠ c.req := by
  obtain ⟨h1, h2⟩ := (ab h).g c hc hr
  refine ⟨h2, h1, fun p hp => ?_⟩
  rw [fifo h.reach] at hp
  obtain ⟨h3, h4⟩ := List.of_mem_zip (show (p.1, p.2) ∈ _ from hp)
  simp only [live, liveOf, List.mem_filter, Bool.and_eq_true, Bool.not_eq_true'] at h3 h4
  constructor
  · intro e; rw [e, h1] at h3; exact absurd h3.2.2 (by decide)
  · intro e; rw [e, h1] at h4; exact absurd h4.2.2 (by decide)

/-- C61: … so if nobody cancels and nobody closes, every callback is called with OK. -/
theorem undisturbed_delivers {cfg s C K} (h : Hist cfg s C K) (hC : ∀ o, ¬ C o) (hK : ¬ K) (c : Call) (hc : c ∈ s.log) : c.res = .ok := by
  cases hr : c.res with
  | ok => rfl
  | cancelled => obtain ⟨o, h1, _⟩ := cancelled_only_if_asked h c hc hr; exact absurd h1 (hC o)
  | abandoned => exact absurd (abandoned_only_if_closed h c hc hr).1 hK

/-- Every execution is one of those. -/
theorem every_execution {cfg s} (h : Reach cfg s) : ∃ C K, Hist cfg s C K := h.hist

/-! ### Examples: the hypotheses are met -/

/-- A push waits and is cancelled: its callback is called with CANCELLED. -/
example : ∃ s C K, Hist ⟨true, true⟩ s C K ∧ C 0 ∧ s.log = [⟨0, .cancelled, none, some 0, none⟩] := by
  obtain ⟨C, K, h0⟩ := (reach_opened ⟨true, true⟩).hist
  have h1 := h0.step (.request _ 0 .push 7 rfl)
  have h2 := h1.step (.rGranted _ 0 .push 7 rfl rfl)
  have h3 := h2.step (.pushEnq _ 0 7 rfl rfl (by intro o r h; cases h))
  have h4 := h3.step (.rRet _ 0 _ rfl)
  have h5 := h4.step (.cancel _ 0 0 rfl (by decide) (fun _ => ⟨by decide, by intro u; simp only [upd, opened, init]; grind [aim]⟩))
  have h6 := h5.step (.xChan _ 0 0 rfl rfl)
  have h7 := h6.step (.xGranted _ 0 0 rfl rfl)
  have h8 := h7.step (.xFoundQ _ 0 0 rfl (by decide))
  have h9 := h8.step (.xResOk _ 0 0 true rfl rfl)
  have h10 := h9.step (.xSet _ 0 0 true rfl)
  have h11 := h10.step (.xSchedOk _ 0 0 rfl)
  have h12 := h11.step (.work _ 1 0 rfl (by decide))
  have h13 := h12.step (.e1 _ 1 0 .worker rfl)
  have h14 := h13.step (.e2 _ 1 0 .cancelled .worker rfl)
  have h15 := h14.step (.e3 _ 1 0 .cancelled .worker rfl)
  have h16 := h15.step (.e4No _ 1 0 .cancelled .worker rfl rfl)
  have h17 := h16.step (.e5 _ 1 0 .cancelled .worker 0 rfl rfl)
  exact ⟨_, _, _, h17, .inl (.inl (.inl (.inl (.inl (.inl (.inl (.inl (.inl (.inl (.inl (.inl (.inr ⟨0, rfl, rfl⟩)))))))))))), rfl⟩

/-- Two pushes, then a pull, with careful callers: the pull gets the data of the first push; a second push waits; close abandons it. -/
example : ∃ s, Reach ⟨true, true⟩ s ∧ s.sm = .closed ∧ s.nreq = 3 ∧ s.matched = [(2, 0)] ∧ live s .push = [0] ∧ live s .pull = [2] ∧
    s.log = [⟨1, .abandoned, none, some 1, none⟩, ⟨0, .ok, some 2, some 0, none⟩, ⟨2, .ok, some 2, some 0, some 7⟩] := by
  have h1 := (reach_opened ⟨true, true⟩).step (.request _ 0 .push 7 rfl)
  have h2 := h1.step (.rGranted _ 0 .push 7 rfl rfl)
  have h3 := h2.step (.pushEnq _ 0 7 rfl rfl (by intro o r h; cases h))
  have h4 := h3.step (.request _ 1 .push 8 rfl)
  have h5 := h4.step (.rGranted _ 1 .push 8 rfl rfl)
  have h6 := h5.step (.pushEnq _ 1 8 rfl rfl (by intro o r h; cases h; decide))
  have h7 := h6.step (.request _ 2 .pull 0 rfl)
  have h8 := h7.step (.rGranted _ 2 .pull 0 rfl rfl)
  have h9 := h8.step (.pullDeq _ 2 0 0 [1] 0 rfl rfl rfl rfl rfl (by intro _ u; simp only [upd, opened, init]; grind [aim]))
  have h13 := h9.step (.work _ 4 0 rfl (by decide))
  have h14 := h13.step (.e1 _ 4 0 .worker rfl)
  have h15 := h14.step (.e2 _ 4 0 .ok .worker rfl)
  have h16 := h15.step (.e3 _ 4 0 .ok .worker rfl)
  have h17 := h16.step (.e4 _ 4 0 .ok .worker 2 rfl rfl)
  have h18 := h17.step (.e5 _ 4 0 .ok .worker 0 rfl rfl)
  have h19 := h18.step (.e6 _ 4 0 .worker rfl)
  have h20 := h19.step (.close _ 5 rfl)
  have h21 := h20.step (.cGranted _ 5 rfl rfl)
  have h22 := h21.step (.cMove _ 5 rfl (by intro _ u; simp only [upd, opened, init]; grind [aim, back]))
  have h23 := h22.step (.cHead _ 5 1 [] rfl rfl)
  have h24 := h23.step (.cTake _ 5 1 rfl)
  have h25 := h24.step (.cRes _ 5 1 rfl)
  have h26 := h25.step (.e1 _ 5 1 .closer rfl)
  have h27 := h26.step (.e2 _ 5 1 .abandoned .closer rfl)
  have h28 := h27.step (.e3 _ 5 1 .abandoned .closer rfl)
  have h29 := h28.step (.e4No _ 5 1 .abandoned .closer rfl rfl)
  have h30 := h29.step (.e5 _ 5 1 .abandoned .closer 1 rfl rfl)
  have h31 := h30.step (.e6 _ 5 1 .closer rfl)
  have h32 := h31.step (.cNone _ 5 rfl rfl)
  have h33 := h32.step (.cWait _ 5 rfl rfl)
  have h34 := h33.step (.cEnd _ 5 rfl)
  exact ⟨_, h34, rfl, rfl, rfl, by decide, by decide, rfl⟩

/-- A pull cancelled while it waits, with careful callers: the next push waits for the next pull. -/
example : ∃ s, Reach ⟨true, true⟩ s ∧ live s .pull = [] ∧ live s .push = [1] ∧ s.q = [1] ∧ 0 < s.pend 0 ∧ s.res 0 = .cancelled := by
  have h1 := (reach_opened ⟨true, true⟩).step (.request _ 0 .pull 0 rfl)
  have h2 := h1.step (.rGranted _ 0 .pull 0 rfl rfl)
  have h3 := h2.step (.pullEnq _ 0 0 rfl rfl (by intro o r h; cases h))
  have h4 := h3.step (.rRet _ 0 _ rfl)
  have h5 := h4.step (.cancel _ 0 0 rfl (by decide) (fun _ => ⟨by decide, by intro u; simp only [upd, opened, init]; grind [aim]⟩))
  have h6 := h5.step (.xChan _ 0 0 rfl rfl)
  have h7 := h6.step (.xGranted _ 0 0 rfl rfl)
  have h8 := h7.step (.xFoundQ _ 0 0 rfl (by decide))
  have h9 := h8.step (.xResOk _ 0 0 true rfl rfl)
  have h10 := h9.step (.xSet _ 0 0 true rfl)
  have h11 := h10.step (.xSchedOk _ 0 0 rfl)
  have h12 := h11.step (.xEnd _ 0 rfl)
  have h13 := h12.step (.request _ 1 .push 9 rfl)
  have h14 := h13.step (.rGranted _ 1 .push 9 rfl rfl)
  have h15 := h14.step (.pushEnq _ 1 9 rfl rfl (by intro o r h; simp [without, opened, init] at h))
  exact ⟨_, h15, by decide, by decide, rfl, by decide, rfl⟩

end CUtil.Channel
