import Verif.Dispatcher.Props
import Verif.Settle
set_option linter.unusedSimpArgs false
set_option linter.unusedVariables false
/-
C42: the calls return.
-/
namespace CUtil.Dispatcher
open CUtil.Conc CUtil.Live

variable {s s' : Sys} {σ : Nat → Sys}

/-- How many calls the dispatch `t` has still to make. -/
def rest (s : Sys) (t : Nat) : Nat := (registered (s.start t)).length - (s.calls t).length

/-- How far a call is from its end; `fresh`: how many registrations there have been. -/
def lv (fresh rest : Nat) : Pc → Nat
  | .out => 0
  | .regLock _ => 4 | .regIns _ => 3 | .regRel _ => 2 | .regRet _ => 1
  | .unLock _ => 5 | .unRem _ => 4 | .unRel _ => 3 | .unFree _ => 2 | .unRet _ => 1
  | .dLock => 2 * fresh + 6 | .dHead => 2 * rest + 5 | .dAt _ => 2 * rest + 3 | .dNext _ => 2 * rest + 4 | .dRel => 2 | .dRet => 1

theorem length_le_of_lt {n : Nat} : ∀ {l : List Nat}, l.Nodup → (∀ x ∈ l, x < n) → l.length ≤ n := by
  induction n with
  | zero =>
    intro l _ h
    cases l with
    | nil => simp
    | cons x l => exact absurd (h x (by simp)) (by omega)
  | succ n ih =>
    intro l hn h
    have h1 : (l.erase n).length ≤ n := ih (hn.erase n) fun x hx => by
      have h2 := (hn.mem_erase_iff).1 hx
      have := h x h2.2
      omega
    have := List.length_erase (a := n) (l := l)
    split at this <;> omega

/-- There are not more registrations in effect than there have been. -/
theorem registered_le (r : Reach s) : (registered s.hist).length ≤ s.fresh := by
  have h := registered_nodup r
  obtain ⟨es, hi, -⟩ := inv_reach r
  rw [← List.length_map (f := Prod.fst)]
  refine length_le_of_lt h fun x hx => ?_
  rw [hi.reg] at hx
  simp only [List.mem_map, cell] at hx
  obtain ⟨_, ⟨p, hp, rfl⟩, rfl⟩ := hx
  exact hi.idlt p (mem_alive hi.rep hp).1 (mem_alive hi.rep hp).2

/-- Every step is one of a single call: its beginning, or one that brings it nearer to its end. -/
theorem moves (r : Reach s) (st : Step s s') : ∃ t, (∀ u, u ≠ t → s'.pc u = s.pc u ∧ s'.start u = s.start u ∧ s'.calls u = s.calls u) ∧
    ((s.pc t = .out ∧ s'.pc t ≠ .out) ∨ (s'.fresh = s.fresh ∧ s.pc t ≠ .out ∧ s'.pc t ≠ s.pc t ∧ lv s'.fresh (rest s' t) (s'.pc t) < lv s.fresh (rest s t) (s.pc t))) := by
  have hle := registered_le r
  have hb := no_bad (r.step st)
  obtain ⟨es, hi, hd⟩ := inv_reach r
  have side : ∀ (t : Nat) (x : Pc), ∀ u, u ≠ t → upd s.pc t x u = s.pc u := fun t x u h => upd_ne _ _ h
  cases st with
  | register t p f hpc ha => exact ⟨t, fun u h => ⟨side t _ u h, rfl, rfl⟩, .inl ⟨hpc, by simp⟩⟩
  | unregister t p hpc ho => exact ⟨t, fun u h => ⟨side t _ u h, rfl, rfl⟩, .inl ⟨hpc, by simp⟩⟩
  | dispatch t hpc => exact ⟨t, fun u h => ⟨side t _ u h, rfl, upd_ne _ _ h⟩, .inl ⟨hpc, by simp⟩⟩
  | regInsBad t p hpc hm => cases hb
  | unRemBad t p hpc hm => cases hb
  | dHeadBad t hpc hm => cases hb
  | dNextBad t p hpc hm => cases hb
  | dLock t hpc he =>
    refine ⟨t, fun u h => ⟨side t _ u h, upd_ne _ _ h, rfl⟩, .inr ⟨rfl, by simp [hpc], by simp [hpc], ?_⟩⟩
    simp only [hpc, upd_self, lv, rest]; omega
  | dHead t p hpc hm =>
    refine ⟨t, fun u h => ⟨side t _ u h, rfl, rfl⟩, .inr ⟨rfl, by simp [hpc], by simp [hpc], ?_⟩⟩
    simp only [hpc, upd_self, lv, rest]; omega
  | dCall t p hpc h0 =>
    refine ⟨t, fun u h => ⟨side t _ u h, rfl, upd_ne _ _ h⟩, .inr ⟨rfl, by simp [hpc], by simp [hpc], ?_⟩⟩
    obtain ⟨e1, pre, post, e2, e3, e4⟩ := (hd t).2.2.1 p hpc
    have hl : (registered s.hist).length = pre.length + post.length := by rw [hi.reg, e2]; simp
    have : 0 < post.length := by
      cases post with
      | nil => simp at e4; exact absurd e4 h0
      | cons _ _ => simp
    simp only [hpc, upd_self, lv, rest, e1, e3, List.length_append, List.length_map, List.length_cons, List.length_nil]; omega
  | dNext t p q hpc hm =>
    refine ⟨t, fun u h => ⟨side t _ u h, rfl, rfl⟩, .inr ⟨rfl, by simp [hpc], by simp [hpc], ?_⟩⟩
    simp only [hpc, upd_self, lv, rest]; omega
  | dEnd t hpc =>
    refine ⟨t, fun u h => ⟨side t _ u h, rfl, rfl⟩, .inr ⟨rfl, by simp [hpc], by simp [hpc], ?_⟩⟩
    simp only [hpc, upd_self, lv, rest]; omega
  | _ => exact ⟨_, fun u h => ⟨side _ _ u h, rfl, rfl⟩, .inr ⟨rfl, by simp [*], by simp [*], by simp [*, lv]⟩⟩

/-- The call waits for the lock. -/
def Waits (s : Sys) (t : Nat) : Prop :=
  (s.pc t = .dLock ∧ ∃ u, s.excl = some u) ∨ (((∃ p, s.pc t = .regLock p) ∨ ∃ p, s.pc t = .unLock p) ∧ ((∃ u, s.excl = some u) ∨ ∃ u, s.shared u = true))

/-- C42: a call is never stuck but while it waits for the lock, and then not while no other call holds it; a call that holds the lock is never stuck. -/
theorem never_stuck (r : Reach s) (t : Nat) : s.pc t = .out ∨ (Waits s t ∧ isExcl (s.pc t) = false ∧ isShared (s.pc t) = false) ∨ ∃ s', Step s s' ∧ s'.pc t ≠ s.pc t := by
  obtain ⟨es, hi, hd⟩ := inv_reach r
  have ho : s.excl = none ∨ ∃ u, s.excl = some u := by cases s.excl <;> simp
  have hs : (∀ u, s.shared u = false) ∨ ∃ u, s.shared u = true := by
    by_cases h : ∃ u, s.shared u = true
    · exact .inr h
    · exact .inl fun u => by cases e : s.shared u with | false => rfl | true => exact absurd ⟨u, e⟩ h
  cases hp : s.pc t with
  | out => exact .inl rfl
  | regLock p =>
    right
    rcases ho with h | h
    · rcases hs with h' | h'
      · exact .inr ⟨_, .regLock s t p hp h h', by simp⟩
      · exact .inl ⟨.inr ⟨.inl ⟨p, hp⟩, .inr h'⟩, rfl, rfl⟩
    · exact .inl ⟨.inr ⟨.inl ⟨p, hp⟩, .inl h⟩, rfl, rfl⟩
  | unLock p =>
    right
    rcases ho with h | h
    · rcases hs with h' | h'
      · exact .inr ⟨_, .unLock s t p hp h h', by simp⟩
      · exact .inl ⟨.inr ⟨.inr ⟨p, hp⟩, .inr h'⟩, rfl, rfl⟩
    · exact .inl ⟨.inr ⟨.inr ⟨p, hp⟩, .inl h⟩, rfl, rfl⟩
  | dLock =>
    right
    rcases ho with h | h
    · exact .inr ⟨_, .dLock s t hp h, by simp⟩
    · exact .inl ⟨.inl ⟨hp, h⟩, rfl, rfl⟩
  | regIns p =>
    have ho := hi.outs t p (by simp [hp, outside])
    obtain ⟨m', em, -, fr⟩ := DList.insertTailList_spec s.mem 0 p es hi.rep (by simp [ho.2.1, ho.2.2]) ho.1
    exact .inr (.inr ⟨_, .regIns s t p m' hp em, by simp⟩)
  | regRel p => exact .inr (.inr ⟨_, .regRel s t p hp, by simp⟩)
  | regRet p => exact .inr (.inr ⟨_, .regRet s t p hp, by simp⟩)
  | unRem p =>
    obtain ⟨a, b, rfl⟩ := mem_split (hi.ins t p (by simp [hp, inside]))
    obtain ⟨m', em, -, fr⟩ := DList.removeEntryList_spec s.mem 0 p a b hi.rep
    exact .inr (.inr ⟨_, .unRem s t p m' _ hp em, by simp⟩)
  | unRel p => exact .inr (.inr ⟨_, .unRel s t p hp, by simp⟩)
  | unFree p => exact .inr (.inr ⟨_, .unFree s t p hp, by simp⟩)
  | unRet i => exact .inr (.inr ⟨_, .unRet s t i hp, by simp⟩)
  | dHead => exact .inr (.inr ⟨_, .dHead s t (s.mem.f 0) hp (by simp [DList.getF, hi.head]), by simp⟩)
  | dAt p =>
    by_cases h0 : p = 0
    · subst h0; exact .inr (.inr ⟨_, .dEnd s t hp, by simp⟩)
    · exact .inr (.inr ⟨_, .dCall s t p hp h0, by simp⟩)
  | dNext p =>
    obtain ⟨_, pre, post, e, _⟩ := (hd t).2.2.2.1 p hp
    have ha := (mem_alive hi.rep (p := p) (by rw [e]; simp)).1
    exact .inr (.inr ⟨_, .dNext s t p (s.mem.f p) hp (by simp [DList.getF, ha]), by simp⟩)
  | dRel => exact .inr (.inr ⟨_, .dRel s t hp, by simp⟩)
  | dRet => exact .inr (.inr ⟨_, .dRet s t hp, by simp⟩)

/-- A step of the call `t`, after its beginning. -/
def ByCall (t : Nat) (s s' : Sys) : Prop := Step s s' ∧ s.pc t ≠ .out ∧ s'.pc t ≠ s.pc t

theorem reach_step : ∀ s s', Reach s → Step s s' → Reach s' := fun _ _ h st => h.step st

theorem next_shared (st : Step s s') (t : Nat) (h : isShared (s.pc t) = true) : isShared (s'.pc t) = true ∨ s'.pc t = .dRet := by
  cases st <;> simp only [upd_apply] <;> grind [isShared]

theorem next_excl (st : Step s s') (t : Nat) (h : isExcl (s.pc t) = true) : isExcl (s'.pc t) = true ∨ (∃ p, s'.pc t = .regRet p) ∨ ∃ p, s'.pc t = .unFree p := by
  cases st <;> simp only [upd_apply] <;> grind [isExcl]

theorem lv_fresh {f f' n : Nat} {p : Pc} (h : p ≠ .dLock) : lv f n p = lv f' n p := by cases p <;> first | rfl | exact absurd rfl h

/-- What a fair call does while it holds the lock. -/
theorem leads {P Q : Sys → Prop} {t : Nat} (run : Run Reach Step σ) (f : Fair (ByCall t) σ) (hP : ∀ s, Reach s → P s → isExcl (s.pc t) = true ∨ isShared (s.pc t) = true)
    (hn : ∀ s s', Reach s → P s → Step s s' → P s' ∨ Q s') : LeadsTo σ P Q := by
  have nl : ∀ s, Reach s → P s → s.pc t ≠ .dLock ∧ s.pc t ≠ .out := fun s r p => by
    rcases hP s r p with h | h <;> constructor <;> intro e <;> simp [e, isExcl, isShared] at h
  refine LeadsTo.rank (fun s => lv s.fresh (rest s t) (s.pc t)) fun n => ?_
  have key : ∀ s s', Reach s → P s → Step s s' → (s'.pc t = s.pc t ∧ lv s'.fresh (rest s' t) (s'.pc t) = lv s.fresh (rest s t) (s.pc t)) ∨ lv s'.fresh (rest s' t) (s'.pc t) < lv s.fresh (rest s t) (s.pc t) := by
    intro s s' r p st
    obtain ⟨u, h1, h2⟩ := moves r st
    by_cases e : t = u
    · subst e
      rcases h2 with h | h
      · exact absurd h.1 (nl s r p).2
      · exact .inr h.2.2.2
    · obtain ⟨a, b, c⟩ := h1 t e
      refine .inl ⟨a, ?_⟩
      have : rest s' t = rest s t := by simp only [rest, b, c]
      rw [a, this]; exact lv_fresh (nl s r p).1
  refine ensures (I := Reach) (run.reach reach_step) run.next f ?_ ?_ ?_
  · rintro s s' r ⟨p, hm⟩ st
    rcases hn s s' r p st with p' | q
    · rcases key s s' r p st with h | h
      · exact .inl ⟨p', by omega⟩
      · exact .inr (.inr ⟨p', by omega⟩)
    · exact .inr (.inl q)
  · rintro s r ⟨p, hm⟩
    rcases never_stuck r t with h | h | ⟨s', st, h⟩
    · exact absurd h (nl s r p).2
    · rcases hP s r p with e | e <;> simp [e] at h
    · exact ⟨s', st, (nl s r p).2, h⟩
  · rintro s s' r ⟨p, hm⟩ ⟨st, _, h⟩
    rcases hn s s' r p st with p' | q
    · rcases key s s' r p st with h' | h'
      · exact absurd h'.1 h
      · exact .inr ⟨p', by omega⟩
    · exact .inl q

/-- C42: a dispatch that has got the lock returns, whatever other calls are made: it goes through the list once, as long as it goes on at all and the targets return
(a target that itself registers or unregisters never does, `frozen_while_dispatching`). (What it has called then, `dispatch_calls`.) -/
theorem dispatch_returns {t : Nat} (run : Run Reach Step σ) (f : Fair (ByCall t) σ) : LeadsTo σ (fun s => isShared (s.pc t) = true) fun s => s.pc t = .dRet :=
  leads run f (fun s _ h => .inr h) fun s s' _ h st => next_shared st t h

/-- C42: register and unregister release the lock, whatever other calls are made. -/
theorem change_returns {t : Nat} (run : Run Reach Step σ) (f : Fair (ByCall t) σ) :
    LeadsTo σ (fun s => isExcl (s.pc t) = true) fun s => (∃ p, s.pc t = .regRet p) ∨ ∃ p, s.pc t = .unFree p :=
  leads run f (fun s _ h => .inl h) fun s s' _ h st => next_excl st t h

/-- A step of any call, after its beginning. -/
def Auto (s s' : Sys) : Prop := Step s s' ∧ ∃ t, s.pc t ≠ .out ∧ s'.pc t ≠ s.pc t

/-- C42: there is no deadlock: as long as a call has not returned, some call can go on. -/
theorem no_deadlock (r : Reach s) (t : Nat) (h : s.pc t ≠ .out) : Enabled Auto s := by
  obtain ⟨es, hi, -⟩ := inv_reach r
  have go : ∀ u, isExcl (s.pc u) = true ∨ isShared (s.pc u) = true → Enabled Auto s := fun u hu => by
    rcases never_stuck r u with e | e | ⟨s', st, e⟩
    · simp [e, isExcl, isShared] at hu
    · simp [e] at hu
    · exact ⟨s', st, u, fun e => by simp [e, isExcl, isShared] at hu, e⟩
  rcases never_stuck r t with e | ⟨w, _⟩ | ⟨s', st, e⟩
  · exact absurd e h
  · rcases w with ⟨_, u, e⟩ | ⟨_, ⟨u, e⟩ | ⟨u, e⟩⟩
    · exact go u (.inl ((hi.ex u).1 e))
    · exact go u (.inl ((hi.ex u).1 e))
    · exact go u (.inr ((hi.sh u).1 e))
  · exact ⟨s', st, t, h, e⟩

theorem sumBy_lt {g g' : Nat → Nat} {t m : Nat} (ht : t ≤ m) (h : ∀ u, u ≠ t → g' u = g u) (hl : g' t < g t) : sumBy id g' m < sumBy id g m := by
  have e : g' = upd g t (g' t) := by funext u; simp only [upd_apply]; split <;> simp_all
  have := sumBy_upd id g (g' t) ht
  rw [← e] at this
  simp only [id] at this
  omega

/-- C42: all calls return: in every execution in which, from some time on, no calls are begun, and finitely many are going on then, there comes a time when all have returned; assumed is only that the calls, taken together,
go on if they can, and that the targets return. -/
theorem calls_return {m i : Nat} (run : Run Reach Step σ) (f : Fair Auto σ) (hm : ∀ t, m < t → (σ i).pc t = .out) (hn : ∀ j t, i ≤ j → (σ j).pc t = .out → (σ (j + 1)).pc t = .out) :
    ∃ j, i ≤ j ∧ ∀ t, (σ j).pc t = .out := by
  have hm' : ∀ d t, m < t → (σ (i + d)).pc t = .out := by
    intro d t ht
    induction d with
    | zero => exact hm t ht
    | succ d ih => exact hn (i + d) t (by omega) ih
  let μ : Sys → Nat := fun s => sumBy id (fun t => lv s.fresh (rest s t) (s.pc t)) m
  have key : ∀ j, i ≤ j → Step (σ j) (σ (j + 1)) → μ (σ (j + 1)) < μ (σ j) := by
    intro j hj st
    obtain ⟨t, h1, h2⟩ := moves (run.reach reach_step j) st
    rcases h2 with h | ⟨h2, h3, h4, h5⟩
    · exact absurd (hn j t hj h.1) h.2
    · have ht : t ≤ m := by
        obtain ⟨d, rfl⟩ := Nat.le.dest hj
        exact Nat.le_of_not_lt fun hl => h3 (hm' d t hl)
      refine sumBy_lt ht (fun u hu => ?_) h5
      obtain ⟨a, b, c⟩ := h1 u hu
      simp only [rest, a, b, c, h2]
  obtain ⟨j, hj, no⟩ := settles_on (i := i) μ (fun j hj a => key j hj a.1)
    (fun j hj => by
      rcases run.next j with st | e
      · exact Nat.le_of_lt (key j hj st)
      · rw [e]; exact Nat.le_refl _) f
  exact ⟨j, hj, fun t => Classical.byContradiction fun h => no (no_deadlock (run.reach reach_step j) t h)⟩

theorem all_out (h : ∀ t, s.pc t = .out) : ¬ Enabled Auto s ∧ ∀ t, ¬ Enabled (ByCall t) s :=
  ⟨fun ⟨_, _, t, e, _⟩ => e (h t), fun t ⟨_, _, e, _⟩ => e (h t)⟩

theorem walking : ∃ s, Reach s ∧ s.pc = upd (fun _ => .out) 1 .dHead ∧ s.mem.alive 0 = true ∧ s.mem.alive 5 = true ∧ s.mem.f 0 = 5 ∧ s.mem.f 5 = 0 := by
  have h1 := Reach.init.step (.register _ 0 5 70 rfl rfl)
  have h2 := h1.step (.regLock _ 0 5 (by simp) rfl (fun _ => rfl))
  have h3 := h2.step (.regIns _ 0 5 _ (by simp) rfl)
  have h4 := h3.step (.regRel _ 0 5 (by simp))
  have h5 := h4.step (.regRet _ 0 5 (by simp))
  have h6 := h5.step (.dispatch _ 1 rfl)
  have h7 := h6.step (.dLock _ 1 (by simp) rfl)
  refine ⟨_, h7, ?_, rfl, rfl, rfl, rfl⟩
  funext t
  simp only [upd_apply, init]
  grind

theorem walked {s : Sys} (e : s.pc = upd (fun _ => .out) 1 .dHead) (a0 : s.mem.alive 0 = true) (a5 : s.mem.alive 5 = true) (f0 : s.mem.f 0 = 5) (f5 : s.mem.f 5 = 0) :
    ∃ s', Path Step s s' ∧ ∀ t, s'.pc t = .out := by
  refine ⟨_, .cons (.dHead _ 1 5 (by simp [e]) (by simp [DList.getF, a0, f0])) (.cons (.dCall _ 1 5 (by simp) (by simp)) (.cons (.dNext _ 1 5 0 (by simp) (by simp [DList.getF, a5, f5]))
    (.cons (.dEnd _ 1 (by simp)) (.cons (.dRel _ 1 (by simp)) (.cons (.dRet _ 1 (by simp)) (.nil _)))))), fun t => ?_⟩
  simp only [upd_apply, e]
  grind

/-- There are such executions: a dispatch has got the lock, calls the only target there is, and returns; no calls are begun after that. -/
example : ∃ σ, Run Reach Step σ ∧ Fair Auto σ ∧ Fair (ByCall 1) σ ∧ isShared ((σ 0).pc 1) = true ∧ ∃ i, (∀ t, 1 < t → (σ i).pc t = .out) ∧ ∀ j t, i ≤ j → (σ j).pc t = .out → (σ (j + 1)).pc t = .out := by
  obtain ⟨s, h, e, a0, a5, f0, f5⟩ := walking
  obtain ⟨s', p, o⟩ := walked e a0 a5 f0 f5
  obtain ⟨σ, n, run, h0, hn⟩ := exists_run (Step := Step) reach_step h p
  refine ⟨σ, run, fair_of_end hn (all_out o).1, fair_of_end hn ((all_out o).2 1), by rw [h0, e]; simp [isShared], n, fun t _ => ?_, fun j t hj _ => ?_⟩
  · rw [hn n (Nat.le_refl n)]; exact o t
  · rw [hn (j + 1) (by omega)]; exact o t

end CUtil.Dispatcher
