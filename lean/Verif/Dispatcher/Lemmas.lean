import Verif.Dispatcher.Spec
import Verif.DList.Props
namespace CUtil.Dispatcher
open CUtil.Conc
set_option linter.unusedSimpArgs false
set_option linter.unusedVariables false

/-- The target a call is working on. -/
def holds : Pc → Option Nat
  | .out => none
  | .regLock p => some p
  | .regIns p => some p
  | .regRel p => some p
  | .regRet p => some p
  | .unLock p => some p
  | .unRem p => some p
  | .unRel p => some p
  | .unFree p => some p
  | .unRet _ => none
  | .dLock => none
  | .dHead => none
  | .dAt _ => none
  | .dNext _ => none
  | .dRel => none
  | .dRet => none

/-- The call holds the lock exclusively. -/
def isExcl : Pc → Bool
  | .out => false
  | .regLock _ => false
  | .regIns _ => true
  | .regRel _ => true
  | .regRet _ => false
  | .unLock _ => false
  | .unRem _ => true
  | .unRel _ => true
  | .unFree _ => false
  | .unRet _ => false
  | .dLock => false
  | .dHead => false
  | .dAt _ => false
  | .dNext _ => false
  | .dRel => false
  | .dRet => false

/-- The call holds the lock shared. -/
def isShared : Pc → Bool
  | .out => false
  | .regLock _ => false
  | .regIns _ => false
  | .regRel _ => false
  | .regRet _ => false
  | .unLock _ => false
  | .unRem _ => false
  | .unRel _ => false
  | .unFree _ => false
  | .unRet _ => false
  | .dLock => false
  | .dHead => true
  | .dAt _ => true
  | .dNext _ => true
  | .dRel => true
  | .dRet => false

/-- The target is not (or not any more) in the list. -/
def outside : Pc → Option Nat
  | .out => none
  | .regLock p => some p
  | .regIns p => some p
  | .regRel _ => none
  | .regRet _ => none
  | .unLock _ => none
  | .unRem _ => none
  | .unRel p => some p
  | .unFree p => some p
  | .unRet _ => none
  | .dLock => none
  | .dHead => none
  | .dAt _ => none
  | .dNext _ => none
  | .dRel => none
  | .dRet => none

/-- The target is in the list. -/
def inside : Pc → Option Nat
  | .out => none
  | .regLock _ => none
  | .regIns _ => none
  | .regRel p => some p
  | .regRet p => some p
  | .unLock p => some p
  | .unRem p => some p
  | .unRel _ => none
  | .unFree _ => none
  | .unRet _ => none
  | .dLock => none
  | .dHead => none
  | .dAt _ => none
  | .dNext _ => none
  | .dRel => none
  | .dRet => none

def cell (s : Sys) (p : Nat) : Nat × Nat := (s.ident p, s.fn p)

structure Inv (s : Sys) (es : List Nat) : Prop where
  rep : DList.Rep s.mem 0 es
  reg : registered s.hist = es.map (cell s)
  bad : s.bad = false
  idlt : ∀ p, s.mem.alive p = true → p ≠ 0 → s.ident p < s.fresh
  idinj : ∀ p q, s.mem.alive p = true → p ≠ 0 → s.mem.alive q = true → q ≠ 0 → s.ident p = s.ident q → p = q
  head : s.mem.alive 0 = true
  ex : ∀ t, s.excl = some t ↔ isExcl (s.pc t) = true
  sh : ∀ t, s.shared t = true ↔ isShared (s.pc t) = true
  exsh : ∀ t, s.excl = some t → ∀ u, s.shared u = false
  outs : ∀ t p, outside (s.pc t) = some p → s.mem.alive p = true ∧ p ≠ 0 ∧ p ∉ es
  ins : ∀ t p, inside (s.pc t) = some p → p ∈ es
  own : ∀ p, s.owned p = true → p ∈ es
  hu : ∀ t u p, holds (s.pc t) = some p → holds (s.pc u) = some p → t = u
  ho : ∀ t p, s.owned p = true → holds (s.pc t) ≠ some p
  gone : ∀ t i, s.pc t = .unRet i → i < s.fresh ∧ (∀ p, s.mem.alive p = true → p ≠ 0 → s.ident p ≠ i)

/-- How far a dispatch is. -/
def DInv (s : Sys) (es : List Nat) (t : Nat) : Prop :=
  (s.pc t = .dLock → s.calls t = []) ∧
  (s.pc t = .dHead → s.start t = s.hist ∧ s.calls t = []) ∧
  (∀ p, s.pc t = .dAt p → s.start t = s.hist ∧ ∃ pre post, es = pre ++ post ∧ s.calls t = pre.map (cell s) ∧ p = (post ++ [0]).headD 0) ∧
  (∀ p, s.pc t = .dNext p → s.start t = s.hist ∧ ∃ pre post, es = pre ++ p :: post ∧ s.calls t = (pre ++ [p]).map (cell s)) ∧
  (s.pc t = .dRel → s.start t = s.hist ∧ s.calls t = es.map (cell s)) ∧
  (s.pc t = .dRet → s.calls t = registered (s.start t))

theorem registered_snoc (h : List Ev) (e : Ev) : registered (h ++ [e]) = apply (registered h) e := by
  simp [registered, List.foldl_append]

theorem holds_outside {pc : Pc} {p : Nat} (h : outside pc = some p) : holds pc = some p := by cases pc <;> simp_all [outside, holds]
theorem holds_inside {pc : Pc} {p : Nat} (h : inside pc = some p) : holds pc = some p := by cases pc <;> simp_all [inside, holds]

theorem holds_cases {pc : Pc} {p : Nat} (h : holds pc = some p) : outside pc = some p ∨ inside pc = some p := by
  cases pc <;> simp_all [outside, inside, holds]

theorem not_mem_zero {s : Sys} {es} (h : DList.Rep s.mem 0 es) : 0 ∉ es := (List.nodup_cons.mp h.nodup).1

theorem mem_alive {m : DList.Heap} {es} (h : DList.Rep m 0 es) {p} (hp : p ∈ es) : m.alive p = true ∧ p ≠ 0 :=
  ⟨h.alive p (by simp [hp]), fun e => (List.nodup_cons.mp h.nodup).1 (e ▸ hp)⟩

/-- The list does not care about memory outside it. -/
theorem rep_alive {m : DList.Heap} {es} (h : DList.Rep m 0 es) (p : Nat) (v : Bool) (h0 : p ≠ 0) (hp : p ∉ es) :
    DList.Rep ⟨upd m.alive p v, m.f, m.b⟩ 0 es := by
  have h1 := h.ring
  refine ⟨?_, h.nodup, ?_⟩
  · have : ∀ l : List Nat, DList.Adjs m l → DList.Adjs ⟨upd m.alive p v, m.f, m.b⟩ l := by
      intro l
      induction l with
      | nil => simp [DList.Adjs]
      | cons x l ih =>
        cases l with
        | nil => simp [DList.Adjs]
        | cons y l => simp only [DList.Adjs]; intro h; exact ⟨h.1, h.2.1, ih h.2.2⟩
    exact this _ h1
  · intro q hq
    have : q ≠ p := by
      rintro rfl
      simp only [List.mem_cons] at hq
      exact hq.elim h0 hp
    simp only [upd_ne _ _ this]
    exact h.alive q hq

theorem map_cell_congr {s s' : Sys} {es : List Nat} (h : ∀ p ∈ es, s'.ident p = s.ident p ∧ s'.fn p = s.fn p) :
    es.map (cell s') = es.map (cell s) := by
  apply List.map_congr_left
  intro p hp
  simp [cell, h p hp]

theorem mem_split {p : Nat} {es : List Nat} (h : p ∈ es) : ∃ a b, es = a ++ p :: b := List.append_of_mem h

theorem filter_ident {s : Sys} {a b : List Nat} {p : Nat} (hi : ∀ q ∈ a ++ b, s.ident q ≠ s.ident p) :
    ((a ++ p :: b).map (cell s)).filter (fun x => decide (x.1 ≠ s.ident p)) = (a ++ b).map (cell s) := by
  have e : ∀ l : List Nat, (∀ q ∈ l, s.ident q ≠ s.ident p) → (l.map (cell s)).filter (fun x => decide (x.1 ≠ s.ident p)) = l.map (cell s) := by
    intro l hl
    apply List.filter_eq_self.mpr
    intro x hx
    simp only [List.mem_map] at hx
    obtain ⟨q, hq, rfl⟩ := hx
    have := hl q hq
    simp [cell, this]
  simp only [List.map_append, List.map_cons, List.filter_append, List.filter_cons]
  rw [e a (fun q hq => hi q (by simp [hq])), e b (fun q hq => hi q (by simp [hq]))]
  simp [cell]

/-- The next entry. -/
theorem flink_of {m : DList.Heap} {a b : List Nat} {p : Nat} (h : DList.Rep m 0 (a ++ p :: b)) : m.f p = (b ++ [0]).headD 0 := by
  obtain ⟨a', q, n, b', ea, eb, -, -, -, -, h3, -⟩ := DList.rep_split h
  rw [h3, eb]; rfl

theorem flink_head {m : DList.Heap} {es : List Nat} (h : DList.Rep m 0 es) : m.f 0 = (es ++ [0]).headD 0 := by
  have hr := h.ring
  cases es with
  | nil => simp [DList.Adjs] at hr; simp [hr]
  | cons x es => simp only [List.cons_append, DList.Adjs] at hr; simpa using hr.1

theorem inv_init : Inv init [] := by
  refine ⟨⟨by simp [DList.Adjs, init], by simp, by simp [init]⟩, rfl, rfl, ?_, ?_, rfl, ?_, ?_, ?_, ?_, ?_, ?_, ?_, ?_, ?_⟩ <;>
    simp [init, isExcl, isShared, outside, inside, holds]
  intro p q h1 h2 _ _; exact absurd h1 h2

/-- Everything but the pcs, lock and the ghost state of the calls is unchanged. -/
theorem inv_pc {s s' : Sys} {es : List Nat} (h : Inv s es)
    (e1 : s'.mem = s.mem) (e2 : s'.fn = s.fn) (e3 : s'.ident = s.ident) (e4 : s'.fresh = s.fresh) (e5 : s'.hist = s.hist) (e6 : s'.bad = s.bad)
    (ex : ∀ t, s'.excl = some t ↔ isExcl (s'.pc t) = true)
    (sh : ∀ t, s'.shared t = true ↔ isShared (s'.pc t) = true)
    (exsh : ∀ t, s'.excl = some t → ∀ u, s'.shared u = false)
    (outs : ∀ t p, outside (s'.pc t) = some p → outside (s.pc t) = some p)
    (ins : ∀ t p, inside (s'.pc t) = some p → inside (s.pc t) = some p ∨ s.owned p = true)
    (own : ∀ p, s'.owned p = true → s.owned p = true ∨ ∃ t, inside (s.pc t) = some p)
    (hu : ∀ t u p, holds (s'.pc t) = some p → holds (s'.pc u) = some p → t = u)
    (ho : ∀ t p, s'.owned p = true → holds (s'.pc t) ≠ some p)
    (gone : ∀ t i, s'.pc t = .unRet i → s.pc t = .unRet i) : Inv s' es := by
  refine ⟨by rw [e1]; exact h.rep, ?_, by rw [e6]; exact h.bad, by rw [e1, e3, e4]; exact h.idlt, by rw [e1, e3]; exact h.idinj, by rw [e1]; exact h.head, ex, sh, exsh,
    ?_, ?_, ?_, hu, ho, ?_⟩
  · rw [e5, h.reg]; exact (map_cell_congr (fun p _ => by simp [e2, e3])).symm
  · intro t p hp; rw [e1]; exact h.outs t p (outs t p hp)
  · intro t p hp
    rcases ins t p hp with h1 | h1
    · exact h.ins t p h1
    · exact h.own p h1
  · intro p hp
    rcases own p hp with h1 | ⟨t, h1⟩
    · exact h.own p h1
    · exact h.ins t p h1
  · intro t i hi; rw [e1, e3, e4]; exact h.gone t i (gone t i hi)

theorem getF_ok {m : DList.Heap} {p q : Nat} (h : DList.getF m p = C.ok q) : m.alive p = true ∧ q = m.f p := by
  unfold DList.getF at h
  split at h
  · rename_i ha; injection h with h; exact ⟨ha, h.symm⟩
  · cases h

set_option maxHeartbeats 2000000 in
/-- A step of the call `t` to `x` that only concerns locks and handles. -/
theorem inv_move {s s' : Sys} {es : List Nat} (h : Inv s es) (t : Nat) (x : Pc) (epc : s'.pc = upd s.pc t x)
    (e1 : s'.mem = s.mem) (e2 : s'.fn = s.fn) (e3 : s'.ident = s.ident) (e4 : s'.fresh = s.fresh) (e5 : s'.hist = s.hist) (e6 : s'.bad = s.bad)
    (ex : (s'.excl = s.excl ∧ isExcl x = isExcl (s.pc t)) ∨ (s.excl = none ∧ s'.excl = some t ∧ isExcl x = true ∧ isShared x = false ∧ ∀ u, s.shared u = false) ∨
      (isExcl (s.pc t) = true ∧ s'.excl = none ∧ isExcl x = false))
    (sh : (s'.shared = s.shared ∧ isShared x = isShared (s.pc t)) ∨ (s'.shared = upd s.shared t (isShared x) ∧ s'.excl = none))
    (out : outside x = none ∨ outside x = outside (s.pc t))
    (own : (s'.owned = s.owned ∧ holds x = holds (s.pc t) ∧ inside x = inside (s.pc t)) ∨
      (∃ p, s'.owned = upd s.owned p true ∧ inside (s.pc t) = some p ∧ holds x = none ∧ inside x = none) ∨
      (∃ p, s.owned p = true ∧ s'.owned = upd s.owned p false ∧ holds x = some p ∧ inside x = some p))
    (gone : ∀ i, x ≠ .unRet i) : Inv s' es := by
  have hii := @holds_inside
  obtain ⟨hrep, hreg, hbad, hidlt, hidinj, hhead, hex, hsh, hexsh, houts, hins, hown, hhu, hho, hgone⟩ := id h
  refine inv_pc h e1 e2 e3 e4 e5 e6 ?_ ?_ ?_ ?_ ?_ ?_ ?_ ?_ ?_ <;> clear hrep hreg hbad hidlt hidinj hhead houts hins hown hgone h e1 e2 e3 e4 e5 e6
  · intro u; rw [epc]; have := hex u; have := hex t; simp only [upd]; split <;> grind
  · intro u; rw [epc]; have := hsh u; have := hsh t; rcases sh with ⟨o1, o2⟩ | ⟨o1, o2⟩ <;> rw [o1] <;> (try simp only [upd]) <;> split <;> grind
  · intro u hu v; have := hexsh u; have := hex t; have := hsh v; have := hex u; rcases sh with ⟨o1, o2⟩ | ⟨o1, o2⟩ <;> rw [o1] <;> (try simp only [upd]) <;> grind
  · intro u p; rw [epc]; simp only [upd]; split <;> grind
  · intro u p; rw [epc]; simp only [upd]; split <;> grind
  · intro p hp
    rcases own with ⟨o1, o2⟩ | ⟨q, o1, o2⟩ | ⟨q, o0, o1, o2⟩ <;> rw [o1] at hp <;> (try simp only [upd] at hp) <;> grind
  · intro u v p; rw [epc]; simp only [upd]
    have := hhu u v p; have := hho u p; have := hho v p; have := hhu t v p; have := hhu u t p
    split <;> split <;> grind
  · intro u p; rw [epc]; simp only [upd]
    have := hho u p; have := hho t p; have := hhu u t p
    rcases own with ⟨o1, o2⟩ | ⟨q, o1, o2, o3⟩ | ⟨q, o0, o1, o2⟩ <;> rw [o1] <;> (try simp only [upd]) <;> grind
  · intro u i; rw [epc]; simp only [upd]; split <;> grind

set_option hygiene false in
macro "pcs" : tactic => `(tactic| simp [hpc, isExcl, isShared, holds, inside, outside, *])

set_option maxHeartbeats 4000000 in
theorem inv_step {s s' : Sys} {es : List Nat} (h : Inv s es) (hd : ∀ t, DInv s es t) (st : Step s s') : ∃ es', Inv s' es' := by
  have hh := h
  obtain ⟨hrep, hreg, hbad, hidlt, hidinj, hhead, hex, hsh, hexsh, houts, hins, hown, hhu, hho, hgone⟩ := h
  have hoi := @holds_outside
  have hii := @holds_inside
  cases st with
  | register t p f hpc ha =>
    have hp0 : p ≠ 0 := by rintro rfl; simp [hhead] at ha
    have hpe : p ∉ es := fun hp => by simp [(mem_alive hrep hp).1] at ha
    have hnh : ∀ u, holds (s.pc u) ≠ some p := by
      intro u hu
      rcases holds_cases hu with h1 | h1
      · have := (houts u p h1).1; simp [ha] at this
      · exact hpe (hins u p h1)
    refine ⟨es, rep_alive hrep p true hp0 hpe, ?_, hbad, ?_, ?_, ?_, ?_, ?_, ?_, ?_, ?_, ?_, ?_, ?_, ?_⟩ <;> dsimp only
    · rw [hreg]
      refine (map_cell_congr (fun q hq => ?_)).symm
      have : q ≠ p := fun e => hpe (e ▸ hq)
      simp [upd_ne _ _ this]
    · intro q hq h0
      simp only [upd] at hq ⊢
      grind
    · intro q r hq hq0 hr hr0
      simp only [upd] at hq hr ⊢
      grind
    · simp only [upd]; grind
    · intro u; simp only [upd]; grind [isExcl]
    · intro u; simp only [upd]; grind [isShared]
    · exact hexsh
    · intro u q; simp only [upd]; grind [outside]
    · intro u q; simp only [upd]; grind [inside]
    · exact hown
    · intro u v q; simp only [upd]; grind [holds]
    · intro u q; simp only [upd]; grind [holds]
    · intro u i; simp only [upd]; grind
  | regLock t p hpc he hs =>
    refine ⟨es, inv_move hh t _ rfl rfl rfl rfl rfl rfl rfl ?_ ?_ ?_ ?_ ?_⟩ <;> pcs
  | regIns t p m hpc hm =>
    have ho := houts t p (by simp [hpc, outside])
    obtain ⟨m', em, hr, fr⟩ := DList.insertTailList_spec s.mem 0 p es hrep (by simp [ho.2.1, ho.2.2]) ho.1
    rw [hm] at em; injection em with em; subst em
    have ea : m.alive = s.mem.alive := fr.alive
    refine ⟨es ++ [p], hr, ?_, hbad, ?_, ?_, ?_, ?_, ?_, ?_, ?_, ?_, ?_, ?_, ?_, ?_⟩ <;> dsimp only
    · rw [registered_snoc, hreg]; simp [apply, cell]
    · rw [ea]; exact hidlt
    · rw [ea]; exact hidinj
    · rw [ea]; exact hhead
    · intro u; simp only [upd]; grind [isExcl]
    · intro u; simp only [upd]; grind [isShared]
    · exact hexsh
    · intro u q
      rw [ea]; simp only [upd]; grind [outside, holds]
    · intro u q; simp only [upd]; grind [inside]
    · intro q hq; simp [hown q hq]
    · intro u v q; simp only [upd]; grind [holds]
    · intro u q; simp only [upd]; grind [holds]
    · intro u i; rw [ea]; simp only [upd]; grind
  | regInsBad t p hpc hm =>
    have ho := houts t p (by simp [hpc, outside])
    obtain ⟨m', em, hr, fr⟩ := DList.insertTailList_spec s.mem 0 p es hrep (by simp [ho.2.1, ho.2.2]) ho.1
    rw [hm] at em; cases em
  | regRel t p hpc =>
    refine ⟨es, inv_move hh t _ rfl rfl rfl rfl rfl rfl rfl ?_ ?_ ?_ ?_ ?_⟩ <;> pcs
  | regRet t p hpc =>
    refine ⟨es, inv_move hh t _ rfl rfl rfl rfl rfl rfl rfl ?_ ?_ ?_ ?_ ?_⟩ <;> pcs
  | unregister t p hpc ho =>
    refine ⟨es, inv_move hh t _ rfl rfl rfl rfl rfl rfl rfl ?_ ?_ ?_ ?_ ?_⟩ <;> pcs
  | unLock t p hpc he hs =>
    refine ⟨es, inv_move hh t _ rfl rfl rfl rfl rfl rfl rfl ?_ ?_ ?_ ?_ ?_⟩ <;> pcs
  | unRem t p m r hpc hm =>
    have hp := hins t p (by simp [hpc, inside])
    obtain ⟨a, b, eab⟩ := mem_split hp
    subst eab
    obtain ⟨m', em, hr, fr⟩ := DList.removeEntryList_spec s.mem 0 p a b hrep
    rw [hm] at em; injection em with em; injection em with em em2; subst em
    have ea : m.alive = s.mem.alive := fr.alive
    have hpp := mem_alive hrep hp
    have nd := DList.nodup_facts hrep.nodup
    have hpn : p ∉ a ++ b := fun hx => nd.2.2.2.1 (by simp only [List.mem_cons]; exact Or.inr hx)
    have hmem : ∀ q, q ∈ a ++ p :: b → q ≠ p → q ∈ a ++ b := by
      intro q hq hne; simp only [List.mem_append, List.mem_cons] at hq ⊢; grind
    have hmem' : ∀ q, q ∈ a ++ b → q ∈ a ++ p :: b := by
      intro q hq; simp only [List.mem_append, List.mem_cons] at hq ⊢; grind
    have hhp : ∀ u, holds (s.pc u) = some p → u = t := fun u hu => hhu u t p hu (by simp [hpc, holds])
    refine ⟨a ++ b, hr, ?_, hbad, ?_, ?_, ?_, ?_, ?_, ?_, ?_, ?_, ?_, ?_, ?_, ?_⟩ <;> dsimp only
    · rw [registered_snoc, hreg]
      simp only [apply]
      rw [filter_ident]; rfl
      intro q hq e
      have hq' := mem_alive hrep (hmem' q hq)
      have := hidinj q p hq'.1 hq'.2 hpp.1 hpp.2 e
      exact hpn (this ▸ hq)
    · rw [ea]; exact hidlt
    · rw [ea]; exact hidinj
    · rw [ea]; exact hhead
    · intro u; simp only [upd]; grind [isExcl]
    · intro u; simp only [upd]; grind [isShared]
    · exact hexsh
    · intro u q hq
      rw [ea]
      by_cases hu : u = t
      · subst hu
        simp only [upd_self, outside] at hq
        injection hq with hq; subst hq
        exact ⟨hpp.1, hpp.2, hpn⟩
      · simp only [upd_ne _ _ hu] at hq
        have := houts u q hq
        exact ⟨this.1, this.2.1, fun hx => this.2.2 (hmem' q hx)⟩
    · intro u q hq
      by_cases hu : u = t
      · subst hu; simp [inside] at hq
      · simp only [upd_ne _ _ hu] at hq
        refine hmem q (hins u q hq) ?_
        rintro rfl
        exact hu (hhp u (hii hq))
    · intro q hq
      refine hmem q (hown q hq) ?_
      rintro rfl
      exact hho t q hq (by simp [hpc, holds])
    · intro u v q; simp only [upd]; clear hmem hmem'; grind [holds]
    · intro u q; simp only [upd]; clear hmem hmem'; grind [holds]
    · intro u i; rw [ea]; simp only [upd]; clear hmem hmem'; grind
  | unRemBad t p hpc hm =>
    have hp := hins t p (by simp [hpc, inside])
    obtain ⟨a, b, eab⟩ := mem_split hp
    subst eab
    obtain ⟨m', em, hr, fr⟩ := DList.removeEntryList_spec s.mem 0 p a b hrep
    rw [hm] at em; cases em
  | unRel t p hpc =>
    refine ⟨es, inv_move hh t _ rfl rfl rfl rfl rfl rfl rfl ?_ ?_ ?_ ?_ ?_⟩ <;> pcs
  | unFree t p hpc =>
    have ho := houts t p (by simp [hpc, outside])
    refine ⟨es, rep_alive hrep p false ho.2.1 ho.2.2, ?_, by simp [hbad, ho.1], ?_, ?_, ?_, ?_, ?_, ?_, ?_, ?_, ?_, ?_, ?_, ?_⟩ <;> dsimp only
    · rw [hreg]; exact (map_cell_congr (fun q hq => ⟨rfl, rfl⟩)).symm
    · intro q; simp only [upd]; grind
    · intro q r; simp only [upd]; grind
    · simp only [upd]; grind
    · intro u; simp only [upd]; grind [isExcl]
    · intro u; simp only [upd]; grind [isShared]
    · exact hexsh
    · intro u q
      have : ∀ u, holds (s.pc u) = some p → u = t := fun u hu => hhu u t p hu (by simp [hpc, holds])
      simp only [upd]; grind [outside]
    · intro u q; simp only [upd]; grind [inside]
    · exact hown
    · intro u v q; simp only [upd]; grind [holds]
    · intro u q; simp only [upd]; grind [holds]
    · intro u i; simp only [upd]; grind
  | unRet t i hpc =>
    refine ⟨es, inv_move hh t _ rfl rfl rfl rfl rfl rfl rfl ?_ ?_ ?_ ?_ ?_⟩ <;> pcs
  | dispatch t hpc =>
    refine ⟨es, inv_move hh t _ rfl rfl rfl rfl rfl rfl rfl ?_ ?_ ?_ ?_ ?_⟩ <;> pcs
  | dLock t hpc he =>
    refine ⟨es, inv_move hh t _ rfl rfl rfl rfl rfl rfl rfl ?_ ?_ ?_ ?_ ?_⟩ <;> pcs
  | dHead t p hpc hm =>
    refine ⟨es, inv_move hh t _ rfl rfl rfl rfl rfl rfl rfl ?_ ?_ ?_ ?_ ?_⟩ <;> pcs
  | dHeadBad t hpc hm =>
    rw [DList.getF_of hhead] at hm; cases hm
  | dEnd t hpc =>
    refine ⟨es, inv_move hh t _ rfl rfl rfl rfl rfl rfl rfl ?_ ?_ ?_ ?_ ?_⟩ <;> pcs
  | dCall t p hpc h0 =>
    obtain ⟨-, pre, post, ees, -, hp⟩ := (hd t).2.2.1 p hpc
    have hpe : p ∈ es := by
      cases post with
      | nil => simp at hp; exact absurd hp h0
      | cons x post => simp at hp; subst hp; simp [ees]
    have ha := (mem_alive hrep hpe).1
    refine ⟨es, inv_move hh t _ rfl rfl rfl rfl rfl rfl (by simp [ha]) ?_ ?_ ?_ ?_ ?_⟩ <;> pcs
  | dNext t p q hpc hm =>
    refine ⟨es, inv_move hh t _ rfl rfl rfl rfl rfl rfl rfl ?_ ?_ ?_ ?_ ?_⟩ <;> pcs
  | dNextBad t p hpc hm =>
    obtain ⟨-, pre, post, ees, -⟩ := (hd t).2.2.2.1 p hpc
    have ha := (mem_alive hrep (p := p) (by simp [ees])).1
    rw [DList.getF_of ha] at hm; cases hm
  | dRel t hpc =>
    have he : s.excl = none := by
      cases hq : s.excl with
      | none => rfl
      | some u =>
        have h1 := hexsh u hq t
        have h2 := (hsh t).mpr (by simp [hpc, isShared])
        rw [h1] at h2; cases h2
    refine ⟨es, inv_move hh t _ rfl rfl rfl rfl rfl rfl rfl ?_ ?_ ?_ ?_ ?_⟩ <;> pcs
  | dRet t hpc =>
    refine ⟨es, inv_move hh t _ rfl rfl rfl rfl rfl rfl rfl ?_ ?_ ?_ ?_ ?_⟩ <;> pcs

theorem adjs_unique {m m' : DList.Heap} (hf : m'.f = m.f) : ∀ (l l' : List Nat) (x : Nat), 0 ∉ l → 0 ∉ l' → DList.Adjs m (x :: (l ++ [0])) → DList.Adjs m' (x :: (l' ++ [0])) → l = l' := by
  intro l
  induction l with
  | nil =>
    intro l' x _ h0 h1 h2
    cases l' with
    | nil => rfl
    | cons y l' =>
      simp only [List.nil_append, List.cons_append, DList.Adjs] at h1 h2
      rw [hf, h1.1] at h2
      simp [← h2.1] at h0
  | cons z l ih =>
    intro l' x h0 h0' h1 h2
    cases l' with
    | nil =>
      simp only [List.nil_append, List.cons_append, DList.Adjs] at h1 h2
      rw [hf, h1.1] at h2
      simp [h2.1] at h0
    | cons y l' =>
      simp only [List.cons_append, DList.Adjs] at h1 h2
      rw [hf, h1.1] at h2
      obtain ⟨rfl, -, h2⟩ := h2
      rw [ih l' z (by simp at h0; exact h0.2) (by simp at h0'; exact h0'.2) h1.2.2 h2]

/-- The list is determined by the links. -/
theorem rep_unique {m m' : DList.Heap} {es es' : List Nat} (r : DList.Rep m 0 es) (r' : DList.Rep m' 0 es') (hf : m'.f = m.f) : es' = es :=
  (adjs_unique hf es es' 0 (List.nodup_cons.mp r.nodup).1 (List.nodup_cons.mp r'.nodup).1 r.ring r'.ring).symm

/-- Nothing the other dispatches see changes. -/
theorem dinv_same {s s' : Sys} {es : List Nat} {u : Nat} (hd : DInv s es u) (e1 : s'.pc u = s.pc u) (e2 : s'.start u = s.start u) (e3 : s'.hist = s.hist)
    (e4 : s'.calls u = s.calls u) (e5 : ∀ p ∈ es, s'.ident p = s.ident p ∧ s'.fn p = s.fn p) : DInv s' es u := by
  have e6 := map_cell_congr e5
  unfold DInv at *
  rw [e1, e2, e3, e4, e6]
  refine ⟨hd.1, hd.2.1, ?_, ?_, hd.2.2.2.2⟩
  · intro p hp
    obtain ⟨h1, pre, post, h2, h3, h4⟩ := hd.2.2.1 p hp
    refine ⟨h1, pre, post, h2, ?_, h4⟩
    rw [h3]; exact (map_cell_congr (fun p hp => e5 p (by rw [h2]; simp [hp]))).symm
  · intro p hp
    obtain ⟨h1, pre, post, h2, h3⟩ := hd.2.2.2.1 p hp
    refine ⟨h1, pre, post, h2, ?_⟩
    rw [h3]; exact (map_cell_congr (fun q hq => e5 q (by rw [h2]; simp at hq ⊢; grind))).symm

/-- A call that is no dispatch holding the lock. -/
theorem dinv_other {s : Sys} {es : List Nat} {u : Nat} (h1 : isShared (s.pc u) = false) (h2 : s.pc u = .dLock → s.calls u = [])
    (h3 : s.pc u = .dRet → s.calls u = registered (s.start u)) : DInv s es u := by
  refine ⟨h2, ?_, ?_, ?_, ?_, h3⟩
  · intro h; simp [h, isShared] at h1
  · intro p h; simp [h, isShared] at h1
  · intro p h; simp [h, isShared] at h1
  · intro h; simp [h, isShared] at h1

theorem not_shared_of_excl {s : Sys} {es : List Nat} (h : Inv s es) {t : Nat} (he : isExcl (s.pc t) = true) (u : Nat) : isShared (s.pc u) = false := by
  have h1 := h.exsh t ((h.ex t).mpr he) u
  cases hq : isShared (s.pc u) with
  | false => rfl
  | true => rw [(h.sh u).mpr hq] at h1; cases h1

theorem dinv_step {s s' : Sys} {es es' : List Nat} (h : Inv s es) (hd : ∀ t, DInv s es t) (st : Step s s') (h' : Inv s' es') : ∀ u, DInv s' es' u := by
  intro u
  cases st with
  | register t p f hpc ha =>
    have := rep_unique h.rep h'.rep rfl
    subst this
    have hpe : p ∉ es' := fun hp => by simp [(mem_alive h.rep hp).1] at ha
    by_cases hu : u = t
    · subst hu; exact dinv_other (by simp [isShared]) (by simp) (by simp)
    · refine dinv_same (hd u) (upd_ne _ _ hu) rfl rfl rfl ?_
      intro q hq
      have : q ≠ p := fun e => hpe (e ▸ hq)
      simp [upd_ne _ _ this]
  | regLock t p hpc he hs =>
    have := rep_unique h.rep h'.rep rfl
    subst this
    by_cases hu : u = t
    · subst hu; exact dinv_other (by simp [isShared]) (by simp) (by simp)
    · exact dinv_same (hd u) (upd_ne _ _ hu) rfl rfl rfl (fun _ _ => ⟨rfl, rfl⟩)
  | regIns t p m hpc hm =>
    have hns := not_shared_of_excl h (t := t) (by simp [hpc, isExcl]) u
    by_cases hu : u = t
    · subst hu; exact dinv_other (by simp [isShared]) (by simp) (by simp)
    · refine dinv_other ?_ ?_ ?_ <;> simp only [upd_ne _ _ hu]
      · exact hns
      · exact (hd u).1
      · exact (hd u).2.2.2.2.2
  | regInsBad t p hpc hm =>
    have := h'.bad
    simp at this
  | regRel t p hpc =>
    have := rep_unique h.rep h'.rep rfl
    subst this
    by_cases hu : u = t
    · subst hu; exact dinv_other (by simp [isShared]) (by simp) (by simp)
    · exact dinv_same (hd u) (upd_ne _ _ hu) rfl rfl rfl (fun _ _ => ⟨rfl, rfl⟩)
  | regRet t p hpc =>
    have := rep_unique h.rep h'.rep rfl
    subst this
    by_cases hu : u = t
    · subst hu; exact dinv_other (by simp [isShared]) (by simp) (by simp)
    · exact dinv_same (hd u) (upd_ne _ _ hu) rfl rfl rfl (fun _ _ => ⟨rfl, rfl⟩)
  | unregister t p hpc ho =>
    have := rep_unique h.rep h'.rep rfl
    subst this
    by_cases hu : u = t
    · subst hu; exact dinv_other (by simp [isShared]) (by simp) (by simp)
    · exact dinv_same (hd u) (upd_ne _ _ hu) rfl rfl rfl (fun _ _ => ⟨rfl, rfl⟩)
  | unLock t p hpc he hs =>
    have := rep_unique h.rep h'.rep rfl
    subst this
    by_cases hu : u = t
    · subst hu; exact dinv_other (by simp [isShared]) (by simp) (by simp)
    · exact dinv_same (hd u) (upd_ne _ _ hu) rfl rfl rfl (fun _ _ => ⟨rfl, rfl⟩)
  | unRem t p m r hpc hm =>
    have hns := not_shared_of_excl h (t := t) (by simp [hpc, isExcl]) u
    by_cases hu : u = t
    · subst hu; exact dinv_other (by simp [isShared]) (by simp) (by simp)
    · refine dinv_other ?_ ?_ ?_ <;> simp only [upd_ne _ _ hu]
      · exact hns
      · exact (hd u).1
      · exact (hd u).2.2.2.2.2
  | unRemBad t p hpc hm =>
    have := h'.bad
    simp at this
  | unRel t p hpc =>
    have := rep_unique h.rep h'.rep rfl
    subst this
    by_cases hu : u = t
    · subst hu; exact dinv_other (by simp [isShared]) (by simp) (by simp)
    · exact dinv_same (hd u) (upd_ne _ _ hu) rfl rfl rfl (fun _ _ => ⟨rfl, rfl⟩)
  | unFree t p hpc =>
    have := rep_unique h.rep h'.rep rfl
    subst this
    by_cases hu : u = t
    · subst hu; exact dinv_other (by simp [isShared]) (by simp) (by simp)
    · exact dinv_same (hd u) (upd_ne _ _ hu) rfl rfl rfl (fun _ _ => ⟨rfl, rfl⟩)
  | unRet t i hpc =>
    have := rep_unique h.rep h'.rep rfl
    subst this
    by_cases hu : u = t
    · subst hu; exact dinv_other (by simp [isShared]) (by simp) (by simp)
    · exact dinv_same (hd u) (upd_ne _ _ hu) rfl rfl rfl (fun _ _ => ⟨rfl, rfl⟩)
  | dispatch t hpc =>
    have := rep_unique h.rep h'.rep rfl
    subst this
    by_cases hu : u = t
    · subst hu; exact dinv_other (by simp [isShared]) (by simp) (by simp)
    · exact dinv_same (hd u) (upd_ne _ _ hu) rfl rfl (upd_ne _ _ hu) (fun _ _ => ⟨rfl, rfl⟩)
  | dLock t hpc he =>
    have := rep_unique h.rep h'.rep rfl
    subst this
    by_cases hu : u = t
    · subst hu
      refine ⟨?_, ?_, ?_, ?_, ?_, ?_⟩ <;> simp
      exact (hd u).1 hpc
    · exact dinv_same (hd u) (upd_ne _ _ hu) (upd_ne _ _ hu) rfl rfl (fun _ _ => ⟨rfl, rfl⟩)
  | dHead t p hpc hm =>
    have := rep_unique h.rep h'.rep rfl
    subst this
    by_cases hu : u = t
    · subst hu
      obtain ⟨h1, h2⟩ := (hd u).2.1 hpc
      refine ⟨?_, ?_, ?_, ?_, ?_, ?_⟩ <;> simp only [upd_self, reduceCtorEq, false_implies, implies_true]
      intro q hq
      injection hq with hq
      refine ⟨h1, [], es', rfl, by simp [h2], ?_⟩
      rw [← hq, (getF_ok hm).2]
      exact flink_head h.rep
    · exact dinv_same (hd u) (upd_ne _ _ hu) rfl rfl rfl (fun _ _ => ⟨rfl, rfl⟩)
  | dHeadBad t hpc hm =>
    have := h'.bad
    simp at this
  | dEnd t hpc =>
    have := rep_unique h.rep h'.rep rfl
    subst this
    by_cases hu : u = t
    · subst hu
      obtain ⟨h1, pre, post, h2, h3, h4⟩ := (hd u).2.2.1 0 hpc
      refine ⟨?_, ?_, ?_, ?_, ?_, ?_⟩ <;> simp only [upd_self, reduceCtorEq, false_implies, implies_true, true_implies]
      have : post = [] := by
        cases post with
        | nil => rfl
        | cons x post =>
          simp at h4; subst h4
          exact absurd (by rw [h2]; simp) (List.nodup_cons.mp h.rep.nodup).1
      subst this
      refine ⟨h1, ?_⟩
      rw [h3, h2]; simp; exact fun a ha => rfl
    · exact dinv_same (hd u) (upd_ne _ _ hu) rfl rfl rfl (fun _ _ => ⟨rfl, rfl⟩)
  | dCall t p hpc h0 =>
    have := rep_unique h.rep h'.rep rfl
    subst this
    by_cases hu : u = t
    · subst hu
      obtain ⟨h1, pre, post, h2, h3, h4⟩ := (hd u).2.2.1 p hpc
      refine ⟨?_, ?_, ?_, ?_, ?_, ?_⟩ <;> simp only [upd_self, reduceCtorEq, false_implies, implies_true, true_implies]
      intro q hq
      injection hq with hq
      subst hq
      cases post with
      | nil => simp at h4; exact absurd h4 h0
      | cons x post =>
        simp at h4; subst h4
        refine ⟨h1, pre, post, h2, ?_⟩
        rw [h3]; simp [cell]
    · exact dinv_same (hd u) (upd_ne _ _ hu) rfl rfl (upd_ne _ _ hu) (fun _ _ => ⟨rfl, rfl⟩)
  | dNext t p q hpc hm =>
    have := rep_unique h.rep h'.rep rfl
    subst this
    by_cases hu : u = t
    · subst hu
      obtain ⟨h1, pre, post, h2, h3⟩ := (hd u).2.2.2.1 p hpc
      refine ⟨?_, ?_, ?_, ?_, ?_, ?_⟩ <;> simp only [upd_self, reduceCtorEq, false_implies, implies_true]
      intro r hr
      injection hr with hr
      refine ⟨h1, pre ++ [p], post, by simp [h2], h3, ?_⟩
      rw [← hr, (getF_ok hm).2]
      exact flink_of (h2 ▸ h.rep)
    · exact dinv_same (hd u) (upd_ne _ _ hu) rfl rfl rfl (fun _ _ => ⟨rfl, rfl⟩)
  | dNextBad t p hpc hm =>
    have := h'.bad
    simp at this
  | dRel t hpc =>
    have := rep_unique h.rep h'.rep rfl
    subst this
    by_cases hu : u = t
    · subst hu
      obtain ⟨h1, h2⟩ := (hd u).2.2.2.2.1 hpc
      refine dinv_other (by simp [isShared]) (by simp) ?_
      intro _
      show s.calls u = registered (s.start u)
      rw [h2, h1, h.reg]
    · exact dinv_same (hd u) (upd_ne _ _ hu) rfl rfl rfl (fun _ _ => ⟨rfl, rfl⟩)
  | dRet t hpc =>
    have := rep_unique h.rep h'.rep rfl
    subst this
    by_cases hu : u = t
    · subst hu; exact dinv_other (by simp [isShared]) (by simp) (by simp)
    · exact dinv_same (hd u) (upd_ne _ _ hu) rfl rfl rfl (fun _ _ => ⟨rfl, rfl⟩)

theorem inv_reach {s : Sys} (r : Reach s) : ∃ es, Inv s es ∧ ∀ t, DInv s es t := by
  induction r with
  | init => exact ⟨[], inv_init, fun t => dinv_other rfl (by simp [init]) (by simp [init])⟩
  | step _ st ih =>
    obtain ⟨es, h, hd⟩ := ih
    obtain ⟨es', h'⟩ := inv_step h hd st
    exact ⟨es', h', dinv_step h hd st h'⟩

end CUtil.Dispatcher
