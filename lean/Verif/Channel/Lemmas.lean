import Verif.Channel.Spec
/-
The queue and the matching: invariants that hold whatever the callers do.
-/
set_option linter.unusedSimpArgs false
set_option linter.unusedVariables false

namespace CUtil.Channel
open CUtil.Conc

theorem mem_without (l : List Nat) (o x : Nat) : x ∈ without l o ↔ x ∈ l ∧ x ≠ o := by simp [without]
theorem nodup_without (l : List Nat) (o : Nat) (h : l.Nodup) : (without l o).Nodup := h.filter _
theorem mem_drop (l : List Tok) (k x : Tok) : x ∈ drop l k ↔ x ∈ l ∧ x ≠ k := by simp [drop]
theorem nodup_drop (l : List Tok) (k : Tok) (h : l.Nodup) : (drop l k).Nodup := h.filter _

theorem without_head (o : Nat) (l : List Nat) (h : (o :: l).Nodup) : without (o :: l) o = l := by
  simp only [List.nodup_cons] at h
  simp only [without, List.filter_cons, ne_eq, not_true_eq_false, decide_false, Bool.false_eq_true, if_false]
  rw [List.filter_eq_self]
  intro x hx
  simp only [decide_eq_true_eq]
  intro e
  exact h.1 (e ▸ hx)

/-! ### The live requests -/

theorem liveOf_succ_same (n : Nat) (kind : Nat → Kind) (removed : Nat → Bool) (k : Kind) (hr : removed n = false) :
    liveOf (n + 1) (upd kind n k) removed k = liveOf n kind removed k ++ [n] := by
  simp only [liveOf, List.range_succ, List.filter_append]
  congr 1
  · apply List.filter_congr
    intro x hx
    rw [List.mem_range] at hx
    rw [upd_ne _ _ (by omega)]
  · simp [hr]

theorem liveOf_succ_other (n : Nat) (kind : Nat → Kind) (removed : Nat → Bool) (k k' : Kind) (hk : k' ≠ k) :
    liveOf (n + 1) (upd kind n k') removed k = liveOf n kind removed k := by
  simp only [liveOf, List.range_succ, List.filter_append]
  have h2 : (List.filter (fun r => decide (upd kind n k' r = k) && !removed r) [n]) = [] := by simp [hk]
  rw [h2, List.append_nil]
  apply List.filter_congr
  intro x hx
  rw [List.mem_range] at hx
  rw [upd_ne _ _ (by omega)]

theorem liveOf_remove (n : Nat) (kind : Nat → Kind) (removed p : Nat → Bool) (k : Kind) :
    liveOf n kind (fun r => removed r || p r) k = (liveOf n kind removed k).filter (fun r => !p r) := by
  simp only [liveOf, List.filter_filter]
  apply List.filter_congr
  intro x _
  cases removed x <;> cases p x <;> simp

theorem filterMap_without (f : Nat → Option Nat) (p : Nat → Bool) (o : Nat) (q : List Nat)
    (h : ∀ x ∈ q, ∀ r, f x = some r → (p r = true ↔ x = o)) :
    (q.filterMap f).filter (fun r => !p r) = (without q o).filterMap f := by
  induction q with
  | nil => rfl
  | cons x q ih =>
    have ih := ih (fun y hy => h y (List.mem_cons_of_mem _ hy))
    have hx := h x List.mem_cons_self
    rw [List.filterMap_cons]
    cases hf : f x with
    | none =>
      simp only [ih]
      by_cases hxo : x = o
      · simp [without, hxo]
      · simp [without, hxo, List.filterMap_cons, hf]
    | some r =>
      have := hx r hf
      simp only [List.filter_cons]
      by_cases hxo : x = o
      · have hp := this.2 hxo
        simp [without, hxo, hp]
        simpa [without] using ih
      · have hp : p r = false := by
          cases hpr : p r
          · rfl
          · exact absurd (this.1 hpr) hxo
        simp [without, hxo, hp, List.filterMap_cons, hf]
        simpa [without] using ih

theorem filter_keep (l : List Nat) (p : Nat → Bool) (h : ∀ r ∈ l, p r = false) : l.filter (fun r => !p r) = l := by
  rw [List.filter_eq_self]
  intro r hr
  simp [h r hr]

/-- The shape of the queue and the ownership of requests. -/
structure Qs (s : Sys) : Prop where
  lt : ∀ o, o ∈ s.q → o < s.nops
  nd : s.q.Nodup
  one : ∀ o, o ∈ s.q → (s.avail o = none ∧ s.cons o ≠ none) ∨ (s.avail o ≠ none ∧ s.cons o = none)
  same : ∀ o o', o ∈ s.q → o' ∈ s.q → (s.avail o = none ↔ s.avail o' = none)
  av : ∀ o r, s.avail o = some r → r < s.nreq ∧ s.kind r = .pull ∧ o < s.nops
  co : ∀ o r, s.cons o = some r → r < s.nreq ∧ s.kind r = .push ∧ o < s.nops
  avInj : ∀ o o' r, s.avail o = some r → s.avail o' = some r → o = o'
  coInj : ∀ o o' r, s.cons o = some r → s.cons o' = some r → o = o'
  rm : ∀ r, s.removed r = true → r < s.nreq
  mt : ∀ a c, (a, c) ∈ s.matched → ∃ o, s.avail o = some a ∧ s.cons o = some c
  tm : ∀ o a c, s.avail o = some a → s.cons o = some c → (a, c) ∈ s.matched

set_option maxHeartbeats 4000000 in
theorem qs_step {cfg s s'} (h : Qs s) (st : Step cfg s s') : Qs s' := by
  obtain ⟨h1, h2, h3, h4, h5, h6, h7, h8, h9, h10, h11⟩ := h
  have hq : ∀ o rest, s.q = o :: rest → o ∈ s.q ∧ o ∉ rest ∧ rest.Nodup ∧ ∀ x ∈ rest, x ∈ s.q := by
    intro o rest e; rw [e] at h2 ⊢; simp only [List.nodup_cons] at h2; exact ⟨List.mem_cons_self, h2.1, h2.2, fun x hx => List.mem_cons_of_mem _ hx⟩
  have he : ∀ o, o ∈ s.q → ∃ o' rest, s.q = o' :: rest := by
    intro o ho
    cases hc : s.q with
    | nil => simp [hc] at ho
    | cons a l => exact ⟨a, l, rfl⟩
  cases st <;> constructor <;> first
    | assumption
    | (simp only [upd]; grind [mem_without, nodup_without, ofOp])

theorem qs {cfg s} (h : Reach cfg s) : Qs s := by
  induction h with
  | init => constructor <;> simp [init]
  | step _ st ih => exact qs_step ih st

/-- The live requests are those matched and then those waiting. -/
structure Lv (s : Sys) : Prop where
  pull : live s .pull = s.matched.map (·.1) ++ s.q.filterMap s.avail
  push : live s .push = s.matched.map (·.2) ++ s.q.filterMap s.cons

theorem filterMap_upd_fresh (q : List Nat) (f : Nat → Option Nat) (o : Nat) (v : Option Nat) (h : o ∉ q) : q.filterMap (upd f o v) = q.filterMap f := by
  induction q with
  | nil => rfl
  | cons x q ih =>
    rw [List.mem_cons, not_or] at h
    rw [List.filterMap_cons, List.filterMap_cons, ih h.2, upd_ne _ _ (fun e => h.1 e.symm)]

theorem filterMap_none (q : List Nat) (f : Nat → Option Nat) (h : ∀ x ∈ q, f x = none) : q.filterMap f = [] := by
  rw [List.filterMap_eq_nil_iff]; exact h

theorem live_remove {s : Sys} (hq : Qs s) (h : Lv s) (o : Nat) (ho : o ∈ s.q) :
    liveOf s.nreq s.kind (fun r => s.removed r || ofOp s o r) .pull = s.matched.map (·.1) ++ (without s.q o).filterMap s.avail ∧
    liveOf s.nreq s.kind (fun r => s.removed r || ofOp s o r) .push = s.matched.map (·.2) ++ (without s.q o).filterMap s.cons := by
  obtain ⟨h1, h2, h3, h4, h5, h6, h7, h8, h9, h10, h11⟩ := hq
  obtain ⟨hl1, hl2⟩ := h
  have hm : ∀ a c, (a, c) ∈ s.matched → ofOp s o a = false ∧ ofOp s o c = false := by
    intro a c hac
    obtain ⟨o', ha, hc⟩ := h10 a c hac
    have : o' ≠ o := by
      intro e; subst e
      rcases h3 _ ho with h | h <;> simp [ha, hc] at h
    simp only [ofOp, Bool.or_eq_false_iff, decide_eq_false_iff_not]
    grind
  refine ⟨?_, ?_⟩
  · rw [liveOf_remove]
    simp only [live] at hl1
    rw [hl1, List.filter_append, filter_keep, filterMap_without]
    · intro x hx r hr
      simp only [ofOp, Bool.or_eq_true, decide_eq_true_eq]
      grind
    · intro r hr
      simp only [List.mem_map] at hr
      obtain ⟨⟨a, c⟩, hac, rfl⟩ := hr
      exact (hm a c hac).1
  · rw [liveOf_remove]
    simp only [live] at hl2
    rw [hl2, List.filter_append, filter_keep, filterMap_without]
    · intro x hx r hr
      simp only [ofOp, Bool.or_eq_true, decide_eq_true_eq]
      grind
    · intro r hr
      simp only [List.mem_map] at hr
      obtain ⟨⟨a, c⟩, hac, rfl⟩ := hr
      exact (hm a c hac).2

theorem live_removeAll {s : Sys} (hq : Qs s) (h : Lv s) :
    liveOf s.nreq s.kind (fun r => s.removed r || s.q.any (fun o => ofOp s o r)) .pull = s.matched.map (·.1) ∧
    liveOf s.nreq s.kind (fun r => s.removed r || s.q.any (fun o => ofOp s o r)) .push = s.matched.map (·.2) := by
  obtain ⟨h1, h2, h3, h4, h5, h6, h7, h8, h9, h10, h11⟩ := hq
  obtain ⟨hl1, hl2⟩ := h
  have hm : ∀ a c, (a, c) ∈ s.matched → (s.q.any (fun o => ofOp s o a)) = false ∧ (s.q.any (fun o => ofOp s o c)) = false := by
    intro a c hac
    obtain ⟨o', ha, hc⟩ := h10 a c hac
    have : ∀ o ∈ s.q, ofOp s o a = false ∧ ofOp s o c = false := by
      intro o ho
      have : o' ≠ o := by
        intro e; subst e
        rcases h3 _ ho with h | h <;> simp [ha, hc] at h
      simp only [ofOp, Bool.or_eq_false_iff, decide_eq_false_iff_not]
      grind
    simp only [List.any_eq_false, Bool.not_eq_true]
    exact ⟨fun x hx => (this x hx).1, fun x hx => (this x hx).2⟩
  refine ⟨?_, ?_⟩
  · rw [liveOf_remove]
    simp only [live] at hl1
    rw [hl1, List.filter_append, filter_keep]
    · rw [List.filter_eq_nil_iff.2, List.append_nil]
      intro r hr
      simp only [List.mem_filterMap] at hr
      obtain ⟨o, ho, har⟩ := hr
      simp only [Bool.not_eq_true, Bool.not_eq_false', List.any_eq_true]
      exact ⟨o, ho, by simp [ofOp, har]⟩
    · intro r hr
      simp only [List.mem_map] at hr
      obtain ⟨⟨a, c⟩, hac, rfl⟩ := hr
      exact (hm a c hac).1
  · rw [liveOf_remove]
    simp only [live] at hl2
    rw [hl2, List.filter_append, filter_keep]
    · rw [List.filter_eq_nil_iff.2, List.append_nil]
      intro r hr
      simp only [List.mem_filterMap] at hr
      obtain ⟨o, ho, har⟩ := hr
      simp only [Bool.not_eq_true, Bool.not_eq_false', List.any_eq_true]
      exact ⟨o, ho, by simp [ofOp, har]⟩
    · intro r hr
      simp only [List.mem_map] at hr
      obtain ⟨⟨a, c⟩, hac, rfl⟩ := hr
      exact (hm a c hac).2

theorem lv_step {cfg s s'} (hq : Qs s) (h : Lv s) (st : Step cfg s s') : Lv s' := by
  have hrm : s.removed s.nreq = false := by
    cases hr : s.removed s.nreq with
    | false => rfl
    | true => exact absurd (hq.rm _ hr) (by omega)
  have hfr : s.nops ∉ s.q := fun hm => absurd (hq.lt _ hm) (by omega)
  have hl1 := h.pull
  have hl2 := h.push
  have hhd : ∀ o rest, s.q = o :: rest → o ∈ s.q ∧ o ∉ rest ∧ without s.q o = rest := by
    intro o rest e
    have hn := hq.nd
    rw [e] at hn ⊢
    exact ⟨List.mem_cons_self, (List.nodup_cons.1 hn).1, without_head o rest hn⟩
  simp only [live] at hl1 hl2
  cases st with
  | pullEnq t d hp ho hh =>
    constructor <;> simp only [live]
    · rw [liveOf_succ_same _ _ _ _ hrm, hl1, List.filterMap_append, filterMap_upd_fresh _ _ _ _ hfr]; simp
    · rw [liveOf_succ_other _ _ _ _ _ (by simp), hl2, List.filterMap_append, filterMap_upd_fresh _ _ _ _ hfr]; simp
  | pushEnq t d hp ho hh =>
    constructor <;> simp only [live]
    · rw [liveOf_succ_other _ _ _ _ _ (by simp), hl1, List.filterMap_append, filterMap_upd_fresh _ _ _ _ hfr]; simp
    · rw [liveOf_succ_same _ _ _ _ hrm, hl2, List.filterMap_append, filterMap_upd_fresh _ _ _ _ hfr]; simp
  | pullDeq t d o rest c hp ho hqe ha hc hx =>
    obtain ⟨hm, hn, hw⟩ := hhd o rest hqe
    have hnone : s.q.filterMap s.avail = [] := filterMap_none _ _ (fun x hx => (hq.same o x hm hx).1 ha)
    have hr2 : rest.filterMap s.avail = [] := filterMap_none _ _ (fun x hx => (hq.same o x hm (by rw [hqe]; exact List.mem_cons_of_mem _ hx)).1 ha)
    constructor <;> simp only [live]
    · rw [liveOf_succ_same _ _ _ _ hrm, hl1, hnone, filterMap_upd_fresh _ _ _ _ hn, hr2]; simp
    · rw [liveOf_succ_other _ _ _ _ _ (by simp), hl2, hqe]; simp [hc]
  | pushDeq t d o rest a hp ho hqe hc ha hx =>
    obtain ⟨hm, hn, hw⟩ := hhd o rest hqe
    have hal : ∀ x ∈ s.q, s.cons x = none := by
      intro x hx
      have h1 := hq.same o x hm hx
      rcases hq.one x hx with h2 | h2
      · rw [ha] at h1; simp [h2.1] at h1
      · exact h2.2
    have hnone : s.q.filterMap s.cons = [] := filterMap_none _ _ hal
    have hr2 : rest.filterMap s.cons = [] := filterMap_none _ _ (fun x hx => hal x (by rw [hqe]; exact List.mem_cons_of_mem _ hx))
    constructor <;> simp only [live]
    · rw [liveOf_succ_other _ _ _ _ _ (by simp), hl1, hqe]; simp [ha]
    · rw [liveOf_succ_same _ _ _ _ hrm, hl2, hnone, filterMap_upd_fresh _ _ _ _ hn, hr2]; simp
  | pullDeqFail t d o rest _ hp ho hqe ha hx =>
    obtain ⟨hm, hn, hw⟩ := hhd o rest hqe
    have := live_remove hq h o hm
    rw [hw] at this
    exact ⟨this.1, this.2⟩
  | pushDeqFail t d o rest _ hp ho hqe ha hx =>
    obtain ⟨hm, hn, hw⟩ := hhd o rest hqe
    have := live_remove hq h o hm
    rw [hw] at this
    exact ⟨this.1, this.2⟩
  | xFoundQ t o hp ho =>
    have := live_remove hq h o ho
    exact ⟨this.1, this.2⟩
  | cMove t hp hx =>
    have := live_removeAll hq h
    constructor <;> simp only [live]
    · rw [this.1]; simp
    · rw [this.2]; simp
  | _ => exact ⟨hl1, hl2⟩

theorem lv {cfg s} (h : Reach cfg s) : Lv s := by
  induction h with
  | init => constructor <;> rfl
  | step hr st ih => exact lv_step (qs hr) ih st

end CUtil.Channel
