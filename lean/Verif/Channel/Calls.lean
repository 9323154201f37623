import Verif.Channel.Pl
/-
Which callbacks were called, how often and with what.
-/
set_option linter.unusedSimpArgs false
set_option linter.unusedVariables false

namespace CUtil.Channel
open CUtil.Conc

/-- The requests whose callbacks were called. -/
def reqsOf (l : List Call) : List Nat := l.map (·.req)

@[simp] theorem reqsOf_cons (c : Call) (l : List Call) : reqsOf (c :: l) = c.req :: reqsOf l := rfl

theorem reqsOf_delivered (c : Call) (l : List Call) :
    reqsOf (delivered (c :: l)) = if c.res = .ok then c.req :: reqsOf (delivered l) else reqsOf (delivered l) := by
  by_cases h : c.res = .ok <;> simp [delivered, List.filter_cons, h]

theorem mem_reqsOf_delivered (l : List Call) (r : Nat) (h : r ∈ reqsOf (delivered l)) : r ∈ reqsOf l := by
  simp only [reqsOf, delivered, List.mem_map, List.mem_filter] at h ⊢
  obtain ⟨c, hc, rfl⟩ := h
  exact ⟨c, hc.1, rfl⟩

/-- The thread has read the result `r` of `o`. -/
def execRes : Pc → Option (Nat × Res)
  | .e2 o r _ | .e3 o r _ | .e4 o r _ | .e5 o r _ => some (o, r)
  | .e1 _ _ | .e6 _ _ | .cRes _ | .xRes _ _ | .xSet _ _ | .xSched _ _
  | .xChan _ | .xBegin _ | .xLock _ | .out | .rBegin _ _ | .rLock _ _ | .rEnd | .rRet _ | .xEnd | .oBegin | .oSet | .oEnd | .cBegin | .cMove
  | .cHead | .cTake _ | .cWait | .cEnd => none

/-- The thread has ended the executions of `o` and has still to call the callback of pull. -/
def beforeA : Pc → Option Nat
  | .e3 o _ _ | .e4 o _ _ => some o
  | .e2 _ _ _ | .e5 _ _ _ | .e1 _ _ | .e6 _ _ | .cRes _ | .xRes _ _ | .xSet _ _ | .xSched _ _
  | .xChan _ | .xBegin _ | .xLock _ | .out | .rBegin _ _ | .rLock _ _ | .rEnd | .rRet _ | .xEnd | .oBegin | .oSet | .oEnd | .cBegin | .cMove
  | .cHead | .cTake _ | .cWait | .cEnd => none

/-- … that of push. -/
def beforeC : Pc → Option Nat
  | .e3 o _ _ | .e4 o _ _ | .e5 o _ _ => some o
  | .e2 _ _ _ | .e1 _ _ | .e6 _ _ | .cRes _ | .xRes _ _ | .xSet _ _ | .xSched _ _
  | .xChan _ | .xBegin _ | .xLock _ | .out | .rBegin _ _ | .rLock _ _ | .rEnd | .rRet _ | .xEnd | .oBegin | .oSet | .oEnd | .cBegin | .cMove
  | .cHead | .cTake _ | .cWait | .cEnd => none

/-- The callbacks have been called or are being called. -/
def over : Place → Bool
  | .fin _ | .done => true
  | .fresh | .queue | .loc | .sched | .run _ | .lost => false

/-- The results. -/
structure Rs (s : Sys) : Prop where
  rx : ∀ t o f, s.pc t = .xSched o f → s.res o ≠ .ok
  rp : ∀ o, 0 < s.pend o → both s o = true ∨ s.res o ≠ .ok
  r1 : ∀ t o k, s.pc t = .e1 o k → both s o = true ∨ s.res o ≠ .ok
  r2 : ∀ t o r, execRes (s.pc t) = some (o, r) → both s o = true ∨ r ≠ .ok

set_option maxHeartbeats 8000000 in
theorem rs_step {cfg s s'} (hl : Pl cfg s) (h : Rs s) (st : Step cfg s s') : Rs s' := by
  obtain ⟨h1, h2, h3, h4⟩ := h
  have hfr := hl.fr
  have hft := hl.frt
  have hm : ∀ p o r, execRes p = some (o, r) → ment p = some o := by
    intro p o r h; cases p <;> simp_all [execRes, ment]
  simp only [both] at h2 h3 h4
  cases st <;> constructor <;> first
    | assumption
    | (simp only [upd, both]; grind [execRes, ment, back_facts])

theorem rs {cfg s} (h : Reach cfg s) : Rs s := by
  induction h with
  | init => constructor <;> simp [init, execRes]
  | step hr st ih => exact rs_step (pl hr) ih st

/-- The calls; `g`: the operations of which the place is known; `b`: the callers are careful. -/
structure ClG (g : Nat → Prop) (b : Prop) (s : Sys) : Prop where
  dt : ∀ o c, g o → s.place o ≠ .done → s.cons o = some c → s.data o = some (s.dat c)
  lb : ∀ r, r ∈ reqsOf s.log → r < s.nreq
  lA : ∀ o r, g o → s.avail o = some r → r ∈ reqsOf s.log → over (s.place o) = true ∧ ∀ t, beforeA (s.pc t) ≠ some o
  lC : ∀ o r, g o → s.cons o = some r → r ∈ reqsOf s.log → over (s.place o) = true ∧ ∀ t, beforeC (s.pc t) ≠ some o
  xA : ∀ o r, g o → s.avail o = some r → s.place o = .done → r ∈ reqsOf s.log
  xC : ∀ o r, g o → s.cons o = some r → s.place o = .done → r ∈ reqsOf s.log
  yA : ∀ t o r, g o → s.avail o = some r → post (s.pc t) = some o → beforeA (s.pc t) = none → r ∈ reqsOf s.log
  yC : ∀ t o r, g o → s.cons o = some r → post (s.pc t) = some o → beforeC (s.pc t) = none → r ∈ reqsOf s.log
  once : b → (reqsOf s.log).Nodup
  onceD : (reqsOf (delivered s.log)).Nodup
  val : ∀ c, c ∈ s.log → c.res = .ok → c.pull.isSome = true ∧ c.push.isSome = true ∧
    ∀ a b, c.pull = some a → c.push = some b → (a, b) ∈ s.matched ∧ ((c.req = a ∧ c.data = some (s.dat b)) ∨ (c.req = b ∧ c.data = none))

/-- The calls. -/
def Cl (cfg : Cfg) (s : Sys) : Prop := ClG (fun o => good cfg s o = true) (cfg.quiet = true) s

theorem clg_mono {g g' : Nat → Prop} {b s} (h : ∀ o, g' o → g o) (hc : ClG g b s) : ClG g' b s := by
  obtain ⟨g1, g2, g3, g4, g5, g6, g7, g8, g9, g10, g11⟩ := hc
  exact ⟨fun o c x => g1 o c (h o x), g2, fun o r x => g3 o r (h o x), fun o r x => g4 o r (h o x), fun o r x => g5 o r (h o x), fun o r x => g6 o r (h o x),
    fun t o r x => g7 t o r (h o x), fun t o r x => g8 t o r (h o x), g9, g10, g11⟩

theorem cl_move {cfg s s'} (h : Cl cfg s) (ha : s'.avail = s.avail) (hc : s'.cons = s.cons) (hl : s'.log = s.log) (hd : s'.dat = s.dat)
    (hn : s'.nreq = s.nreq) (hm : s'.matched = s.matched) (hda : ∀ o, s.cons o ≠ none → s'.data o = s.data o)
    (hq : ∀ o, s'.place o = .queue → s.place o = .queue) (ho : ∀ o, over (s'.place o) = true → s'.place o = s.place o)
    (hg : ∀ o, good cfg s o = true → over (s.place o) = true → s'.place o = s.place o)
    (t : Nat) (hpc : ∀ u, u ≠ t → s'.pc u = s.pc u) (h1 : post (s'.pc t) = post (s.pc t)) (h2 : beforeA (s'.pc t) = beforeA (s.pc t))
    (h3 : beforeC (s'.pc t) = beforeC (s.pc t)) : Cl cfg s' := by
  obtain ⟨g1, g2, g3, g4, g5, g6, g7, g8, g9, g10, g11⟩ := h
  have hpost : ∀ u, post (s'.pc u) = post (s.pc u) := by
    intro u; by_cases e : u = t
    · rw [e, h1]
    · rw [hpc u e]
  have hA : ∀ u, beforeA (s'.pc u) = beforeA (s.pc u) := by
    intro u; by_cases e : u = t
    · rw [e, h2]
    · rw [hpc u e]
  have hC : ∀ u, beforeC (s'.pc u) = beforeC (s.pc u) := by
    intro u; by_cases e : u = t
    · rw [e, h3]
    · rw [hpc u e]
  have hgood : ∀ o, good cfg s' o = true → good cfg s o = true := by
    intro o
    simp only [good, both, ha, hc, Bool.or_eq_true, decide_eq_true_eq]
    intro h
    rcases h with (h | h) | h
    · exact .inl (.inl h)
    · exact .inl (.inr (hq o h))
    · exact .inr h
  have hov : ∀ o, good cfg s o = true → over (s.place o) = true → over (s'.place o) = true := fun o g h => by rw [hg o g h]; exact h
  have hdn : ∀ o, s'.place o = .done → s.place o = .done := fun o h => by rw [← ho o (by rw [h]; rfl)]; exact h
  constructor <;> simp only [ha, hc, hl, hd, hn, hm, hpost, hA, hC]
  · intro o c g hp hcc
    have g := hgood o g
    rw [hda o (by simp [hcc])]
    exact g1 o c g (fun e => hp (by rw [hg o g (by rw [e]; rfl)]; exact e)) hcc
  · exact g2
  · exact fun o r g h1 h2 => ⟨hov o (hgood o g) (g3 o r (hgood o g) h1 h2).1, (g3 o r (hgood o g) h1 h2).2⟩
  · exact fun o r g h1 h2 => ⟨hov o (hgood o g) (g4 o r (hgood o g) h1 h2).1, (g4 o r (hgood o g) h1 h2).2⟩
  · exact fun o r g h1 h2 => g5 o r (hgood o g) h1 (hdn o h2)
  · exact fun o r g h1 h2 => g6 o r (hgood o g) h1 (hdn o h2)
  · exact fun t o r g => g7 t o r (hgood o g)
  · exact fun t o r g => g8 t o r (hgood o g)
  · exact g9
  · exact g10
  · exact g11

theorem pcs : (∀ r, post (.rRet r) = none ∧ beforeA (.rRet r) = none ∧ beforeC (.rRet r) = none) ∧
    (∀ o r k, post (.e3 o r k) = some o ∧ beforeA (.e3 o r k) = some o ∧ beforeC (.e3 o r k) = some o) ∧
    (∀ o r k, post (.e5 o r k) = some o ∧ beforeA (.e5 o r k) = none ∧ beforeC (.e5 o r k) = some o) ∧
    (∀ o k, post (.e6 o k) = some o ∧ beforeA (.e6 o k) = none ∧ beforeC (.e6 o k) = none) ∧
    (∀ k, post (back k) = none ∧ beforeA (back k) = none ∧ beforeC (back k) = none) :=
  ⟨fun _ => ⟨rfl, rfl, rfl⟩, fun _ _ _ => ⟨rfl, rfl, rfl⟩, fun _ _ _ => ⟨rfl, rfl, rfl⟩, fun _ _ => ⟨rfl, rfl, rfl⟩, fun k => by cases k <;> exact ⟨rfl, rfl, rfl⟩⟩

/-- What is used of the other invariants. -/
structure Ctx (g : Nat → Prop) (s : Sys) : Prop where
  av : ∀ o r, s.avail o = some r → r < s.nreq ∧ o < s.nops
  co : ∀ o r, s.cons o = some r → r < s.nreq ∧ o < s.nops
  avInj : ∀ o o' r, s.avail o = some r → s.avail o' = some r → o = o'
  coInj : ∀ o o' r, s.cons o = some r → s.cons o' = some r → o = o'
  ac : ∀ o o' r, s.avail o = some r → s.cons o' ≠ some r
  mat : ∀ a c, (a, c) ∈ s.matched → a < s.nreq ∧ c < s.nreq
  tm : ∀ o a c, s.avail o = some a → s.cons o = some c → (a, c) ∈ s.matched
  q : ∀ o, o ∈ s.q → s.place o = .queue ∧ g o
  run : ∀ o t, pre (s.pc t) = some o → g o → s.place o = .run t
  fin : ∀ o t, post (s.pc t) = some o → g o → s.place o = .fin t
  fr : s.place s.nops = .fresh ∧ ∀ t, post (s.pc t) ≠ some s.nops
  ok : ∀ t o r, execRes (s.pc t) = some (o, r) → both s o = true ∨ r ≠ .ok
  bA : ∀ t o, beforeA (s.pc t) = some o → post (s.pc t) = some o
  bC : ∀ t o, beforeC (s.pc t) = some o → post (s.pc t) = some o

theorem ctx {cfg s} (hq : Qs s) (hl : Pl cfg s) (hr : Rs s) : Ctx (fun o => good cfg s o = true) s := by
  obtain ⟨-, -, q3, -, q5, q6, q7, q8, -, q10, q11⟩ := hq
  constructor
  · exact fun o r h => ⟨(q5 o r h).1, (q5 o r h).2.2⟩
  · exact fun o r h => ⟨(q6 o r h).1, (q6 o r h).2.2⟩
  · exact q7
  · exact q8
  · intro o o' r h h'
    have e1 := (q5 o r h).2.1
    have e2 := (q6 o' r h').2.1
    rw [e1] at e2
    exact absurd e2 (by simp)
  · intro a c h
    obtain ⟨o, ha, hc⟩ := q10 a c h
    exact ⟨(q5 o a ha).1, (q6 o c hc).1⟩
  · exact q11
  · exact fun o h => ⟨(hl.q o).2 h, by simp [good, (hl.q o).2 h]⟩
  · exact fun o t h g => (hl.r o t g).2 h
  · exact fun o t h g => (hl.f o t g).2 h
  · exact ⟨(hl.fr _ (Nat.le_refl _)).1, fun t e => hl.frt _ t (Nat.le_refl _) (post_ment _ _ e)⟩
  · exact hr.r2
  · intro t o; cases s.pc t <;> simp [beforeA, post]
  · intro t o; cases s.pc t <;> simp [beforeC, post]

set_option maxHeartbeats 4000000 in
theorem cl_pullEnq {g g' : Nat → Prop} {b : Prop} {s : Sys} (hx : Ctx g s) (h : ClG g b s) (hg : ∀ o, g' o → g o ∨ o = s.nops) (t d : Nat) (hp : s.pc t = .rLock .pull d) : ClG g' b { s with
    nops := s.nops + 1, avail := upd s.avail s.nops (some s.nreq), cons := upd s.cons s.nops none, data := upd s.data s.nops none,
    res := upd s.res s.nops .ok, chan := upd s.chan s.nops true, self := upd s.self s.nops true, uref := upd s.uref s.nops 1,
    q := s.q ++ [s.nops], nreq := s.nreq + 1, kind := upd s.kind s.nreq .pull, dat := upd s.dat s.nreq d,
    place := upd s.place s.nops .queue, toks := .req s.nreq :: drop s.toks (.thr t), pc := upd s.pc t (.rRet (some s.nreq)) } := by
  obtain ⟨x1, x2, x3, x4, x5, x6, x7, x8, x9, x10, x11, x12, x13, x14⟩ := hx
  obtain ⟨h1, h2, h3, h4, h5, h6, h7, h8, h9, h10, h11⟩ := h
  simp only [both] at x12
  constructor
  case dt => first | assumption | (clear h9 h10 h11; (simp only [upd, apply_ite post, apply_ite beforeA, apply_ite beforeC, pcs]; grind [over, reqsOf_cons, reqsOf_delivered, mem_reqsOf_delivered]))
  case lb => first | assumption | (clear h9 h10 h11; (simp only [upd, apply_ite post, apply_ite beforeA, apply_ite beforeC, pcs]; grind [over, reqsOf_cons, reqsOf_delivered, mem_reqsOf_delivered]))
  case lA => first | assumption | (clear h1 h9 h10 h11 x12 x7 x6; (simp only [upd, apply_ite post, apply_ite beforeA, apply_ite beforeC, pcs]; grind [over, reqsOf_cons, reqsOf_delivered, mem_reqsOf_delivered]))
  case lC => first | assumption | (clear h1 h9 h10 h11 x12 x7 x6; (simp only [upd, apply_ite post, apply_ite beforeA, apply_ite beforeC, pcs]; grind [over, reqsOf_cons, reqsOf_delivered, mem_reqsOf_delivered]))
  case xA => first | assumption | (clear h1 h9 h10 h11 x12 x7 x6; (simp only [upd, apply_ite post, apply_ite beforeA, apply_ite beforeC, pcs]; grind [over, reqsOf_cons, reqsOf_delivered, mem_reqsOf_delivered]))
  case xC => first | assumption | (clear h1 h9 h10 h11 x12 x7 x6; (simp only [upd, apply_ite post, apply_ite beforeA, apply_ite beforeC, pcs]; grind [over, reqsOf_cons, reqsOf_delivered, mem_reqsOf_delivered]))
  case yA => first | assumption | (clear h1 h9 h10 h11 x12 x7 x6; (simp only [upd, apply_ite post, apply_ite beforeA, apply_ite beforeC, pcs]; grind [over, reqsOf_cons, reqsOf_delivered, mem_reqsOf_delivered]))
  case yC => first | assumption | (clear h1 h9 h10 h11 x12 x7 x6; (simp only [upd, apply_ite post, apply_ite beforeA, apply_ite beforeC, pcs]; grind [over, reqsOf_cons, reqsOf_delivered, mem_reqsOf_delivered]))
  case once => first | assumption | (clear h1 h10 h11; (simp only [upd, apply_ite post, apply_ite beforeA, apply_ite beforeC, pcs]; grind [over, reqsOf_cons, reqsOf_delivered, mem_reqsOf_delivered])) | skip
  case onceD => first | assumption | (clear h1 h9 h11; (simp only [upd, apply_ite post, apply_ite beforeA, apply_ite beforeC, pcs]; grind [over, reqsOf_cons, reqsOf_delivered, mem_reqsOf_delivered])) | skip
  case val =>
    intro c hc hr
    obtain ⟨v1, v2, v3⟩ := h11 c hc hr
    refine ⟨v1, v2, fun a b' ha hb => ?_⟩
    obtain ⟨w1, w2⟩ := v3 a b' ha hb
    have := (x6 a b' w1).2
    refine ⟨w1, ?_⟩
    dsimp only
    rw [upd_ne _ _ (by omega)]
    exact w2

set_option maxHeartbeats 4000000 in
theorem cl_pushEnq {g g' : Nat → Prop} {b : Prop} {s : Sys} (hx : Ctx g s) (h : ClG g b s) (hg : ∀ o, g' o → g o ∨ o = s.nops) (t d : Nat) (hp : s.pc t = .rLock .push d) : ClG g' b { s with
    nops := s.nops + 1, avail := upd s.avail s.nops none, cons := upd s.cons s.nops (some s.nreq), data := upd s.data s.nops (some d),
    res := upd s.res s.nops .ok, chan := upd s.chan s.nops true, self := upd s.self s.nops true, uref := upd s.uref s.nops 1,
    q := s.q ++ [s.nops], nreq := s.nreq + 1, kind := upd s.kind s.nreq .push, dat := upd s.dat s.nreq d,
    place := upd s.place s.nops .queue, toks := .req s.nreq :: drop s.toks (.thr t), pc := upd s.pc t (.rRet (some s.nreq)) } := by
  obtain ⟨x1, x2, x3, x4, x5, x6, x7, x8, x9, x10, x11, x12, x13, x14⟩ := hx
  obtain ⟨h1, h2, h3, h4, h5, h6, h7, h8, h9, h10, h11⟩ := h
  simp only [both] at x12
  constructor
  case dt => first | assumption | (clear h9 h10 h11; (simp only [upd, apply_ite post, apply_ite beforeA, apply_ite beforeC, pcs]; grind [over, reqsOf_cons, reqsOf_delivered, mem_reqsOf_delivered]))
  case lb => first | assumption | (clear h9 h10 h11; (simp only [upd, apply_ite post, apply_ite beforeA, apply_ite beforeC, pcs]; grind [over, reqsOf_cons, reqsOf_delivered, mem_reqsOf_delivered]))
  case lA => first | assumption | (clear h1 h9 h10 h11 x12 x7 x6; (simp only [upd, apply_ite post, apply_ite beforeA, apply_ite beforeC, pcs]; grind [over, reqsOf_cons, reqsOf_delivered, mem_reqsOf_delivered]))
  case lC => first | assumption | (clear h1 h9 h10 h11 x12 x7 x6; (simp only [upd, apply_ite post, apply_ite beforeA, apply_ite beforeC, pcs]; grind [over, reqsOf_cons, reqsOf_delivered, mem_reqsOf_delivered]))
  case xA => first | assumption | (clear h1 h9 h10 h11 x12 x7 x6; (simp only [upd, apply_ite post, apply_ite beforeA, apply_ite beforeC, pcs]; grind [over, reqsOf_cons, reqsOf_delivered, mem_reqsOf_delivered]))
  case xC => first | assumption | (clear h1 h9 h10 h11 x12 x7 x6; (simp only [upd, apply_ite post, apply_ite beforeA, apply_ite beforeC, pcs]; grind [over, reqsOf_cons, reqsOf_delivered, mem_reqsOf_delivered]))
  case yA => first | assumption | (clear h1 h9 h10 h11 x12 x7 x6; (simp only [upd, apply_ite post, apply_ite beforeA, apply_ite beforeC, pcs]; grind [over, reqsOf_cons, reqsOf_delivered, mem_reqsOf_delivered]))
  case yC => first | assumption | (clear h1 h9 h10 h11 x12 x7 x6; (simp only [upd, apply_ite post, apply_ite beforeA, apply_ite beforeC, pcs]; grind [over, reqsOf_cons, reqsOf_delivered, mem_reqsOf_delivered]))
  case once => first | assumption | (clear h1 h10 h11; (simp only [upd, apply_ite post, apply_ite beforeA, apply_ite beforeC, pcs]; grind [over, reqsOf_cons, reqsOf_delivered, mem_reqsOf_delivered])) | skip
  case onceD => first | assumption | (clear h1 h9 h11; (simp only [upd, apply_ite post, apply_ite beforeA, apply_ite beforeC, pcs]; grind [over, reqsOf_cons, reqsOf_delivered, mem_reqsOf_delivered])) | skip
  case val =>
    intro c hc hr
    obtain ⟨v1, v2, v3⟩ := h11 c hc hr
    refine ⟨v1, v2, fun a b' ha hb => ?_⟩
    obtain ⟨w1, w2⟩ := v3 a b' ha hb
    have := (x6 a b' w1).2
    refine ⟨w1, ?_⟩
    dsimp only
    rw [upd_ne _ _ (by omega)]
    exact w2

set_option maxHeartbeats 4000000 in
theorem cl_pullDeq {g : Nat → Prop} {b : Prop} {s : Sys} (hx : Ctx g s) (h : ClG g b s) (t d o : Nat) (rest : List Nat) (c : Nat) (hp : s.pc t = .rLock .pull d) (ho : o ∈ s.q) (ha : s.avail o = none) (hc : s.cons o = some c) : ClG g b { s with
    q := rest, nxt := upd s.nxt o (after .chanHead s.q o), avail := upd s.avail o (some s.nreq), pend := upd s.pend o (s.pend o + 1),
    uref := upd s.uref o (s.uref o + 1), nreq := s.nreq + 1, kind := upd s.kind s.nreq .pull, dat := upd s.dat s.nreq d,
    matched := s.matched ++ [(s.nreq, c)],
    place := upd s.place o .sched, toks := .req s.nreq :: drop s.toks (.thr t), pc := upd s.pc t (.rRet (some s.nreq)) } := by
  obtain ⟨x1, x2, x3, x4, x5, x6, x7, x8, x9, x10, x11, x12, x13, x14⟩ := hx
  obtain ⟨h1, h2, h3, h4, h5, h6, h7, h8, h9, h10, h11⟩ := h
  simp only [both] at x12
  constructor
  case dt => first | assumption | (clear h9 h10 h11; (simp only [upd, apply_ite post, apply_ite beforeA, apply_ite beforeC, pcs]; grind [over, reqsOf_cons, reqsOf_delivered, mem_reqsOf_delivered]))
  case lb => first | assumption | (clear h9 h10 h11; (simp only [upd, apply_ite post, apply_ite beforeA, apply_ite beforeC, pcs]; grind [over, reqsOf_cons, reqsOf_delivered, mem_reqsOf_delivered]))
  case lA => first | assumption | (clear h1 h9 h10 h11 x12 x7 x6; (simp only [upd, apply_ite post, apply_ite beforeA, apply_ite beforeC, pcs]; grind [over, reqsOf_cons, reqsOf_delivered, mem_reqsOf_delivered]))
  case lC => first | assumption | (clear h1 h9 h10 h11 x12 x7 x6; (simp only [upd, apply_ite post, apply_ite beforeA, apply_ite beforeC, pcs]; grind [over, reqsOf_cons, reqsOf_delivered, mem_reqsOf_delivered]))
  case xA => first | assumption | (clear h1 h9 h10 h11 x12 x7 x6; (simp only [upd, apply_ite post, apply_ite beforeA, apply_ite beforeC, pcs]; grind [over, reqsOf_cons, reqsOf_delivered, mem_reqsOf_delivered]))
  case xC => first | assumption | (clear h1 h9 h10 h11 x12 x7 x6; (simp only [upd, apply_ite post, apply_ite beforeA, apply_ite beforeC, pcs]; grind [over, reqsOf_cons, reqsOf_delivered, mem_reqsOf_delivered]))
  case yA => first | assumption | (clear h1 h9 h10 h11 x12 x7 x6; (simp only [upd, apply_ite post, apply_ite beforeA, apply_ite beforeC, pcs]; grind [over, reqsOf_cons, reqsOf_delivered, mem_reqsOf_delivered]))
  case yC => first | assumption | (clear h1 h9 h10 h11 x12 x7 x6; (simp only [upd, apply_ite post, apply_ite beforeA, apply_ite beforeC, pcs]; grind [over, reqsOf_cons, reqsOf_delivered, mem_reqsOf_delivered]))
  case once => first | assumption | (clear h1 h10 h11; (simp only [upd, apply_ite post, apply_ite beforeA, apply_ite beforeC, pcs]; grind [over, reqsOf_cons, reqsOf_delivered, mem_reqsOf_delivered])) | skip
  case onceD => first | assumption | (clear h1 h9 h11; (simp only [upd, apply_ite post, apply_ite beforeA, apply_ite beforeC, pcs]; grind [over, reqsOf_cons, reqsOf_delivered, mem_reqsOf_delivered])) | skip
  case val =>
    intro c' hc' hr
    obtain ⟨v1, v2, v3⟩ := h11 c' hc' hr
    refine ⟨v1, v2, fun a' b' ha' hb' => ?_⟩
    obtain ⟨w1, w2⟩ := v3 a' b' ha' hb'
    have := (x6 a' b' w1).2
    refine ⟨List.mem_append_left _ w1, ?_⟩
    dsimp only
    rw [upd_ne _ _ (by omega)]
    exact w2

set_option maxHeartbeats 4000000 in
theorem cl_pushDeq {g : Nat → Prop} {b : Prop} {s : Sys} (hx : Ctx g s) (h : ClG g b s) (t d o : Nat) (rest : List Nat) (a : Nat) (hp : s.pc t = .rLock .push d) (ho : o ∈ s.q) (hc : s.cons o = none) (ha : s.avail o = some a) : ClG g b { s with
    q := rest, nxt := upd s.nxt o (after .chanHead s.q o), cons := upd s.cons o (some s.nreq), data := upd s.data o (some d),
    pend := upd s.pend o (s.pend o + 1), uref := upd s.uref o (s.uref o + 1), nreq := s.nreq + 1, kind := upd s.kind s.nreq .push,
    dat := upd s.dat s.nreq d, matched := s.matched ++ [(a, s.nreq)],
    place := upd s.place o .sched, toks := .req s.nreq :: drop s.toks (.thr t), pc := upd s.pc t (.rRet (some s.nreq)) } := by
  obtain ⟨x1, x2, x3, x4, x5, x6, x7, x8, x9, x10, x11, x12, x13, x14⟩ := hx
  obtain ⟨h1, h2, h3, h4, h5, h6, h7, h8, h9, h10, h11⟩ := h
  simp only [both] at x12
  constructor
  case dt => first | assumption | (clear h9 h10 h11; (simp only [upd, apply_ite post, apply_ite beforeA, apply_ite beforeC, pcs]; grind [over, reqsOf_cons, reqsOf_delivered, mem_reqsOf_delivered]))
  case lb => first | assumption | (clear h9 h10 h11; (simp only [upd, apply_ite post, apply_ite beforeA, apply_ite beforeC, pcs]; grind [over, reqsOf_cons, reqsOf_delivered, mem_reqsOf_delivered]))
  case lA => first | assumption | (clear h1 h9 h10 h11 x12 x7 x6; (simp only [upd, apply_ite post, apply_ite beforeA, apply_ite beforeC, pcs]; grind [over, reqsOf_cons, reqsOf_delivered, mem_reqsOf_delivered]))
  case lC => first | assumption | (clear h1 h9 h10 h11 x12 x7 x6; (simp only [upd, apply_ite post, apply_ite beforeA, apply_ite beforeC, pcs]; grind [over, reqsOf_cons, reqsOf_delivered, mem_reqsOf_delivered]))
  case xA => first | assumption | (clear h1 h9 h10 h11 x12 x7 x6; (simp only [upd, apply_ite post, apply_ite beforeA, apply_ite beforeC, pcs]; grind [over, reqsOf_cons, reqsOf_delivered, mem_reqsOf_delivered]))
  case xC => first | assumption | (clear h1 h9 h10 h11 x12 x7 x6; (simp only [upd, apply_ite post, apply_ite beforeA, apply_ite beforeC, pcs]; grind [over, reqsOf_cons, reqsOf_delivered, mem_reqsOf_delivered]))
  case yA => first | assumption | (clear h1 h9 h10 h11 x12 x7 x6; (simp only [upd, apply_ite post, apply_ite beforeA, apply_ite beforeC, pcs]; grind [over, reqsOf_cons, reqsOf_delivered, mem_reqsOf_delivered]))
  case yC => first | assumption | (clear h1 h9 h10 h11 x12 x7 x6; (simp only [upd, apply_ite post, apply_ite beforeA, apply_ite beforeC, pcs]; grind [over, reqsOf_cons, reqsOf_delivered, mem_reqsOf_delivered]))
  case once => first | assumption | (clear h1 h10 h11; (simp only [upd, apply_ite post, apply_ite beforeA, apply_ite beforeC, pcs]; grind [over, reqsOf_cons, reqsOf_delivered, mem_reqsOf_delivered])) | skip
  case onceD => first | assumption | (clear h1 h9 h11; (simp only [upd, apply_ite post, apply_ite beforeA, apply_ite beforeC, pcs]; grind [over, reqsOf_cons, reqsOf_delivered, mem_reqsOf_delivered])) | skip
  case val =>
    intro c' hc' hr
    obtain ⟨v1, v2, v3⟩ := h11 c' hc' hr
    refine ⟨v1, v2, fun a' b' ha' hb' => ?_⟩
    obtain ⟨w1, w2⟩ := v3 a' b' ha' hb'
    have := (x6 a' b' w1).2
    refine ⟨List.mem_append_left _ w1, ?_⟩
    dsimp only
    rw [upd_ne _ _ (by omega)]
    exact w2

set_option maxHeartbeats 4000000 in
theorem cl_e2 {g : Nat → Prop} {b : Prop} {s : Sys} (hx : Ctx g s) (h : ClG g b s) (t o : Nat) (r : Res) (k : Ret) (hp : s.pc t = .e2 o r k) : ClG g b { s with
    bad := s.bad || freed s o || !s.chan o || decide (s.execs < callbacks s o), execs := s.execs - callbacks s o,
    toks := dropReq (dropReq s.toks (s.avail o)) (s.cons o), place := upd s.place o (.fin t), pc := upd s.pc t (.e3 o r k) } := by
  obtain ⟨x1, x2, x3, x4, x5, x6, x7, x8, x9, x10, x11, x12, x13, x14⟩ := hx
  obtain ⟨h1, h2, h3, h4, h5, h6, h7, h8, h9, h10, h11⟩ := h
  have hT : pre (s.pc t) = some o := by rw [hp]; rfl
  simp only [both] at x12
  constructor
  case dt => first | assumption | (clear h9 h10 h11; (simp only [upd, apply_ite post, apply_ite beforeA, apply_ite beforeC, pcs]; grind [over, reqsOf_cons, reqsOf_delivered, mem_reqsOf_delivered]))
  case lb => first | assumption | (clear h9 h10 h11; (simp only [upd, apply_ite post, apply_ite beforeA, apply_ite beforeC, pcs]; grind [over, reqsOf_cons, reqsOf_delivered, mem_reqsOf_delivered]))
  case lA => first | assumption | (clear h1 h9 h10 h11 x12 x7 x6; (simp only [upd, apply_ite post, apply_ite beforeA, apply_ite beforeC, pcs]; grind [over, reqsOf_cons, reqsOf_delivered, mem_reqsOf_delivered]))
  case lC => first | assumption | (clear h1 h9 h10 h11 x12 x7 x6; (simp only [upd, apply_ite post, apply_ite beforeA, apply_ite beforeC, pcs]; grind [over, reqsOf_cons, reqsOf_delivered, mem_reqsOf_delivered]))
  case xA => first | assumption | (clear h1 h9 h10 h11 x12 x7 x6; (simp only [upd, apply_ite post, apply_ite beforeA, apply_ite beforeC, pcs]; grind [over, reqsOf_cons, reqsOf_delivered, mem_reqsOf_delivered]))
  case xC => first | assumption | (clear h1 h9 h10 h11 x12 x7 x6; (simp only [upd, apply_ite post, apply_ite beforeA, apply_ite beforeC, pcs]; grind [over, reqsOf_cons, reqsOf_delivered, mem_reqsOf_delivered]))
  case yA => first | assumption | (clear h1 h9 h10 h11 x12 x7 x6; (simp only [upd, apply_ite post, apply_ite beforeA, apply_ite beforeC, pcs]; grind [over, reqsOf_cons, reqsOf_delivered, mem_reqsOf_delivered]))
  case yC => first | assumption | (clear h1 h9 h10 h11 x12 x7 x6; (simp only [upd, apply_ite post, apply_ite beforeA, apply_ite beforeC, pcs]; grind [over, reqsOf_cons, reqsOf_delivered, mem_reqsOf_delivered]))
  case once => first | assumption | (clear h1 h10 h11; (simp only [upd, apply_ite post, apply_ite beforeA, apply_ite beforeC, pcs]; grind [over, reqsOf_cons, reqsOf_delivered, mem_reqsOf_delivered])) | skip
  case onceD => first | assumption | (clear h1 h9 h11; (simp only [upd, apply_ite post, apply_ite beforeA, apply_ite beforeC, pcs]; grind [over, reqsOf_cons, reqsOf_delivered, mem_reqsOf_delivered])) | skip
  case val => first | assumption | (clear h9 h10 h2; (simp only [upd, apply_ite post, apply_ite beforeA, apply_ite beforeC, pcs]; grind [over, reqsOf_cons, reqsOf_delivered, mem_reqsOf_delivered])) | skip

set_option maxHeartbeats 4000000 in
theorem cl_e4 {g : Nat → Prop} {b : Prop} {s : Sys} (hx : Ctx g s) (hb : b → ∀ o, g o) (hb2 : ∀ o, both s o = true → g o)  (h : ClG g b s) (t o : Nat) (r : Res) (k : Ret) (a : Nat) (hp : s.pc t = .e4 o r k) (ha : s.avail o = some a) : ClG g b { s with
    log := { req := a, res := r, pull := s.avail o, push := s.cons o, data := s.data o } :: s.log, pc := upd s.pc t (.e5 o r k) } := by
  obtain ⟨x1, x2, x3, x4, x5, x6, x7, x8, x9, x10, x11, x12, x13, x14⟩ := hx
  obtain ⟨h1, h2, h3, h4, h5, h6, h7, h8, h9, h10, h11⟩ := h
  have hT : post (s.pc t) = some o ∧ beforeA (s.pc t) = some o ∧ beforeC (s.pc t) = some o ∧ execRes (s.pc t) = some (o, r) := by rw [hp]; exact ⟨rfl, rfl, rfl, rfl⟩
  simp only [both] at x12
  constructor
  case dt => first | assumption | (clear h9 h10 h11; (simp only [upd, apply_ite post, apply_ite beforeA, apply_ite beforeC, pcs]; grind [over, reqsOf_cons, reqsOf_delivered, mem_reqsOf_delivered]))
  case lb => first | assumption | (clear h9 h10 h11; (simp only [upd, apply_ite post, apply_ite beforeA, apply_ite beforeC, pcs]; grind [over, reqsOf_cons, reqsOf_delivered, mem_reqsOf_delivered]))
  case lA => first | assumption | (clear h1 h9 h10 h11 x12 x7 x6; (simp only [upd, apply_ite post, apply_ite beforeA, apply_ite beforeC, pcs]; grind [over, reqsOf_cons, reqsOf_delivered, mem_reqsOf_delivered]))
  case lC => first | assumption | (clear h1 h9 h10 h11 x12 x7 x6; (simp only [upd, apply_ite post, apply_ite beforeA, apply_ite beforeC, pcs]; grind [over, reqsOf_cons, reqsOf_delivered, mem_reqsOf_delivered]))
  case xA => first | assumption | (clear h1 h9 h10 h11 x12 x7 x6; (simp only [upd, apply_ite post, apply_ite beforeA, apply_ite beforeC, pcs]; grind [over, reqsOf_cons, reqsOf_delivered, mem_reqsOf_delivered]))
  case xC => first | assumption | (clear h1 h9 h10 h11 x12 x7 x6; (simp only [upd, apply_ite post, apply_ite beforeA, apply_ite beforeC, pcs]; grind [over, reqsOf_cons, reqsOf_delivered, mem_reqsOf_delivered]))
  case yA => first | assumption | (clear h1 h9 h10 h11 x12 x7 x6; (simp only [upd, apply_ite post, apply_ite beforeA, apply_ite beforeC, pcs]; grind [over, reqsOf_cons, reqsOf_delivered, mem_reqsOf_delivered]))
  case yC => first | assumption | (clear h1 h9 h10 h11 x12 x7 x6; (simp only [upd, apply_ite post, apply_ite beforeA, apply_ite beforeC, pcs]; grind [over, reqsOf_cons, reqsOf_delivered, mem_reqsOf_delivered]))
  case once =>
    intro hB
    rw [reqsOf_cons, List.nodup_cons]
    exact ⟨fun hm => (h3 o a (hb hB o) ha hm).2 t hT.2.1, h9 hB⟩
  case onceD =>
    dsimp only
    rw [reqsOf_delivered]
    split
    · rename_i hr
      have hbo : both s o = true := by
        rcases x12 t o r hT.2.2.2 with h | h
        · simpa only [both] using h
        · exact absurd hr h
      rw [List.nodup_cons]
      exact ⟨fun hm => (h3 o a (hb2 o hbo) ha (mem_reqsOf_delivered _ _ hm)).2 t hT.2.1, h10⟩
    · exact h10
  case val =>
    intro c' hc' hr
    dsimp only at hc'
    rw [List.mem_cons] at hc'
    rcases hc' with rfl | hc'
    · dsimp only at hr ⊢
      have hbo : both s o = true := by
        rcases x12 t o r hT.2.2.2 with h | h
        · simpa only [both] using h
        · exact absurd hr h
      have hbo' := hbo
      simp only [both, Bool.and_eq_true] at hbo'
      refine ⟨hbo'.1, hbo'.2, fun a' b' h1' h2' => ⟨x7 o a' b' h1' h2', ?_⟩⟩
      have hg := hb2 o hbo
      have hpl := x10 o t hT.1 hg
      refine .inl ⟨by rw [ha] at h1'; injection h1', h1 o b' hg (by rw [hpl]; simp) h2'⟩
    · exact h11 c' hc' hr

set_option maxHeartbeats 4000000 in
theorem cl_e4No {g : Nat → Prop} {b : Prop} {s : Sys} (hx : Ctx g s) (h : ClG g b s) (t o : Nat) (r : Res) (k : Ret) (hp : s.pc t = .e4 o r k) (ha : s.avail o = none) : ClG g b { s with
    pc := upd s.pc t (.e5 o r k) } := by
  obtain ⟨x1, x2, x3, x4, x5, x6, x7, x8, x9, x10, x11, x12, x13, x14⟩ := hx
  obtain ⟨h1, h2, h3, h4, h5, h6, h7, h8, h9, h10, h11⟩ := h
  have hT : post (s.pc t) = some o ∧ beforeA (s.pc t) = some o ∧ beforeC (s.pc t) = some o := by rw [hp]; exact ⟨rfl, rfl, rfl⟩
  simp only [both] at x12
  constructor
  case dt => first | assumption | (clear h9 h10 h11; (simp only [upd, apply_ite post, apply_ite beforeA, apply_ite beforeC, pcs]; grind [over, reqsOf_cons, reqsOf_delivered, mem_reqsOf_delivered]))
  case lb => first | assumption | (clear h9 h10 h11; (simp only [upd, apply_ite post, apply_ite beforeA, apply_ite beforeC, pcs]; grind [over, reqsOf_cons, reqsOf_delivered, mem_reqsOf_delivered]))
  case lA => first | assumption | (clear h1 h9 h10 h11 x12 x7 x6; (simp only [upd, apply_ite post, apply_ite beforeA, apply_ite beforeC, pcs]; grind [over, reqsOf_cons, reqsOf_delivered, mem_reqsOf_delivered]))
  case lC => first | assumption | (clear h1 h9 h10 h11 x12 x7 x6; (simp only [upd, apply_ite post, apply_ite beforeA, apply_ite beforeC, pcs]; grind [over, reqsOf_cons, reqsOf_delivered, mem_reqsOf_delivered]))
  case xA => first | assumption | (clear h1 h9 h10 h11 x12 x7 x6; (simp only [upd, apply_ite post, apply_ite beforeA, apply_ite beforeC, pcs]; grind [over, reqsOf_cons, reqsOf_delivered, mem_reqsOf_delivered]))
  case xC => first | assumption | (clear h1 h9 h10 h11 x12 x7 x6; (simp only [upd, apply_ite post, apply_ite beforeA, apply_ite beforeC, pcs]; grind [over, reqsOf_cons, reqsOf_delivered, mem_reqsOf_delivered]))
  case yA => first | assumption | (clear h1 h9 h10 h11 x12 x7 x6; (simp only [upd, apply_ite post, apply_ite beforeA, apply_ite beforeC, pcs]; grind [over, reqsOf_cons, reqsOf_delivered, mem_reqsOf_delivered]))
  case yC => first | assumption | (clear h1 h9 h10 h11 x12 x7 x6; (simp only [upd, apply_ite post, apply_ite beforeA, apply_ite beforeC, pcs]; grind [over, reqsOf_cons, reqsOf_delivered, mem_reqsOf_delivered]))
  case once => first | assumption | (clear h1 h10 h11; (simp only [upd, apply_ite post, apply_ite beforeA, apply_ite beforeC, pcs]; grind [over, reqsOf_cons, reqsOf_delivered, mem_reqsOf_delivered])) | skip
  case onceD => first | assumption | (clear h1 h9 h11; (simp only [upd, apply_ite post, apply_ite beforeA, apply_ite beforeC, pcs]; grind [over, reqsOf_cons, reqsOf_delivered, mem_reqsOf_delivered])) | skip
  case val => first | assumption | (clear h9 h10 h2; (simp only [upd, apply_ite post, apply_ite beforeA, apply_ite beforeC, pcs]; grind [over, reqsOf_cons, reqsOf_delivered, mem_reqsOf_delivered])) | skip

set_option maxHeartbeats 4000000 in
theorem cl_e5 {g : Nat → Prop} {b : Prop} {s : Sys} (hx : Ctx g s) (hb : b → ∀ o, g o) (hb2 : ∀ o, both s o = true → g o)  (h : ClG g b s) (t o : Nat) (r : Res) (k : Ret) (c : Nat) (hp : s.pc t = .e5 o r k) (ha : s.cons o = some c) : ClG g b { s with
    log := { req := c, res := r, pull := s.avail o, push := s.cons o, data := none } :: s.log, pc := upd s.pc t (.e6 o k) } := by
  obtain ⟨x1, x2, x3, x4, x5, x6, x7, x8, x9, x10, x11, x12, x13, x14⟩ := hx
  obtain ⟨h1, h2, h3, h4, h5, h6, h7, h8, h9, h10, h11⟩ := h
  have hT : post (s.pc t) = some o ∧ beforeA (s.pc t) = none ∧ beforeC (s.pc t) = some o ∧ execRes (s.pc t) = some (o, r) := by rw [hp]; exact ⟨rfl, rfl, rfl, rfl⟩
  simp only [both] at x12
  constructor
  case dt => first | assumption | (clear h9 h10 h11; (simp only [upd, apply_ite post, apply_ite beforeA, apply_ite beforeC, pcs]; grind [over, reqsOf_cons, reqsOf_delivered, mem_reqsOf_delivered]))
  case lb => first | assumption | (clear h9 h10 h11; (simp only [upd, apply_ite post, apply_ite beforeA, apply_ite beforeC, pcs]; grind [over, reqsOf_cons, reqsOf_delivered, mem_reqsOf_delivered]))
  case lA => first | assumption | (clear h1 h9 h10 h11 x12 x7 x6; (simp only [upd, apply_ite post, apply_ite beforeA, apply_ite beforeC, pcs]; grind [over, reqsOf_cons, reqsOf_delivered, mem_reqsOf_delivered]))
  case lC => first | assumption | (clear h1 h9 h10 h11 x12 x7 x6; (simp only [upd, apply_ite post, apply_ite beforeA, apply_ite beforeC, pcs]; grind [over, reqsOf_cons, reqsOf_delivered, mem_reqsOf_delivered]))
  case xA => first | assumption | (clear h1 h9 h10 h11 x12 x7 x6; (simp only [upd, apply_ite post, apply_ite beforeA, apply_ite beforeC, pcs]; grind [over, reqsOf_cons, reqsOf_delivered, mem_reqsOf_delivered]))
  case xC => first | assumption | (clear h1 h9 h10 h11 x12 x7 x6; (simp only [upd, apply_ite post, apply_ite beforeA, apply_ite beforeC, pcs]; grind [over, reqsOf_cons, reqsOf_delivered, mem_reqsOf_delivered]))
  case yA => first | assumption | (clear h1 h9 h10 h11 x12 x7 x6; (simp only [upd, apply_ite post, apply_ite beforeA, apply_ite beforeC, pcs]; grind [over, reqsOf_cons, reqsOf_delivered, mem_reqsOf_delivered]))
  case yC => first | assumption | (clear h1 h9 h10 h11 x12 x7 x6; (simp only [upd, apply_ite post, apply_ite beforeA, apply_ite beforeC, pcs]; grind [over, reqsOf_cons, reqsOf_delivered, mem_reqsOf_delivered]))
  case once =>
    intro hB
    rw [reqsOf_cons, List.nodup_cons]
    exact ⟨fun hm => (h4 o c (hb hB o) ha hm).2 t hT.2.2.1, h9 hB⟩
  case onceD =>
    dsimp only
    rw [reqsOf_delivered]
    split
    · rename_i hr
      have hbo : both s o = true := by
        rcases x12 t o r hT.2.2.2 with h | h
        · simpa only [both] using h
        · exact absurd hr h
      rw [List.nodup_cons]
      exact ⟨fun hm => (h4 o c (hb2 o hbo) ha (mem_reqsOf_delivered _ _ hm)).2 t hT.2.2.1, h10⟩
    · exact h10
  case val =>
    intro c' hc' hr
    dsimp only at hc'
    rw [List.mem_cons] at hc'
    rcases hc' with rfl | hc'
    · dsimp only at hr ⊢
      have hbo : both s o = true := by
        rcases x12 t o r hT.2.2.2 with h | h
        · simpa only [both] using h
        · exact absurd hr h
      have hbo' := hbo
      simp only [both, Bool.and_eq_true] at hbo'
      refine ⟨hbo'.1, hbo'.2, fun a' b' h1' h2' => ⟨x7 o a' b' h1' h2', ?_⟩⟩
      exact .inr ⟨by rw [ha] at h2'; injection h2', rfl⟩
    · exact h11 c' hc' hr

set_option maxHeartbeats 4000000 in
theorem cl_e5No {g : Nat → Prop} {b : Prop} {s : Sys} (hx : Ctx g s) (h : ClG g b s) (t o : Nat) (r : Res) (k : Ret) (hp : s.pc t = .e5 o r k) (ha : s.cons o = none) : ClG g b { s with
    pc := upd s.pc t (.e6 o k) } := by
  obtain ⟨x1, x2, x3, x4, x5, x6, x7, x8, x9, x10, x11, x12, x13, x14⟩ := hx
  obtain ⟨h1, h2, h3, h4, h5, h6, h7, h8, h9, h10, h11⟩ := h
  have hT : post (s.pc t) = some o ∧ beforeA (s.pc t) = none ∧ beforeC (s.pc t) = some o := by rw [hp]; exact ⟨rfl, rfl, rfl⟩
  simp only [both] at x12
  constructor
  case dt => first | assumption | (clear h9 h10 h11; (simp only [upd, apply_ite post, apply_ite beforeA, apply_ite beforeC, pcs]; grind [over, reqsOf_cons, reqsOf_delivered, mem_reqsOf_delivered]))
  case lb => first | assumption | (clear h9 h10 h11; (simp only [upd, apply_ite post, apply_ite beforeA, apply_ite beforeC, pcs]; grind [over, reqsOf_cons, reqsOf_delivered, mem_reqsOf_delivered]))
  case lA => first | assumption | (clear h1 h9 h10 h11 x12 x7 x6; (simp only [upd, apply_ite post, apply_ite beforeA, apply_ite beforeC, pcs]; grind [over, reqsOf_cons, reqsOf_delivered, mem_reqsOf_delivered]))
  case lC => first | assumption | (clear h1 h9 h10 h11 x12 x7 x6; (simp only [upd, apply_ite post, apply_ite beforeA, apply_ite beforeC, pcs]; grind [over, reqsOf_cons, reqsOf_delivered, mem_reqsOf_delivered]))
  case xA => first | assumption | (clear h1 h9 h10 h11 x12 x7 x6; (simp only [upd, apply_ite post, apply_ite beforeA, apply_ite beforeC, pcs]; grind [over, reqsOf_cons, reqsOf_delivered, mem_reqsOf_delivered]))
  case xC => first | assumption | (clear h1 h9 h10 h11 x12 x7 x6; (simp only [upd, apply_ite post, apply_ite beforeA, apply_ite beforeC, pcs]; grind [over, reqsOf_cons, reqsOf_delivered, mem_reqsOf_delivered]))
  case yA => first | assumption | (clear h1 h9 h10 h11 x12 x7 x6; (simp only [upd, apply_ite post, apply_ite beforeA, apply_ite beforeC, pcs]; grind [over, reqsOf_cons, reqsOf_delivered, mem_reqsOf_delivered]))
  case yC => first | assumption | (clear h1 h9 h10 h11 x12 x7 x6; (simp only [upd, apply_ite post, apply_ite beforeA, apply_ite beforeC, pcs]; grind [over, reqsOf_cons, reqsOf_delivered, mem_reqsOf_delivered]))
  case once => first | assumption | (clear h1 h10 h11; (simp only [upd, apply_ite post, apply_ite beforeA, apply_ite beforeC, pcs]; grind [over, reqsOf_cons, reqsOf_delivered, mem_reqsOf_delivered])) | skip
  case onceD => first | assumption | (clear h1 h9 h11; (simp only [upd, apply_ite post, apply_ite beforeA, apply_ite beforeC, pcs]; grind [over, reqsOf_cons, reqsOf_delivered, mem_reqsOf_delivered])) | skip
  case val => first | assumption | (clear h9 h10 h2; (simp only [upd, apply_ite post, apply_ite beforeA, apply_ite beforeC, pcs]; grind [over, reqsOf_cons, reqsOf_delivered, mem_reqsOf_delivered])) | skip

set_option maxHeartbeats 4000000 in
theorem cl_e6 {g : Nat → Prop} {b : Prop} {s : Sys} (hx : Ctx g s) (h : ClG g b s) (t o : Nat) (k : Ret) (hp : s.pc t = .e6 o k) : ClG g b { s with
    bad := s.bad || freed s o, data := upd s.data o none, self := upd s.self o false, place := upd s.place o .done, pc := upd s.pc t (back k) } := by
  obtain ⟨x1, x2, x3, x4, x5, x6, x7, x8, x9, x10, x11, x12, x13, x14⟩ := hx
  obtain ⟨h1, h2, h3, h4, h5, h6, h7, h8, h9, h10, h11⟩ := h
  have hT : post (s.pc t) = some o ∧ beforeA (s.pc t) = none ∧ beforeC (s.pc t) = none := by rw [hp]; exact ⟨rfl, rfl, rfl⟩
  have hB : post (back k) = none ∧ beforeA (back k) = none ∧ beforeC (back k) = none := by cases k <;> exact ⟨rfl, rfl, rfl⟩
  simp only [both] at x12
  constructor
  case dt => first | assumption | (clear h9 h10 h11; (simp only [upd, apply_ite post, apply_ite beforeA, apply_ite beforeC, pcs]; grind [over, reqsOf_cons, reqsOf_delivered, mem_reqsOf_delivered]))
  case lb => first | assumption | (clear h9 h10 h11; (simp only [upd, apply_ite post, apply_ite beforeA, apply_ite beforeC, pcs]; grind [over, reqsOf_cons, reqsOf_delivered, mem_reqsOf_delivered]))
  case lA => first | assumption | (clear h1 h9 h10 h11 x12 x7 x6; (simp only [upd, apply_ite post, apply_ite beforeA, apply_ite beforeC, pcs]; grind [over, reqsOf_cons, reqsOf_delivered, mem_reqsOf_delivered]))
  case lC => first | assumption | (clear h1 h9 h10 h11 x12 x7 x6; (simp only [upd, apply_ite post, apply_ite beforeA, apply_ite beforeC, pcs]; grind [over, reqsOf_cons, reqsOf_delivered, mem_reqsOf_delivered]))
  case xA => first | assumption | (clear h1 h9 h10 h11 x12 x7 x6; (simp only [upd, apply_ite post, apply_ite beforeA, apply_ite beforeC, pcs]; grind [over, reqsOf_cons, reqsOf_delivered, mem_reqsOf_delivered]))
  case xC => first | assumption | (clear h1 h9 h10 h11 x12 x7 x6; (simp only [upd, apply_ite post, apply_ite beforeA, apply_ite beforeC, pcs]; grind [over, reqsOf_cons, reqsOf_delivered, mem_reqsOf_delivered]))
  case yA => first | assumption | (clear h1 h9 h10 h11 x12 x7 x6; (simp only [upd, apply_ite post, apply_ite beforeA, apply_ite beforeC, pcs]; grind [over, reqsOf_cons, reqsOf_delivered, mem_reqsOf_delivered]))
  case yC => first | assumption | (clear h1 h9 h10 h11 x12 x7 x6; (simp only [upd, apply_ite post, apply_ite beforeA, apply_ite beforeC, pcs]; grind [over, reqsOf_cons, reqsOf_delivered, mem_reqsOf_delivered]))
  case once => first | assumption | (clear h1 h10 h11; (simp only [upd, apply_ite post, apply_ite beforeA, apply_ite beforeC, pcs]; grind [over, reqsOf_cons, reqsOf_delivered, mem_reqsOf_delivered])) | skip
  case onceD => first | assumption | (clear h1 h9 h11; (simp only [upd, apply_ite post, apply_ite beforeA, apply_ite beforeC, pcs]; grind [over, reqsOf_cons, reqsOf_delivered, mem_reqsOf_delivered])) | skip
  case val => first | assumption | (clear h9 h10 h2; (simp only [upd, apply_ite post, apply_ite beforeA, apply_ite beforeC, pcs]; grind [over, reqsOf_cons, reqsOf_delivered, mem_reqsOf_delivered])) | skip

theorem over_done {p : Place} (h : over p = true) : p = .done ∨ ∃ t, p = .fin t := by
  cases p <;> simp [over] at h ⊢

theorem good_upd {cfg : Cfg} {s : Sys} {pl : Nat → Place} {o' : Nat} (hq : ∀ o, pl o = .queue → s.place o = .queue)
    (h : (cfg.quiet || decide (pl o' = .queue) || ((s.avail o').isSome && (s.cons o').isSome)) = true) : good cfg s o' = true := by
  simp only [good, both, Bool.or_eq_true, decide_eq_true_eq] at h ⊢
  rcases h with (h | h) | h
  · exact .inl (.inl h)
  · exact .inl (.inr (hq o' h))
  · exact .inr h

theorem cl_place {cfg s s'} (h : Cl cfg s) (ha : s'.avail = s.avail) (hc : s'.cons = s.cons) (hl : s'.log = s.log) (hd : s'.dat = s.dat)
    (hn : s'.nreq = s.nreq) (hm : s'.matched = s.matched) (hda : ∀ o, s.cons o ≠ none → s'.data o = s.data o) (o : Nat) (X : Place)
    (hp : s'.place = upd s.place o X) (hX : over X = false ∧ X ≠ .queue) (hs : good cfg s o = true → over (s.place o) = false)
    (t : Nat) (hpc : ∀ u, u ≠ t → s'.pc u = s.pc u) (h1 : post (s'.pc t) = post (s.pc t)) (h2 : beforeA (s'.pc t) = beforeA (s.pc t))
    (h3 : beforeC (s'.pc t) = beforeC (s.pc t)) : Cl cfg s' := by
  refine cl_move h ha hc hl hd hn hm hda ?_ ?_ ?_ t hpc h1 h2 h3
  · intro o' he
    rw [hp] at he
    by_cases e : o' = o
    · subst e; rw [upd_self] at he; exact absurd he hX.2
    · rwa [upd_ne _ _ e] at he
  · intro o' he
    rw [hp] at he ⊢
    by_cases e : o' = o
    · subst e; rw [upd_self, hX.1] at he; exact absurd he (by simp)
    · rw [upd_ne _ _ e]
  · intro o' hg he
    rw [hp]
    by_cases e : o' = o
    · subst e; rw [hs hg] at he; exact absurd he (by simp)
    · rw [upd_ne _ _ e]

set_option maxHeartbeats 4000000 in
theorem cl_step {cfg s s'} (hq : Qs s) (hl : Pl cfg s) (hr : Rs s) (h : Cl cfg s) (st : Step cfg s s') : Cl cfg s' := by
  have hx := ctx hq hl hr
  have hb : cfg.quiet = true → ∀ o, good cfg s o = true := fun hb o => by simp [good, hb]
  have hb2 : ∀ o, both s o = true → good cfg s o = true := fun o hb => by simp [good, hb]
  have hqh : ∀ o rest, s.q = o :: rest → o ∈ s.q := fun o rest e => by rw [e]; exact List.mem_cons_self
  cases st with
  | pullEnq t d hp _ _ =>
    refine cl_pullEnq hx h ?_ t d hp
    intro o hg
    by_cases e : o = s.nops
    · exact .inr e
    · simp only [good, both, upd_ne _ _ e] at hg
      exact .inl (by simpa only [good, both] using hg)
  | pushEnq t d hp _ _ =>
    refine cl_pushEnq hx h ?_ t d hp
    intro o hg
    by_cases e : o = s.nops
    · exact .inr e
    · simp only [good, both, upd_ne _ _ e] at hg
      exact .inl (by simpa only [good, both] using hg)
  | pullDeq t d o rest c hp _ hqe ha hc _ =>
    refine clg_mono ?_ (cl_pullDeq hx h t d o rest c hp (hqh _ _ hqe) ha hc)
    intro o' hg
    by_cases e : o' = o
    · subst e; exact (hx.q _ (hqh _ _ hqe)).2
    · simp only [good, both, upd_ne _ _ e] at hg
      simpa only [good, both] using hg
  | pushDeq t d o rest a hp _ hqe hc ha _ =>
    refine clg_mono ?_ (cl_pushDeq hx h t d o rest a hp (hqh _ _ hqe) hc ha)
    intro o' hg
    by_cases e : o' = o
    · subst e; exact (hx.q _ (hqh _ _ hqe)).2
    · simp only [good, both, upd_ne _ _ e] at hg
      simpa only [good, both] using hg
  | e2 t o r k hp =>
    refine clg_mono ?_ (cl_e2 hx h t o r k hp)
    intro o' hg
    exact good_upd (pl := upd s.place o (.fin t)) (fun o'' => by simp only [upd]; split <;> simp) hg
  | e4 t o r k a hp ha => exact cl_e4 hx hb hb2 h t o r k a hp ha
  | e4No t o r k hp ha => exact cl_e4No hx h t o r k hp ha
  | e5 t o r k c hp ha => exact cl_e5 hx hb hb2 h t o r k c hp ha
  | e5No t o r k hp ha => exact cl_e5No hx h t o r k hp ha
  | e6 t o k hp =>
    refine clg_mono ?_ (cl_e6 hx h t o k hp)
    intro o' hg
    exact good_upd (pl := upd s.place o .done) (fun o'' => by simp only [upd]; split <;> simp) hg
  | pullDeqFail t d o rest _ hp _ hqe ha _ =>
    exact cl_place h rfl rfl rfl rfl rfl rfl (fun _ _ => rfl) o .lost rfl ⟨rfl, by simp⟩ (fun _ => by rw [(hx.q _ (hqh _ _ hqe)).1]; rfl) t
      (fun u hu => upd_ne _ _ hu) (by simp [hp, post]) (by simp [hp, beforeA]) (by simp [hp, beforeC])
  | pushDeqFail t d o rest _ hp _ hqe hc _ =>
    refine cl_place h rfl rfl rfl rfl rfl rfl ?_ o .lost rfl ⟨rfl, by simp⟩ (fun _ => by rw [(hx.q _ (hqh _ _ hqe)).1]; rfl) t
      (fun u hu => upd_ne _ _ hu) (by simp [hp, post]) (by simp [hp, beforeA]) (by simp [hp, beforeC])
    intro o' hn
    exact upd_ne _ _ (fun e => hn (e ▸ hc))
  | xFoundQ t o hp ho =>
    exact cl_place h rfl rfl rfl rfl rfl rfl (fun _ _ => rfl) o (.run t) rfl ⟨rfl, by simp⟩ (fun _ => by rw [(hx.q _ ho).1]; rfl) t
      (fun u hu => upd_ne _ _ hu) (by simp [hp, post]) (by simp [hp, beforeA]) (by simp [hp, beforeC])
  | xFoundLoc t o hp _ ho =>
    exact cl_place h rfl rfl rfl rfl rfl rfl (fun _ _ => rfl) o (.run t) rfl ⟨rfl, by simp⟩ (fun hg => by rw [(hl.l _ hg).2 ho]; rfl) t
      (fun u hu => upd_ne _ _ hu) (by simp [hp, post]) (by simp [hp, beforeA]) (by simp [hp, beforeC])
  | xSchedOk t o hp =>
    exact cl_place h rfl rfl rfl rfl rfl rfl (fun _ _ => rfl) o .sched rfl ⟨rfl, by simp⟩
      (fun hg => by rw [(hl.r o t hg).2 (by rw [hp]; rfl)]; rfl) t
      (fun u hu => upd_ne _ _ hu) (by simp [hp, post]) (by simp [hp, beforeA]) (by simp [hp, beforeC])
  | xSchedFail t o _ hp =>
    exact cl_place h rfl rfl rfl rfl rfl rfl (fun _ _ => rfl) o .lost rfl ⟨rfl, by simp⟩
      (fun hg => by rw [(hl.r o t hg).2 (by rw [hp]; rfl)]; rfl) t
      (fun u hu => upd_ne _ _ hu) (by simp [hp, post]) (by simp [hp, beforeA]) (by simp [hp, beforeC])
  | cTake t o hp =>
    exact cl_place h rfl rfl rfl rfl rfl rfl (fun _ _ => rfl) o (.run t) rfl ⟨rfl, by simp⟩ (fun hg => by rw [hl.t _ _ hg hp]; rfl) t
      (fun u hu => upd_ne _ _ hu) (by simp [hp, post]) (by simp [hp, beforeA]) (by simp [hp, beforeC])
  | work t o hp ho =>
    exact cl_place h rfl rfl rfl rfl rfl rfl (fun _ _ => rfl) o (.run t) rfl ⟨rfl, by simp⟩ (fun hg => by rw [(hl.p _ hg).2 ho]; rfl) t
      (fun u hu => upd_ne _ _ hu) (by simp [hp, post]) (by simp [hp, beforeA]) (by simp [hp, beforeC])
  | cMove t hp _ =>
    refine cl_move h rfl rfl rfl rfl rfl rfl (fun _ _ => rfl) ?_ ?_ ?_ t
      (fun u hu => upd_ne _ _ hu) (by simp [hp, post]) (by simp [hp, beforeA]) (by simp [hp, beforeC])
    · intro o he
      dsimp only at he
      split at he
      · exact absurd he (by simp)
      · exact he
    · intro o he
      dsimp only at he ⊢
      split at he
      · exact absurd he (by simp [over])
      · rename_i hn; rw [if_neg hn]
    · intro o hg he
      have hn : o ∉ s.q := fun hm => by rw [(hx.q _ hm).1] at he; exact absurd he (by simp [over])
      dsimp only
      rw [if_neg hn]
  | release o _ _ =>
    exact cl_move h rfl rfl rfl rfl rfl rfl (fun _ _ => rfl) (fun _ h => h) (fun _ _ => rfl) (fun _ _ _ => rfl) 0 (fun _ _ => rfl) rfl rfl rfl
  | _ =>
    rename_i t _
    refine cl_move h rfl rfl rfl rfl rfl rfl (fun _ _ => rfl) (fun _ h => h) (fun _ _ => rfl) (fun _ _ _ => rfl) _
      (fun u hu => upd_ne _ _ hu) ?_ ?_ ?_ <;> simp [post, beforeA, beforeC, *]

theorem cl {cfg s} (h : Reach cfg s) : Cl cfg s := by
  induction h with
  | init => constructor <;> simp [init, reqsOf, delivered, post, beforeA, beforeC]
  | step hr st ih => exact cl_step (qs hr) (pl hr) (rs hr) ih st

end CUtil.Channel
