import Verif.TrackerConc.Model
set_option linter.unusedSimpArgs false
set_option linter.unusedVariables false

/-! C90: the object lifetime tracker with any number of threads, and with callbacks that call it again. -/

namespace CUtil.TrackerConc
open CUtil.Tracker CUtil.Conc

variable {S : Same} {s s' : Sys}

/-- What holds of the registrations and of the ghost variables. -/
structure Data (S : Same) (s : Sys) : Prop where
  sorted : s.regs.Pairwise (fun a b => b.1 < a.1)
  known : ∀ e ∈ s.regs, e.1 < s.fresh ∧ s.given e.1 = e.2 ∧ e.1 ∉ s.log ∧ e.1 ∉ s.gone
  logged : ∀ i ∈ s.log, i < s.fresh ∧ i ∉ s.gone
  once : s.log.Nodup
  left : ∀ i ∈ s.gone, i < s.fresh
  nodup : s.regs.Pairwise (fun a b => S.is a.2.key a.2.obj.object b.2 = false)
  all : ∀ i, i < s.fresh → i ∈ s.log ∨ i ∈ s.gone ∨ ∃ e ∈ s.regs, e.1 = i

/-- What holds of a frame. -/
def FrameOk (S : Same) (s : Sys) : Frame → Prop
  | .aCall key object i arg => (i, s.given i) ∈ s.regs ∧ (s.given i).obj.object = arg ∧ S.is key object (s.given i) = true
  | .rRel key o .newKey => ∃ rest, s.regs = (s.fresh - 1, ⟨key, o⟩) :: rest ∧ ∀ e ∈ rest, S.isKey key e.2 = false
  | .rRel key o .newObject => ∃ rest, s.regs = (s.fresh - 1, ⟨key, o⟩) :: rest ∧ (∃ e ∈ rest, S.isKey key e.2 = true) ∧ ∀ e ∈ rest, S.is key o.object e.2 = false
  | .rRel key o .exists => ∃ e ∈ s.regs, S.is key o.object e.2 = true
  | .rRel _ _ .muFailure => False
  | .uRel key object .ok => ∃ i, s.gone.head? = some i ∧ S.is key object (s.given i) = true
  | .uRel key object .notFound => (∃ e ∈ s.regs, S.isKey key e.2 = true) ∧ ∀ e ∈ s.regs, S.is key object e.2 = false
  | .uRel key _ .keyNotFound => ∀ e ∈ s.regs, S.isKey key e.2 = false
  | .aRel key object b .ok => b = some true ∧ ∃ e ∈ s.regs, S.is key object e.2 = true
  | .aRel _ _ b .error => b ≠ some true
  | .aRel key object b .objectNotFound => b = none ∧ (∃ e ∈ s.regs, S.isKey key e.2 = true) ∧ ∀ e ∈ s.regs, S.is key object e.2 = false
  | .aRel key _ b .keyNotFound => b = none ∧ ∀ e ∈ s.regs, S.isKey key e.2 = false
  | .dCall key i o => s.log.getLast? = some i ∧ (s.given i).obj = o ∧ S.isKey key (s.given i) = true ∧ ∀ e ∈ s.regs, S.isKey key e.2 = true → e.1 < i
  | .dRel key true => ∀ e ∈ s.regs, S.isKey key e.2 = false
  | _ => True

structure Inv (S : Same) (s : Sys) : Prop where
  ex : ∀ t, (s.st t).countP holdsX = if s.excl = some t then 1 else 0
  sh : ∀ t, (s.st t).countP holdsS = s.shared t
  one : ∀ t, s.excl = some t → ∀ u, s.shared u = 0
  stack : ∀ t, ∀ f ∈ (s.st t).tail, inUser f = true
  data : Data S s
  frames : ∀ t, ∀ f ∈ s.st t, FrameOk S s f

theorem user_holds {f : Frame} (h : inUser f = true) : holdsX f = true ∨ holdsS f = true := by cases f <;> simp_all [inUser, holdsX, holdsS]
theorem not_both (f : Frame) : holdsX f = true → holdsS f = false := by cases f <;> simp [holdsX, holdsS]

/-- The thread in the exclusive section is alone, and in no other call. -/
theorem solo (h : Inv S s) {t : Nat} {f : Frame} {rest : List Frame} (hs : s.st t = f :: rest) (hf : holdsX f = true) :
    s.excl = some t ∧ rest = [] ∧ (∀ u, s.shared u = 0) ∧ ∀ u, u ≠ t → ∀ g ∈ s.st u, holdsX g = false ∧ holdsS g = false := by
  have hx : s.excl = some t := by
    have := h.ex t
    rw [hs, List.countP_cons_of_pos hf] at this
    apply Decidable.byContradiction
    intro q
    rw [if_neg q] at this; omega
  have h0 := h.one t hx
  have noS : ∀ u, ∀ g ∈ s.st u, holdsS g = false := by
    intro u g hg
    have := h.sh u
    rw [h0 u, List.countP_eq_zero] at this
    simpa using this g hg
  refine ⟨hx, ?_, h0, fun u hu g hg => ⟨?_, noS u g hg⟩⟩
  · have hc := h.ex t
    rw [hs, List.countP_cons_of_pos hf, if_pos hx] at hc
    have hc : rest.countP holdsX = 0 := by omega
    rw [List.countP_eq_zero] at hc
    cases rest with
    | nil => rfl
    | cons g r =>
      have hu := h.stack t g (by rw [hs]; simp)
      rcases user_holds hu with q | q
      · exact absurd q (hc g (by simp))
      · have := noS t g (by rw [hs]; simp)
        rw [this] at q; cases q
  · have := h.ex u
    rw [hx, if_neg (by simp [Ne.symm hu]), List.countP_eq_zero] at this
    simpa using this g hg

/-- Frames that hold nothing are fine. -/
theorem ok_of_none {f : Frame} (h1 : holdsX f = false) (h2 : holdsS f = false) : FrameOk S s f := by cases f <;> simp_all [holdsX, holdsS, FrameOk]

/-- A step of the thread in the exclusive section. -/
theorem topX (h : Inv S s) {t : Nat} {f f' : Frame} {rest : List Frame} (hs : s.st t = f :: rest) (hf : holdsX f = true) (hf' : holdsX f' = true)
    (regs : List (Nat × Reg)) (fresh : Nat) (given : Nat → Reg) (log gone : List Nat)
    (hd : Data S { s with regs := regs, fresh := fresh, given := given, log := log, gone := gone })
    (ho : FrameOk S { s with regs := regs, fresh := fresh, given := given, log := log, gone := gone } f') :
    Inv S { s with regs := regs, fresh := fresh, given := given, log := log, gone := gone, st := upd s.st t (f' :: rest) } := by
  obtain ⟨hx, rfl, h0, hn⟩ := solo h hs hf
  have ok' : ∀ g, FrameOk S { s with regs := regs, fresh := fresh, given := given, log := log, gone := gone } g →
      FrameOk S { s with regs := regs, fresh := fresh, given := given, log := log, gone := gone, st := upd s.st t [f'] } g := by
    intro g; cases g <;> first | exact id | (rename_i r; cases r <;> exact id)
  refine ⟨fun u => ?_, fun u => ?_, fun u _ => h0, fun u g hg => ?_, ⟨hd.1, hd.2, hd.3, hd.4, hd.5, hd.6, hd.7⟩, fun u g hg => ?_⟩
  · show (upd s.st t [f'] u).countP holdsX = if s.excl = some u then 1 else 0
    by_cases e : u = t
    · subst e; rw [upd_self, hx]; simp [hf']
    · rw [upd_ne _ _ e]; exact h.ex u
  · show (upd s.st t [f'] u).countP holdsS = s.shared u
    by_cases e : u = t
    · subst e; rw [upd_self, h0]; simp [not_both f' hf']
    · rw [upd_ne _ _ e]; exact h.sh u
  · by_cases e : u = t
    · subst e; simp at hg
    · simp only [upd_ne _ _ e] at hg; exact h.stack u g hg
  · by_cases e : u = t
    · subst e; simp only [upd_self, List.mem_singleton] at hg; subst hg; exact ok' _ ho
    · simp only [upd_ne _ _ e] at hg
      exact ok_of_none (hn u e g hg).1 (hn u e g hg).2

/-- The same without a change of the registrations. -/
theorem topX' (h : Inv S s) {t : Nat} {f f' : Frame} {rest : List Frame} (hs : s.st t = f :: rest) (hf : holdsX f = true) (hf' : holdsX f' = true)
    (ho : FrameOk S s f') : Inv S { s with st := upd s.st t (f' :: rest) } :=
  topX h hs hf hf' s.regs s.fresh s.given s.log s.gone h.data ho

/-- Steps that change the stack only. -/
theorem stackStep (h : Inv S s) (t : Nat) (l : List Frame) (ex : Option Nat) (sh : Nat)
    (h1 : l.countP holdsX = if ex = some t then 1 else 0) (h2 : ∀ u, u ≠ t → (ex = some u ↔ s.excl = some u)) (h3 : l.countP holdsS = sh)
    (h4 : ∀ u, ex = some u → sh = 0 ∧ ∀ v, v ≠ t → s.shared v = 0) (h5 : ∀ f ∈ l.tail, inUser f = true) (h6 : ∀ f ∈ l, FrameOk S s f) :
    Inv S { s with excl := ex, shared := upd s.shared t sh, st := upd s.st t l } := by
  have ok' : ∀ g, FrameOk S s g → FrameOk S { s with excl := ex, shared := upd s.shared t sh, st := upd s.st t l } g := by
    intro g; cases g <;> first | exact id | (rename_i r; cases r <;> exact id)
  refine ⟨fun u => ?_, fun u => ?_, fun u hu v => ?_, fun u g hg => ?_, ⟨h.data.1, h.data.2, h.data.3, h.data.4, h.data.5, h.data.6, h.data.7⟩, fun u g hg => ok' g ?_⟩
  · show (upd s.st t l u).countP holdsX = if ex = some u then 1 else 0
    by_cases e : u = t
    · subst e; rw [upd_self]; exact h1
    · rw [upd_ne _ _ e, h.ex u]; simp only [h2 u e]
  · show (upd s.st t l u).countP holdsS = upd s.shared t sh u
    by_cases e : u = t
    · subst e; rw [upd_self, upd_self]; exact h3
    · rw [upd_ne _ _ e, upd_ne _ _ e]; exact h.sh u
  · show upd s.shared t sh v = 0
    by_cases e : v = t
    · subst e; rw [upd_self]; exact (h4 u hu).1
    · rw [upd_ne _ _ e]; exact (h4 u hu).2 v e
  · by_cases e : u = t
    · subst e; simp only [upd_self] at hg; exact h5 g hg
    · simp only [upd_ne _ _ e] at hg; exact h.stack u g hg
  · by_cases e : u = t
    · subst e; simp only [upd_self] at hg; exact h6 g hg
    · simp only [upd_ne _ _ e] at hg; exact h.frames u g hg

theorem upd_same {α : Type} (f : Nat → α) (t : Nat) : upd f t (f t) = f := by
  funext u; rw [upd_apply]; split
  · rename_i h; rw [h]
  · rfl

/-- Replacing the top by a frame that holds the same. -/
theorem topSame (h : Inv S s) {t : Nat} {f f' : Frame} {rest : List Frame} (hs : s.st t = f :: rest) (hx : holdsX f' = holdsX f) (hh : holdsS f' = holdsS f)
    (ho : FrameOk S s f') : Inv S { s with st := upd s.st t (f' :: rest) } := by
  have hm := stackStep h t (f' :: rest) s.excl (s.shared t)
    (by have := h.ex t; rw [hs, List.countP_cons] at this; rw [List.countP_cons, hx]; exact this) (fun _ _ => Iff.rfl)
    (by have := h.sh t; rw [hs, List.countP_cons] at this; rw [List.countP_cons, hh]; exact this)
    (fun u hu => ⟨h.one u hu t, fun v _ => h.one u hu v⟩)
    (fun g hg => h.stack t g (by rw [hs]; exact hg))
    (fun g hg => by
      rcases List.mem_cons.1 hg with rfl | q
      · exact ho
      · exact h.frames t g (by rw [hs]; exact List.mem_cons_of_mem _ q))
  rw [upd_same] at hm
  exact hm

theorem eraseP_mem {p : Nat × Reg → Bool} {l : List (Nat × Reg)} {e : Nat × Reg} (h : e ∈ l.eraseP p) : e ∈ l := List.mem_of_mem_eraseP h

/-- Taking one registration off the list. -/
theorem take_off {p : Nat × Reg → Bool} : ∀ {l : List (Nat × Reg)} {e : Nat × Reg}, l.Pairwise (fun a b => b.1 < a.1) → l.find? p = some e →
    e ∈ l ∧ p e = true ∧ (∀ x ∈ l, x = e ∨ x ∈ l.eraseP p) ∧ (∀ x ∈ l.eraseP p, x.1 ≠ e.1) ∧ (∀ x ∈ l.eraseP p, p x = true → x.1 < e.1)
  | [], e, _, h => by simp at h
  | a :: l, e, hp, h => by
    rw [List.pairwise_cons] at hp
    by_cases q : p a = true
    · rw [List.find?_cons_of_pos q] at h
      injection h with h; subst h
      rw [List.eraseP_cons_of_pos q]
      refine ⟨by simp, q, fun x hx => by simpa using hx, fun x hx => Nat.ne_of_lt (hp.1 x hx), fun x hx _ => hp.1 x hx⟩
    · rw [List.find?_cons_of_neg q] at h
      obtain ⟨h1, h2, h3, h4, h5⟩ := take_off hp.2 h
      rw [List.eraseP_cons_of_neg q]
      refine ⟨List.mem_cons_of_mem _ h1, h2, fun x hx => ?_, fun x hx => ?_, fun x hx hpx => ?_⟩
      · rcases List.mem_cons.1 hx with rfl | hx
        · exact Or.inr (by simp)
        · rcases h3 x hx with r | r
          · exact Or.inl r
          · exact Or.inr (List.mem_cons_of_mem _ r)
      · rcases List.mem_cons.1 hx with rfl | hx
        · exact Nat.ne_of_gt (hp.1 e h1)
        · exact h4 x hx
      · rcases List.mem_cons.1 hx with rfl | hx
        · exact absurd hpx q
        · exact h5 x hx hpx

/-- Cases of a test that became a result. -/
theorem not_found {α : Type} {P : α → Prop} {r a b : α} {c : Bool} (h : r = if c = true then a else b) (hp : ∀ x, c = x → P (if x = true then a else b)) : P r := by
  rw [h]; exact hp c rfl

theorem step_inv (h : Inv S s) (st : Step S s s') : Inv S s' := by
  cases st with
  | call t f rest hs hc hr =>
    have hx : holdsX f = false := by cases f <;> simp_all [isCall, holdsX]
    have hh : holdsS f = false := by cases f <;> simp_all [isCall, holdsS]
    have hm := stackStep h t (f :: rest) s.excl (s.shared t)
      (by rw [List.countP_cons_of_neg (by simp [hx]), ← hs]; exact h.ex t) (fun _ _ => Iff.rfl)
      (by rw [List.countP_cons_of_neg (by simp [hh]), ← hs]; exact h.sh t)
      (fun u hu => ⟨h.one u hu t, fun v _ => h.one u hu v⟩)
      (fun g hg => by
        simp only [List.tail_cons] at hg
        cases rest with
        | nil => simp at hg
        | cons a r =>
          rcases List.mem_cons.1 hg with rfl | q
          · exact hr _ rfl
          · exact h.stack t g (by rw [hs]; exact q))
      (fun g hg => by
        rcases List.mem_cons.1 hg with rfl | q
        · exact ok_of_none hx hh
        · exact h.frames t g (by rw [hs]; exact q))
    rw [upd_same] at hm
    exact hm
  | acquire t f f' rest hs he hn h0 =>
    have hf : holdsX f = false ∧ holdsS f = false ∧ holdsX f' = true ∧ holdsS f' = false ∧ FrameOk S s f' := by
      cases f <;> simp only [entersX, Option.some.injEq] at he <;> first | (subst he; simp [holdsX, holdsS, FrameOk]; done) | cases he
    have hm := stackStep h t (f' :: rest) (some t) (s.shared t)
      (by have := h.ex t; rw [hs, hn, List.countP_cons_of_neg (by simp [hf.1])] at this; rw [List.countP_cons_of_pos hf.2.2.1, this]; simp)
      (fun u hu => by rw [hn]; simp [Ne.symm hu])
      (by have := h.sh t; rw [hs, List.countP_cons_of_neg (by simp [hf.2.1])] at this; rw [List.countP_cons_of_neg (by simp [hf.2.2.2.1])]; exact this)
      (fun u _ => ⟨h0 t, fun v _ => h0 v⟩)
      (fun g hg => h.stack t g (by rw [hs]; exact hg))
      (fun g hg => by
        rcases List.mem_cons.1 hg with rfl | q
        · exact hf.2.2.2.2
        · exact h.frames t g (by rw [hs]; exact List.mem_cons_of_mem _ q))
    rw [upd_same] at hm
    exact hm
  | registerNew t key o rest r hs hn hres =>
    have d := h.data
    refine topX h hs rfl rfl _ _ _ s.log s.gone ⟨?_, ?_, ?_, d.once, ?_, ?_, ?_⟩ (not_found (P := fun r => FrameOk S _ (.rRel key o r)) hres (fun b hb => ?_))
    · exact List.pairwise_cons.2 ⟨fun e he => (d.known e he).1, d.sorted⟩
    · intro e he
      rcases List.mem_cons.1 he with rfl | he
      · refine ⟨Nat.lt_succ_self _, upd_self _ _ _, fun q => ?_, fun q => ?_⟩
        · exact Nat.lt_irrefl _ (d.logged _ q).1
        · exact Nat.lt_irrefl _ (d.left _ q)
      · obtain ⟨a, b, c⟩ := d.known e he
        exact ⟨Nat.lt_succ_of_lt a, by show upd s.given s.fresh ⟨key, o⟩ e.1 = e.2; rw [upd_ne _ _ (Nat.ne_of_lt a)]; exact b, c⟩
    · exact fun i hi => ⟨Nat.lt_succ_of_lt (d.logged i hi).1, (d.logged i hi).2⟩
    · exact fun i hi => Nat.lt_succ_of_lt (d.left i hi)
    · exact List.pairwise_cons.2 ⟨fun e he => hn e he, d.nodup⟩
    · intro i hi
      by_cases e : i = s.fresh
      · exact Or.inr (Or.inr ⟨_, List.mem_cons_self, e.symm⟩)
      · have hi' : i < s.fresh + 1 := hi
        rcases d.all i (by omega) with q | q | ⟨x, q, r⟩
        · exact Or.inl q
        · exact Or.inr (Or.inl q)
        · exact Or.inr (Or.inr ⟨x, List.mem_cons_of_mem _ q, r⟩)
    · cases b with
      | true =>
        rw [if_pos rfl]
        obtain ⟨e, he, hk⟩ := List.any_eq_true.1 hb
        exact ⟨s.regs, rfl, ⟨e, he, hk⟩, hn⟩
      | false =>
        rw [if_neg (by simp)]
        exact ⟨s.regs, rfl, fun e he => by simpa using List.any_eq_false.1 hb e he⟩
  | registerThere t key o rest e hs hf =>
    exact topX' h hs rfl rfl ⟨e, List.mem_of_find?_eq_some hf, by have := List.find?_some hf; exact this⟩
  | registerFails t key o rest hs => exact topX' h hs rfl rfl trivial
  | unregister t key object rest e hs hf =>
    have d := h.data
    obtain ⟨t1, t2, t3, t4, t5⟩ := take_off d.sorted hf
    refine topX h hs rfl rfl _ s.fresh s.given s.log _ ⟨?_, ?_, ?_, d.once, ?_, ?_, ?_⟩
      ⟨e.1, rfl, by show S.is key object (s.given e.1) = true; rw [(d.known e t1).2.1]; exact t2⟩
    · exact d.sorted.sublist List.eraseP_sublist
    · intro x hx
      obtain ⟨a, b, c, f⟩ := d.known x (eraseP_mem hx)
      exact ⟨a, b, c, by simp only [List.mem_cons, not_or]; exact ⟨t4 x hx, f⟩⟩
    · intro i hi
      refine ⟨(d.logged i hi).1, ?_⟩
      simp only [List.mem_cons, not_or]
      refine ⟨fun q => ?_, (d.logged i hi).2⟩
      subst q
      exact (d.known e t1).2.2.1 hi
    · intro i hi
      rcases List.mem_cons.1 hi with rfl | q
      · exact (d.known e t1).1
      · exact d.left i q
    · exact d.nodup.sublist List.eraseP_sublist
    · intro i hi
      rcases d.all i hi with q | q | ⟨x, q, r⟩
      · exact Or.inl q
      · exact Or.inr (Or.inl (List.mem_cons_of_mem _ q))
      · rcases t3 x q with rfl | w
        · exact Or.inr (Or.inl (by rw [← r]; exact List.mem_cons_self))
        · exact Or.inr (Or.inr ⟨x, w, r⟩)
  | unregisterNot t key object rest r hs hf hres =>
    refine topX' h hs rfl rfl (not_found (P := fun r => FrameOk S _ (.uRel key object r)) hres fun b hb => ?_)
    cases b with
    | true =>
      rw [if_pos rfl]
      obtain ⟨e, he, hk⟩ := List.any_eq_true.1 hb
      exact ⟨⟨e, he, hk⟩, fun e he => by simpa using List.find?_eq_none.1 hf e he⟩
    | false =>
      rw [if_neg (by simp)]
      exact fun e he => by simpa using List.any_eq_false.1 hb e he
  | unregisterFails t key object rest hs => exact topX' h hs rfl rfl trivial
  | lookupFails t key rest hs => exact topX' h hs rfl rfl trivial
  | lookup t key rest hs => exact topX' h hs rfl rfl trivial
  | destroyNext t key rest e hs hf =>
    have d := h.data
    obtain ⟨t1, t2, t3, t4, t5⟩ := take_off d.sorted hf
    obtain ⟨k1, k2, k3, k4⟩ := d.known e t1
    refine topX h hs rfl rfl _ s.fresh s.given _ s.gone ⟨?_, ?_, ?_, ?_, d.left, ?_, ?_⟩ ?_
    · exact d.sorted.sublist List.eraseP_sublist
    · intro x hx
      obtain ⟨a, b, c, f⟩ := d.known x (eraseP_mem hx)
      refine ⟨a, b, ?_, f⟩
      simp only [List.mem_append, List.mem_singleton, not_or]
      exact ⟨c, t4 x hx⟩
    · intro i hi
      rcases List.mem_append.1 hi with q | q
      · exact d.logged i q
      · rw [List.mem_singleton] at q; subst q; exact ⟨k1, k4⟩
    · show (s.log ++ [e.1]).Nodup
      rw [List.nodup_append]
      refine ⟨d.once, by simp, fun a ha b hb q => ?_⟩
      rw [List.mem_singleton] at hb
      subst q; subst hb
      exact k3 ha
    · exact d.nodup.sublist List.eraseP_sublist
    · intro i hi
      rcases d.all i hi with q | q | ⟨x, q, r⟩
      · exact Or.inl (List.mem_append_left _ q)
      · exact Or.inr (Or.inl q)
      · rcases t3 x q with rfl | w
        · exact Or.inl (List.mem_append_right _ (by simp [r]))
        · exact Or.inr (Or.inr ⟨x, w, r⟩)
    · exact ⟨by simp, by rw [k2], by rw [k2]; exact t2, fun x hx hk => t5 x hx hk⟩
  | destroyBack t key i o rest hs => exact topX' h hs rfl rfl trivial
  | destroyEnd t key rest hs hn => exact topX' h hs rfl rfl hn
  | release t f rest hs hl =>
    have hf : holdsX f = true := by cases f <;> simp_all [leavesX, holdsX]
    obtain ⟨hx, rfl, h0, hn⟩ := solo h hs hf
    have hm := stackStep h t [] none (s.shared t) (by simp) (fun u hu => by rw [hx]; simp [Ne.symm hu]) (by rw [h0]; rfl) (fun u q => by cases q) (by simp) (by simp)
    rw [upd_same] at hm
    exact hm
  | acquireShared t key object rest hs he =>
    refine stackStep h t (.aFind key object :: rest) s.excl _ ?_ (fun _ _ => Iff.rfl) ?_ (fun u q => by rw [he] at q; cases q)
      (fun g hg => h.stack t g (by rw [hs]; exact hg)) ?_
    · have := h.ex t; rw [hs, List.countP_cons_of_neg (by simp [holdsX])] at this; rw [List.countP_cons_of_neg (by simp [holdsX])]; exact this
    · have := h.sh t; rw [hs, List.countP_cons_of_neg (by simp [holdsS])] at this; rw [List.countP_cons_of_pos (by simp [holdsS]), this]
    · intro g hg
      rcases List.mem_cons.1 hg with rfl | q
      · trivial
      · exact h.frames t g (by rw [hs]; exact List.mem_cons_of_mem _ q)
  | actCall t key object rest e hs hf =>
    have he := List.mem_of_find?_eq_some hf
    refine topSame h hs rfl rfl ?_
    have := (h.data.known e he).2.1
    exact ⟨by rw [this]; exact he, by rw [this], by rw [this]; have := List.find?_some hf; exact this⟩
  | actNot t key object rest r hs hf hres =>
    refine topSame h hs rfl rfl (not_found (P := fun r => FrameOk S _ (.aRel key object none r)) hres fun b hb => ?_)
    cases b with
    | true =>
      rw [if_pos rfl]
      obtain ⟨e, he, hk⟩ := List.any_eq_true.1 hb
      exact ⟨rfl, ⟨e, he, hk⟩, fun e he => by simpa using List.find?_eq_none.1 hf e he⟩
    | false =>
      rw [if_neg (by simp)]
      exact ⟨rfl, fun e he => by simpa using List.any_eq_false.1 hb e he⟩
  | actFails t key object rest hs => exact topSame h hs rfl rfl (fun q => nomatch q)
  | actBack t key object i arg rest ok hs =>
    cases ok with
    | true =>
      have := h.frames t _ (by rw [hs]; exact List.mem_cons_self)
      exact topSame h hs rfl rfl ⟨rfl, _, this.1, this.2.2⟩
    | false => exact topSame h hs rfl rfl (fun q => nomatch q)
  | releaseShared t key object b r rest hs =>
    have hsh := h.sh t
    rw [hs, List.countP_cons_of_pos (by simp [holdsS])] at hsh
    refine stackStep h t rest s.excl _ ?_ (fun _ _ => Iff.rfl) (by omega) ?_ ?_ ?_
    · have := h.ex t; rw [hs, List.countP_cons_of_neg (by simp [holdsX])] at this; exact this
    · intro u hu
      have := h.one u hu t
      omega
    · intro g hg; exact h.stack t g (by rw [hs]; exact List.mem_of_mem_tail hg)
    · intro g hg; exact h.frames t g (by rw [hs]; exact List.mem_cons_of_mem _ hg)

theorem reach_inv (hr : Reach S s) : Inv S s := by
  induction hr with
  | step _ st ih => exact step_inv ih st
  | start =>
    exact ⟨fun t => by simp [start], fun t => by simp [start], fun t q => by simp [start] at q, fun t f hf => by simp [start] at hf,
      ⟨List.Pairwise.nil, fun e he => by simp [start] at he, fun i hi => by simp [start] at hi, List.nodup_nil, fun i hi => by simp [start] at hi,
        List.Pairwise.nil, fun i hi => by simp [start] at hi⟩, fun t f hf => by simp [start] at hf⟩

/-! ## The theorems -/

/-- C90: while a call changes the lists no other call looks at them. -/
theorem race_free (hr : Reach S s) {t u : Nat} {f g : Frame} (hf : f ∈ s.st t) (hx : holdsX f = true) (hg : g ∈ s.st u) (hh : holdsX g = true ∨ holdsS g = true) :
    u = t ∧ g = f := by
  have h := reach_inv hr
  have pos : ∀ {t f}, f ∈ s.st t → holdsX f = true → s.excl = some t := by
    intro t f hf hx
    have := h.ex t
    apply Decidable.byContradiction
    intro q
    rw [if_neg q, List.countP_eq_zero] at this
    exact this f hf hx
  have ht := pos hf hx
  have noS : holdsS g = false := by
    have := h.sh u
    rw [h.one t ht u, List.countP_eq_zero] at this
    simpa using this g hg
  rcases hh with q | q
  · have hu := pos hg q
    rw [ht] at hu
    injection hu with hu
    subst hu
    refine ⟨rfl, ?_⟩
    have hc := h.ex t
    rw [if_pos ht, List.countP_eq_length_filter] at hc
    have m1 : f ∈ (s.st t).filter holdsX := List.mem_filter.2 ⟨hf, hx⟩
    have m2 : g ∈ (s.st t).filter holdsX := List.mem_filter.2 ⟨hg, q⟩
    match hl : (s.st t).filter holdsX with
    | [] => rw [hl] at m1; cases m1
    | [a] => rw [hl, List.mem_singleton] at m1 m2; rw [m1, m2]
    | a :: b :: l => rw [hl] at hc; simp at hc
  · rw [noS] at q; cases q

/-- C90: while an action function runs, its object stays registered: it has not been destroyed or unregistered. -/
theorem action_on_live (hr : Reach S s) {t key object i arg : Nat} (hf : .aCall key object i arg ∈ s.st t) :
    (i, s.given i) ∈ s.regs ∧ (s.given i).obj.object = arg ∧ S.is key object (s.given i) = true ∧ i ∉ s.log ∧ i ∉ s.gone := by
  have h := reach_inv hr
  obtain ⟨a, b, b'⟩ := h.frames t _ hf
  obtain ⟨_, _, c, d⟩ := h.data.known _ a
  exact ⟨a, b, b', c, d⟩

/-- C90: no destroy function runs while an action function runs. -/
theorem action_excludes_destroy (hr : Reach S s) {t k o i a u key j : Nat} {ob : Obj} (hf : .aCall k o i a ∈ s.st t) : .dCall key j ob ∉ s.st u := by
  intro q
  have := race_free hr q rfl hf (Or.inr rfl)
  exact Frame.noConfusion this.2

/-- C90: two destroy functions never run at the same time. -/
theorem one_destroy (hr : Reach S s) {t u k1 i k2 j : Nat} {o1 o2 : Obj} (h1 : .dCall k1 i o1 ∈ s.st t) (h2 : .dCall k2 j o2 ∈ s.st u) : u = t ∧ j = i := by
  obtain ⟨a, b⟩ := race_free hr h1 rfl h2 (Or.inl rfl)
  injection b with b1 b2 b3
  exact ⟨a, b2⟩

/-- C90: every registration is destroyed or unregistered at most once, never both, and until then it is there. -/
theorem once (hr : Reach S s) : s.log.Nodup ∧ (∀ i, i < s.fresh ↔ (i ∈ s.log ∨ i ∈ s.gone ∨ (i, s.given i) ∈ s.regs)) ∧
    (∀ i ∈ s.log, i ∉ s.gone ∧ ∀ e ∈ s.regs, e.1 ≠ i) ∧ (∀ i ∈ s.gone, ∀ e ∈ s.regs, e.1 ≠ i) := by
  have d := (reach_inv hr).data
  refine ⟨d.once, fun i => ⟨fun hi => ?_, fun hi => ?_⟩, fun i hi => ⟨(d.logged i hi).2, fun e he q => ?_⟩, fun i hi e he q => ?_⟩
  · rcases d.all i hi with q | q | ⟨e, q, rfl⟩
    · exact Or.inl q
    · exact Or.inr (Or.inl q)
    · refine Or.inr (Or.inr ?_)
      rw [(d.known e q).2.1]; exact q
  · rcases hi with q | q | q
    · exact (d.logged i q).1
    · exact d.left i q
    · exact (d.known _ q).1
  · subst q; exact (d.known e he).2.2.1 hi
  · subst q; exact (d.known e he).2.2.2 hi

/-- C90: the destroy function that runs is that of the registration, for the key asked for, and every registration of that key that is left was made
earlier. -/
theorem destroy_order (hr : Reach S s) {t key i : Nat} {o : Obj} (hf : .dCall key i o ∈ s.st t) :
    (s.given i).obj = o ∧ S.keq (s.given i).key key = true ∧ s.log.getLast? = some i ∧ ∀ e ∈ s.regs, S.keq e.2.key key = true → e.1 < i := by
  have h := reach_inv hr
  obtain ⟨a, b, c, d⟩ := h.frames t _ hf
  exact ⟨b, c, a, d⟩

/-- C90: when destroy_all_objects_for_key has looked the key up and is about to return, nothing is left of the key. -/
theorem destroyed_all (hr : Reach S s) {t key : Nat} (hf : .dRel key true ∈ s.st t) : ∀ e ∈ s.regs, S.keq e.2.key key = false :=
  (reach_inv hr).frames t _ hf

/-- C90: what register is about to return is right: NEW_KEY and NEW_OBJECT say that the object has just been put first, for a key of which nothing
respectively something else, but not this object, was registered; EXISTS that it is registered. -/
theorem register_result (hr : Reach S s) {t key : Nat} {o : Obj} {r : Res} (hf : .rRel key o r ∈ s.st t) :
    (r = .newKey → ∃ rest, s.regs = (s.fresh - 1, ⟨key, o⟩) :: rest ∧ ∀ e ∈ rest, S.keq e.2.key key = false) ∧
    (r = .newObject → ∃ rest, s.regs = (s.fresh - 1, ⟨key, o⟩) :: rest ∧ (∃ e ∈ rest, S.keq e.2.key key = true) ∧ ∀ e ∈ rest, S.is key o.object e.2 = false) ∧
    (r = .exists → ∃ e ∈ s.regs, S.is key o.object e.2 = true) ∧ r ≠ .muFailure := by
  have := (reach_inv hr).frames t _ hf
  refine ⟨?_, ?_, ?_, ?_⟩ <;> rintro rfl <;> exact this

/-- C90: what unregister is about to return is right: OK says that the registration unregistered last is of this key and object, the others that there
is none of this object, or none of this key. -/
theorem unregister_result (hr : Reach S s) {t key object : Nat} {r : URes} (hf : .uRel key object r ∈ s.st t) :
    (r = .ok → ∃ i, s.gone.head? = some i ∧ S.is key object (s.given i) = true) ∧
    (r = .notFound → (∃ e ∈ s.regs, S.keq e.2.key key = true) ∧ ∀ e ∈ s.regs, S.is key object e.2 = false) ∧
    (r = .keyNotFound → ∀ e ∈ s.regs, S.keq e.2.key key = false) := by
  have := (reach_inv hr).frames t _ hf
  refine ⟨?_, ?_, ?_⟩ <;> rintro rfl <;> exact this

/-- C90: what act is about to return is right: OK exactly if the action function was called and returned 0, and the object is then registered; the
NOT_FOUND results only if it was not called and there is none of this object, or none of this key. -/
theorem act_result (hr : Reach S s) {t key object : Nat} {b : Option Bool} {r : ARes} (hf : .aRel key object b r ∈ s.st t) :
    (r = .ok ↔ b = some true) ∧ (b = some false → r = .error) ∧
    (r = .ok → ∃ e ∈ s.regs, S.is key object e.2 = true) ∧
    (r = .objectNotFound → b = none ∧ (∃ e ∈ s.regs, S.keq e.2.key key = true) ∧ ∀ e ∈ s.regs, S.is key object e.2 = false) ∧
    (r = .keyNotFound → b = none ∧ ∀ e ∈ s.regs, S.keq e.2.key key = false) := by
  have := (reach_inv hr).frames t _ hf
  cases r with
  | ok => exact ⟨⟨fun _ => this.1, fun _ => rfl⟩, (fun q => (by rw [this.1] at q; exact (nomatch q))), fun _ => this.2, (fun q => nomatch q), (fun q => nomatch q)⟩
  | error => exact ⟨⟨(fun q => nomatch q), fun q => absurd q this⟩, fun _ => rfl, (fun q => nomatch q), (fun q => nomatch q), (fun q => nomatch q)⟩
  | keyNotFound =>
    exact ⟨⟨(fun q => nomatch q), (fun q => (by rw [this.1] at q; exact (nomatch q)))⟩, (fun q => (by rw [this.1] at q; exact (nomatch q))), (fun q => nomatch q),
      (fun q => nomatch q), fun _ => this⟩
  | objectNotFound =>
    exact ⟨⟨(fun q => nomatch q), (fun q => (by rw [this.1] at q; exact (nomatch q)))⟩, (fun q => (by rw [this.1] at q; exact (nomatch q))), (fun q => nomatch q),
      fun _ => this, (fun q => nomatch q)⟩

/-- C90: no object is registered twice for a key. -/
theorem no_duplicates (hr : Reach S s) : s.regs.Pairwise (fun a b => ¬ (S.keq b.2.key a.2.key = true ∧ S.oeq b.2.obj.object a.2.obj.object = true)) := by
  refine (reach_inv hr).data.nodup.imp ?_
  intro a b q
  simpa [Same.is] using q

/-- C90: what was destroyed stays destroyed, in that order, and what was registered does not change. -/
theorem past_stays (hr : Reach S s) (st : Step S s s') : s.log <+: s'.log ∧ s.gone <:+ s'.gone ∧ s.fresh ≤ s'.fresh ∧ ∀ i, i < s.fresh → s'.given i = s.given i := by
  cases st with
  | registerNew => exact ⟨List.prefix_refl _, List.suffix_refl _, Nat.le_succ _, fun i hi => upd_ne _ _ (Nat.ne_of_lt hi)⟩
  | unregister => exact ⟨List.prefix_refl _, List.suffix_cons _ _, Nat.le_refl _, fun _ _ => rfl⟩
  | destroyNext => exact ⟨List.prefix_append _ _, List.suffix_refl _, Nat.le_refl _, fun _ _ => rfl⟩
  | _ => exact ⟨List.prefix_refl _, List.suffix_refl _, Nat.le_refl _, fun _ _ => rfl⟩

/-- A thread waits for a lock it holds itself: the call at the head was made in the callback below it. -/
def Reenters (l : List Frame) : Prop :=
  ∃ f g rest, l = f :: g :: rest ∧ isCall f = true ∧ (holdsX g = true ∨ (holdsS g = true ∧ entersX f ≠ none))

/-- One step does not end the wait. -/
theorem hang_step (hr : Reach S s) {t : Nat} (h : Reenters (s.st t)) (st : Step S s s') : s'.st t = s.st t := by
  have hi := reach_inv hr
  obtain ⟨f, g, rest, hl, hc, hg⟩ := h
  have blocked : s.excl = some t ∨ (s.shared t ≠ 0 ∧ entersX f ≠ none) := by
    rcases hg with q | ⟨q, r⟩
    · left
      have := hi.ex t
      rw [hl, List.countP_cons, List.countP_cons_of_pos q] at this
      apply Decidable.byContradiction
      intro w
      rw [if_neg w] at this; omega
    · right
      have := hi.sh t
      rw [hl, List.countP_cons, List.countP_cons_of_pos q] at this
      exact ⟨by omega, r⟩
  have other : ∀ {u : Nat} {l : List Frame}, u ≠ t → upd s.st u l t = s.st t := fun hu => upd_ne _ _ (Ne.symm hu)
  cases st with
  | call u f' rest' hs hc' hr' =>
    by_cases e : u = t
    · subst e
      rw [hl] at hs
      subst hs
      have := hr' f rfl
      cases f <;> simp_all [isCall, inUser]
    · exact other e
  | acquire u f' f'' rest' hs he hn h0 =>
    by_cases e : u = t
    · subst e
      rcases blocked with q | ⟨q, _⟩
      · rw [hn] at q; cases q
      · exact absurd (h0 u) q
    · exact other e
  | acquireShared u key object rest' hs he =>
    by_cases e : u = t
    · subst e
      rcases blocked with q | ⟨_, q⟩
      · rw [he] at q; cases q
      · rw [hl] at hs; injection hs with hs _; subst hs; exact absurd rfl q
    · exact other e
  | release u f' rest' hs hl' =>
    by_cases e : u = t
    · subst e
      rw [hl] at hs; injection hs with hs _; subst hs
      cases f <;> simp_all [isCall, leavesX]
    · exact other e
  | registerNew u _ _ _ _ hs | registerThere u _ _ _ _ hs | registerFails u _ _ _ hs | unregister u _ _ _ _ hs | unregisterNot u _ _ _ _ hs
  | unregisterFails u _ _ _ hs | lookupFails u _ _ hs | lookup u _ _ hs
  | destroyNext u _ _ _ hs | destroyBack u _ _ _ _ hs | destroyEnd u _ _ hs | actCall u _ _ _ _ hs | actNot u _ _ _ _ hs | actFails u _ _ _ hs
  | actBack u _ _ _ _ _ _ hs | releaseShared u _ _ _ _ _ hs =>
    by_cases e : u = t
    · subst e
      rw [hl] at hs; injection hs with hs _; subst hs
      cases hc
    · exact other e

/-- C90 (finding): a destroy function that calls any function of its tracker, and an action function that calls register, unregister or
destroy_all_objects_for_key, never return: the thread waits for itself. -/
theorem reentrant_hangs (hr : Reach S s) {t : Nat} (h : Reenters (s.st t)) (l : Later S s s') : s'.st t = s.st t := by
  have : Reach S s' ∧ s'.st t = s.st t := by
    induction l with
    | refl => exact ⟨hr, rfl⟩
    | step _ st ih =>
      obtain ⟨a, b⟩ := ih
      exact ⟨a.step st, (hang_step a (b ▸ h) st).trans b⟩
  exact this.2

/-- C90: unless a thread waits for itself, the lock never leaves all callers waiting. -/
theorem never_stuck (hr : Reach S s) (hn : ∀ t, ¬ Reenters (s.st t)) (t : Nat) (ht : s.st t ≠ []) :
    ∃ u s', s.st u ≠ [] ∧ Step S s s' ∧ s'.st u ≠ s.st u ∧ (s'.st u).length ≤ (s.st u).length := by
  have h := reach_inv hr
  have tri : ∀ f, isCall f = true ∨ holdsX f = true ∨ holdsS f = true := by intro f; cases f <;> simp [isCall, holdsX, holdsS]
  have go : ∀ u f rest, s.st u = f :: rest → holdsX f = true ∨ holdsS f = true →
      ∃ u s', s.st u ≠ [] ∧ Step S s s' ∧ s'.st u ≠ s.st u ∧ (s'.st u).length ≤ (s.st u).length := by
    intro u f rest hs hh
    have ne : s.st u ≠ [] := by rw [hs]; simp
    have pop : rest ≠ f :: rest := fun q => by have := congrArg List.length q; simp at this
    cases f with
    | rLock | uLock | dLock | aLock => rcases hh with q | q <;> cases q
    | rWork k o => exact ⟨u, _, ne, .registerFails s u k o rest hs, by simp [hs], by simp [hs]⟩
    | uWork k o => exact ⟨u, _, ne, .unregisterFails s u k o rest hs, by simp [hs], by simp [hs]⟩
    | dFind k => exact ⟨u, _, ne, .lookup s u k rest hs, by simp [hs], by simp [hs]⟩
    | dLoop k =>
      cases q : s.regs.find? (fun e => S.isKey k e.2) with
      | some e => exact ⟨u, _, ne, .destroyNext s u k rest e hs q, by simp [hs], by simp [hs]⟩
      | none =>
        refine ⟨u, _, ne, .destroyEnd s u k rest hs ?_, by simp [hs], by simp [hs]⟩
        intro e he
        have := List.find?_eq_none.1 q e he
        simpa using this
    | dCall k i o => exact ⟨u, _, ne, .destroyBack s u k i o rest hs, by simp [hs], by simp [hs]⟩
    | aFind k o => exact ⟨u, _, ne, .actFails s u k o rest hs, by simp [hs], by simp [hs]⟩
    | aCall k o i a => exact ⟨u, _, ne, .actBack s u k o i a rest true hs, by simp [hs], by simp [hs]⟩
    | aRel k o b r => exact ⟨u, _, ne, .releaseShared s u k o b r rest hs, by simp [hs], by simp [hs]⟩
    | rRel | uRel | dRel => exact ⟨u, _, ne, .release s u _ rest hs rfl, by simp [hs], by simp [hs]⟩
  have pos : ∀ {t f}, f ∈ s.st t → holdsX f = true → s.excl = some t := by
    intro t f hf hx
    have := h.ex t
    apply Decidable.byContradiction
    intro q
    rw [if_neg q, List.countP_eq_zero] at this
    exact this f hf hx
  cases he : s.excl with
  | some u =>
    have hc := h.ex u
    rw [if_pos he] at hc
    cases hs : s.st u with
    | nil => rw [hs] at hc; simp at hc
    | cons f rest =>
      rcases tri f with q | q
      · rw [hs, List.countP_cons_of_neg (by cases f <;> simp_all [isCall, holdsX])] at hc
        cases rest with
        | nil => simp at hc
        | cons g r =>
          refine absurd ⟨f, g, r, hs, q, ?_⟩ (hn u)
          have hu := h.stack u g (by rw [hs]; simp)
          rcases user_holds hu with w | w
          · exact Or.inl w
          · have := h.sh u
            rw [h.one u he u, List.countP_eq_zero] at this
            exact absurd w (this g (by rw [hs]; simp))
      · exact go u f rest hs q
  | none =>
    have noX : ∀ u f, f ∈ s.st u → holdsX f = false := fun u f hf => by
      cases q : holdsX f with
      | false => rfl
      | true => have := pos hf q; rw [he] at this; cases this
    -- a thread that holds the lock shared, or `t` itself
    have calls : ∀ u f rest, s.st u = f :: rest → isCall f = true → (rest ≠ [] ∨ ∀ v, s.shared v = 0) →
        ∃ u s', s.st u ≠ [] ∧ Step S s s' ∧ s'.st u ≠ s.st u ∧ (s'.st u).length ≤ (s.st u).length := by
      intro u f rest hs hc hor
      have ne : s.st u ≠ [] := by rw [hs]; simp
      cases q : entersX f with
      | none =>
        have hf : ∃ k o, f = .aLock k o := by cases f <;> simp_all [entersX, isCall]
        obtain ⟨k, o, rfl⟩ := hf
        exact ⟨u, _, ne, .acquireShared s u k o rest hs he, by simp [hs], by simp [hs]⟩
      | some f' =>
        have nef : f' ≠ f := by intro w; subst w; cases f' <;> simp [entersX] at q
        have no : ∀ v, s.shared v = 0 := by
          rcases hor with w | w
          · cases rest with
            | nil => exact absurd rfl w
            | cons g r =>
              have hu := h.stack u g (by rw [hs]; simp)
              refine absurd ⟨f, g, r, hs, hc, ?_⟩ (hn u)
              rcases user_holds hu with z | z
              · exact Or.inl z
              · exact Or.inr ⟨z, by rw [q]; simp⟩
          · exact w
        exact ⟨u, _, ne, .acquire s u f f' rest hs q he no, by simp [hs, nef], by simp [hs]⟩
    by_cases hsh : ∃ u, s.shared u ≠ 0
    · obtain ⟨u, hu⟩ := hsh
      have hc := h.sh u
      cases hs : s.st u with
      | nil => rw [hs] at hc; simp at hc; exact absurd hc.symm hu
      | cons f rest =>
        rcases tri f with q | q
        · refine calls u f rest hs q (Or.inl ?_)
          intro w
          subst w
          rw [hs, List.countP_cons_of_neg (by cases f <;> simp_all [isCall, holdsS])] at hc
          simp at hc
          exact hu hc.symm
        · exact go u f rest hs q
    · have no : ∀ v, s.shared v = 0 := fun v => by
        apply Decidable.byContradiction
        intro q
        exact hsh ⟨v, q⟩
      cases hs : s.st t with
      | nil => exact absurd hs ht
      | cons f rest =>
        rcases tri f with q | q
        · exact calls t f rest hs q (Or.inr no)
        · exact go t f rest hs q

/-! ## The hypotheses are met -/

/-- Keys and objects are the same if they are equal. -/
def eqs : Same := ⟨fun a b => a == b, fun a b => a == b, by simp, by intro a b; exact Bool.beq_comm, by simp⟩

/-- Thread 0 registers objects 11 and 12 for key 7. -/
theorem two_registered : ∃ s, Reach eqs s ∧ s.regs = [(1, ⟨7, ⟨12, 1, 0⟩⟩), (0, ⟨7, ⟨11, 1, 0⟩⟩)] ∧ s.excl = none ∧ s.shared = (fun _ => 0) ∧ (∀ t, s.st t = []) ∧
    s.fresh = 2 ∧ s.log = [] ∧ s.gone = [] := by
  have r0 : Reach eqs start := .start
  have r1 := r0.step (.call _ 0 (.rLock 7 ⟨11, 1, 0⟩) [] rfl rfl (by simp))
  have r2 := r1.step (.acquire _ 0 _ _ _ rfl rfl rfl (fun _ => rfl))
  have r3 := r2.step (.registerNew _ 0 7 ⟨11, 1, 0⟩ [] .newKey rfl (by simp [start]) rfl)
  have r4 := r3.step (.release _ 0 _ _ rfl rfl)
  have r5 := r4.step (.call _ 0 (.rLock 7 ⟨12, 1, 0⟩) [] rfl rfl (by simp))
  have r6 := r5.step (.acquire _ 0 _ _ _ rfl rfl rfl (fun _ => rfl))
  have r7 := r6.step (.registerNew _ 0 7 ⟨12, 1, 0⟩ [] .newObject rfl (by simp [start, eqs, Same.is]) rfl)
  have r8 := r7.step (.release _ 0 _ _ rfl rfl)
  refine ⟨_, r8, rfl, rfl, rfl, ?_, rfl, rfl, rfl⟩
  intro t
  simp only [upd_apply]
  split <;> rfl

/-- An action runs on object 11 while another thread waits to destroy it (`action_on_live`, `action_excludes_destroy`, `never_stuck`). -/
example : ∃ s, Reach eqs s ∧ .aCall 7 11 0 11 ∈ s.st 0 ∧ s.st 1 = [.dLock 7] ∧ ∀ t, ¬ Reenters (s.st t) := by
  obtain ⟨s, r, h1, h2, h3, h4, h5, h6, h7⟩ := two_registered
  have r1 := r.step (.call _ 0 (.aLock 7 11) [] (h4 0) rfl (by simp))
  have r2 := r1.step (.acquireShared _ 0 7 11 [] (by simp) h2)
  have r3 := r2.step (.actCall _ 0 7 11 [] (0, ⟨7, ⟨11, 1, 0⟩⟩) (by simp) (by
    show s.regs.find? _ = _
    rw [h1]; decide))
  have r4 := r3.step (.call _ 1 (.dLock 7) [] (by simp [upd_apply, h4]) rfl (by simp))
  refine ⟨_, r4, by simp [upd_apply], by simp, ?_⟩
  rintro t ⟨f, g, rest, q, _⟩
  have q' := congrArg List.length q
  simp only [upd_apply] at q'
  split at q'
  · simp at q'
  · split at q'
    · simp at q'
    · rw [h4] at q'; simp at q'

/-- The object registered last is destroyed first; its destroy function calls the tracker again (`destroy_order`, `one_destroy`, `reentrant_hangs`). -/
example : ∃ s, Reach eqs s ∧ .dCall 7 1 ⟨12, 1, 0⟩ ∈ s.st 0 ∧ s.log = [1] ∧ s.regs = [(0, ⟨7, ⟨11, 1, 0⟩⟩)] ∧ Reenters (s.st 0) := by
  obtain ⟨s, r, h1, h2, h3, h4, h5, h6, h7⟩ := two_registered
  have r1 := r.step (.call _ 0 (.dLock 7) [] (h4 0) rfl (by simp))
  have r2 := r1.step (.acquire _ 0 (.dLock 7) (.dFind 7) [] (by simp) rfl h2 (fun u => by show s.shared u = 0; rw [h3]))
  have r3 := r2.step (.lookup _ 0 7 [] (by simp))
  have r4 := r3.step (.destroyNext _ 0 7 [] (1, ⟨7, ⟨12, 1, 0⟩⟩) (by simp) (by
    show s.regs.find? _ = _
    rw [h1]; decide))
  have r5 := r4.step (.call _ 0 (.uLock 7 11) [.dCall 7 1 ⟨12, 1, 0⟩] (by simp) rfl (by simp [inUser]))
  refine ⟨_, r5, by simp, ?_, ?_, ⟨.uLock 7 11, .dCall 7 1 ⟨12, 1, 0⟩, [], by simp, rfl, Or.inl rfl⟩⟩
  · show s.log ++ [1] = [1]; rw [h6]; rfl
  · show s.regs.eraseP _ = _; rw [h1]; decide

/-- The results of a call by each thread (`register_result`, `unregister_result`, `act_result`). -/
example : ∃ s, Reach eqs s ∧ .rRel 7 ⟨11, 1, 0⟩ .exists ∈ s.st 0 := by
  obtain ⟨s, r, h1, h2, h3, h4, h5, h6, h7⟩ := two_registered
  have r1 := r.step (.call _ 0 (.rLock 7 ⟨11, 1, 0⟩) [] (h4 0) rfl (by simp))
  have r2 := r1.step (.acquire _ 0 (.rLock 7 ⟨11, 1, 0⟩) (.rWork 7 ⟨11, 1, 0⟩) [] (by simp) rfl h2 (fun u => by show s.shared u = 0; rw [h3]))
  have r3 := r2.step (.registerThere _ 0 7 ⟨11, 1, 0⟩ [] (0, ⟨7, ⟨11, 1, 0⟩⟩) (by simp) (by
    show s.regs.find? _ = _
    rw [h1]; decide))
  exact ⟨_, r3, by simp⟩

example : ∃ s, Reach eqs s ∧ .uRel 7 11 .ok ∈ s.st 0 ∧ s.gone.head? = some 0 := by
  obtain ⟨s, r, h1, h2, h3, h4, h5, h6, h7⟩ := two_registered
  have r1 := r.step (.call _ 0 (.uLock 7 11) [] (h4 0) rfl (by simp))
  have r2 := r1.step (.acquire _ 0 (.uLock 7 11) (.uWork 7 11) [] (by simp) rfl h2 (fun u => by show s.shared u = 0; rw [h3]))
  have r3 := r2.step (.unregister _ 0 7 11 [] (0, ⟨7, ⟨11, 1, 0⟩⟩) (by simp) (by
    show s.regs.find? _ = _
    rw [h1]; decide))
  exact ⟨_, r3, by simp, rfl⟩

example : ∃ s, Reach eqs s ∧ .aRel 7 13 none .objectNotFound ∈ s.st 0 := by
  obtain ⟨s, r, h1, h2, h3, h4, h5, h6, h7⟩ := two_registered
  have r1 := r.step (.call _ 0 (.aLock 7 13) [] (h4 0) rfl (by simp))
  have r2 := r1.step (.acquireShared _ 0 7 13 [] (by simp) h2)
  have r3 := r2.step (.actNot _ 0 7 13 [] .objectNotFound (by simp) (by
    show s.regs.find? _ = _
    rw [h1]; decide) (by
    show _ = if s.regs.any _ = true then _ else _
    rw [h1]; decide))
  exact ⟨_, r3, by simp⟩

example : ∃ s, Reach eqs s ∧ .aRel 7 11 (some true) .ok ∈ s.st 0 := by
  obtain ⟨s, r, h1, h2, h3, h4, h5, h6, h7⟩ := two_registered
  have r1 := r.step (.call _ 0 (.aLock 7 11) [] (h4 0) rfl (by simp))
  have r2 := r1.step (.acquireShared _ 0 7 11 [] (by simp) h2)
  have r3 := r2.step (.actCall _ 0 7 11 [] (0, ⟨7, ⟨11, 1, 0⟩⟩) (by simp) (by
    show s.regs.find? _ = _
    rw [h1]; decide))
  have r4 := r3.step (.actBack _ 0 7 11 0 11 [] true (by simp))
  exact ⟨_, r4, by simp⟩

/-- Everything of key 7 is destroyed (`destroyed_all`, `once`). -/
example : ∃ s, Reach eqs s ∧ .dRel 7 true ∈ s.st 0 ∧ s.log = [1, 0] ∧ s.regs = [] := by
  obtain ⟨s, r, h1, h2, h3, h4, h5, h6, h7⟩ := two_registered
  have r1 := r.step (.call _ 0 (.dLock 7) [] (h4 0) rfl (by simp))
  have r2 := r1.step (.acquire _ 0 (.dLock 7) (.dFind 7) [] (by simp) rfl h2 (fun u => by show s.shared u = 0; rw [h3]))
  have r3 := r2.step (.lookup _ 0 7 [] (by simp))
  have r4 := r3.step (.destroyNext _ 0 7 [] (1, ⟨7, ⟨12, 1, 0⟩⟩) (by simp) (by
    show s.regs.find? _ = _
    rw [h1]; decide))
  have r5 := r4.step (.destroyBack _ 0 7 1 ⟨12, 1, 0⟩ [] (by simp))
  have e1 : s.regs.eraseP (fun e => eqs.isKey 7 e.2) = [(0, ⟨7, ⟨11, 1, 0⟩⟩)] := by rw [h1]; decide
  have r6 := r5.step (.destroyNext _ 0 7 [] (0, ⟨7, ⟨11, 1, 0⟩⟩) (by simp) (by
    show (s.regs.eraseP (fun e => eqs.isKey 7 e.2)).find? _ = _
    rw [e1]; decide))
  have r7 := r6.step (.destroyBack _ 0 7 0 ⟨11, 1, 0⟩ [] (by simp))
  have e2 : (s.regs.eraseP (fun e => eqs.isKey 7 e.2)).eraseP (fun e => eqs.isKey 7 e.2) = [] := by rw [e1]; decide
  have r8 := r7.step (.destroyEnd _ 0 7 [] (by simp) (by
    show ∀ e ∈ (s.regs.eraseP (fun e => eqs.isKey 7 e.2)).eraseP (fun e => eqs.isKey 7 e.2), _
    rw [e2]; simp))
  refine ⟨_, r8, by simp, ?_, e2⟩
  show (s.log ++ [1]) ++ [0] = [1, 0]
  rw [h6]; rfl

end CUtil.TrackerConc
