import Verif.Tracker.Lemmas
set_option linter.unusedSimpArgs false
set_option linter.unusedVariables false
/-
C33: the object lifetime tracker's bookkeeping.  C34: destruction in reverse order, exactly once.
`Rep S t regs`: the tracker `t` is unlocked, leaks nothing and holds exactly the registrations `regs`.
-/
namespace CUtil.Tracker

theorem acq {t : T} (h : t.locked = false) : acquire t = C.ok { t with locked := true } := by unfold acquire; rw [if_neg (by simp [h])]
theorem relock {t : T} (h : t.locked = true) : release t = C.ok { t with locked := false } := by unfold release; rw [if_pos h]
theorem rel_acq {S : Same} {t : T} {regs : List Reg} (r : Rep S t regs) : release { t with locked := true } = C.ok t := by
  unfold release
  rw [if_pos rfl]
  have := r.unlocked
  cases t; simp_all

/-- **C33**, one call: no undefined behaviour, the lock is given back, the documented effect and answer; an error answer leaves everything as it was. -/
theorem call_outcome {S : Same} {t : T} {regs : List Reg} {op : Op} (r : Rep S t regs) (hp : Proper S op) :
    ∃ t' ans regs', exec t op = C.ok (t', ans) ∧ Means S regs op regs' ans ∧ Rep S t' regs' := by
  have hl := r.unlocked
  have hb := r.blocks
  cases op with
  | register al1 al2 km om key o =>
    obtain ⟨h1, h2, ak, ao⟩ := hp
    have hsk := scan_keys r ak key
    simp only [exec, register]
    rw [if_neg (by simp [h1, h2]), acq hl]
    simp only [C.ok_bind]
    cases hs : scan (fun k : Key => km k.key key) t.keys with
    | fail =>
      rw [hs] at hsk
      simp only [rel_acq r, C.ok_bind]
      exact ⟨t, _, regs, rfl, .registerError _ _ _ _ _ _ h1 h2 (Or.inr (Or.inr (Or.inl hsk))), r⟩
    | none =>
      rw [hs] at hsk
      obtain ⟨hk1, hk2⟩ := hsk
      have hno : regs.any (S.is key o.object) = false := by
        rw [List.any_eq_false] at hk2 ⊢
        intro x hx h
        exact hk2 x hx (is_sub S key o.object x h)
      cases al1 with
      | false =>
        simp only [Bool.false_eq_true, if_false, rel_acq r, C.ok_bind]
        exact ⟨t, _, regs, rfl, .registerError _ _ _ _ _ _ h1 h2 (Or.inl rfl), r⟩
      | true =>
        simp only [if_true, insertObject, scan]
        cases al2 with
        | false =>
          simp only [Bool.false_eq_true, if_false, cleanup, and_self, if_true, freeBlock, Nat.add_eq_zero_iff, Nat.one_ne_zero, and_false, Nat.add_sub_cancel,
            List.drop_succ_cons, List.drop_zero, C.ok_bind, release, C.pure_eq]
          refine ⟨_, _, regs, rfl, .registerError _ _ _ _ _ _ h1 h2 (Or.inr (Or.inl rfl)), ?_⟩
          have : (⟨t.keys, false, t.blocks⟩ : T) = t := by cases t; simp_all
          rw [this]; exact r
        | true =>
          simp only [if_true, cleanup, false_and, if_false, release, C.ok_bind, List.drop_succ_cons, List.drop_zero, List.nil_append, C.pure_eq, reduceCtorEq]
          refine ⟨_, _, (registered S regs key o).1, rfl, ?_, ?_⟩
          · have := Means.register (S := S) (regs := regs) true true km om key o h1 h2 ak ao
            unfold registered at this ⊢
            rw [hno, hk2] at this
            simpa [hno, hk2] using this
          · unfold registered
            rw [hno]
            simp only [Bool.false_eq_true, if_false]
            refine ⟨rfl, ?_, ?_, ?_, ?_, ?_⟩
            · simp only [List.length_cons, List.map_cons, List.sum_cons, List.length_nil]; omega
            · intro k hk
              rcases List.mem_cons.mp hk with rfl | hk
              · simp
              · exact r.nonempty k hk
            · refine List.pairwise_cons.mpr ⟨?_, r.distinct⟩
              intro x hx
              rw [S.symm]; exact hk1 x hx
            · intro k hk
              rcases List.mem_cons.mp hk with rfl | hk
              · dsimp only
                rw [List.filter_cons_of_pos (by exact S.refl key)]
                have : regs.filter (S.isKey key) = [] := by
                  rw [List.filter_eq_nil_iff]
                  rw [List.any_eq_false] at hk2
                  exact hk2
                rw [this]; rfl
              · rw [List.filter_cons_of_neg (by
                  unfold Same.isKey
                  have := hk1 k hk
                  rw [S.symm] at this
                  rw [this]; simp)]
                exact r.objs k hk
            · intro x hx
              rcases List.mem_cons.mp hx with rfl | hx
              · exact ⟨⟨key, [o]⟩, by simp, S.refl key⟩
              · obtain ⟨k, hk, h⟩ := r.covers x hx
                exact ⟨k, by simp [hk], h⟩
    | entry b k a =>
      rw [hs] at hsk
      obtain ⟨ek, hk1, hk2, hko⟩ := hsk
      have hso := scan_objs (regs := regs) ao key o.object k.objs hko
      simp only [insertObject]
      cases hs2 : scan (fun x : Obj => om x.object o.object) k.objs with
      | fail =>
        rw [hs2] at hso
        simp only [cleanup, Bool.false_eq_true, and_false, if_false, C.ok_bind, rel_acq r]
        exact ⟨t, _, regs, rfl, .registerError _ _ _ _ _ _ h1 h2 (Or.inr (Or.inr (Or.inr hso))), r⟩
      | none =>
        rw [hs2] at hso
        cases al2 with
        | false =>
          simp only [cleanup, Bool.false_eq_true, and_false, if_false, C.ok_bind, rel_acq r]
          exact ⟨t, _, regs, rfl, .registerError _ _ _ _ _ _ h1 h2 (Or.inr (Or.inl rfl)), r⟩
        | true =>
          simp only [cleanup, Bool.false_eq_true, and_false, if_false, if_true, C.ok_bind, release, C.pure_eq]
          refine ⟨_, _, (registered S regs key o).1, rfl, ?_, ?_⟩
          · have := Means.register (S := S) (regs := regs) al1 true km om key o h1 h2 ak ao
            unfold registered at this ⊢
            rw [hso, hk2] at this
            simpa [hso, hk2] using this
          · unfold registered
            rw [hso]
            simp only [Bool.false_eq_true, if_false]
            have := rep_replace (regs' := ⟨key, o⟩ :: regs) (objs' := o :: k.objs) r ek hk1 (by simp)
              (by rw [List.filter_cons_of_pos (by exact S.refl key), List.map_cons, hko])
              (by
                intro c hc
                rw [List.filter_cons_of_neg (by unfold Same.isKey; rw [hc]; simp)])
              (by
                intro x hx
                rcases List.mem_cons.mp hx with rfl | hx
                · exact Or.inr (S.refl key)
                · exact Or.inl hx)
            have e : t.blocks + 1 = (b ++ a).length + ((b ++ a).map (·.objs.length)).sum + 1 + (o :: k.objs).length := by
              rw [hb, ek, blocks_split, List.length_cons]
              omega
            rw [e]
            exact this
      | entry ob x oa =>
        rw [hs2] at hso
        obtain ⟨_, hany, _, _⟩ := hso
        simp only [cleanup, reduceCtorEq, false_and, if_false, C.ok_bind, rel_acq r, C.pure_eq]
        refine ⟨t, _, regs, rfl, ?_, r⟩
        have := Means.register (S := S) (regs := regs) al1 al2 km om key o h1 h2 ak ao
        unfold registered at this
        rw [hany] at this
        simpa using this
  | unregister km om key object =>
    obtain ⟨h1, ak, ao⟩ := hp
    have hsk := scan_keys r ak key
    simp only [exec, unregister]
    rw [if_neg h1, acq hl]
    simp only [C.ok_bind]
    cases hs : scan (fun k : Key => km k.key key) t.keys with
    | fail =>
      rw [hs] at hsk
      simp only [rel_acq r, C.ok_bind]
      exact ⟨t, _, regs, rfl, .unregisterError _ _ _ _ h1 (Or.inl hsk), r⟩
    | none =>
      rw [hs] at hsk
      obtain ⟨hk1, hk2⟩ := hsk
      have hno : regs.any (S.is key object) = false := by
        rw [List.any_eq_false] at hk2 ⊢
        intro x hx h
        exact hk2 x hx (is_sub S key object x h)
      simp only [rel_acq r, C.ok_bind]
      refine ⟨t, _, regs, rfl, ?_, r⟩
      have := Means.unregister (S := S) (regs := regs) km om key object h1 ak ao
      unfold unregistered at this
      rw [hno, hk2] at this
      simpa using this
    | entry b k a =>
      rw [hs] at hsk
      obtain ⟨ek, hk1, hk2, hko⟩ := hsk
      have hso := scan_objs (regs := regs) ao key object k.objs hko
      dsimp only
      cases hs2 : scan (fun x : Obj => om x.object object) k.objs with
      | fail =>
        rw [hs2] at hso
        simp only [C.ok_bind, rel_acq r]
        exact ⟨t, _, regs, rfl, .unregisterError _ _ _ _ h1 (Or.inr hso), r⟩
      | none =>
        rw [hs2] at hso
        simp only [C.ok_bind, rel_acq r]
        refine ⟨t, _, regs, rfl, ?_, r⟩
        have := Means.unregister (S := S) (regs := regs) km om key object h1 ak ao
        unfold unregistered at this
        rw [hso, hk2] at this
        simpa using this
      | entry ob x oa =>
        rw [hs2] at hso
        obtain ⟨eo, hany, her, _⟩ := hso
        have hM := Means.unregister (S := S) (regs := regs) km om key object h1 ak ao
        unfold unregistered at hM
        rw [hany] at hM
        simp only [if_true] at hM
        have hblk : t.blocks = (b ++ a).length + ((b ++ a).map (·.objs.length)).sum + 1 + ((ob ++ oa).length + 1) := by
          rw [hb, ek, blocks_split, eo]
          simp only [List.length_append, List.length_cons]
          omega
        have hoth : ∀ c, S.keq key c = false → (regs.eraseP (S.is key object)).filter (S.isKey c) = regs.filter (S.isKey c) := by
          intro c hc
          apply filter_eraseP_disj
          intro y hy
          have hyk := is_sub S key object y hy
          unfold Same.isKey at hyk ⊢
          cases hyc : S.keq y.key c with
          | false => rfl
          | true =>
            have := S.trans key y.key c (by rw [S.symm]; exact hyk) hyc
            rw [hc] at this; exact absurd this (by simp)
        simp only [removeObject, freeBlock]
        rw [if_neg (by omega)]
        simp only [C.ok_bind]
        by_cases hemp : ob ++ oa = []
        · rw [if_pos hemp, if_neg (by rw [hemp] at hblk; simp only [List.length_nil] at hblk; omega)]
          simp only [C.ok_bind, release, if_true, C.pure_eq]
          refine ⟨_, _, _, rfl, hM, ?_⟩
          have := rep_remove (regs' := regs.eraseP (S.is key object)) r ek hk1 hoth (by
            intro y hy
            refine ⟨List.mem_of_mem_eraseP hy, ?_⟩
            cases hyk : S.keq y.key key with
            | false => rfl
            | true =>
              rw [hemp] at her
              have h0 : (regs.eraseP (S.is key object)).filter (S.isKey key) = [] := List.map_eq_nil_iff.mp her.symm
              rw [List.filter_eq_nil_iff] at h0
              exact absurd hyk (h0 y hy))
          have e : t.blocks - 1 - 1 = (b ++ a).length + ((b ++ a).map (·.objs.length)).sum := by
            rw [hblk, hemp, List.length_nil]; omega
          rw [e]; exact this
        · rw [if_neg hemp]
          simp only [C.ok_bind, release, if_true, C.pure_eq]
          refine ⟨_, _, _, rfl, hM, ?_⟩
          have := rep_replace (regs' := regs.eraseP (S.is key object)) (objs' := ob ++ oa) r ek hk1 hemp her hoth
            (fun y hy => Or.inl (List.mem_of_mem_eraseP hy))
          have e : t.blocks - 1 = (b ++ a).length + ((b ++ a).map (·.objs.length)).sum + 1 + (ob ++ oa).length := by
            rw [hblk]; omega
          rw [e]; exact this
  | destroyAll km key =>
    have ak : Agrees km S.keq := hp
    have hsk := scan_keys r ak key
    simp only [exec, destroyAll]
    rw [acq hl]
    simp only [C.ok_bind]
    cases hs : scan (fun k : Key => km k.key key) t.keys with
    | fail =>
      rw [hs] at hsk
      simp only [rel_acq r, C.ok_bind]
      exact ⟨t, _, regs, rfl, .destroyAllError _ _ hsk, r⟩
    | none =>
      rw [hs] at hsk
      obtain ⟨hk1, hk2⟩ := hsk
      simp only [rel_acq r, C.ok_bind]
      refine ⟨t, _, regs, rfl, ?_, r⟩
      have := Means.destroyAll (S := S) (regs := regs) km key ak
      unfold destroyed at this
      have e1 : regs.filter (S.isKey key) = [] := by
        rw [List.filter_eq_nil_iff]
        rw [List.any_eq_false] at hk2
        exact hk2
      have e2 : regs.filter (fun x => !S.isKey key x) = regs := by
        rw [List.filter_eq_self]
        rw [List.any_eq_false] at hk2
        intro x hx
        have := hk2 x hx
        simpa using this
      rw [e1, e2] at this
      exact this
    | entry b k a =>
      rw [hs] at hsk
      obtain ⟨ek, hk1, hk2, hko⟩ := hsk
      dsimp only
      have loop : ∀ (os : List Obj) (t : T), os.length ≤ t.blocks → destroyLoop t os = C.ok ({ t with blocks := t.blocks - os.length }, os) := by
        intro os
        induction os with
        | nil => intro t _; rfl
        | cons o os ih =>
          intro t h
          rw [List.length_cons] at h
          unfold destroyLoop freeBlock
          rw [if_neg (by omega), C.ok_bind, ih _ (by dsimp only; omega)]
          simp only [C.ok_bind, List.length_cons, C.pure_eq]
          have : t.blocks - 1 - os.length = t.blocks - (os.length + 1) := by omega
          rw [this]
      have hblk : t.blocks = (b ++ a).length + ((b ++ a).map (·.objs.length)).sum + 1 + k.objs.length := by
        rw [hb, ek, blocks_split]
      rw [loop k.objs _ (by dsimp only; omega)]
      simp only [C.ok_bind, freeBlock]
      rw [if_neg (by omega)]
      simp only [C.ok_bind, release, if_true, C.pure_eq]
      have hM := Means.destroyAll (S := S) (regs := regs) km key ak
      unfold destroyed at hM
      refine ⟨_, _, regs.filter (fun x => !S.isKey key x), rfl, ?_, ?_⟩
      · rw [hko]; exact hM
      · have := rep_remove (regs' := regs.filter (fun x => !S.isKey key x)) r ek hk1 (by
            intro c hc
            rw [List.filter_filter]
            congr 1
            funext y
            unfold Same.isKey
            cases hyc : S.keq y.key c with
            | false => simp
            | true =>
              cases hyk : S.keq y.key key with
              | false => simp
              | true =>
                have := S.trans key y.key c (by rw [S.symm]; exact hyk) hyc
                rw [hc] at this; exact absurd this (by simp)) (by
            intro y hy
            obtain ⟨h1, h2⟩ := List.mem_filter.mp hy
            refine ⟨h1, ?_⟩
            unfold Same.isKey at h2
            simpa using h2)
        have e : t.blocks - k.objs.length - 1 = (b ++ a).length + ((b ++ a).map (·.objs.length)).sum := by
          rw [hblk]; omega
        rw [e]; exact this
  | act km om key object action =>
    obtain ⟨h0, h1, ak, ao⟩ := hp
    have hsk := scan_keys r ak key
    simp only [exec, act]
    rw [if_neg (by simp [h0, h1]), acq hl]
    simp only [C.ok_bind]
    have hM := Means.act (S := S) (regs := regs) km om key object action h0 h1 ak ao
    unfold acted at hM
    cases hs : scan (fun k : Key => km k.key key) t.keys with
    | fail =>
      rw [hs] at hsk
      simp only [rel_acq r, C.ok_bind]
      exact ⟨t, _, regs, rfl, .actError _ _ _ _ _ h0 h1 (Or.inl hsk), r⟩
    | none =>
      rw [hs] at hsk
      obtain ⟨hk1, hk2⟩ := hsk
      have hno : regs.find? (S.is key object) = none := by
        rw [List.find?_eq_none]
        rw [List.any_eq_false] at hk2
        intro x hx h
        exact hk2 x hx (is_sub S key object x h)
      simp only [rel_acq r, C.ok_bind]
      refine ⟨t, _, regs, rfl, ?_, r⟩
      rw [hno, hk2] at hM
      simpa using hM
    | entry b k a =>
      rw [hs] at hsk
      obtain ⟨ek, hk1, hk2, hko⟩ := hsk
      have hso := scan_objs (regs := regs) ao key object k.objs hko
      dsimp only
      cases hs2 : scan (fun x : Obj => om x.object object) k.objs with
      | fail =>
        rw [hs2] at hso
        simp only [C.ok_bind, rel_acq r]
        exact ⟨t, _, regs, rfl, .actError _ _ _ _ _ h0 h1 (Or.inr hso), r⟩
      | none =>
        rw [hs2] at hso
        have hno : regs.find? (S.is key object) = none := by
          rw [List.find?_eq_none]
          rw [List.any_eq_false] at hso
          exact hso
        simp only [C.ok_bind, rel_acq r]
        refine ⟨t, _, regs, rfl, ?_, r⟩
        rw [hno, hk2] at hM
        simpa using hM
      | entry ob x oa =>
        rw [hs2] at hso
        obtain ⟨_, _, _, rg, hfind, hx⟩ := hso
        simp only [C.ok_bind, rel_acq r]
        refine ⟨t, _, regs, rfl, ?_, r⟩
        rw [hfind] at hM
        dsimp only at hM
        rw [hx] at hM
        exact hM

/-- **C33**, whole histories: from a new tracker, any sequence of calls, with any failures of allocations and callbacks, is a documented run. -/
theorem history_outcome {S : Same} : ∀ (ops : List Op) {t : T} {regs : List Reg}, Rep S t regs → (∀ op ∈ ops, Proper S op) →
    ∃ t' anss regs', run t ops = C.ok (t', anss) ∧ Run S regs ops regs' anss ∧ Rep S t' regs' := by
  intro ops
  induction ops with
  | nil => intro t regs r _; exact ⟨t, [], regs, rfl, .nil regs, r⟩
  | cons op ops ih =>
    intro t regs r hp
    obtain ⟨t1, a, regs1, e1, m, r1⟩ := call_outcome r (hp op (by simp))
    obtain ⟨t2, as, regs2, e2, ru, r2⟩ := ih r1 (fun o ho => hp o (by simp [ho]))
    refine ⟨t2, a :: as, regs2, ?_, .cons _ _ _ _ _ _ _ m ru, r2⟩
    simp only [run, e1, C.ok_bind, e2, C.pure_eq]

/-- **C33**: a new tracker holds nothing; creation fails only without the callbacks or the resources. -/
theorem create_spec (S : Same) (km om memory lock : Bool) :
    if km && om && memory && lock then ∃ t, create km om memory lock = some t ∧ Rep S t [] else create km om memory lock = none := by
  cases km <;> cases om <;> cases memory <;> cases lock <;> simp [create]
  exact ⟨rfl, rfl, by simp, List.Pairwise.nil, by simp, by simp⟩

/-- **C33**: with objects that are the same only if equal in the callback's sense, no pair is held twice: a run keeps the registrations pairwise different. -/
theorem no_duplicates {S : Same} (hsym : ∀ a b, S.oeq a b = S.oeq b a) {regs regs' : List Reg} {op : Op} {ans : Ans} (m : Means S regs op regs' ans)
    (h : regs.Pairwise (fun a b => S.is b.key b.obj.object a = false)) : regs'.Pairwise (fun a b => S.is b.key b.obj.object a = false) := by
  cases m with
  | register al1 al2 km om key o h1 h2 _ _ =>
    unfold registered
    cases ha : regs.any (S.is key o.object) with
    | true => exact h
    | false =>
      simp only [Bool.false_eq_true, if_false]
      refine List.pairwise_cons.mpr ⟨?_, h⟩
      intro x hx
      rw [List.any_eq_false] at ha
      have := ha x hx
      unfold Same.is at this ⊢
      dsimp only
      rw [S.symm, hsym]
      simpa using this
  | registerError => exact h
  | unregister km om key object _ _ _ =>
    unfold unregistered
    cases ha : regs.any (S.is key object) with
    | true =>
      simp only [if_true]
      exact List.Pairwise.sublist (List.eraseP_sublist) h
    | false => exact h
  | unregisterError => exact h
  | destroyAll km key _ => exact List.Pairwise.sublist (List.filter_sublist) h
  | destroyAllError => exact h
  | act => exact h
  | actError => exact h

/-- **C34**: with a key callback that does not fail, the destroy functions called are exactly those of the objects registered for the key, most recent
first, each once with its own context; afterwards nothing is registered for the key and everything else still is. -/
theorem destroy_all {S : Same} {t : T} {regs : List Reg} (r : Rep S t regs) (km : Nat → Nat → Match) (key : Nat) (ha : Agrees km S.keq) (hr : Reliable km) :
    ∃ t', destroyAll km (some t) key = C.ok (some t', (regs.filter (fun x => S.keq x.key key)).map (·.obj)) ∧
      Rep S t' (regs.filter (fun x => !S.keq x.key key)) := by
  obtain ⟨t', ans, regs', e, m, r'⟩ := call_outcome (op := .destroyAll km key) r ha
  simp only [exec] at e
  cases hd : destroyAll km (some t) key with
  | ub => rw [hd] at e; simp at e
  | ok v =>
    rw [hd] at e
    obtain ⟨v1, v2⟩ := v
    cases v1 with
    | none => simp at e
    | some t1 =>
      simp at e
      obtain ⟨rfl, rfl⟩ := e
      generalize ho : Op.destroyAll km key = op at m
      generalize hans : Ans.destroyed v2 = an at m
      cases m with
      | destroyAll km' key' _ =>
        cases ho
        cases hans
        exact ⟨t1, rfl, r'⟩
      | destroyAllError km' key' hn => cases ho; exact absurd hr hn
      | _ => cases ho

/-- **C33**: bad arguments change nothing. -/
theorem refusals (al1 al2 : Bool) (km om : Nat → Nat → Match) (t : T) (key object : Nat) (o : Obj) (action : Nat → Bool) :
    register al1 al2 km om none key o = C.ok (none, .muFailure) ∧
    (o.object = 0 ∨ o.destroy = 0 → register al1 al2 km om (some t) key o = C.ok (some t, .muFailure)) ∧
    unregister km om none key object = C.ok (none, .error) ∧ unregister km om (some t) key 0 = C.ok (some t, .error) ∧
    destroyAll km none key = C.ok (none, []) ∧ destroy none = 0 ∧
    act km om none key object (some action) = C.ok (none, .error, none) ∧ act km om (some t) key object none = C.ok (some t, .error, none) ∧
    act km om (some t) 0 object (some action) = C.ok (some t, .error, none) ∧ act km om (some t) key 0 (some action) = C.ok (some t, .error, none) := by
  refine ⟨rfl, ?_, rfl, rfl, rfl, rfl, rfl, ?_, ?_⟩
  · intro h; unfold register; simp only [h, if_true]
  · simp [act]
  · simp [act]

/-- **Finding (C33)**: with bad arguments register answers `MU_FAILURE`, a number that is not `OBJECT_LIFETIME_TRACKER_REGISTER_OBJECT_ERROR` as its
requirements say, nor any other value of its enumeration (object_lifetime_tracker.c:209). -/
theorem register_bad_argument_result (al1 al2 : Bool) (km om : Nat → Nat → Match) (key : Nat) (o : Obj) :
    ∃ res, register al1 al2 km om none key o = C.ok (none, res) ∧ res ≠ .error := ⟨.muFailure, rfl, by simp⟩

/-- **Finding (C33)**: destroying a tracker that still holds registrations leaks one structure per key and per object, and destroys no object. -/
theorem destroy_leaks {S : Same} {t : T} {regs : List Reg} (r : Rep S t regs) (h : regs ≠ []) : 2 ≤ destroy (some t) := by
  unfold destroy
  dsimp only
  rw [r.blocks]
  cases regs with
  | nil => exact absurd rfl h
  | cons x xs =>
    obtain ⟨k, hk, _⟩ := r.covers x (by simp)
    obtain ⟨b, a, e⟩ := List.append_of_mem hk
    have hne := r.nonempty k hk
    rw [e, blocks_split]
    have : 0 < k.objs.length := by
      cases ho : k.objs with
      | nil => exact absurd ho hne
      | cons _ _ => simp
    omega

/-- Sameness by equality, and a history with a failing callback and a failing allocation. -/
def byEq : Same := ⟨fun a b => a == b, fun a b => a == b, by simp, by intro a b; exact Bool.beq_comm, by simp⟩
def eqM : Nat → Nat → Match := fun a b => if a = b then .matching else .notMatching

theorem eqM_agrees : Agrees eqM byEq.keq := by
  intro a b
  unfold eqM byEq
  by_cases h : a = b <;> simp [h]

example : run ⟨[], false, 0⟩ [.register true true eqM eqM 1 ⟨10, 5, 0⟩, .register true true eqM eqM 1 ⟨11, 5, 7⟩, .register true false eqM eqM 2 ⟨12, 5, 7⟩,
      .register true true eqM eqM 2 ⟨12, 6, 8⟩, .register true true eqM eqM 1 ⟨10, 5, 0⟩, .unregister eqM eqM 3 10, .unregister (fun _ _ => .error) eqM 1 10,
      .register true true eqM eqM 1 ⟨13, 4, 9⟩, .act eqM eqM 1 11 (fun _ => true), .unregister eqM eqM 1 11, .destroyAll eqM 1] =
    C.ok (⟨[⟨2, [⟨12, 6, 8⟩]⟩], false, 2⟩, [.register .newKey, .register .newObject, .register .error, .register .newKey, .register .exists,
      .unregister .keyNotFound, .unregister .error, .register .newObject, .acted .ok (some 11), .unregister .ok,
      .destroyed [⟨13, 4, 9⟩, ⟨10, 5, 0⟩]]) := rfl

example : Proper byEq (.register true false eqM eqM 2 ⟨12, 5, 7⟩) := ⟨by decide, by decide, eqM_agrees, eqM_agrees⟩

end CUtil.Tracker
