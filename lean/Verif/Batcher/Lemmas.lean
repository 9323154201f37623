import Verif.Batcher.Spec
import Verif.ConstBufferArray.Props
import Verif.ConstBuffer.Props
set_option linter.unusedSimpArgs false
set_option linter.unusedVariables false
namespace CUtil.Batcher
open CUtil.ConstBufferArray CUtil.MemoryData CUtil.MemoryData.Spec

theorem words_length (ws : List Nat) : (words ws).length = 4 * ws.length := by
  induction ws with
  | nil => rfl
  | cons w ws ih =>
    simp only [words, List.map_cons, List.flatten_cons, List.length_append, beBytes_length, List.length_cons] at *
    omega

theorem words_append (a b : List Nat) : words (a ++ b) = words a ++ words b := by simp [words]

theorem words_cons (w : Nat) (b : List Nat) : words (w :: b) = beBytes 4 w ++ words b := by simp [words]

/-- Reading word `i` of a header. -/
theorem read_word (d : Dialect) (pre : List Nat) (w : Nat) (post : List Nat) (hw : w < 2 ^ 32)
    (hd : d = .wrap ∨ w < 2 ^ 31) (o : Nat) (ho : o = 4 * pre.length) :
    read_u32 d (words (pre ++ w :: post)) o = C.ok w := by
  have hv : beVal (beBytes 4 w) = w := beVal_beBytes 4 w (by simpa using hw)
  have := (read_value_partial d (words pre) (beBytes 4 w) (words post) (by
    rcases hd with hd | hd
    · exact Or.inl hd
    · right
      rw [hv, beBytes_length]
      simp only [Nat.reducePow] at *; omega)).1 (beBytes_length 4 w)
  rw [words_append, words_cons, ← List.append_assoc, ho, ← words_length, this, hv]

theorem initialised_map (bs : List UInt8) : initialised (bs.map some) = C.ok bs := by
  induction bs with
  | nil => rfl
  | cons b bs ih => simp [initialised, ih]

theorem getLoop_eq (xs p q : List Buf) (a u c : HCells) (h : u.length = xs.length) (s d n : Nat)
    (hs : s = p.length) (hd : d = a.length) (hn : n = xs.length) (h32 : (p ++ (xs ++ q)).length < 2 ^ 32) :
    getLoop (p ++ (xs ++ q)) s (a ++ (u ++ c)) d n =
      C.ok (a ++ (xs.map (some ∘ some) ++ c), s + n, xs.map Ev.inc) := by
  subst hs hd hn
  induction xs generalizing p a u with
  | nil =>
    have : u = [] := by simpa using h
    subst this; simp [getLoop]
  | cons x xs ih =>
    cases u with
    | nil => simp at h
    | cons y u =>
      simp only [List.length_cons, getLoop]
      simp only [List.cons_append]
      have hg := ((getters_list (p ++ x :: (xs ++ q)) p.length).2.1 (by simp)).1
      have hx : (p ++ x :: (xs ++ q))[p.length]'(by simp) = x := by simp
      rw [hx] at hg
      rw [hg]
      simp only [C.ok_bind]
      rw [ConstBufferArray.wr_at _ _ _ _ _ (by rfl)]
      simp only [C.ok_bind]
      have hm : (p.length + 1) % 2 ^ 32 = p.length + 1 := by
        apply Nat.mod_eq_of_lt
        simp only [List.length_append, List.length_cons, List.cons_append] at h32
        simp only [Nat.reducePow] at *; omega
      rw [hm]
      have := ih (p ++ [x]) (a ++ [some (some x)]) u (by simpa using h) (by simpa using h32)
      simp only [List.append_assoc, List.singleton_append, List.length_append, List.length_singleton] at this
      rw [this]
      simp; omega

/-- Asking past the end of the batch yields NULLs. -/
theorem getLoop_null (src : List Buf) (u : HCells) (s : Nat) (a : HCells) (d : Nat) (hd : d = a.length) (n : Nat)
    (hn : n = u.length) (h0 : src.length ≤ s) (h32 : s + n ≤ 2 ^ 32) :
    getLoop src s (a ++ u) d n =
      C.ok (a ++ List.replicate n (some none), (s + n) % 2 ^ 32 + (if n = 0 then s - s % 2 ^ 32 else 0), []) := by
  subst hd
  induction n generalizing s a u with
  | zero =>
    have : u = [] := List.eq_nil_of_length_eq_zero hn.symm
    subst this
    have := Nat.mod_le s (2 ^ 32)
    simp [getLoop]; omega
  | succ n ih =>
    cases u with
    | nil => simp at hn
    | cons y u =>
      rw [getLoop]
      have hg := ((getters_list src s).2.2.1 h0).1
      rw [hg]
      simp only [C.ok_bind]
      rw [ConstBufferArray.wr_at _ _ _ _ _ (by rfl)]
      simp only [C.ok_bind]
      simp only [Nat.reducePow] at *
      by_cases hn0 : n = 0
      · subst hn0
        have : u = [] := List.eq_nil_of_length_eq_zero (by simpa using hn.symm)
        subst this
        simp [getLoop]
      · rw [Nat.mod_eq_of_lt (show s + 1 < 4294967296 by omega)]
        have := ih u (s + 1) (a ++ [some none]) (by simpa using hn) (by omega) (by omega)
        simp only [List.append_assoc, List.singleton_append, List.length_append, List.length_singleton, if_neg hn0,
          Nat.add_zero] at this
        rw [this]
        simp [List.replicate_succ, Nat.add_comm, Nat.add_left_comm]

theorem createLoop_eq (xs : List (Option Buf)) (p q : HCells) (i n : Nat) (hi : i = p.length) (hn : n = xs.length) :
    createLoop (p ++ (xs.map some ++ q)) i n = C.ok (xs, xs.flatMap incN) := by
  subst hi hn
  induction xs generalizing p with
  | nil => simp [createLoop]
  | cons x xs ih =>
    simp only [List.length_cons, List.map_cons, createLoop, List.cons_append]
    rw [rd_append_at]
    simp only [C.ok_bind]
    have := ih (p ++ [some x])
    simp only [List.append_assoc, List.singleton_append, List.length_append, List.length_singleton] at this
    rw [this]
    simp

theorem decLoop_eq (xs : List (Option Buf)) (p q : HCells) (i n : Nat) (hi : i = p.length) (hn : n = xs.length) :
    decLoop (p ++ (xs.map some ++ q)) i n = C.ok (xs.flatMap decN) := by
  subst hi hn
  induction xs generalizing p with
  | nil => simp [decLoop]
  | cons x xs ih =>
    simp only [List.length_cons, List.map_cons, decLoop, List.cons_append]
    rw [rd_append_at]
    simp only [C.ok_bind]
    have := ih (p ++ [some x])
    simp only [List.append_assoc, List.singleton_append, List.length_append, List.length_singleton] at this
    rw [this]
    simp

theorem incN_map (bs : List Buf) : (bs.map some).flatMap incN = bs.map Ev.inc := by
  induction bs with
  | nil => rfl
  | cons b bs ih => simp [incN, ih]

theorem decN_map (bs : List Buf) : (bs.map some).flatMap decN = bs.map Ev.dec := by
  induction bs with
  | nil => rfl
  | cons b bs ih => simp [decN, ih]

theorem allSome_map (ps : List (List Buf)) : allSome (ps.map some) = some ps := by
  induction ps with
  | nil => rfl
  | cons p ps ih => simp [allSome, ih]

theorem allSome_null (ps : List (Option (List Buf))) (h : none ∈ ps) : allSome ps = none := by
  induction ps with
  | nil => cases h
  | cons p ps ih =>
    cases p with
    | none => rfl
    | some p => simp [allSome, ih (by simpa using h)]

theorem uninit_add (α : Type) (a b : Nat) : (uninit (a + b) : List (Option α)) = uninit a ++ uninit b := by
  simp [uninit, List.replicate_append_replicate]

theorem writeCounts_eq (ps : List (List Buf)) (h : List UInt8) (i t : Nat) (hi : h.length = 4 * (i + 1))
    (ht : t + ps.flatten.length < 2 ^ 32 - 1) :
    writeCounts ps (h.map some ++ uninit (4 * ps.length)) i t =
      C.ok ((h ++ words (ps.map List.length)).map some, some (t + ps.flatten.length)) := by
  simp only [Nat.reducePow, Nat.reduceSub] at ht
  induction ps generalizing h i t with
  | nil => simp [writeCounts, words, uninit]
  | cons p ps ih =>
    simp only [List.flatten_cons, List.length_append] at ht
    simp only [writeCounts, write_u32_copy, List.length_cons]
    have e : (uninit (4 * (ps.length + 1)) : Mem) = uninit 4 ++ uninit (4 * ps.length) := by
      rw [← uninit_add]; congr 1; omega
    have := copyTo_eq (beBytes 4 p.length) (h.map some) (uninit 4) (uninit (4 * ps.length)) (by simp [beBytes_length])
    rw [List.length_map, hi] at this
    rw [e, ← List.append_assoc, this]
    simp only [C.ok_bind, Nat.reducePow]
    rw [Nat.mod_eq_of_lt (by omega), if_neg (by unfold U32MAX; omega)]
    have := ih (h ++ beBytes 4 p.length) (i + 1) (t + p.length) (by simp [beBytes_length, hi]; omega) (by omega)
    rw [List.map_append] at this
    rw [this]
    simp [words_cons, Nat.add_assoc]

theorem writeCounts_over (ps : List (List Buf)) (h : List UInt8) (i t : Nat) (hi : h.length = 4 * (i + 1))
    (hp : ∀ p ∈ ps, p.length < 2 ^ 32) (ht : t < 2 ^ 32 - 1) (ho : 2 ^ 32 - 1 ≤ t + ps.flatten.length) :
    ∃ m, writeCounts ps (h.map some ++ uninit (4 * ps.length)) i t = C.ok (m, none) := by
  simp only [Nat.reducePow, Nat.reduceSub] at ht ho hp
  induction ps generalizing h i t with
  | nil => simp at ho; omega
  | cons p ps ih =>
    simp only [List.flatten_cons, List.length_append] at ho
    have hp1 := hp p (by simp)
    simp only [writeCounts, write_u32_copy, List.length_cons]
    have e : (uninit (4 * (ps.length + 1)) : Mem) = uninit 4 ++ uninit (4 * ps.length) := by
      rw [← uninit_add]; congr 1; omega
    have := copyTo_eq (beBytes 4 p.length) (h.map some) (uninit 4) (uninit (4 * ps.length)) (by simp [beBytes_length])
    rw [List.length_map, hi] at this
    rw [e, ← List.append_assoc, this]
    simp only [C.ok_bind, Nat.reducePow]
    by_cases hc : t + p.length < 4294967295
    · rw [Nat.mod_eq_of_lt (by omega), if_neg (by unfold U32MAX; omega)]
      have := ih (h ++ beBytes 4 p.length) (i + 1) (t + p.length) (by simp [beBytes_length, hi]; omega)
        (fun x hx => hp x (by simp [hx])) (by omega) (by omega)
      rw [List.map_append] at this
      exact this
    · rw [if_pos (by unfold U32MAX; omega)]
      exact ⟨_, rfl⟩

theorem gatherLoop_eq (ps : List (List Buf)) (a u : HCells) (d : Nat) (hd : d = a.length) (hu : u.length = ps.flatten.length)
    (h32 : ps.flatten.length < 2 ^ 32) :
    gatherLoop ps (a ++ u) d = C.ok (a ++ ps.flatten.map (some ∘ some), d + ps.flatten.length, ps.flatten.map Ev.inc) := by
  induction ps generalizing a u d with
  | nil =>
    have : u = [] := by simpa using hu
    subst this; simp [gatherLoop]
  | cons x ps ih =>
    simp only [List.flatten_cons, List.length_append] at hu h32
    have hsplit : u = u.take x.length ++ u.drop x.length := (List.take_append_drop _ _).symm
    have hul : (u.take x.length).length = x.length := by simp; omega
    have := getLoop_eq x [] [] a (u.take x.length) (u.drop x.length) hul 0 d x.length rfl hd rfl (by simp; omega)
    simp only [List.nil_append, List.append_nil] at this
    rw [← hsplit] at this
    rw [gatherLoop, this]
    simp only [C.ok_bind]
    have := ih (a ++ x.map (some ∘ some)) (u.drop x.length) (d + x.length) (by simp [hd]) (by
      simp only [List.length_drop]; omega) (by omega)
    simp only [List.append_assoc] at this
    rw [this]
    simp [Nat.add_assoc]

/-- The running index plus the next count stays below 2^32 as long as the loop goes on. -/
def NoWrap : List Nat → Nat → Nat → Prop
  | [], _, _ => True
  | c :: cs, idx, n => idx + c < 2 ^ 32 ∧ (idx + c ≤ n → NoWrap cs (idx + c) n)

theorem noWrap_of_bound (cs : List Nat) (idx n : Nat) (hi : idx ≤ n) (h : ∀ c ∈ cs, c + n < 2 ^ 32) : NoWrap cs idx n := by
  induction cs generalizing idx with
  | nil => trivial
  | cons c cs ih =>
    have := h c (by simp)
    exact ⟨by omega, fun hle => ih _ hle (fun x hx => h x (by simp [hx]))⟩

theorem noWrap_of_sum (cs : List Nat) (idx n : Nat) (h : idx + cs.sum < 2 ^ 32) : NoWrap cs idx n := by
  induction cs generalizing idx with
  | nil => trivial
  | cons c cs ih =>
    simp only [List.sum_cons] at h
    exact ⟨by omega, fun hle => ih _ (by omega)⟩

theorem releaseAll_map (ds : List (List Buf)) : releaseAll (ds.map (List.map some)) = ds.flatten.map Ev.dec := by
  unfold releaseAll
  rw [← decN_map, List.map_flatten]

theorem takes_inc_dec (bs : List Buf) : Takes (bs.map Ev.inc ++ bs.map Ev.dec) [] := takes_destroy (takes_map_inc bs)

/-- The loop of unbatch, for all allocation outcomes, as long as no index wraps. -/
theorem unbatchLoop_cases (d : Dialect) (batch : List Buf) (ap ac : Nat → Bool) (hb : batch.length < 2 ^ 32) (cs : List Nat) :
    ∀ (pre : List Nat) (doneB : List (List Buf)) (i idx : Nat) (e0 : List Ev),
      pre.length = i + 1 → idx ≤ batch.length → (∀ c ∈ cs, c < 2 ^ 32 ∧ (d = .wrap ∨ c < 2 ^ 31)) → NoWrap cs idx batch.length →
      Takes e0 doneB.flatten →
      (∃ ps evs, pieces cs (batch.drop idx) = some ps ∧
        unbatchLoop d (words (pre ++ cs)) batch ap ac (doneB.map (List.map some)) i idx cs.length =
          C.ok (some ((doneB ++ ps).map (List.map some)), evs) ∧ Takes (e0 ++ evs) (doneB ++ ps).flatten) ∨
      (∃ evs, unbatchLoop d (words (pre ++ cs)) batch ap ac (doneB.map (List.map some)) i idx cs.length = C.ok (none, evs) ∧
        Takes (e0 ++ evs) [] ∧ ((∀ j, ap j = true ∧ ac j = true) → pieces cs (batch.drop idx) = none)) := by
  induction cs with
  | nil =>
    intro pre doneB i idx e0 hp hi hc hw ht
    left
    exact ⟨[], [], rfl, by simp [unbatchLoop], by simpa using ht⟩
  | cons c cs ih =>
    intro pre doneB i idx e0 hp hi hc hw ht
    have hc1 := hc c (by simp)
    have hrd : read_u32 d (words (pre ++ c :: cs)) (4 * (i + 1)) = C.ok c :=
      read_word d pre c cs hc1.1 hc1.2 _ (by rw [hp])
    rw [List.length_cons, unbatchLoop, hrd]
    simp only [C.ok_bind]
    rw [Nat.mod_eq_of_lt hw.1]
    have hrel : Takes (e0 ++ releaseAll (doneB.map (List.map some))) [] := by
      rw [releaseAll_map]; exact takes_destroy ht
    by_cases hle : idx + c ≤ batch.length
    · rw [if_neg (by omega)]
      have hpc : pieces (c :: cs) (batch.drop idx) = (pieces cs (batch.drop (idx + c))).map ((batch.drop idx).take c :: ·) := by
        simp only [pieces]
        rw [if_pos (by simp; omega), List.drop_drop]
      have hpre : pre ++ c :: cs = (pre ++ [c]) ++ cs := by simp
      have hc' : ∀ x ∈ cs, x < 2 ^ 32 ∧ (d = .wrap ∨ x < 2 ^ 31) := fun x hx => hc x (by simp [hx])
      by_cases hc0 : c = 0
      · rw [if_pos hc0]
        subst hc0
        by_cases hac : ac i = false
        · rw [if_pos hac]
          right
          exact ⟨_, rfl, hrel, fun h => by simp [(h i).2] at hac⟩
        · rw [if_neg hac]
          have hd1 : doneB.map (List.map some) ++ [[]] = (doneB ++ [[]]).map (List.map some) := by simp
          rw [hd1, hpre]
          have := ih (pre ++ [0]) (doneB ++ [[]]) (i + 1) idx e0 (by simp [hp]) hi hc' (hw.2 hle) (by simpa using ht)
          rcases this with ⟨ps, evs, h1, h2, h3⟩ | ⟨evs, h2, h3, h4⟩
          · left
            refine ⟨[] :: ps, evs, ?_, ?_, ?_⟩
            · rw [hpc, Nat.add_zero, h1]; simp
            · rw [h2]; simp
            · simpa using h3
          · right
            refine ⟨evs, h2, h3, fun h => ?_⟩
            rw [hpc, Nat.add_zero, h4 h]; rfl
      · rw [if_neg hc0]
        by_cases hap : ap i = false
        · rw [if_pos hap]
          right
          exact ⟨_, rfl, hrel, fun h => by simp [(h i).1] at hap⟩
        · rw [if_neg hap]
          have hlen : ((batch.drop idx).take c).length = c := by simp; omega
          have hg := getLoop_eq ((batch.drop idx).take c) (batch.take idx) ((batch.drop idx).drop c) [] (uninit c) []
            (by rw [uninit_length, hlen]) idx 0 c (by simp; omega) rfl hlen.symm
            (by rw [List.take_append_drop, List.take_append_drop]; exact hb)
          rw [List.take_append_drop, List.take_append_drop] at hg
          simp only [List.nil_append, List.append_nil] at hg
          rw [hg]
          simp only [C.ok_bind]
          generalize hx : (batch.drop idx).take c = xs at *
          have hmm : xs.map (some ∘ some) = (xs.map some).map some := by simp
          have hcl := createLoop_eq (xs.map some) [] [] 0 c rfl (by simp [hlen])
          have hdl := decLoop_eq (xs.map some) [] [] 0 c rfl (by simp [hlen])
          simp only [List.nil_append, List.append_nil, incN_map, decN_map] at hcl hdl
          rw [hmm, hcl, hdl]
          simp only [C.ok_bind, C.pure_eq]
          by_cases hac : ac i = false
          · rw [if_pos hac]
            right
            refine ⟨_, rfl, ?_, fun h => by simp [(h i).2] at hac⟩
            have := takes_append (takes_append ht (takes_inc_dec xs)) (e2 := []) (b2 := []) takes_nil
            simp only [List.append_nil] at this
            have := takes_destroy this
            rw [releaseAll_map]
            simpa using this
          · rw [if_neg hac]
            have hd1 : doneB.map (List.map some) ++ [xs.map some] = (doneB ++ [xs]).map (List.map some) := by simp
            rw [hd1, hpre]
            have ht' : Takes (e0 ++ (xs.map Ev.inc ++ (xs.map Ev.inc ++ xs.map Ev.dec))) (doneB ++ [xs]).flatten := by
              have := takes_append ht (takes_append (takes_map_inc xs) (takes_inc_dec xs))
              simpa using this
            have := ih (pre ++ [c]) (doneB ++ [xs]) (i + 1) (idx + c) _ (by simp [hp]) hle hc' (hw.2 hle) ht'
            rcases this with ⟨ps, evs, h1, h2, h3⟩ | ⟨evs, h2, h3, h4⟩
            · left
              refine ⟨xs :: ps, xs.map Ev.inc ++ (xs.map Ev.inc ++ (xs.map Ev.dec ++ evs)), ?_, ?_, ?_⟩
              · rw [hpc, h1]; rfl
              · rw [h2]; simp
              · simpa using h3
            · right
              refine ⟨xs.map Ev.inc ++ (xs.map Ev.inc ++ (xs.map Ev.dec ++ evs)), ?_, ?_, fun h => ?_⟩
              · rw [h2]; simp
              · simpa using h3
              · rw [hpc, h4 h]; rfl
    · rw [if_pos (by omega)]
      right
      refine ⟨_, rfl, hrel, fun _ => ?_⟩
      simp only [pieces]
      rw [if_neg (by simp; omega)]

theorem pieces_flatten (ps : List (List Buf)) (q : List Buf) : pieces (ps.map List.length) (ps.flatten ++ q) = some ps := by
  induction ps with
  | nil => rfl
  | cons p ps ih =>
    simp only [List.map_cons, pieces, List.flatten_cons, List.append_assoc]
    rw [if_pos (by simp), List.drop_left, List.take_left, ih]
    rfl

theorem words_surj (n : Nat) : ∀ m : List UInt8, m.length = 4 * n →
    ∃ ws, m = words ws ∧ ws.length = n ∧ ∀ w ∈ ws, w < 2 ^ 32 := by
  induction n with
  | zero => intro m h; exact ⟨[], by simpa [words] using h, rfl, by simp⟩
  | succ n ih =>
    intro m h
    obtain ⟨ws, h1, h2, h3⟩ := ih (m.drop 4) (by simp; omega)
    have h4 : (m.take 4).length = 4 := by simp; omega
    obtain ⟨a, b, c, d, h5⟩ := four _ h4
    refine ⟨beVal (m.take 4) :: ws, ?_, by simp [h2], ?_⟩
    · rw [words_cons, ← h1]
      have : beBytes 4 (beVal (m.take 4)) = m.take 4 := by
        refine ConstBuffer.beVal_inj _ _ (by rw [beBytes_length, h4]) (beVal_beBytes _ _ ?_)
        have := beVal_lt (m.take 4)
        rwa [h4] at this
      rw [this, List.take_append_drop]
    · intro w hw
      rcases List.mem_cons.mp hw with e | hw
      · have := beVal_lt (m.take 4)
        rw [h4] at this
        rw [e]; simpa using this
      · exact h3 w hw

end CUtil.Batcher
