import Verif.Splitter.Lemmas2
set_option linter.unusedSimpArgs false
set_option linter.unusedVariables false
/-
The loop invariant of `constbuffer_array_splitter_split_to_array_of_array`.
-/
namespace CUtil.Splitter
open CUtil.ConstBufferArray

/-- The assumptions under which the main loop runs. -/
structure Ctx (bufs : List Buf) (max cap : Nat) : Prop where
  h32 : bufs.length < 2 ^ 32 - 1
  hsz : ∀ b ∈ bufs, b.size < 2 ^ 32
  ht : (bytesOf bufs).length < 2 ^ 32
  hm : 0 < max
  hbig : max < (bytesOf bufs).length
  hcap : (bytesOf bufs).length ≤ cap * max

/-- The state at the head of the loop, `P` bytes being stored in complete arrays. -/
structure Inv (bufs : List Buf) (max cap : Nat) (s : St) (parts : List (List Buf)) (P : Nat) : Prop where
  nf : s.failed = false
  st : Stored s.temp s.arrays parts cap
  idx : s.index = parts.length
  pre : Prefix max (bytesOf bufs) parts P
  posn : P = pos bufs s.start + s.off
  sc : s.start + s.cnt = s.i
  c0 : s.cnt = 0 → s.off = 0
  c1 : ∀ h : s.start < bufs.length, 0 < s.cnt → s.off ≤ bufs[s.start].size
  cur : s.cur + P = pos bufs s.i
  cm : s.cur ≤ max
  more : P < (bytesOf bufs).length

/-- What one round of the loop establishes. -/
def StepPost (bufs : List Buf) (max cap : Nat) (o : Oracle) (s0 : St) (parts : List (List Buf)) (r : C (St × List Ev)) : Prop :=
  ∃ s' evs qs, r = C.ok (s', evs) ∧ Takes evs qs.flatten ∧ Stored s'.temp s'.arrays (parts ++ qs) cap ∧
    ((s'.failed = false ∧ s0.i ≤ s'.i ∧ s'.i + 1 < bufs.length ∧ ∃ P', Inv bufs max cap { s' with i := s'.i + 1 } (parts ++ qs) P') ∨
     (s'.failed = false ∧ bufs.length ≤ s'.i + 1 ∧ s'.i ≤ bufs.length ∧ IsChunking max ((parts ++ qs).map bytesOf) (bytesOf bufs)) ∨
     (s'.failed = true ∧ ¬ o.allOk))

theorem room {bufs : List Buf} {max cap : Nat} (c : Ctx bufs max cap) {parts : List (List Buf)} {P : Nat}
    (hp : Prefix max (bytesOf bufs) parts P) (hP : P < (bytesOf bufs).length) : parts.length < cap := by
  have h1 := hp.1
  have h2 := c.hcap
  apply Nat.lt_of_mul_lt_mul_right (a := max)
  omega

theorem innerLoop_post (bufs : List Buf) (max cap : Nat) (o : Oracle) (c : Ctx bufs max cap) (i : Nat) (hi : i < bufs.length) (fuel : Nat) :
    ∀ (s : St) (rem P : Nat) (parts : List (List Buf)), s.failed = false → Stored s.temp s.arrays parts cap →
      s.index = parts.length → Prefix max (bytesOf bufs) parts P → s.start = i → P = pos bufs i + s.off →
      s.off + rem = bufs[i].size → 0 < rem → max ≤ P → rem < fuel →
      ∃ s' rem' evs qs P', innerLoop bufs o max fuel s rem = C.ok ((s', rem'), evs) ∧ Takes evs qs.flatten ∧
        Stored s'.temp s'.arrays (parts ++ qs) cap ∧ s'.index = (parts ++ qs).length ∧ Prefix max (bytesOf bufs) (parts ++ qs) P' ∧
        s'.start = i ∧ s'.i = s.i ∧ P' = pos bufs i + s'.off ∧ s'.off + rem' = bufs[i].size ∧ 0 < rem' ∧ max ≤ P' ∧
        ((s'.failed = false ∧ rem' ≤ max) ∨ (s'.failed = true ∧ ¬ o.allOk)) := by
  induction fuel with
  | zero => intro _ _ _ _ _ _ _ _ _ _ _ _ _ hf; omega
  | succ fuel ih =>
    intro s rem P parts nf st idx pre hs hP hr h0 hmP hf
    have hsz := c.hsz bufs[i] (List.getElem_mem hi)
    have hps := pos_succ bufs i hi
    have hpl := pos_le bufs (i + 1)
    have h32 := c.h32
    have ht := c.ht
    have hm := c.hm
    simp only [innerLoop]
    by_cases hgt : rem > max
    · rw [if_pos hgt, hs]
      have hin : Inside bufs i 1 s.off max := ⟨fun _ _ => by omega, fun h => absurd rfl h⟩
      have hend : max + P = endPos bufs i 1 s.off max := by rw [endPos, if_pos rfl]; omega
      rcases sub_cases bufs o s.index i 1 s.off max P max (by simp only [Nat.reducePow] at *; omega) c.hsz (by omega) (by omega) (by omega) hin hP hend c.hbig with
        ⟨bs, evs, k1, k2, k3⟩ | ⟨evs, k1, k2, k3⟩
      · rw [k1]
        simp only [C.ok_bind]
        rw [idx]
        obtain ⟨temp', hw, st'⟩ := stored_wr st (room c pre (by omega)) bs
        rw [hw]
        simp only [C.ok_bind]
        rw [add32_eq (by omega), sub32_eq (by omega) (by omega)]
        obtain ⟨s', rem', evs', qs, P', j1, j2, j3, j4, j5, j6, j7, j8⟩ := ih
          ⟨i, s.off + max, s.endSize, s.cnt, s.cur, parts.length + 1, s.arrays + 1, temp', s.failed, s.i⟩ (rem - max) (P + max) (parts ++ [bs])
          nf st' (by simp) (prefix_step pre bs k3 (by omega)) rfl (by simp only; omega) (by simp only; omega) (by omega) (by omega) (by omega)
        refine ⟨s', rem', evs ++ evs', bs :: qs, P', ?_, ?_, ?_, ?_, ?_, j6, j7, j8⟩
        · have e : (⟨s.start, s.off + max, s.endSize, s.cnt, s.cur, parts.length + 1, s.arrays + 1, temp', s.failed, s.i⟩ : St) =
            ⟨i, s.off + max, s.endSize, s.cnt, s.cur, parts.length + 1, s.arrays + 1, temp', s.failed, s.i⟩ := by rw [hs]
          simp only [e, j1, C.ok_bind, C.pure_eq]
        · rw [List.flatten_cons]; exact takes_append k2 j2
        · simpa using j3
        · rw [j4]; simp
        · simpa using j5
      · rw [k1]
        simp only [C.ok_bind, C.pure_eq]
        exact ⟨_, rem, evs, [], P, rfl, k2, by simpa using st, by simpa using idx, by simpa using pre, rfl, rfl, hP, hr, h0, hmP,
          Or.inr ⟨rfl, k3⟩⟩
    · rw [if_neg hgt]
      exact ⟨s, rem, [], [], P, rfl, takes_nil, by simpa using st, by simpa using idx, by simpa using pre, hs, rfl, hP, hr, h0, hmP,
        Or.inl ⟨nf, by omega⟩⟩

theorem fitCase_post (bufs : List Buf) (max cap : Nat) (o : Oracle) (c : Ctx bufs max cap) (s : St) (parts : List (List Buf)) (P : Nat)
    (v : Inv bufs max cap s parts P) (hi : s.i < bufs.length) (hlt : s.cur + bufs[s.i].size < max) :
    StepPost bufs max cap o s parts (fitCase bufs o s bufs[s.i]) := by
  have hsz := c.hsz bufs[s.i] (List.getElem_mem hi)
  have hps := pos_succ bufs s.i hi
  have hpl := pos_le bufs (s.i + 1)
  have h32 := c.h32
  have ht := c.ht
  have hm := c.hm
  obtain ⟨nf, st, idx, pre, posn, sc, c0, c1, cur, cm, more⟩ := v
  obtain ⟨start, off, endSize, cnt, cu, index, arrays, temp, failed, i⟩ := s
  simp only at nf st idx posn sc c0 c1 cur cm hi hlt hsz hps hpl
  simp only [fitCase]
  simp only [Nat.reducePow] at *
  rw [sub32_eq (by omega) (by simp only [Nat.reducePow] at *; omega), add32_eq (by simp only [Nat.reducePow] at *; omega),
    add32_eq (by simp only [Nat.reducePow] at *; omega)]
  by_cases hlast : i = bufs.length - 1
  · rw [if_pos hlast]
    have hin : Inside bufs start (cnt + 1) off bufs[i].size := by
      refine ⟨fun hc hs => ?_, fun hc => ⟨fun hs => c1 hs (by omega), fun hs => ?_⟩⟩
      · have : cnt = 0 := by omega
        have := c0 this
        simp only [show start = i by omega]; omega
      · simp only [show start + (cnt + 1) - 1 = i by omega]; exact Nat.le_refl _
    have hend : (cu + bufs[i].size) + P = endPos bufs start (cnt + 1) off bufs[i].size := by
      rw [endPos]
      split
      · have : start = i := by omega
        have := c0 (by omega)
        subst_vars
        omega
      · rw [show start + (cnt + 1) - 1 = i by omega]; omega
    have hend2 := pos_end bufs (show bufs.length ≤ i + 1 by omega)
    have hoff : off < 2 ^ 32 := by
      have := pos_le bufs start
      simp only [Nat.reducePow]
      omega
    rcases sub_cases bufs o index start (cnt + 1) off bufs[i].size P (cu + bufs[i].size) (by simp only [Nat.reducePow]; omega) c.hsz hoff (by omega) (by omega)
      hin posn hend (by have := c.hbig; omega) with ⟨bs, evs, k1, k2, k3⟩ | ⟨evs, k1, k2, k3⟩
    · rw [k1]
      simp only [C.ok_bind]
      rw [idx]
      obtain ⟨temp', hw, st'⟩ := stored_wr st (room c pre more) bs
      rw [hw]
      simp only [C.ok_bind, C.pure_eq]
      refine ⟨_, evs, [bs], rfl, by simpa using k2, st', Or.inr (Or.inl ⟨nf, by simp only; omega, by simp only; omega, ?_⟩)⟩
      refine prefix_last hm pre bs ?_ more (by omega)
      rw [k3, List.take_of_length_le]
      rw [List.length_drop]; omega
    · rw [k1]
      simp only [C.ok_bind, C.pure_eq]
      exact ⟨_, evs, [], rfl, k2, by simpa using st, Or.inr (Or.inr ⟨rfl, k3⟩)⟩
  · rw [if_neg hlast]
    refine ⟨_, [], [], rfl, takes_nil, by simpa using st, Or.inl ⟨nf, by simp, by simp only; omega, P, ?_⟩⟩
    refine ⟨nf, by simpa using st, by simpa using idx, by simpa using pre, posn, by simp only; omega, ?_, ?_, by simp only; omega, by simp only; omega, more⟩
    · intro h; simp only at h; omega
    · intro h _
      by_cases hc : 0 < cnt
      · exact c1 h hc
      · have := c0 (by omega)
        simp only at *
        omega

theorem finish_post (bufs : List Buf) (max cap : Nat) (o : Oracle) (c : Ctx bufs max cap) (s0 s : St) (rem P : Nat) (i : Nat)
    (parts : List (List Buf)) (hi : i < bufs.length) (st : Stored s.temp s.arrays parts cap) (idx : s.index = parts.length)
    (pre : Prefix max (bytesOf bufs) parts P) (hs : s.start = i) (hsi : s.i = i) (h0i : s0.i ≤ i) (hP : P = pos bufs i + s.off)
    (hr : s.off + rem = bufs[i].size) (h0 : 0 < rem) (hmP : max ≤ P)
    (hf : (s.failed = false ∧ rem ≤ max) ∨ (s.failed = true ∧ ¬ o.allOk)) :
    StepPost bufs max cap o s0 parts (finishBuffer bufs o s rem) := by
  have hsz := c.hsz bufs[i] (List.getElem_mem hi)
  have hps := pos_succ bufs i hi
  have hpl := pos_le bufs (i + 1)
  have h32 := c.h32
  have ht := c.ht
  have hm := c.hm
  obtain ⟨start, off, endSize, cnt, cu, index, arrays, temp, failed, i'⟩ := s
  simp only at st idx hs hsi hP hr hf
  subst hsi
  simp only [finishBuffer]
  simp only [Nat.reducePow] at *
  rw [if_neg (by omega), sub32_eq (by omega) (by simp only [Nat.reducePow] at *; omega)]
  by_cases hlast : i' = bufs.length - 1
  · rw [if_pos hlast]
    have hin : Inside bufs start 1 off rem := ⟨fun _ hb => by simp only [hs]; omega, fun h => absurd rfl h⟩
    have hend : rem + P = endPos bufs start 1 off rem := by rw [endPos, if_pos rfl, hs]; omega
    have hend2 := pos_end bufs (show bufs.length ≤ i' + 1 by omega)
    rcases sub_cases bufs o (if failed = true then index + 1 else index) start 1 off rem P rem (by simp only [Nat.reducePow]; omega) c.hsz (by simp only [Nat.reducePow]; omega) (by omega) (by omega)
      hin (by rw [hs]; exact hP) hend (by omega) with ⟨bs, evs, k1, k2, k3⟩ | ⟨evs, k1, k2, k3⟩
    · rw [k1]
      simp only [C.ok_bind]
      rw [idx]
      obtain ⟨temp', hw, st'⟩ := stored_wr st (room c pre (by omega)) bs
      rw [hw]
      simp only [C.ok_bind, C.pure_eq]
      refine ⟨_, evs, [bs], rfl, by simpa using k2, st', ?_⟩
      rcases hf with ⟨hf, hle⟩ | hf
      · right; left
        refine ⟨hf, by simp only; omega, by simp only; omega, prefix_last hm pre bs ?_ (by omega) (by omega)⟩
        rw [k3, List.take_of_length_le]
        rw [List.length_drop]; omega
      · right; right; exact hf
    · rw [k1]
      simp only [C.ok_bind, C.pure_eq]
      exact ⟨_, evs, [], rfl, k2, by simpa using st, Or.inr (Or.inr ⟨rfl, k3⟩)⟩
  · rw [if_neg hlast]
    refine ⟨_, [], [], rfl, takes_nil, by simpa using st, ?_⟩
    rcases hf with ⟨hf, hle⟩ | hf
    · left
      refine ⟨hf, h0i, by simp only; omega, P, ?_⟩
      exact ⟨hf, by simpa using st, by simpa using idx, by simpa using pre, by simp only; rw [hs]; exact hP, by simp only; omega,
        fun h => by simp at h, fun h _ => by simp only [hs] at *; omega, by simp only; omega, hle, by omega⟩
    · right; right; exact hf

theorem fullCase_post (bufs : List Buf) (max cap : Nat) (o : Oracle) (c : Ctx bufs max cap) (s : St) (parts : List (List Buf)) (P : Nat)
    (v : Inv bufs max cap s parts P) (hi : s.i < bufs.length) (hge : max ≤ s.cur + bufs[s.i].size) :
    StepPost bufs max cap o s parts (fullCase bufs o max s bufs[s.i]) := by
  have hsz := c.hsz bufs[s.i] (List.getElem_mem hi)
  have hps := pos_succ bufs s.i hi
  have hpl := pos_le bufs (s.i + 1)
  have h32 := c.h32
  have ht := c.ht
  have hm := c.hm
  have hbig := c.hbig
  have hoff : s.off < 2 ^ 32 := by
    have := pos_le bufs s.start
    have := v.posn
    have := v.more
    omega
  obtain ⟨nf, st, idx, pre, posn, sc, c0, c1, cur, cm, more⟩ := v
  obtain ⟨start, off, endSize, cnt, cu, index, arrays, temp, failed, i⟩ := s
  simp only at nf st idx posn sc c0 c1 cur cm hi hge hsz hps hpl hoff
  simp only [fullCase]
  have hadd : cu + bufs[i].size < 2 ^ 32 := by simp only [Nat.reducePow] at *; omega
  rw [add32_eq hadd, add32_eq (show cnt + 1 < 2 ^ 32 by simp only [Nat.reducePow] at *; omega),
    sub32_eq cm (show max < 2 ^ 32 by omega)]
  by_cases heq : cu + bufs[i].size = max
  · rw [if_pos heq]
    obtain ⟨j, e1, q1, q2, q3, q4, q5, q6, q7, q8⟩ := absorb_eq bufs h32 (bufs.length + 1) i (cnt + 1) (max - cu) false hi (by omega)
      (by simp only [Nat.reducePow] at *; omega)
    rw [q8]
    simp only [C.ok_bind]
    have hin : Inside bufs start (cnt + 1 + (j - (i + 1))) off (if i + 1 < j then 0 else max - cu) := by
      refine ⟨fun hc hs => ?_, fun hc => ⟨fun hs => ?_, fun hs => ?_⟩⟩
      · have := c0 (by omega)
        rw [if_neg (by omega)]
        simp only [show start = i by omega]; omega
      · by_cases hc' : 0 < cnt
        · exact c1 hs hc'
        · have := c0 (by omega)
          omega
      · split
        · omega
        · simp only [show start + (cnt + 1 + (j - (i + 1))) - 1 = i by omega]; omega
    have hend : max + P = endPos bufs start (cnt + 1 + (j - (i + 1))) off (if i + 1 < j then 0 else max - cu) := by
      rw [endPos]
      split
      · rw [if_neg (by omega)]
        have : start = i := by omega
        have := c0 (by omega)
        subst_vars
        omega
      · rw [show start + (cnt + 1 + (j - (i + 1))) - 1 = j - 1 by omega]
        split
        · have hj := pos_succ bufs (j - 1) (by omega)
          rw [show j - 1 + 1 = j by omega, q7 (by omega) (by omega)] at hj
          omega
        · rw [show j - 1 = i by omega]; omega
    rcases sub_cases bufs o index start (cnt + 1 + (j - (i + 1))) off (if i + 1 < j then 0 else max - cu) P max (by simp only [Nat.reducePow] at *; omega) c.hsz
      hoff (by omega) (by omega) hin posn hend hbig with ⟨bs, evs, k1, k2, k3⟩ | ⟨evs, k1, k2, k3⟩
    · rw [k1]
      simp only [C.ok_bind]
      rw [idx]
      obtain ⟨temp', hw, st'⟩ := stored_wr st (room c pre more) bs
      rw [hw]
      simp only [C.ok_bind]
      have hrem : (if (if i + 1 < j then true else false) = true then 0
          else sub32 bufs[i].size (if i + 1 < j then 0 else max - cu)) = 0 := by
        by_cases hj : i + 1 < j
        · simp [hj]
        · simp only [hj, if_false, Bool.false_eq_true]
          rw [sub32_eq (by omega) hsz]; omega
      rw [hrem]
      simp only [innerLoop]
      rw [if_neg (by omega)]
      simp only [C.ok_bind, finishBuffer, C.pure_eq]
      rw [if_pos trivial]
      simp only [C.ok_bind, C.pure_eq]
      have hpre := prefix_step pre bs k3 (by omega)
      refine ⟨_, _, [bs], rfl, ?_, st', ?_⟩
      · have := takes_append q5 k2
        simpa using this
      · by_cases hj : j < bufs.length
        · left
          simp only [if_pos hj]
          refine ⟨nf, by omega, by omega, P + max, ?_⟩
          have hjn := pos_succ bufs j hj
          have hjp := q4 hj
          have hjl := pos_le bufs (j + 1)
          refine ⟨nf, st', by simp, hpre, ?_, ?_, fun _ => rfl, fun _ h => by simp at h, ?_, by simp, by omega⟩
          · simp only
            rw [add32_eq (by simp only [Nat.reducePow] at *; omega), show j - 1 + 1 = j by omega]; omega
          · simp only
            rw [add32_eq (by simp only [Nat.reducePow] at *; omega)]
          · simp only
            rw [show j - 1 + 1 = j by omega]; omega
        · right; left
          simp only [if_neg hj]
          refine ⟨nf, by omega, by omega, ?_⟩
          have hjn := pos_end bufs (show bufs.length ≤ j by omega)
          have : P + max = (bytesOf bufs).length := by omega
          rw [this] at hpre
          exact prefix_done hm hpre
    · rw [k1]
      simp only [C.ok_bind, C.pure_eq]
      refine ⟨_, _, [], rfl, ?_, by simpa using st, Or.inr (Or.inr ⟨rfl, k3⟩)⟩
      have := takes_append q5 k2
      simpa using this
  · rw [if_neg heq]
    simp only [C.ok_bind]
    have hin : Inside bufs start (cnt + 1) off (max - cu) := by
      refine ⟨fun hc hs => ?_, fun hc => ⟨fun hs => c1 hs (by omega), fun hs => ?_⟩⟩
      · have := c0 (by omega)
        simp only [show start = i by omega]; omega
      · simp only [show start + (cnt + 1) - 1 = i by omega]; omega
    have hend : max + P = endPos bufs start (cnt + 1) off (max - cu) := by
      rw [endPos]
      split
      · have : start = i := by omega
        have := c0 (by omega)
        subst_vars
        omega
      · rw [show start + (cnt + 1) - 1 = i by omega]; omega
    rcases sub_cases bufs o index start (cnt + 1) off (max - cu) P max (by simp only [Nat.reducePow] at *; omega) c.hsz
      hoff (by omega) (by omega) hin posn hend hbig with ⟨bs, evs, k1, k2, k3⟩ | ⟨evs, k1, k2, k3⟩
    · rw [k1]
      simp only [C.ok_bind]
      rw [idx]
      obtain ⟨temp', hw, st'⟩ := stored_wr st (room c pre more) bs
      rw [hw]
      simp only [C.ok_bind, Bool.false_eq_true, if_false]
      rw [sub32_eq (by omega) hsz]
      have hpre := prefix_step pre bs k3 (by omega)
      obtain ⟨s', rem', evs', qs, P', j1, j2, j3, j4, j5, j6, j7, j8, j9, j10, j11, j12⟩ := innerLoop_post bufs max cap o c i hi
        (bufs[i].size - (max - cu) + 1)
        ⟨i, max - cu, max - cu, cnt + 1, cu, parts.length + 1, arrays + 1, temp', failed, i⟩ (bufs[i].size - (max - cu)) (P + max)
        (parts ++ [bs]) nf st' (by simp) hpre rfl (by simp only; omega) (by simp only; omega) (by omega) (by omega) (by omega)
      rw [j1]
      simp only [C.ok_bind]
      obtain ⟨s'', evs'', qs', f1, f2, f3, f4⟩ := finish_post bufs max cap o c
        ⟨start, off, endSize, cnt, cu, parts.length, arrays, temp, failed, i⟩ s' rem' P' i ((parts ++ [bs]) ++ qs) hi j3 j4 j5 j6 j7
        (Nat.le_refl _) j8 j9 j10 j11 j12
      rw [f1]
      simp only [C.ok_bind, C.pure_eq]
      refine ⟨s'', _, bs :: (qs ++ qs'), rfl, ?_, by simpa using f3, ?_⟩
      · rw [List.flatten_cons, List.flatten_append, List.nil_append]
        exact takes_append k2 (takes_append j2 f2)
      · have e : parts ++ bs :: (qs ++ qs') = parts ++ [bs] ++ qs ++ qs' := by simp
        rw [e]; exact f4
    · rw [k1]
      simp only [C.ok_bind, C.pure_eq]
      refine ⟨_, _, [], rfl, ?_, by simpa using st, Or.inr (Or.inr ⟨rfl, k3⟩)⟩
      simpa using k2

theorem outerLoop_post (bufs : List Buf) (max cap : Nat) (o : Oracle) (c : Ctx bufs max cap) (fuel : Nat) :
    ∀ (s : St) (parts : List (List Buf)) (P : Nat), Inv bufs max cap s parts P → s.i < bufs.length → bufs.length - s.i < fuel →
      ∃ s' evs qs, outerLoop bufs o max fuel s = C.ok (s', evs) ∧ Takes evs qs.flatten ∧ Stored s'.temp s'.arrays (parts ++ qs) cap ∧
        ((s'.failed = false ∧ IsChunking max ((parts ++ qs).map bytesOf) (bytesOf bufs)) ∨ (s'.failed = true ∧ ¬ o.allOk)) := by
  induction fuel with
  | zero => intro _ _ _ _ _ hf; omega
  | succ fuel ih =>
    intro s parts P v hi hf
    have h32 := c.h32
    have hsz := c.hsz bufs[s.i] (List.getElem_mem hi)
    have hps := pos_succ bufs s.i hi
    have hpl := pos_le bufs (s.i + 1)
    have ht := c.ht
    have hcur := v.cur
    simp only [outerLoop]
    rw [if_pos hi, get_buffer_lt bufs _ hi]
    simp only [C.ok_bind]
    have hstep : StepPost bufs max cap o s parts (oneBuffer bufs o max s bufs[s.i]) := by
      unfold oneBuffer
      rw [add32_eq (show s.cur + bufs[s.i].size < 2 ^ 32 by simp only [Nat.reducePow] at *; omega)]
      by_cases hlt : s.cur + bufs[s.i].size < max
      · rw [if_pos hlt]; exact fitCase_post bufs max cap o c s parts P v hi hlt
      · rw [if_neg hlt]; exact fullCase_post bufs max cap o c s parts P v hi (by omega)
    obtain ⟨s', e1, qs, h1, h2, h3, h4⟩ := hstep
    rw [h1]
    simp only [C.ok_bind]
    have htk : ∀ e2 xs, Takes e2 xs → Takes ([Ev.inc bufs[s.i]] ++ (e1 ++ (Ev.dec bufs[s.i] :: e2))) (qs.flatten ++ xs) := by
      intro e2 xs h b
      have a1 := takes_inc_dec1 bufs[s.i] b
      have a2 := h2 b
      have a3 := h b
      simp only [balance, List.count_append, List.count_cons, List.count_nil] at *
      omega
    rcases h4 with ⟨nf, hle, hlt, P', v'⟩ | ⟨nf, hge, hle, hch⟩ | ⟨hfail, hno⟩
    · rw [if_neg (by simp [nf]), add32_eq (by simp only [Nat.reducePow] at *; omega)]
      obtain ⟨s'', e2, qs', k1, k2, k3, k4⟩ := ih { s' with i := s'.i + 1 } (parts ++ qs) P' v' (by simp only; omega) (by simp only; omega)
      rw [k1]
      simp only [C.ok_bind, C.pure_eq]
      refine ⟨s'', _, qs ++ qs', rfl, ?_, by simpa using k3, by simpa using k4⟩
      rw [List.flatten_append]
      exact htk _ _ k2
    · rw [if_neg (by simp [nf]), add32_eq (by simp only [Nat.reducePow] at *; omega)]
      obtain ⟨fuel, rfl⟩ : ∃ k, fuel = k + 1 := ⟨fuel - 1, by omega⟩
      simp only [outerLoop]
      rw [if_neg (by omega)]
      simp only [C.ok_bind, C.pure_eq]
      refine ⟨_, _, qs, rfl, ?_, h3, Or.inl ⟨nf, hch⟩⟩
      have := htk [] [] takes_nil
      rw [List.append_nil] at this
      exact this
    · rw [if_pos hfail]
      refine ⟨s', _, qs, rfl, ?_, h3, Or.inr ⟨hfail, hno⟩⟩
      have := htk [] [] takes_nil
      rw [List.append_nil] at this
      exact this

theorem release_fresh (x : List Buf) : release (.fresh (x.map some)) = x.map Ev.dec := by
  simp only [release]
  induction x with
  | nil => rfl
  | cons b bs ih => simp only [List.map_cons, List.flatMap_cons, ih]; rfl

theorem releaseArrays_eq (xs : List (List Buf)) (p q : List (Option Out)) (i n : Nat) (hi : i = p.length) (hn : n = xs.length) :
    releaseArrays (p ++ (xs.map cellOf ++ q)) i n = C.ok (xs.flatten.map Ev.dec) := by
  subst hi hn
  induction xs generalizing p with
  | nil => simp [releaseArrays]
  | cons x xs ih =>
    simp only [List.length_cons, releaseArrays, List.map_cons, List.cons_append]
    rw [rd_append_at]
    simp only [C.ok_bind, cellOf]
    have := ih (p ++ [cellOf x])
    simp only [List.append_assoc, List.singleton_append, List.length_append, List.length_singleton] at this
    rw [show (some (Out.fresh (x.map some))) = cellOf x from rfl, this]
    simp only [C.ok_bind, release_fresh, C.pure_eq, List.flatten_cons, List.map_append]

end CUtil.Splitter
