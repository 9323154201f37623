import Verif.Splitter.Lemmas
set_option linter.unusedSimpArgs false
set_option linter.unusedVariables false
/-
Helper lemmas for `constbuffer_array_splitter_split_to_array_of_array`.
-/
namespace CUtil.Splitter
open CUtil.ConstBufferArray

theorem cutLast_append (ys : List (List UInt8)) (l : List UInt8) (e : Nat) : cutLast (ys ++ [l]) e = ys ++ [l.take e] := by
  induction ys with
  | nil => rfl
  | cons y ys ih =>
    cases ys with
    | nil => simp [cutLast]
    | cons z zs => simp only [List.cons_append, cutLast] at *; rw [ih]

/-- The byte position where a sub array ends. -/
def endPos (bufs : List Buf) (start cnt off e : Nat) : Nat :=
  if cnt = 1 then pos bufs start + off + e else pos bufs (start + cnt - 1) + e

/-- The cut lies inside the buffers. -/
def Inside (bufs : List Buf) (start cnt off e : Nat) : Prop :=
  (cnt = 1 → ∀ h : start < bufs.length, off + e ≤ bufs[start].size) ∧
  (cnt ≠ 1 → (∀ h : start < bufs.length, off ≤ bufs[start].size) ∧
    ∀ h : start + cnt - 1 < bufs.length, e ≤ bufs[start + cnt - 1].size)

theorem range_one (bufs : List Buf) (s : Nat) (h : s < bufs.length) : (bufs.drop s).take 1 = [bufs[s]] := by
  rw [List.drop_eq_getElem_cons h]; rfl

theorem range_many (bufs : List Buf) (s k : Nat) (h : s + (k + 2) ≤ bufs.length) :
    (bufs.drop s).take (k + 2) = bufs[s] :: ((bufs.drop (s + 1)).take k ++ [bufs[s + (k + 1)]]) := by
  rw [List.drop_eq_getElem_cons (by omega : s < bufs.length), List.take_succ_cons, List.take_add_one]
  congr 2
  rw [List.getElem?_drop, List.getElem?_eq_getElem (by omega)]
  simp only [Option.toList]
  congr 2
  omega

theorem cut_bytes (bufs : List Buf) (start cnt off e : Nat) (h1 : 1 ≤ cnt) (hr : start + cnt ≤ bufs.length)
    (hi : Inside bufs start cnt off e) :
    fits ((bufs.drop start).take cnt) off e ∧
    (cut (contents ((bufs.drop start).take cnt)) off e).flatten =
      ((bytesOf bufs).drop (pos bufs start + off)).take (endPos bufs start cnt off e - (pos bufs start + off)) := by
  by_cases hc : cnt = 1
  · subst hc
    have hs : start < bufs.length := by omega
    have hle := hi.1 rfl hs
    rw [range_one bufs start hs]
    refine ⟨hle, ?_⟩
    simp only [contents, List.map_cons, List.map_nil, cut, cutLast, List.flatten_cons, List.flatten_nil, List.append_nil, endPos,
      if_true]
    rw [show pos bufs start + off + e - (pos bufs start + off) = e by omega, ← List.drop_drop, drop_pos, List.drop_eq_getElem_cons hs, bytesOf_cons]
    unfold Buf.size at hle
    rw [List.drop_append_of_le_length (by omega), List.take_append_of_le_length (by simp; omega)]
  · obtain ⟨k, rfl⟩ : ∃ k, cnt = k + 2 := ⟨cnt - 2, by omega⟩
    have hs : start < bufs.length := by omega
    obtain ⟨ho, he⟩ := hi.2 hc
    have ho := ho hs
    have he := he (by omega)
    simp only [show start + (k + 2) - 1 = start + (k + 1) by omega] at he
    rw [range_many bufs start k hr]
    generalize hmid : (bufs.drop (start + 1)).take k = mid
    have hlast : ((mid ++ [bufs[start + (k + 1)]]).getLast (by simp)) = bufs[start + (k + 1)] := by simp
    have hdrop : bufs.drop (start + 1) = mid ++ (bufs[start + (k + 1)] :: bufs.drop (start + (k + 2))) := by
      rw [← hmid]
      have := (List.take_append_drop k (bufs.drop (start + 1))).symm
      rw [List.drop_drop, show start + 1 + k = start + (k + 1) by omega,
        List.drop_eq_getElem_cons (show start + (k + 1) < bufs.length by omega)] at this
      exact this
    refine ⟨?_, ?_⟩
    · cases mid with
      | nil => simp only [List.nil_append, fits]; exact ⟨ho, by simpa using he⟩
      | cons m ms =>
        simp only [List.cons_append] at hlast
        simp only [List.cons_append, fits]; exact ⟨ho, by rw [hlast]; exact he⟩
    · simp only [contents, List.map_cons, List.map_append, List.map_nil, cut]
      rw [← List.cons_append, cutLast_append]
      simp only [List.cons_append, List.flatten_cons, List.flatten_append, List.flatten_nil, List.append_nil]
      unfold Buf.size at ho he
      have hm : (bytesOf mid) = (mid.map Buf.bytes).flatten := rfl
      rw [← hm]
      have hpos : pos bufs (start + (k + 1)) = pos bufs start + bufs[start].bytes.length + (bytesOf mid).length := by
        have e1 : bufs.take (start + (k + 1)) = bufs.take (start + 1) ++ mid := by
          rw [← hmid, show start + (k + 1) = (start + 1) + k by omega, List.take_add]
        unfold pos
        rw [e1, bytesOf_append, List.length_append]
        have := pos_succ bufs start hs
        unfold pos Buf.size at this
        omega
      rw [endPos, if_neg hc, show start + (k + 2) - 1 = start + (k + 1) by omega, hpos, ← List.drop_drop, drop_pos,
        List.drop_eq_getElem_cons hs, bytesOf_cons, hdrop, bytesOf_append, bytesOf_cons, List.drop_append_of_le_length ho]
      have hlen : pos bufs start + bufs[start].bytes.length + (bytesOf mid).length + e - (pos bufs start + off) =
          (bufs[start].bytes.drop off).length + ((bytesOf mid).length + e) := by
        rw [List.length_drop]; omega
      rw [hlen, List.take_length_add_append, List.take_length_add_append, List.take_append_of_le_length he]

theorem bytesOf_flat (bs : List Buf) : bytesOf bs = (contents bs).flatten := rfl

/-- All allocations of all calls succeed. -/
def Oracle.allOk (o : Oracle) : Prop := ∀ k, o.al k = true ∧ o.a1 k = true ∧ o.a2 k = true

theorem sub_cases (bufs : List Buf) (o : Oracle) (k start cnt off e A m : Nat) (h32 : bufs.length < 2 ^ 32)
    (hsz : ∀ b ∈ bufs, b.size < 2 ^ 32) (hoff : off < 2 ^ 32) (h1 : 1 ≤ cnt) (hr : start + cnt ≤ bufs.length)
    (hi : Inside bufs start cnt off e) (hA : A = pos bufs start + off) (hm : m + A = endPos bufs start cnt off e)
    (hlt : m < (bytesOf bufs).length) :
    (∃ bs evs, sub bufs o k start cnt off e = C.ok (.fresh (bs.map some), evs) ∧ Takes evs bs ∧
      bytesOf bs = ((bytesOf bufs).drop A).take m) ∨
    (∃ evs, sub bufs o k start cnt off e = C.ok (.null, evs) ∧ Takes evs [] ∧ ¬ o.allOk) := by
  obtain ⟨hf, hb⟩ := cut_bytes bufs start cnt off e h1 hr hi
  rw [← hA, show endPos bufs start cnt off e - A = m by omega] at hb
  unfold sub
  rcases from_offset_and_count_partial bufs start cnt off e (o.al k) (o.a1 k) (o.a2 k) (o.f1 k) (o.f2 k) h32 hsz hoff h1 hr
    with ⟨-, h⟩ | ⟨bs, ⟨evs, h, ht⟩, hc, -⟩ | ⟨evs, h, ht⟩
  · exfalso
    have := congrArg (fun l => l.flatten.length) h
    simp only [hb] at this
    rw [← bytesOf_flat, List.length_take] at this
    omega
  · left
    exact ⟨bs, evs, h, ht, by rw [bytesOf_flat, hc, hb]⟩
  · right
    refine ⟨evs, h, ht, fun ho => ?_⟩
    have hx := (from_offset_and_count_success_partial bufs start cnt off e (o.f1 k) (o.f2 k) h32 hsz hoff h1 hr).mp
    obtain ⟨q1, q2, q3⟩ := ho k
    rw [q1, q2, q3] at h
    exact hx ⟨evs, h⟩ hf

/-- The cell of a stored array. -/
def cellOf (bs : List Buf) : Option Out := some (.fresh (bs.map some))

/-- The arrays stored so far. -/
def Stored (temp : List (Option Out)) (arrays : Nat) (parts : List (List Buf)) (cap : Nat) : Prop :=
  temp = parts.map cellOf ++ uninit (cap - parts.length) ∧ arrays = parts.length ∧ parts.length ≤ cap

theorem stored_wr {temp : List (Option Out)} {arrays cap : Nat} {parts : List (List Buf)} (h : Stored temp arrays parts cap)
    (hlt : parts.length < cap) (bs : List Buf) :
    ∃ temp', wr temp parts.length (.fresh (bs.map some)) = C.ok temp' ∧ Stored temp' (arrays + 1) (parts ++ [bs]) cap := by
  obtain ⟨h1, h2, h3⟩ := h
  subst h1
  have e : (uninit (cap - parts.length) : List (Option Out)) = none :: uninit (cap - (parts.length + 1)) := by
    rw [show cap - parts.length = (cap - (parts.length + 1)) + 1 by omega]
    simp [uninit, List.replicate_succ]
  rw [e, wr_at _ _ _ _ _ (by simp)]
  refine ⟨_, rfl, by simp [cellOf], by simp [h2], by simp; omega⟩

/-- The arrays done so far hold the first `P` bytes, `max` each. -/
def Prefix (max : Nat) (W : List UInt8) (parts : List (List Buf)) (P : Nat) : Prop :=
  P = parts.length * max ∧ P ≤ W.length ∧ (parts.map bytesOf).flatten = W.take P ∧ ∀ p ∈ parts, (bytesOf p).length = max

theorem prefix_nil (max : Nat) (W : List UInt8) : Prefix max W [] 0 := ⟨by simp, by simp, by simp, by simp⟩

theorem prefix_step {max : Nat} {W : List UInt8} {parts : List (List Buf)} {P : Nat} (h : Prefix max W parts P) (bs : List Buf)
    (hb : bytesOf bs = (W.drop P).take max) (hl : P + max ≤ W.length) : Prefix max W (parts ++ [bs]) (P + max) := by
  obtain ⟨h1, h2, h3, h4⟩ := h
  refine ⟨by simp [h1, Nat.add_mul], hl, ?_, ?_⟩
  · simp only [List.map_append, List.flatten_append, h3, List.map_cons, List.map_nil, List.flatten_cons, List.flatten_nil,
      List.append_nil, hb]
    rw [← List.take_add]
  · intro p hp
    rw [List.mem_append, List.mem_singleton] at hp
    rcases hp with hp | rfl
    · exact h4 p hp
    · rw [hb, List.length_take, List.length_drop]; omega

theorem prefix_done {max : Nat} {W : List UInt8} {parts : List (List Buf)} (hm : 0 < max) (h : Prefix max W parts W.length) :
    IsChunking max (parts.map bytesOf) W := by
  obtain ⟨h1, h2, h3, h4⟩ := h
  refine ⟨by rw [h3, List.take_length], ?_, ?_⟩
  · intro p hp
    obtain ⟨q, hq, rfl⟩ := List.mem_map.mp hp
    have := h4 q hq
    exact ⟨by intro e; rw [e] at this; simp at this; omega, by omega⟩
  · intro p hp
    obtain ⟨q, hq, rfl⟩ := List.mem_map.mp (List.dropLast_subset _ hp)
    exact h4 q hq

theorem prefix_last {max : Nat} {W : List UInt8} {parts : List (List Buf)} {P : Nat} (hm : 0 < max) (h : Prefix max W parts P)
    (bs : List Buf) (hb : bytesOf bs = W.drop P) (hlt : P < W.length) (hle : W.length ≤ P + max) :
    IsChunking max ((parts ++ [bs]).map bytesOf) W := by
  obtain ⟨h1, h2, h3, h4⟩ := h
  refine ⟨?_, ?_, ?_⟩
  · simp only [List.map_append, List.flatten_append, h3, List.map_cons, List.map_nil, List.flatten_cons, List.flatten_nil,
      List.append_nil, hb, List.take_append_drop]
  · intro p hp
    obtain ⟨q, hq, rfl⟩ := List.mem_map.mp hp
    rw [List.mem_append, List.mem_singleton] at hq
    rcases hq with hq | rfl
    · have := h4 q hq
      exact ⟨by intro e; rw [e] at this; simp at this; omega, by omega⟩
    · have hlen : (bytesOf q).length = W.length - P := by rw [hb, List.length_drop]
      exact ⟨by intro e; rw [e] at hlen; simp at hlen; omega, by omega⟩
  · intro p hp
    simp only [List.map_append, List.map_cons, List.map_nil] at hp
    rw [List.dropLast_concat] at hp
    obtain ⟨q, hq, rfl⟩ := List.mem_map.mp hp
    exact h4 q hq

theorem get_buffer_lt (bufs : List Buf) (i : Nat) (h : i < bufs.length) : get_buffer (some bufs) i = C.ok (some bufs[i], [.inc bufs[i]]) :=
  ((getters_list bufs i).2.1 h).1

theorem takes_inc_dec1 (b : Buf) : Takes [Ev.inc b, Ev.dec b] [] := takes_dec (takes_map_inc [b])

/-- `absorb` runs over the empty buffers after `i`. -/
theorem absorb_eq (bufs : List Buf) (h32 : bufs.length < 2 ^ 32 - 1) (fuel : Nat) :
    ∀ (i cnt endSize : Nat) (hasE : Bool), i < bufs.length → bufs.length - i ≤ fuel → cnt + bufs.length < 2 ^ 32 + i →
      ∃ j evs, i < j ∧ j ≤ bufs.length ∧ pos bufs j = pos bufs (i + 1) ∧ (∀ h : j < bufs.length, 0 < bufs[j].size) ∧
        Takes evs [] ∧ (∀ h : i + 1 < bufs.length, i + 1 < j → bufs[i + 1].size = 0) ∧
        (∀ h : j - 1 < bufs.length, i + 1 < j → bufs[j - 1].size = 0) ∧
        absorb bufs fuel i cnt endSize hasE = C.ok ((if j < bufs.length then j - 1 else bufs.length,
          cnt + (j - (i + 1)), if i + 1 < j then 0 else endSize, if i + 1 < j then true else hasE), evs) := by
  induction fuel with
  | zero => intro i _ _ _ hi hf; omega
  | succ fuel ih =>
    intro i cnt endSize hasE hi hf hc
    simp only [Nat.reducePow] at *
    simp only [absorb]
    rw [add32_eq (by omega)]
    by_cases h : i + 1 < bufs.length
    · rw [if_pos h, get_buffer_lt bufs _ h]
      simp only [C.ok_bind]
      by_cases hz : bufs[i + 1].size = 0
      · rw [if_pos hz, add32_eq (by omega)]
        obtain ⟨j, evs, k1, k2, k3, k4, k5, k6, k7, k8⟩ := ih (i + 1) (cnt + 1) 0 true h (by omega) (by omega)
        rw [k8]
        have hs := pos_succ bufs (i + 1) h
        refine ⟨j, _, by omega, k2, by omega, k4, takes_append (takes_inc_dec1 bufs[i + 1]) k5, fun _ _ => hz, ?_, ?_⟩
        · intro h' _
          by_cases hj : i + 1 + 1 < j
          · exact k7 h' hj
          · simp only [show j - 1 = i + 1 by omega]; exact hz
        · simp only [C.ok_bind, C.pure_eq]
          rw [if_pos (show i + 1 < j by omega), if_pos (show i + 1 < j by omega)]
          have e1 : cnt + 1 + (j - (i + 1 + 1)) = cnt + (j - (i + 1)) := by omega
          rw [e1]
          by_cases hj : i + 1 + 1 < j
          · rw [if_pos hj, if_pos hj]; simp
          · rw [if_neg hj, if_neg hj]; simp
      · rw [if_neg hz, sub32_eq (by omega) (by omega)]
        refine ⟨i + 1, _, by omega, by omega, rfl, fun _ => by omega, takes_inc_dec1 bufs[i + 1], fun _ h => by omega, fun _ h => by omega, ?_⟩
        simp only [C.pure_eq, Nat.lt_irrefl, if_false, Nat.sub_self, Nat.add_zero]
        rw [if_pos h]
        simp
    · rw [if_neg h]
      refine ⟨i + 1, [], by omega, by omega, rfl, fun h' => by omega, takes_nil, fun _ h => by omega, fun _ h => by omega, ?_⟩
      rw [if_neg h]
      simp only [Nat.lt_irrefl, if_false, Nat.sub_self, Nat.add_zero]
      rw [show i + 1 = bufs.length by omega]

end CUtil.Splitter
