import Verif.Splitter.Lemmas3
set_option linter.unusedSimpArgs false
set_option linter.unusedVariables false
/-
Properties C13 (`constbuffer_array_splitter_split`) and C14 (`constbuffer_array_splitter_split_to_array_of_array`).
-/
namespace CUtil.Splitter
open CUtil.ConstBufferArray

theorem count_eq (total max : Nat) (hm : 0 < max) (h : total + max - 1 < 2 ^ 32) (h0 : 0 < total) (hx : max < 2 ^ 32)
    (ht : total < 2 ^ 32) : sub32 (add32 total max) 1 / max = (total + max - 1) / max := by
  have : sub32 (add32 total max) 1 = total + max - 1 := by
    unfold sub32 add32
    simp only [Nat.reducePow] at *
    omega
  rw [this]

theorem count_wrap (total max : Nat) (hm : 0 < max) (h : 2 ^ 32 ≤ total + max - 1) (hx : max < 2 ^ 32)
    (ht : total < 2 ^ 32) : sub32 (add32 total max) 1 / max = 0 := by
  apply Nat.div_eq_of_lt
  unfold sub32 add32
  simp only [Nat.reducePow] at *
  omega

theorem ceil_bounds (total max : Nat) (hm : 0 < max) (h0 : 0 < total) :
    total ≤ (total + max - 1) / max * max ∧ ((total + max - 1) / max - 1) * max < total := by
  have h1 := Nat.div_add_mod (total + max - 1) max
  have h2 := Nat.mod_lt (total + max - 1) hm
  rw [Nat.mul_comm] at h1
  refine ⟨by omega, ?_⟩
  rw [Nat.sub_mul]
  omega

/-- C13, for total sizes such that `total + max - 1` does not exceed 32 bits: whatever the allocator does, the call is
defined; it either returns an array of new buffers that cuts the input in pieces of `max` bytes (the last one
possibly shorter), owning one reference on each, or it returns NULL and keeps nothing; with memory available it succeeds.
Missing for the full property: larger sums, see `split_overflow`. -/
theorem split_chunks_partial (bufs : List Buf) (max : Nat) (a0 a1 a2 : Bool) (am ah : Nat → Bool) (f : Nat → Nat)
    (h32 : bufs.length < 2 ^ 32) (hsz : ∀ b ∈ bufs, b.size < 2 ^ 32) (hm : 0 < max) (hm32 : max < 2 ^ 32)
    (ht : totalSize bufs < 2 ^ 32) (hno : totalSize bufs + max - 1 < 2 ^ 32) :
    (∃ bs, Yields (split (some bufs) max a0 a1 a2 am ah f) bs ∧ IsChunking max (contents bs) (bytesOf bufs)) ∨
    (FailsClean (split (some bufs) max a0 a1 a2 am ah f) ∧
      ¬ (a0 = true ∧ a1 = true ∧ a2 = true ∧ ∀ j, am j = true ∧ ah j = true)) := by
  have hempty : totalSize bufs = 0 → bytesOf bufs = [] := by
    intro h; rw [← bytesOf_length] at h; exact List.eq_nil_of_length_eq_zero h
  have hchunk0 : totalSize bufs = 0 → IsChunking max (contents []) (bytesOf bufs) := by
    intro h; rw [hempty h]; exact ⟨rfl, by simp [contents], by simp [contents]⟩
  have hce : totalSize bufs = 0 → split (some bufs) max a0 a1 a2 am ah f = C.ok (create_empty a0) →
    ((∃ bs, Yields (split (some bufs) max a0 a1 a2 am ah f) bs ∧ IsChunking max (contents bs) (bytesOf bufs)) ∨
    (FailsClean (split (some bufs) max a0 a1 a2 am ah f) ∧
      ¬ (a0 = true ∧ a1 = true ∧ a2 = true ∧ ∀ j, am j = true ∧ ah j = true))) := by
    intro h e
    rw [e]
    cases a0 with
    | true => left; exact ⟨[], create_empty_list.1, hchunk0 h⟩
    | false => right; exact ⟨create_empty_list.2, by simp⟩
  by_cases hl : bufs.length = 0
  · have : bufs = [] := List.eq_nil_of_length_eq_zero hl
    apply hce
    · subst this; rfl
    · simp only [split]; rw [if_neg (by omega), if_pos hl]
  · have hsize := (all_buffers_size_exact bufs hsz).1 ht
    by_cases h0 : totalSize bufs = 0
    · apply hce h0
      simp only [split]; rw [if_neg (by omega), if_neg hl, hsize]
      simp only []
      rw [if_pos h0]
    · obtain ⟨hc1, hc2⟩ := ceil_bounds (totalSize bufs) max hm (by omega)
      have hcnt := count_eq (totalSize bufs) max hm hno (by omega) hm32 ht
      generalize hn : (totalSize bufs + max - 1) / max = n at hc1 hc2 hcnt
      have hbl := bytesOf_length bufs
      simp only [split]
      rw [if_neg (by omega), if_neg hl, hsize]
      dsimp only
      rw [if_neg h0, hcnt]
      cases a1 with
      | false => right; exact ⟨⟨[], by simp, takes_nil⟩, by simp⟩
      | true =>
        rw [if_neg (by simp), content_lt bufs 0 (by omega)]
        simp only [C.ok_bind]
        obtain ⟨p, hp, hg⟩ := skipEmpty_eq bufs h32 (by omega) (bufs.length + 1) ⟨0, 0, some bufs[0].bytes⟩ (by simp only; omega)
          rfl rfl rfl (by simp only; omega)
        rw [hp]
        simp only [C.ok_bind]
        have key := splitLoop_cases bufs max am ah f h32 (by omega) hm (totalSize bufs + 1) (totalSize bufs) 0 [] n p
          (by omega) hg hc1 (fun _ => hc2) (by omega)
        simp only [List.map_nil, List.nil_append, List.length_nil, List.drop_zero] at key
        rcases key with ⟨es, evs, k1, k2, k3, k4⟩ | ⟨r, es, evs, m', k1, k2, k3, k4⟩
        · rw [k1]
          simp only [C.ok_bind]
          rw [if_neg (by omega), storedAll_map]
          simp only [C.ok_bind]
          have hdec := decCells_eq es [] [] 0 es.length rfl rfl
          simp only [List.nil_append, List.append_nil] at hdec
          cases a2 with
          | true =>
            left
            obtain ⟨evs2, hcr, htk⟩ := (create_list es n (by omega)).1
            rw [hcr]
            simp only [C.ok_bind, hdec, C.pure_eq]
            rw [List.take_of_length_le (by omega)] at htk ⊢
            refine ⟨es, ⟨_, rfl, ?_⟩, k4 (by omega)⟩
            have t1 := takes_append (takes_append k3 htk) takes_nil
            have t2 : Takes (evs2 ++ es.map Ev.dec) [] := takes_destroy htk
            have := takes_append k3 t2
            simpa using this
          | false =>
            right
            have hcr : create (some es) n false = C.ok (.null, []) := by simp [create]
            rw [hcr]
            simp only [C.ok_bind, hdec, C.pure_eq]
            refine ⟨⟨_, rfl, ?_⟩, by simp⟩
            have : Takes (evs ++ es.map Ev.dec) [] := takes_destroy k3
            simpa using this
        · right
          rw [k1]
          simp only [C.ok_bind]
          have hdec := decCells_eq es [] (uninit m') 0 es.length rfl rfl
          simp only [List.nil_append] at hdec
          rw [if_pos k2, hdec]
          exact ⟨⟨_, rfl, takes_destroy k3⟩, fun h => k4 h.2.2.2⟩

example : ∃ bs, Yields (split (some [⟨1, [1, 2, 3]⟩, ⟨2, []⟩, ⟨3, [4, 5]⟩]) 2 true true true (fun _ => true) (fun _ => true) (· + 7)) bs ∧
    contents bs = [[1, 2], [3, 4], [5]] :=
  ⟨[⟨7, [1, 2]⟩, ⟨8, [3, 4]⟩, ⟨9, [5]⟩], ⟨_, rfl, by
    have := takes_append (takes_append (takes_mk ⟨7, [1, 2]⟩) (takes_append (takes_mk ⟨8, [3, 4]⟩) (takes_mk ⟨9, [5]⟩)))
      (takes_destroy (takes_map_inc [⟨7, [1, 2]⟩, ⟨8, [3, 4]⟩, ⟨9, [5]⟩]))
    exact this⟩, rfl⟩

/-- NULL, a maximum of 0, and inputs of 2^32 bytes or more are refused without any effect. -/
theorem split_refuses (bufs : List Buf) (max : Nat) (a0 a1 a2 : Bool) (am ah : Nat → Bool) (f : Nat → Nat) :
    split none max a0 a1 a2 am ah f = C.ok (.null, []) ∧
    split (some bufs) 0 a0 a1 a2 am ah f = C.ok (.null, []) ∧
    ((∀ b ∈ bufs, b.size < 2 ^ 32) → 2 ^ 32 ≤ totalSize bufs → split (some bufs) max a0 a1 a2 am ah f = C.ok (.null, [])) := by
  refine ⟨rfl, rfl, fun hs ht => ?_⟩
  simp only [split]
  have : bufs.length ≠ 0 := by
    intro e
    have : bufs = [] := List.eq_nil_of_length_eq_zero e
    subst this
    simp [totalSize] at ht
  by_cases hm : max = 0
  · rw [if_pos hm]
  · rw [if_neg hm, if_neg this, (all_buffers_size_exact bufs hs).2.1 ht]

/-- False of the code: whenever the rounding `total + max - 1` exceeds 32 bits, the block of handles is allocated with
no cell and the first split buffer is stored outside of it.  Two bytes and `max = UINT32_MAX` are enough. -/
theorem split_overflow (bufs : List Buf) (max : Nat) (a0 a2 : Bool) (am ah : Nat → Bool) (f : Nat → Nat)
    (h32 : bufs.length < 2 ^ 32) (hsz : ∀ b ∈ bufs, b.size < 2 ^ 32) (hm32 : max < 2 ^ 32)
    (ht : totalSize bufs < 2 ^ 32) (hov : 2 ^ 32 ≤ totalSize bufs + max - 1) (ham : am 0 = true) :
    split (some bufs) max a0 true a2 am ah f = C.ub := by
  have hsize := (all_buffers_size_exact bufs hsz).1 ht
  have hbl := bytesOf_length bufs
  have hl : bufs.length ≠ 0 := by
    intro e
    have : bufs = [] := List.eq_nil_of_length_eq_zero e
    subst this
    simp [totalSize] at hov; simp only [Nat.reducePow] at *; omega
  simp only [split]
  rw [if_neg (by omega), if_neg hl, hsize]
  dsimp only
  rw [if_neg (by simp only [Nat.reducePow] at *; omega), count_wrap _ _ (by omega) hov hm32 ht, if_neg (by simp), content_lt bufs 0 (by omega)]
  simp only [C.ok_bind]
  obtain ⟨p, hp, hg⟩ := skipEmpty_eq bufs h32 (by simp only [Nat.reducePow] at *; omega) (bufs.length + 1) ⟨0, 0, some bufs[0].bytes⟩ (by simp only; omega)
    rfl rfl rfl (by simp only; omega)
  rw [hp]
  simp only [C.ok_bind, splitLoop]
  rw [if_pos (by simp only [Nat.reducePow] at *; omega), if_neg (by simp [ham])]
  have hmin : min max (totalSize bufs) ≤ totalSize bufs := Nat.min_le_right _ _
  obtain ⟨p', hc, -⟩ := copyBytes_eq bufs h32 (by omega) 0 (totalSize bufs) (by omega) (min max (totalSize bufs)) [] 0 p rfl
    (by simpa using hg) (by omega)
  simp only [List.map_nil, List.nil_append, Nat.add_zero] at hc
  rw [hc]
  simp only [C.ok_bind]
  rw [Batcher.initialised_map]
  simp [wr, uninit]

example : split (some [⟨1, [1, 2]⟩]) (2 ^ 32 - 1) true true true (fun _ => true) (fun _ => true) id = C.ub :=
  split_overflow [⟨1, [1, 2]⟩] (2 ^ 32 - 1) true true _ _ _ (by simp) (by simp [Buf.size]) (by simp) (by simp [totalSize, Buf.size])
    (by simp [totalSize, Buf.size]) rfl

/-! ### C14 -/

/-- The call returned the arrays `parts` (the count it reports is their number), each freshly created and owning one
reference on each of its buffers. -/
def YieldsArrays (r : C (Option (List (Option Out) × Nat) × List Ev)) (parts : List (List Buf)) : Prop :=
  ∃ cells evs, r = C.ok (some (cells, parts.length), evs) ∧
    cells.take parts.length = parts.map (fun bs => some (.fresh (bs.map some))) ∧ Takes evs parts.flatten

/-- The call returned NULL and kept nothing. -/
def ArraysFail (r : C (Option (List (Option Out) × Nat) × List Ev)) : Prop :=
  ∃ evs, r = C.ok (none, evs) ∧ Takes evs []

/-- C14: for every array of buffers whose bytes number less than 2^32 and every maximum, whatever the allocator does: the
call is defined; if it succeeds, the arrays it returns cut the bytes of the input in pieces of `max` bytes (the last
one possibly shorter) and own their buffers (an input that already fits is returned itself); otherwise it returns NULL
and keeps nothing, which happens only for lack of memory or when `total + max - 1` exceeds 32 bits. -/
theorem split_arrays (bufs : List Buf) (max : Nat) (at_ ae : Bool) (o : Oracle)
    (h32 : bufs.length < 2 ^ 32 - 1) (hsz : ∀ b ∈ bufs, b.size < 2 ^ 32) (hm : 0 < max) (hm32 : max < 2 ^ 32)
    (ht : totalSize bufs < 2 ^ 32) :
    (totalSize bufs = 0 ∧ YieldsArrays (split_to_array_of_array (some bufs) max true at_ ae o) [[]]) ∨
    (0 < totalSize bufs ∧ totalSize bufs ≤ max ∧
      split_to_array_of_array (some bufs) max true at_ ae o = C.ok (some ([some .same], 1), [])) ∨
    (max < totalSize bufs ∧ ∃ parts, YieldsArrays (split_to_array_of_array (some bufs) max true at_ ae o) parts ∧
      IsChunking max (parts.map bytesOf) (bytesOf bufs)) ∨
    (ArraysFail (split_to_array_of_array (some bufs) max true at_ ae o) ∧
      ¬ (at_ = true ∧ ae = true ∧ o.allOk ∧ (max < totalSize bufs → totalSize bufs + max - 1 < 2 ^ 32))) := by
  have hsize := (all_buffers_size_exact bufs hsz).1 ht
  have hbl := bytesOf_length bufs
  simp only [split_to_array_of_array]
  rw [if_neg (by simp; omega), hsize]
  dsimp only
  by_cases h0 : totalSize bufs = 0
  · rw [if_pos (Or.inr h0)]
    cases at_ with
    | false => right; right; right; exact ⟨⟨[], rfl, takes_nil⟩, by simp⟩
    | true =>
      rw [if_neg (by simp)]
      cases ae with
      | false => right; right; right; exact ⟨⟨[], rfl, takes_nil⟩, by simp⟩
      | true => left; exact ⟨h0, [some (.fresh [])], [], rfl, rfl, takes_nil⟩
  · have hl : bufs.length ≠ 0 := by
      intro e
      have : bufs = [] := List.eq_nil_of_length_eq_zero e
      subst this
      exact h0 rfl
    rw [if_neg (by omega)]
    by_cases hle : totalSize bufs ≤ max
    · rw [if_pos hle]
      cases at_ with
      | false => right; right; right; exact ⟨⟨[], rfl, takes_nil⟩, by simp⟩
      | true => right; left; exact ⟨by omega, hle, rfl⟩
    · rw [if_neg hle]
      by_cases hov : totalSize bufs + max - 1 < 2 ^ 32
      · obtain ⟨hc1, hc2⟩ := ceil_bounds (totalSize bufs) max hm (by omega)
        rw [count_eq (totalSize bufs) max hm hov (by omega) hm32 ht]
        generalize hn : (totalSize bufs + max - 1) / max = cap at hc1 hc2
        have hcap : cap ≠ 0 := by rintro rfl; simp at hc1; omega
        cases at_ with
        | false =>
          rw [if_pos (Or.inr rfl)]
          right; right; right; exact ⟨⟨[], rfl, takes_nil⟩, by simp⟩
        | true =>
          rw [if_neg (by simp [hcap])]
          have ctx : Ctx bufs max cap := ⟨h32, hsz, by omega, hm, by omega, by omega⟩
          have inv : Inv bufs max cap ⟨0, 0, 0, 0, 0, 0, 0, uninit cap, false, 0⟩ [] 0 :=
            ⟨rfl, ⟨by simp, rfl, by simp⟩, rfl, prefix_nil _ _, rfl, rfl, fun _ => rfl, fun _ _ => Nat.zero_le _, rfl,
              Nat.zero_le _, by omega⟩
          obtain ⟨s, evs, qs, k1, k2, ⟨k3, k4, k5⟩, k6⟩ := outerLoop_post bufs max cap o ctx (bufs.length + 1) _ [] 0 inv
            (by simp only; omega) (by simp only; omega)
          rw [k1]
          simp only [C.ok_bind, List.nil_append] at *
          rcases k6 with ⟨nf, hch⟩ | ⟨hf, hno⟩
          · right; right; left
            rw [if_neg (by simp [nf])]
            refine ⟨by omega, qs, ⟨s.temp, evs, by rw [k4]; rfl, ?_, k2⟩, hch⟩
            rw [k3]
            exact List.take_left' (by simp)
          · right; right; right
            rw [if_pos hf, k3, k4]
            have := releaseArrays_eq qs [] (uninit (cap - qs.length)) 0 qs.length rfl rfl
            simp only [List.nil_append] at this
            rw [this]
            exact ⟨⟨_, rfl, takes_destroy k2⟩, fun h => hno h.2.2.1⟩
      · rw [count_wrap (totalSize bufs) max hm (by omega) hm32 ht, if_pos (Or.inl rfl)]
        right; right; right
        exact ⟨⟨[], rfl, takes_nil⟩, fun h => hov (h.2.2.2 (by omega))⟩

example : ∃ cells evs, split_to_array_of_array (some [⟨1, [1, 2, 3]⟩, ⟨2, []⟩, ⟨3, [4, 5]⟩]) 2 true true true
    ⟨fun _ => true, fun _ => true, fun _ => true, fun k => 2 * k + 10, fun k => 2 * k + 11⟩ = C.ok (some (cells, 3), evs) ∧
    cells = [[⟨10, [1, 2]⟩], [⟨12, [3]⟩, ⟨2, []⟩, ⟨13, [4]⟩], [⟨14, [5]⟩]].map (fun bs => some (.fresh (bs.map some))) :=
  ⟨_, _, rfl, rfl⟩

/-- NULL arguments, a maximum of 0 and inputs of 2^32 bytes or more are refused without any effect. -/
theorem split_arrays_refuses (bufs : List Buf) (max : Nat) (outp at_ ae : Bool) (o : Oracle) :
    split_to_array_of_array none max outp at_ ae o = C.ok (none, []) ∧
    split_to_array_of_array (some bufs) 0 outp at_ ae o = C.ok (none, []) ∧
    split_to_array_of_array (some bufs) max false at_ ae o = C.ok (none, []) ∧
    ((∀ b ∈ bufs, b.size < 2 ^ 32) → 2 ^ 32 ≤ totalSize bufs →
      split_to_array_of_array (some bufs) max outp at_ ae o = C.ok (none, [])) := by
  refine ⟨rfl, by simp [split_to_array_of_array], by simp [split_to_array_of_array], fun hs ht => ?_⟩
  simp only [split_to_array_of_array]
  split
  · rfl
  · rw [(all_buffers_size_exact bufs hs).2.1 ht]

end CUtil.Splitter
