import Verif.Splitter.Spec
import Verif.ConstBufferArray.Props
import Verif.Batcher.Lemmas
set_option linter.unusedSimpArgs false
set_option linter.unusedVariables false
namespace CUtil.Splitter
open CUtil.ConstBufferArray

/-! ### positions -/

/-- Number of bytes before buffer `i`. -/
def pos (bufs : List Buf) (i : Nat) : Nat := (bytesOf (bufs.take i)).length

theorem bytesOf_append (a b : List Buf) : bytesOf (a ++ b) = bytesOf a ++ bytesOf b := by simp [bytesOf, contents]
theorem bytesOf_cons (a : Buf) (b : List Buf) : bytesOf (a :: b) = a.bytes ++ bytesOf b := by simp [bytesOf, contents]
theorem bytesOf_nil : bytesOf [] = [] := rfl

theorem bytesOf_length (bs : List Buf) : (bytesOf bs).length = totalSize bs := by
  induction bs with
  | nil => rfl
  | cons b bs ih =>
    rw [bytesOf_cons, List.length_append, ih]
    simp [totalSize, Buf.size]

theorem pos_zero (bufs : List Buf) : pos bufs 0 = 0 := rfl

theorem pos_succ (bufs : List Buf) (i : Nat) (h : i < bufs.length) : pos bufs (i + 1) = pos bufs i + bufs[i].size := by
  unfold pos
  rw [List.take_add_one, List.getElem?_eq_getElem h, bytesOf_append, List.length_append]
  simp [bytesOf_cons, bytesOf_nil, Buf.size]

theorem pos_mono (bufs : List Buf) {i j : Nat} (h : i ≤ j) : pos bufs i ≤ pos bufs j := by
  unfold pos
  obtain ⟨k, rfl⟩ := Nat.exists_eq_add_of_le h
  rw [List.take_add, bytesOf_append, List.length_append]
  omega

theorem pos_end (bufs : List Buf) {i : Nat} (h : bufs.length ≤ i) : pos bufs i = (bytesOf bufs).length := by
  unfold pos
  rw [List.take_of_length_le h]

theorem pos_le (bufs : List Buf) (i : Nat) : pos bufs i ≤ (bytesOf bufs).length := by
  by_cases h : bufs.length ≤ i
  · rw [pos_end bufs h]; exact Nat.le_refl _
  · have := pos_mono bufs (show i ≤ bufs.length by omega)
    rw [pos_end bufs (Nat.le_refl _)] at this
    exact this

theorem lt_of_pos_lt {bufs : List Buf} {i : Nat} (h : pos bufs i < (bytesOf bufs).length) : i < bufs.length := by
  apply Nat.lt_of_not_le
  intro h'
  rw [pos_end bufs h'] at h
  omega

theorem bytesOf_split (bufs : List Buf) (i : Nat) : bytesOf bufs = bytesOf (bufs.take i) ++ bytesOf (bufs.drop i) := by
  rw [← bytesOf_append, List.take_append_drop]

theorem drop_pos (bufs : List Buf) (i : Nat) : (bytesOf bufs).drop (pos bufs i) = bytesOf (bufs.drop i) := by
  rw [bytesOf_split bufs i]
  exact List.drop_left' rfl

theorem byte_at (bufs : List Buf) (i off : Nat) (h : i < bufs.length) (ho : off < bufs[i].size) :
    (bytesOf bufs)[pos bufs i + off]? = bufs[i].bytes[off]? := by
  rw [← List.getElem?_drop, drop_pos, List.drop_eq_getElem_cons h, bytesOf_cons]
  rw [List.getElem?_append_left (by exact ho)]

/-! ### split -/

/-- The position stands on byte `P` of the input (or the input is exhausted). -/
def Good (bufs : List Buf) (p : Pos) (P : Nat) : Prop :=
  P < (bytesOf bufs).length → ∃ h : p.idx < bufs.length, p.cur = some bufs[p.idx].bytes ∧
    p.off < bufs[p.idx].size ∧ pos bufs p.idx + p.off = P

theorem content_lt (bufs : List Buf) (i : Nat) (h : i < bufs.length) : get_buffer_content (some bufs) i = C.ok (some bufs[i].bytes) :=
  ((getters_list bufs i).2.1 h).2

theorem advance_more (bufs : List Buf) (P : Nat) (h32 : bufs.length < 2 ^ 32) (hP : P < (bytesOf bufs).length) (fuel : Nat) :
    ∀ (p : Pos) (h : p.idx < bufs.length), p.cur = some bufs[p.idx].bytes → p.off ≤ bufs[p.idx].size →
      pos bufs p.idx + p.off = P → bufs.length - p.idx ≤ fuel →
      ∃ p', advance bufs true fuel p = C.ok p' ∧ Good bufs p' P := by
  induction fuel with
  | zero => intro p h _ _ _ hf; omega
  | succ fuel ih =>
    intro p h hc ho hp hf
    obtain ⟨idx, off, cur⟩ := p
    simp only at h hc ho hp hf
    subst hc
    simp only [advance]
    by_cases hlt : off < bufs[idx].size
    · rw [if_neg (show ¬ off ≥ bufs[idx].bytes.length by unfold Buf.size at hlt; omega)]
      exact ⟨_, rfl, fun _ => ⟨h, rfl, hlt, hp⟩⟩
    · have hs := pos_succ bufs idx h
      have hi1 : idx + 1 < bufs.length := lt_of_pos_lt (by omega)
      rw [if_pos (show off ≥ bufs[idx].bytes.length by unfold Buf.size at hlt; omega), if_pos trivial,
        add32_eq (by omega), content_lt bufs _ hi1]
      exact ih ⟨idx + 1, 0, some bufs[idx + 1].bytes⟩ hi1 rfl (Nat.zero_le _) (by simp only; omega) (by simp only; omega)

theorem advance_end (bufs : List Buf) (fuel : Nat) (p : Pos) : ∃ p', advance bufs false (fuel + 2) p = C.ok p' := by
  obtain ⟨idx, off, cur⟩ := p
  cases cur with
  | none => exact ⟨_, rfl⟩
  | some c =>
    simp only [advance]
    split
    · exact ⟨_, rfl⟩
    · exact ⟨_, rfl⟩

theorem copyBytes_eq (bufs : List Buf) (h32 : bufs.length < 2 ^ 32) (ht : (bytesOf bufs).length < 2 ^ 32) (P0 remaining : Nat)
    (hr : remaining + P0 = (bytesOf bufs).length) (k : Nat) :
    ∀ (done : List UInt8) (i : Nat) (p : Pos), i = done.length → Good bufs p (P0 + i) → P0 + i + k ≤ (bytesOf bufs).length →
      ∃ p', copyBytes bufs remaining (done.map some ++ uninit k) i p k =
        C.ok ((done ++ ((bytesOf bufs).drop (P0 + i)).take k).map some, p') ∧ Good bufs p' (P0 + i + k) := by
  induction k with
  | zero =>
    intro done i p hi hg hk
    refine ⟨p, ?_, hg⟩
    simp [copyBytes, uninit]
  | succ k ih =>
    intro done i p hi hg hk
    obtain ⟨h, hc, ho, hp⟩ := hg (by omega)
    obtain ⟨idx, off, cur⟩ := p
    simp only at h hc ho hp
    subst hc hi
    have hb := byte_at bufs idx off h ho
    have hlt : P0 + done.length < (bytesOf bufs).length := by omega
    have hbyte : rd bufs[idx].bytes off = C.ok (bytesOf bufs)[P0 + done.length] := by
      rw [rd_eq_ok, ← hb, hp, List.getElem?_eq_getElem hlt]
    simp only [copyBytes]
    rw [hbyte]
    simp only [C.ok_bind]
    rw [wr_next]
    simp only [C.ok_bind]
    have hpl := pos_le bufs (idx + 1)
    have hps := pos_succ bufs idx h
    rw [sub32_eq (by omega) (by omega), add32_eq (by omega)]
    have hadv : ∃ p', advance bufs (decide (remaining - (done.length + 1) > 0)) (bufs.length + 2)
        ⟨idx, off + 1, some bufs[idx].bytes⟩ = C.ok p' ∧ Good bufs p' (P0 + (done.length + 1)) := by
      by_cases hm : remaining - (done.length + 1) > 0
      · rw [decide_eq_true hm]
        exact advance_more bufs _ h32 (by omega) _ _ h rfl (by simp only; omega) (by simp only; omega) (by simp only; omega)
      · rw [decide_eq_false hm]
        obtain ⟨p', hp'⟩ := advance_end bufs bufs.length ⟨idx, off + 1, some bufs[idx].bytes⟩
        exact ⟨p', hp', fun hx => by omega⟩
    obtain ⟨p', ha, hg'⟩ := hadv
    rw [ha]
    simp only [C.ok_bind]
    obtain ⟨p'', h1, h2⟩ := ih (done ++ [(bytesOf bufs)[P0 + done.length]]) (done.length + 1) p' (by simp) hg' (by omega)
    refine ⟨p'', ?_, ?_⟩
    · rw [h1]
      rw [List.drop_eq_getElem_cons hlt, List.take_succ_cons]
      simp [Nat.add_assoc]
    · rw [show P0 + done.length + (k + 1) = P0 + (done.length + 1) + k by omega]; exact h2

theorem skipEmpty_eq (bufs : List Buf) (h32 : bufs.length < 2 ^ 32) (hP : 0 < (bytesOf bufs).length) (fuel : Nat) :
    ∀ (p : Pos) (h : p.idx < bufs.length), p.cur = some bufs[p.idx].bytes → p.off = 0 → pos bufs p.idx = 0 →
      bufs.length - p.idx ≤ fuel → ∃ p', skipEmpty bufs fuel p = C.ok p' ∧ Good bufs p' 0 := by
  induction fuel with
  | zero => intro p h _ _ _ hf; omega
  | succ fuel ih =>
    intro p h hc ho hp hf
    obtain ⟨idx, off, cur⟩ := p
    simp only at h hc ho hp hf
    subst hc ho
    simp only [skipEmpty]
    by_cases hz : bufs[idx].bytes.length = 0
    · have hs := pos_succ bufs idx h
      have hz' : bufs[idx].size = 0 := hz
      have hi1 : idx + 1 < bufs.length := lt_of_pos_lt (by omega)
      rw [if_pos hz, add32_eq (by omega), content_lt bufs _ hi1]
      exact ih ⟨idx + 1, 0, some bufs[idx + 1].bytes⟩ hi1 rfl rfl (by simp only; omega) (by simp only; omega)
    · rw [if_neg hz]
      exact ⟨_, rfl, fun _ => ⟨h, rfl, by unfold Buf.size; simp only; omega, by simp only; omega⟩⟩

theorem chunking_cons {max : Nat} {p : List UInt8} {ps : List (List UInt8)} {w : List UInt8} (h : IsChunking max ps w)
    (hp : p.length = max) (hm : 0 < max) : IsChunking max (p :: ps) (p ++ w) := by
  obtain ⟨h1, h2, h3⟩ := h
  refine ⟨by simp [h1], ?_, ?_⟩
  · intro q hq
    rw [List.mem_cons] at hq
    rcases hq with rfl | hq
    · exact ⟨by intro e; subst e; simp at hp; omega, by omega⟩
    · exact h2 q hq
  · intro q hq
    cases ps with
    | nil => simp at hq
    | cons x xs =>
      rw [List.dropLast_cons_of_ne_nil (by simp), List.mem_cons] at hq
      rcases hq with rfl | hq
      · exact hp
      · exact h3 q hq

theorem chunking_one {max : Nat} {p : List UInt8} (hp : p ≠ []) (hm : p.length ≤ max) : IsChunking max [p] p := by
  refine ⟨by simp, ?_, by simp⟩
  intro q hq
  simp at hq; subst hq; exact ⟨hp, hm⟩

theorem storedAll_map (bs : List Buf) : storedAll (bs.map some) = C.ok bs := by
  induction bs with
  | nil => rfl
  | cons b bs ih => simp [storedAll, ih]

theorem decCells_eq (xs : List Buf) (p q : Cells) (i n : Nat) (hi : i = p.length) (hn : n = xs.length) :
    decCells (p ++ (xs.map some ++ q)) i n = C.ok (xs.map Ev.dec) := by
  subst hi hn
  induction xs generalizing p with
  | nil => simp [decCells]
  | cons x xs ih =>
    simp only [List.length_cons, decCells, List.map_cons, List.cons_append]
    rw [rd_append_at]
    simp only [C.ok_bind]
    have := ih (p ++ [some x])
    simp only [List.append_assoc, List.singleton_append, List.length_append, List.length_singleton] at this
    rw [this]
    simp

theorem min_take (w : List UInt8) (P m : Nat) : (w.drop P).take (min m (w.length - P)) = (w.drop P).take m := by
  rw [← List.length_drop, ← List.take_take, List.take_length]

theorem splitLoop_cases (bufs : List Buf) (max : Nat) (am ah : Nat → Bool) (f : Nat → Nat) (h32 : bufs.length < 2 ^ 32)
    (ht : (bytesOf bufs).length < 2 ^ 32) (hm : 0 < max) (fuel : Nat) :
    ∀ (remaining P : Nat) (ds : List Buf) (m : Nat) (p : Pos), remaining + P = (bytesOf bufs).length → Good bufs p P →
      remaining ≤ m * max → (0 < m → (m - 1) * max < remaining) → remaining < fuel →
      (∃ es evs, splitLoop bufs max am ah f fuel remaining (ds.map some ++ uninit m) ds.length p =
          C.ok (0, (ds ++ es).map some, (ds ++ es).length, evs) ∧ es.length = m ∧ Takes evs es ∧
          (0 < remaining → IsChunking max (contents es) ((bytesOf bufs).drop P))) ∨
      (∃ r es evs m', splitLoop bufs max am ah f fuel remaining (ds.map some ++ uninit m) ds.length p =
          C.ok (r, (ds ++ es).map some ++ uninit m', (ds ++ es).length, evs) ∧ 0 < r ∧ Takes evs es ∧
          ¬ (∀ j, am j = true ∧ ah j = true)) := by
  induction fuel with
  | zero => intro _ _ _ _ _ _ _ _ _ hf; omega
  | succ fuel ih =>
    intro remaining P ds m p hr hg hm1 hm2 hf
    by_cases h0 : remaining > 0
    · simp only [splitLoop]
      rw [if_pos h0]
      cases ha : am ds.length with
      | false =>
        right
        exact ⟨remaining, [], [], m, by simp, h0, takes_nil, fun h => by simp [h] at ha⟩
      | true =>
        rw [if_neg (by simp)]
        have hmpos : 0 < m := by
          apply Nat.pos_of_ne_zero
          rintro rfl
          simp at hm1; omega
        obtain ⟨m, rfl⟩ : ∃ k, m = k + 1 := ⟨m - 1, by omega⟩
        have hmin : min max remaining ≤ remaining := Nat.min_le_right _ _
        obtain ⟨p', hc, hg'⟩ := copyBytes_eq bufs h32 ht P remaining hr (min max remaining) [] 0 p rfl (by simpa using hg)
          (by omega)
        simp only [List.map_nil, List.nil_append, Nat.add_zero] at hc hg'
        rw [hc]
        simp only [C.ok_bind]
        rw [Batcher.initialised_map]
        simp only [C.ok_bind]
        rw [wr_next]
        simp only [C.ok_bind]
        cases hah : ah ds.length with
        | false =>
          rw [if_pos rfl]
          right
          exact ⟨remaining, [], [], m + 1, by simp, h0, takes_nil, fun h => by simp [h] at hah⟩
        | true =>
          rw [if_neg (by simp), sub32_eq hmin (by omega)]
          generalize hh : (⟨f ds.length, ((bytesOf bufs).drop P).take (min max remaining)⟩ : Buf) = hb
          have hbb : hb.bytes = ((bytesOf bufs).drop P).take (min max remaining) := by rw [← hh]
          have hbl : hb.bytes.length = min max remaining := by
            rw [hbb, List.length_take, List.length_drop]; omega
          have hmul : (m + 1) * max = m * max + max := Nat.succ_mul m max
          have key := ih (remaining - min max remaining) (P + min max remaining) (ds ++ [hb]) m p' (by omega) hg'
            (by omega) (by
              intro hmm
              obtain ⟨k, rfl⟩ : ∃ k, m = k + 1 := ⟨m - 1, by omega⟩
              have h1 := hm2 hmpos
              simp only [Nat.add_sub_cancel] at h1 ⊢
              have h2 : (k + 1) * max = k * max + max := Nat.succ_mul k max
              omega) (by omega)
          rw [List.length_append, List.length_singleton] at key
          rcases key with ⟨es, evs, k1, k2, k3, k4⟩ | ⟨r, es, evs, m', k1, k2, k3, k4⟩
          · left
            refine ⟨hb :: es, .mk hb :: evs, ?_, by simp [k2], takes_append (takes_mk hb) k3, fun _ => ?_⟩
            · rw [k1]; simp
            · have hW : (bytesOf bufs).drop P = hb.bytes ++ (bytesOf bufs).drop (P + min max remaining) := by
                rw [hbb, ← List.drop_drop, List.take_append_drop]
              by_cases hrest : 0 < remaining - min max remaining
              · rw [hW]
                exact chunking_cons (k4 hrest) (by omega) hm
              · have he : es = [] := by
                  apply List.eq_nil_of_length_eq_zero
                  rw [k2]
                  apply Nat.eq_zero_of_not_pos
                  intro hmm
                  have h1 := hm2 hmpos
                  simp only [Nat.add_sub_cancel] at h1
                  have h2 : 1 * max ≤ m * max := Nat.mul_le_mul_right _ hmm
                  omega
                subst he
                rw [hW, List.drop_of_length_le (by omega), List.append_nil]
                exact chunking_one (by intro e; rw [e] at hbl; simp at hbl; omega) (by omega)
          · right
            refine ⟨r, hb :: es, .mk hb :: evs, m', ?_, k2, takes_append (takes_mk hb) k3, k4⟩
            rw [k1]; simp
    · left
      have hm0 : m = 0 := by
        apply Nat.eq_zero_of_not_pos
        intro hmm
        have := hm2 hmm
        omega
      subst hm0
      refine ⟨[], [], ?_, rfl, takes_nil, fun h => absurd h h0⟩
      simp only [splitLoop]
      rw [if_neg h0, show remaining = 0 by omega]
      simp [uninit]

end CUtil.Splitter
