import Verif.Batcher.Lemmas
set_option linter.unusedSimpArgs false
set_option linter.unusedVariables false
/-
Properties C11 and C12 of constbuffer_array_batcher_nv.c.
-/
namespace CUtil.Batcher
open CUtil.ConstBufferArray CUtil.MemoryData CUtil.MemoryData.Spec

/-- What `batch` computes once its arguments are acceptable. -/
theorem batch_eq (ps : List (List Buf)) (h1 : ps ≠ []) (h2 : ps.length ≤ 2 ^ 30 - 2)
    (h3 : ps.flatten.length < 2 ^ 32 - 1) (a1 a2 a3 a4 : Bool) (f : Nat) :
    ∃ evs, Takes evs (if a4 = false then [] else (⟨f, headerBytes (ps.map List.length)⟩ :: ps.flatten)) ∧
    batch (some (ps.map some)) ps.length a1 a2 a3 a4 f =
      if a1 = false ∨ a2 = false ∨ a3 = false then C.ok (none, [])
      else if a4 = false then C.ok (none, evs)
      else C.ok (some ((⟨f, headerBytes (ps.map List.length)⟩ :: ps.flatten).map some), evs) := by
  have hlen : ps.length ≠ 0 := by simpa using h1
  have hw : write_u32 (uninit (4 * (ps.length + 1))) 0 ps.length =
      C.ok ((beBytes 4 ps.length).map some ++ uninit (4 * ps.length)) := by
    rw [write_u32_copy]
    have e : (uninit (4 * (ps.length + 1)) : Mem) = uninit 4 ++ uninit (4 * ps.length) := by
      rw [← uninit_add]; congr 1; omega
    have := copyTo_eq (beBytes 4 ps.length) [] (uninit 4) (uninit (4 * ps.length)) (by simp [beBytes_length])
    simp only [List.nil_append, List.length_nil] at this
    rw [e, this]
  have hc := writeCounts_eq ps (beBytes 4 ps.length) 0 0 (by simp [beBytes_length]) (by omega)
  have hh : beBytes 4 ps.length ++ words (ps.map List.length) = headerBytes (ps.map List.length) := by
    rw [headerBytes, words_cons, List.length_map]
  rw [hh, Nat.zero_add] at hc
  generalize hhd : (⟨f, headerBytes (ps.map List.length)⟩ : Buf) = hd
  have hbytes : headerBytes (ps.map List.length) = hd.bytes := by rw [← hhd]
  have hg := gatherLoop_eq ps [some (some hd)] (uninit ps.flatten.length) 1 rfl (by simp)
    (by simp only [Nat.reducePow] at *; omega)
  have hall : (some (some hd) :: ps.flatten.map (some ∘ some) : HCells) = ((hd :: ps.flatten).map some).map some := by
    rw [List.map_cons, List.map_cons, List.map_map]
  simp only [List.singleton_append] at hg
  rw [hall] at hg
  have hcl := createLoop_eq ((hd :: ps.flatten).map some) [] [] 0 (ps.flatten.length + 1) rfl (by rw [List.length_map, List.length_cons])
  have hdl := decLoop_eq ((hd :: ps.flatten).map some) [] [] 0 (1 + ps.flatten.length) rfl
    (by rw [List.length_map, List.length_cons, Nat.add_comm])
  simp only [List.nil_append, List.append_nil, incN_map, decN_map] at hcl hdl
  have hwr : wr (uninit (ps.flatten.length + 1)) 0 (some hd) = C.ok (some (some hd) :: uninit ps.flatten.length) := by
    have e : (uninit (ps.flatten.length + 1) : HCells) = [] ++ none :: uninit ps.flatten.length := by
      simp [uninit, List.replicate_succ]
    rw [e, ConstBufferArray.wr_at _ _ _ _ _ (by rfl)]
    rfl
  refine ⟨if a4 = false then .mk hd :: (ps.flatten.map Ev.inc ++ (hd :: ps.flatten).map Ev.dec)
    else .mk hd :: (ps.flatten.map Ev.inc ++ ((hd :: ps.flatten).map Ev.inc ++ (hd :: ps.flatten).map Ev.dec)), ?_, ?_⟩
  · have t1 : Takes (Ev.mk hd :: ps.flatten.map Ev.inc) (hd :: ps.flatten) := takes_append (takes_mk hd) (takes_map_inc _)
    split
    · exact takes_destroy t1
    · have := takes_append t1 (takes_inc_dec (hd :: ps.flatten))
      simpa using this
  · simp only [batch]
    rw [if_neg (by unfold U32MAX; simp only [Nat.reducePow, Nat.reduceSub, Nat.reduceDiv] at *; omega),
      if_neg (by simp), List.take_of_length_le (by simp), allSome_map]
    simp only []
    cases a1 with
    | false => simp
    | true =>
      rw [if_neg (by simp), hw]
      simp only [C.ok_bind, hc]
      cases a2 with
      | false => simp
      | true =>
        cases a3 with
        | false => simp
        | true =>
          rw [if_neg (by simp), if_neg (by simp), initialised_map]
          simp only [C.ok_bind, hhd, hwr, hg, hcl, hdl]
          cases a4 <;> simp

/-- C11, first half: a batch is the header buffer (number of payloads, then the number of buffers of each, big endian)
followed by all the buffers of the payloads in order; the new array owns one reference on each. -/
theorem batch_format (ps : List (List Buf)) (h1 : ps ≠ []) (h2 : ps.length ≤ 2 ^ 30 - 2)
    (h3 : ps.flatten.length < 2 ^ 32 - 1) (f : Nat) :
    ∃ evs, batch (some (ps.map some)) ps.length true true true true f =
      C.ok (some ((⟨f, headerBytes (ps.map List.length)⟩ :: ps.flatten).map some), evs) ∧
      Takes evs (⟨f, headerBytes (ps.map List.length)⟩ :: ps.flatten) := by
  obtain ⟨evs, ht, he⟩ := batch_eq ps h1 h2 h3 true true true true f
  exact ⟨evs, by simpa using he, by simpa using ht⟩

example : ∃ evs, batch (some [some [⟨1, [7]⟩], some [], some [⟨2, [8]⟩, ⟨3, []⟩]]) 3 true true true true 9 =
      C.ok (some [some ⟨9, [0,0,0,3, 0,0,0,1, 0,0,0,0, 0,0,0,2]⟩, some ⟨1, [7]⟩, some ⟨2, [8]⟩, some ⟨3, []⟩], evs) := by
  obtain ⟨evs, h, -⟩ := batch_format [[⟨1, [7]⟩], [], [⟨2, [8]⟩, ⟨3, []⟩]] (by simp) (by simp) (by simp) 9
  exact ⟨evs, h⟩

/-- `batch` fails, keeping no reference, when memory runs out anywhere, when a payload is NULL, for no payload or too
many, and when the buffers are too many for 32 bit counts. -/
theorem batch_fails (ps : List (List Buf)) (qs : List (Option (List Buf))) (n : Nat) (a1 a2 a3 a4 : Bool) (f : Nat) :
    (ps ≠ [] → ps.length ≤ 2 ^ 30 - 2 → ps.flatten.length < 2 ^ 32 - 1 → a1 = false ∨ a2 = false ∨ a3 = false ∨ a4 = false →
      ∃ evs, batch (some (ps.map some)) ps.length a1 a2 a3 a4 f = C.ok (none, evs) ∧ Takes evs []) ∧
    (ps ≠ [] → ps.length ≤ 2 ^ 30 - 2 → (∀ p ∈ ps, p.length < 2 ^ 32) → 2 ^ 32 - 1 ≤ ps.flatten.length →
      batch (some (ps.map some)) ps.length a1 a2 a3 a4 f = C.ok (none, [])) ∧
    (none ∈ qs → batch (some qs) qs.length a1 a2 a3 a4 f = C.ok (none, [])) ∧
    (n = 0 ∨ 2 ^ 30 - 2 < n → batch (some qs) n a1 a2 a3 a4 f = C.ok (none, [])) ∧
    batch none n a1 a2 a3 a4 f = C.ok (none, []) := by
  refine ⟨fun h1 h2 h3 ha => ?_, fun h1 h2 hp h3 => ?_, fun h => ?_, fun h => ?_, rfl⟩
  · obtain ⟨evs, ht, he⟩ := batch_eq ps h1 h2 h3 a1 a2 a3 a4 f
    by_cases h : a1 = false ∨ a2 = false ∨ a3 = false
    · rw [if_pos h] at he
      exact ⟨[], he, takes_nil⟩
    · rw [if_neg h] at he
      have h4 : a4 = false := by
        rcases ha with h' | h' | h' | h'
        · exact absurd (Or.inl h') h
        · exact absurd (Or.inr (Or.inl h')) h
        · exact absurd (Or.inr (Or.inr h')) h
        · exact h'
      rw [if_pos h4] at he ht
      exact ⟨evs, he, ht⟩
  · have hlen : ps.length ≠ 0 := by simpa using h1
    have hw : write_u32 (uninit (4 * (ps.length + 1))) 0 ps.length =
        C.ok ((beBytes 4 ps.length).map some ++ uninit (4 * ps.length)) := by
      rw [write_u32_copy]
      have e : (uninit (4 * (ps.length + 1)) : Mem) = uninit 4 ++ uninit (4 * ps.length) := by
        rw [← uninit_add]; congr 1; omega
      have := copyTo_eq (beBytes 4 ps.length) [] (uninit 4) (uninit (4 * ps.length)) (by simp [beBytes_length])
      simp only [List.nil_append, List.length_nil] at this
      rw [e, this]
    obtain ⟨m, hm⟩ := writeCounts_over ps (beBytes 4 ps.length) 0 0 (by simp [beBytes_length]) hp (by omega) (by omega)
    simp only [batch]
    rw [if_neg (by unfold U32MAX; simp only [Nat.reducePow, Nat.reduceSub, Nat.reduceDiv] at *; omega),
      if_neg (by simp), List.take_of_length_le (by simp), allSome_map]
    simp only []
    cases a1 with
    | false => simp
    | true =>
      rw [if_neg (by simp), hw]
      simp only [C.ok_bind, hm]
      simp
  · simp only [batch]
    by_cases hc : qs.length = 0 ∨ qs.length > U32MAX / 4 - 1
    · rw [if_pos hc]
    · rw [if_neg hc, if_neg (by omega), List.take_of_length_le (by omega), allSome_null _ h]
  · simp only [batch]
    rw [if_pos (by unfold U32MAX; simp only [Nat.reducePow, Nat.reduceSub, Nat.reduceDiv] at *; omega)]

example : batch (some [some [⟨1, [7]⟩], none]) 2 true true true true 9 = C.ok (none, []) :=
  (batch_fails [] [some [⟨1, [7]⟩], none] 0 true true true true 9).2.2.1 (by simp)

/-- What `unbatch` does with a well formed header, for all allocation outcomes, provided no index computation wraps. -/
theorem unbatch_cases (d : Dialect) (hd : Buf) (bs : List Buf) (cs : List Nat) (a0 : Bool) (ap ac : Nat → Bool)
    (hh : hd.bytes = headerBytes cs) (h0 : cs ≠ []) (h32 : cs.length < 2 ^ 30)
    (hc : ∀ c ∈ cs, c < 2 ^ 32 ∧ (d = .wrap ∨ c < 2 ^ 31)) (hb : bs.length < 2 ^ 32 - 1)
    (hw : NoWrap cs 1 (bs.length + 1)) :
    (∃ ps evs, pieces cs bs = some ps ∧ unbatch d (some (hd :: bs)) true a0 ap ac =
      C.ok (some (ps.map (List.map some)), some cs.length, evs) ∧ Takes evs ps.flatten) ∨
    (∃ evs, unbatch d (some (hd :: bs)) true a0 ap ac = C.ok (none, none, evs) ∧ Takes evs [] ∧
      ((a0 = true ∧ ∀ j, ap j = true ∧ ac j = true) → pieces cs bs = none)) := by
  have hlen : cs.length ≠ 0 := by simpa using h0
  have hl : (headerBytes cs).length = 4 * (cs.length + 1) := by
    rw [headerBytes, words_length, List.length_cons]
  have hr : read_u32 d hd.bytes 0 = C.ok cs.length := by
    rw [hh]
    exact read_word d [] cs.length cs (by simp only [Nat.reducePow] at *; omega)
      (Or.inr (by simp only [Nat.reducePow] at *; omega)) 0 rfl
  have hcont : get_buffer_content (some (hd :: bs)) 0 = C.ok (some hd.bytes) :=
    ((getters_list (hd :: bs) 0).2.1 (by simp)).2
  cases a0 with
  | false =>
    right
    refine ⟨[], ?_, takes_nil, fun h => by simp at h⟩
    simp only [unbatch]
    rw [if_neg (by simp), if_neg (by simp), hcont]
    simp only [C.ok_bind]
    rw [if_neg (by rw [hh, hl]; omega), hr]
    simp only [C.ok_bind]
    rw [if_neg hlen, if_neg (by rw [hh, hl]; omega)]
    simp
  | true =>
    have key := unbatchLoop_cases d (hd :: bs) ap ac
      (by simp only [List.length_cons, Nat.reducePow] at *; omega) cs [cs.length] [] 0 1 [] rfl (by simp) hc
      (by simpa using hw) takes_nil
    have hwd : words ([cs.length] ++ cs) = hd.bytes := by rw [hh]; rfl
    rw [hwd] at key
    simp only [List.map_nil, List.nil_append] at key
    have hu : ∀ r evs, unbatchLoop d hd.bytes (hd :: bs) ap ac [] 0 1 cs.length = C.ok (r, evs) →
        unbatch d (some (hd :: bs)) true true ap ac = match r with
          | none => C.ok (none, none, evs)
          | some rs => C.ok (some rs, some cs.length, evs) := by
      intro r evs h
      simp only [unbatch]
      rw [if_neg (by simp), if_neg (by simp), hcont]
      simp only [C.ok_bind]
      rw [if_neg (by rw [hh, hl]; omega), hr]
      simp only [C.ok_bind]
      rw [if_neg hlen, if_neg (by rw [hh, hl]; omega), if_neg (by simp), h]
      simp only [C.ok_bind]
      cases r <;> rfl
    rcases key with ⟨ps, evs, k1, k2, k3⟩ | ⟨evs, k2, k3, k4⟩
    · left
      exact ⟨ps, evs, by simpa using k1, hu _ _ k2, k3⟩
    · right
      exact ⟨evs, hu _ _ k2, k3, fun h => by simpa using k4 h.2⟩

/-- C11: unbatching a batch gives back the payloads: as many, each with the same buffers in the same order, owning a
reference on each buffer.  (In ISO C, where reading a count of 2^31 or more is undefined, for counts below that.) -/
theorem batch_unbatch_roundtrip (d : Dialect) (ps : List (List Buf)) (h1 : ps ≠ []) (h2 : ps.length ≤ 2 ^ 30 - 2)
    (h3 : ps.flatten.length < 2 ^ 32 - 1) (hd : d = .wrap ∨ ∀ p ∈ ps, p.length < 2 ^ 31) (f : Nat) :
    ∃ b evs evs', batch (some (ps.map some)) ps.length true true true true f = C.ok (some (b.map some), evs) ∧
      unbatch d (some b) true true (fun _ => true) (fun _ => true) =
        C.ok (some (ps.map (List.map some)), some ps.length, evs') ∧ Takes evs' ps.flatten := by
  obtain ⟨evs, he, -⟩ := batch_format ps h1 h2 h3 f
  have hsum : (ps.map List.length).sum = ps.flatten.length := by rw [List.length_flatten]
  have hle : ∀ p ∈ ps, p.length ≤ ps.flatten.length := by
    intro p hp
    exact (List.sublist_flatten_of_mem hp).length_le
  have hall : (fun (_ : Nat) => true) = fun _ => true := rfl
  have := unbatch_cases d ⟨f, headerBytes (ps.map List.length)⟩ ps.flatten (ps.map List.length) true (fun _ => true)
    (fun _ => true) rfl (by simpa using h1) (by simp only [List.length_map, Nat.reducePow] at *; omega)
    (by
      intro c hc
      obtain ⟨p, hp, rfl⟩ := List.mem_map.mp hc
      have := hle p hp
      refine ⟨by simp only [Nat.reducePow] at *; omega, hd.imp id (fun h => h p hp)⟩)
    h3 (noWrap_of_sum _ _ _ (by rw [hsum]; simp only [Nat.reducePow] at *; omega))
  have hp := pieces_flatten ps []
  rw [List.append_nil] at hp
  rcases this with ⟨qs, evs', k1, k2, k3⟩ | ⟨_, _, _, k4⟩
  · rw [hp] at k1
    cases k1
    exact ⟨_, evs, evs', he, by simpa using k2, k3⟩
  · have := k4 ⟨rfl, fun _ => ⟨rfl, rfl⟩⟩
    rw [hp] at this
    cases this

example : ([[⟨1, [7]⟩], [], [⟨2, [8]⟩, ⟨3, []⟩]] : List (List Buf)) ≠ [] ∧
    (∀ p ∈ ([[⟨1, [7]⟩], [], [⟨2, [8]⟩, ⟨3, []⟩]] : List (List Buf)), p.length < 2 ^ 31) := by simp

/-- C12, for headers none of whose counts is so large that the index computation wraps: `unbatch` returns NULL and keeps no
reference when the counts ask for more buffers than there are, and otherwise (with memory available) exactly the consecutive pieces.
Missing for the full property: larger counts, see `unbatch_wraps`. -/
theorem unbatch_validates_partial (hd : Buf) (bs : List Buf) (cs : List Nat)
    (hh : hd.bytes = headerBytes cs) (h0 : cs ≠ []) (h32 : hd.bytes.length < 2 ^ 32)
    (hb : bs.length < 2 ^ 32 - 1) (hc : ∀ c ∈ cs, c + (bs.length + 1) < 2 ^ 32) :
    (pieces cs bs = none → ∀ a0 ap ac, ∃ evs, unbatch .wrap (some (hd :: bs)) true a0 ap ac = C.ok (none, none, evs) ∧ Takes evs []) ∧
    (∀ ps, pieces cs bs = some ps → ∃ evs, unbatch .wrap (some (hd :: bs)) true true (fun _ => true) (fun _ => true) =
      C.ok (some (ps.map (List.map some)), some cs.length, evs) ∧ Takes evs ps.flatten) ∧
    (∀ a0 ap ac, ∃ r, unbatch .wrap (some (hd :: bs)) true a0 ap ac = C.ok r ∧ (r.1 = none → Takes r.2.2 [])) := by
  have hl : (headerBytes cs).length = 4 * (cs.length + 1) := by
    rw [headerBytes, words_length, List.length_cons]
  have key := fun a0 ap ac => unbatch_cases .wrap hd bs cs a0 ap ac hh h0
    (by rw [hh, hl] at h32; simp only [Nat.reducePow] at *; omega) (fun c h => ⟨by have := hc c h; omega, Or.inl rfl⟩) hb
    (noWrap_of_bound cs 1 _ (by omega) hc)
  refine ⟨fun hn a0 ap ac => ?_, fun ps hp => ?_, fun a0 ap ac => ?_⟩
  · rcases key a0 ap ac with ⟨ps, evs, k1, -, -⟩ | ⟨evs, k1, k2, -⟩
    · rw [hn] at k1; cases k1
    · exact ⟨evs, k1, k2⟩
  · rcases key true (fun _ => true) (fun _ => true) with ⟨qs, evs, k1, k2, k3⟩ | ⟨evs, -, -, k3⟩
    · rw [hp] at k1; cases k1; exact ⟨evs, k2, k3⟩
    · rw [hp] at k3; cases k3 ⟨rfl, fun _ => ⟨rfl, rfl⟩⟩
  · rcases key a0 ap ac with ⟨qs, evs, k1, k2, k3⟩ | ⟨evs, k1, k2, -⟩
    · exact ⟨_, k2, fun h => by cases h⟩
    · exact ⟨_, k1, fun _ => k2⟩

example : pieces [1, 2] [⟨1, []⟩, ⟨2, []⟩] = none ∧ pieces [1, 1] [⟨1, []⟩, ⟨2, []⟩] = some [[⟨1, []⟩], [⟨2, []⟩]] ∧
    headerBytes [1, 2] = [0,0,0,2, 0,0,0,1, 0,0,0,2] := by decide

/-- C12: every header that is not a payload count followed by that many words is refused without any effect. -/
theorem unbatch_malformed (hd : Buf) (bs : List Buf) (h32 : hd.bytes.length < 2 ^ 32)
    (hm : ¬ ∃ cs, cs ≠ [] ∧ (∀ c ∈ cs, c < 2 ^ 32) ∧ hd.bytes = headerBytes cs) (a0 : Bool) (ap ac : Nat → Bool) :
    unbatch .wrap (some (hd :: bs)) true a0 ap ac = C.ok (none, none, []) := by
  have hcont : get_buffer_content (some (hd :: bs)) 0 = C.ok (some hd.bytes) :=
    ((getters_list (hd :: bs) 0).2.1 (by simp)).2
  simp only [unbatch]
  rw [if_neg (by simp), if_neg (by simp), hcont]
  simp only [C.ok_bind]
  by_cases hl : hd.bytes.length < 4 ∨ hd.bytes.length % 4 ≠ 0
  · rw [if_pos hl]; rfl
  · rw [if_neg hl]
    obtain ⟨ws, hws, hwl, hw⟩ := words_surj (hd.bytes.length / 4) hd.bytes (by omega)
    cases ws with
    | nil => simp at hwl; omega
    | cons w cs =>
      have hr : read_u32 .wrap hd.bytes 0 = C.ok w := by
        have := read_word .wrap [] w cs (hw w (by simp)) (Or.inl rfl) 0 rfl
        rw [hws]; exact this
      rw [hr]
      simp only [C.ok_bind]
      by_cases hw0 : w = 0
      · rw [if_pos hw0]; rfl
      · rw [if_neg hw0]
        rw [if_pos]
        · rfl
        · intro e
          have hwc : cs.length = w := by simp only [List.length_cons] at hwl; omega
          refine hm ⟨cs, ?_, fun c hc => hw c (by simp [hc]), ?_⟩
          · intro e2; subst e2; simp at hwc; omega
          · rw [headerBytes, hwc]; exact hws

example : ¬ ∃ cs, cs ≠ [] ∧ (∀ c ∈ cs, c < 2 ^ 32) ∧ ([0, 0, 0, 0, 0, 0, 0, 0] : List UInt8) = headerBytes cs := by
  rintro ⟨cs, h, -, e⟩
  have := congrArg List.length e
  rw [headerBytes, words_length] at this
  match cs, h with
  | [c], _ =>
    have := congrArg (fun l => beVal (l.take 4)) e
    simp [headerBytes, words, beBytes, beVal] at this
  | _ :: _ :: _, _ => simp at this; omega

/-- `unbatch` with NULL arguments or an empty batch. -/
theorem unbatch_invalid (b : List Buf) (outp a0 : Bool) (ap ac : Nat → Bool) :
    unbatch .wrap none outp a0 ap ac = C.ok (none, none, []) ∧
    unbatch .wrap (some b) false a0 ap ac = C.ok (none, none, []) ∧
    unbatch .wrap (some []) true a0 ap ac = C.ok (none, none, []) := by
  refine ⟨rfl, rfl, by simp [unbatch]⟩

/-- False of the code: for the batch made of one buffer `00000001 FFFFFFFF` (one payload of 2^32-1 buffers, none
present), `1 + 0xFFFFFFFF` wraps to 0, the check passes, and (given memory) the call succeeds with a payload made of 2^32-1
NULL handles obtained by asking for buffers outside the batch. -/
theorem unbatch_wraps : ∃ hd : Buf, hd.bytes = [0, 0, 0, 1, 255, 255, 255, 255] ∧
    pieces [2 ^ 32 - 1] [] = none ∧
    unbatch .wrap (some [hd]) true true (fun _ => true) (fun _ => true) =
      C.ok (some [List.replicate (2 ^ 32 - 1) none], some 1, []) := by
  have hb : ([0, 0, 0, 1, 255, 255, 255, 255] : List UInt8) = words [1, 2 ^ 32 - 1] := by decide
  refine ⟨⟨0, [0, 0, 0, 1, 255, 255, 255, 255]⟩, rfl, by simp [pieces], ?_⟩
  have hr0 := read_word .wrap [] 1 [2 ^ 32 - 1] (by simp) (Or.inl rfl) 0 rfl
  have hr1 := read_word .wrap [1] (2 ^ 32 - 1) [] (by simp) (Or.inl rfl) 4 rfl
  simp only [List.nil_append, List.cons_append] at hr0 hr1
  rw [← hb] at hr0 hr1
  generalize hhd : (⟨0, [0, 0, 0, 1, 255, 255, 255, 255]⟩ : Buf) = hd
  have hbytes : hd.bytes = [0, 0, 0, 1, 255, 255, 255, 255] := by rw [← hhd]
  have hcont : get_buffer_content (some [hd]) 0 = C.ok (some hd.bytes) :=
    ((getters_list [hd] 0).2.1 (by simp)).2
  simp only [unbatch]
  rw [if_neg (by simp), if_neg (by simp), hcont]
  simp only [C.ok_bind]
  rw [hbytes, if_neg (by simp), hr0]
  simp only [C.ok_bind]
  rw [if_neg (by simp), if_neg (by simp), if_neg (by simp)]
  rw [unbatchLoop, hr1]
  simp only [C.ok_bind]
  generalize hN : (2 : Nat) ^ 32 - 1 = N
  have hN' : N = 4294967295 := by rw [← hN]
  rw [if_neg (by rw [hN']; simp), if_neg (by rw [hN']; simp), if_neg (by simp)]
  have hg := getLoop_null [hd] (uninit N) 1 [] 0 rfl N (by simp) (by simp) (by rw [hN']; simp)
  simp only [List.nil_append] at hg
  rw [hg]
  have hrep : List.replicate N (some (none : Option Buf)) = (List.replicate N none).map some := by simp
  have hcl := createLoop_eq (List.replicate N none) [] [] 0 N rfl (by simp)
  have hdl := decLoop_eq (List.replicate N none) [] [] 0 N rfl (by simp)
  simp only [List.nil_append, List.append_nil, ← hrep] at hcl hdl
  simp only [C.ok_bind]
  rw [if_neg (by simp), hcl, hdl]
  simp only [C.ok_bind, unbatchLoop, List.nil_append, C.pure_eq]
  have e1 : (List.replicate N (none : Option Buf)).flatMap incN = [] := by
    rw [List.flatMap_eq_nil_iff]
    intro x hx; rw [List.eq_of_mem_replicate hx]; rfl
  have e2 : (List.replicate N (none : Option Buf)).flatMap decN = [] := by
    rw [List.flatMap_eq_nil_iff]
    intro x hx; rw [List.eq_of_mem_replicate hx]; rfl
  rw [e1, e2]
  rfl

end CUtil.Batcher
