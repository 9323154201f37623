import Verif.Buffer.Lemmas
set_option linter.unusedSimpArgs false
set_option linter.unusedVariables false
/-
Property C20: buffer.c.
-/
namespace CUtil.Buffer

/-- C20, one call: on a well formed buffer, every call with valid arguments is defined (in particular never accesses memory
outside a block and never reports success without having done the work), leaves the buffer well formed, and does exactly what the
documentation says: success and content are those of `outcome`.  When it fails, the buffer is untouched. -/
theorem call_outcome (c : Call) (b : BUF) (a : Bool) (hb : Wf b) (hsz : b.size ≤ SIZE_MAX) (hc : c.valid) :
    ∃ b' f, c.exec b a = C.ok (some b', f) ∧ Wf b' ∧ b'.size ≤ SIZE_MAX ∧ (view b', f) = outcome c.op (view b) a ∧
      (f = false → b' = b) := by
  cases c with
  | build m n => exact good_build b a m n hb hsz hc.1 hc.2
  | append_build m n => exact good_append_build b a m n hb hsz hc.1 hc.2
  | pre_build n => exact good_pre_build b a n hb hsz hc
  | unbuild => exact good_unbuild b a hb hsz
  | enlarge n => exact good_enlarge b a n hb hsz
  | shrink n e => exact good_shrink b a n e hb hsz
  | append o => exact good_append b o a hb hc hsz
  | prepend o => exact good_prepend b o a hb hc hsz
  | fill c => exact good_fill b a c hb hsz

/-- C20, histories: every sequence of valid calls, with any allocation outcomes, is defined and leaves in the buffer exactly
what the documentation of the calls, applied one after the other, says; the return values are the documented ones too. -/
theorem history_outcome (cs : List (Call × Bool)) : ∀ (b : BUF), Wf b → b.size ≤ SIZE_MAX → (∀ x ∈ cs, x.1.valid) →
    ∃ b' fs, execAll cs b = C.ok (b', fs) ∧ Wf b' ∧ b'.size ≤ SIZE_MAX ∧
      (view b', fs) = outcomes (cs.map fun x => (x.1.op, x.2)) (view b) := by
  induction cs with
  | nil => intro b hb hsz _; exact ⟨b, [], rfl, hb, hsz, rfl⟩
  | cons x cs ih =>
    intro b hb hsz hv
    obtain ⟨c, a⟩ := x
    obtain ⟨b1, f, h1, h2, h3, h4, -⟩ := call_outcome c b a hb hsz (hv _ List.mem_cons_self)
    obtain ⟨b2, fs, g1, g2, g3, g4⟩ := ih b1 h2 h3 (fun x hx => hv x (List.mem_cons_of_mem _ hx))
    refine ⟨b2, f :: fs, ?_, g2, g3, ?_⟩
    · simp only [execAll, h1, g1, C.ok_bind]; rfl
    · simp only [List.map_cons, outcomes]
      rw [← h4, ← g4]

/-- `BUFFER_create` holds exactly the given bytes (an empty buffer with storage when there are none); it fails only without source
or memory. -/
theorem create_spec (m : List UInt8) (n : Nat) (a1 a2 : Bool) (h : n ≤ m.length) :
    (∃ r, create (some m) n a1 a2 = C.ok r ∧ (r = none ↔ ¬ (a1 = true ∧ a2 = true)) ∧
      ∀ b, r = some b → Wf b ∧ view b = some ((m.take n).map some)) ∧
    create none n a1 a2 = C.ok none := by
  refine ⟨?_, rfl⟩
  cases a1 with
  | false => exact ⟨none, rfl, by simp, by simp⟩
  | true =>
    cases a2 with
    | false => exact ⟨none, rfl, by simp, by simp⟩
    | true =>
      simp only [create, safemalloc, if_true, Option.getD_some]
      rw [if_neg (by simp)]
      by_cases h0 : n = 0
      · subst h0
        exact ⟨_, rfl, by simp, fun b hb => by cases hb; exact ⟨rfl, by simp [view]⟩⟩
      · rw [block_copy _ _ _ (by simp [h0]) (by simpa using h)]
        refine ⟨_, rfl, by simp, fun b hb => ?_⟩
        cases hb
        have hl : ((m.map some).take n).length = n := by simp; omega
        exact ⟨wf_mk _ _ hl h0, by rw [view_mk _ _ hl, List.map_take]⟩

/-- `BUFFER_new` and `BUFFER_create_with_size`. -/
theorem new_spec (a a1 a2 : Bool) (n : Nat) :
    (∀ b, new a = some b → Wf b ∧ view b = none) ∧ (new a = none ↔ a = false) ∧
    (∀ b, create_with_size n a1 a2 = some b → Wf b ∧
      view b = if n = 0 then none else some (List.replicate n none)) ∧
    (create_with_size n a1 a2 = none ↔ a1 = false ∨ (n ≠ 0 ∧ a2 = false)) := by
  refine ⟨?_, ?_, ?_, ?_⟩
  · intro b h
    cases a <;> simp [new] at h
    subst h; exact ⟨rfl, rfl⟩
  · cases a <;> simp [new]
  · intro b h
    cases a1 <;> simp [create_with_size] at h
    by_cases h0 : n = 0
    · simp [h0] at h; subst h; exact ⟨rfl, by simp [h0, view]⟩
    · simp [h0] at h
      obtain ⟨h1, h2⟩ := h
      subst h2
      exact ⟨wf_mk _ _ (by simp) h0, by rw [view_mk _ _ (by simp), if_neg h0]; rfl⟩
  · cases a1 <;> simp [create_with_size]
    by_cases h0 : n = 0 <;> simp [h0]

/-- `BUFFER_clone` holds the same bytes as the original (a buffer without storage is cloned to an empty one with storage). -/
theorem clone_spec (s : BUF) (a1 a2 : Bool) (hs : Wf s) :
    (∃ r, clone (some s) a1 a2 = C.ok r ∧ (r = none ↔ ¬ (a1 = true ∧ a2 = true)) ∧
      ∀ b, r = some b → Wf b ∧ view b = some ((view s).getD [])) ∧
    clone none a1 a2 = C.ok none := by
  refine ⟨?_, rfl⟩
  cases a1 with
  | false => exact ⟨none, rfl, by simp, by simp⟩
  | true =>
    cases a2 with
    | false => exact ⟨none, rfl, by simp, by simp⟩
    | true =>
      obtain ⟨buf, n⟩ := s
      simp only [clone, safemalloc, if_true, Option.getD_some]
      rw [if_neg (by simp)]
      by_cases h0 : n = 0
      · subst h0
        refine ⟨_, rfl, by simp, fun b hb => ?_⟩
        cases hb
        refine ⟨rfl, ?_⟩
        cases buf <;> simp [view]
      · cases buf with
        | none => exact absurd (wf_none hs) h0
        | some m =>
          have hml := wf_pos hs h0
          rw [Option.getD_some, block_copy _ _ _ (by simp [h0]) (by omega)]
          refine ⟨_, rfl, by simp, fun b hb => ?_⟩
          cases hb
          have hl : (m.take n).length = n := by simp; omega
          exact ⟨wf_mk _ _ hl h0, by rw [view_mk _ _ hl]; rfl⟩

/-- The readers report exactly the bytes the buffer holds. -/
theorem readers_spec (b : BUF) (hb : Wf b) :
    length (some b) = ((view b).getD []).length ∧
    size (some b) true = some ((view b).getD []).length ∧
    u_char (some b) = (if (view b).getD [] = [] then none else view b) ∧
    (∃ p, content (some b) true = some p ∧ p.map (·.take (length (some b))) = view b) ∧
    length none = 0 ∧ size none true = none ∧ size (some b) false = none ∧ u_char none = none ∧
    content none true = none ∧ content (some b) false = none := by
  obtain ⟨buf, n⟩ := b
  have hl := wf_view_length hb
  refine ⟨hl.symm, by rw [hl]; rfl, ?_, ⟨buf, rfl, rfl⟩, rfl, rfl, rfl, rfl, rfl, rfl⟩
  by_cases h0 : n = 0
  · subst h0
    rw [if_pos (List.eq_nil_of_length_eq_zero hl)]; rfl
  · rw [if_neg (by intro h; rw [h] at hl; exact h0 hl.symm)]
    simp only [u_char, if_neg h0]
    cases buf with
    | none => rfl
    | some m => rw [view_mk _ _ (wf_pos hb h0)]

/-- Refusals: NULL handles, NULL sources (unless `build` is given length 0) and appending a buffer to itself change nothing. -/
theorem refusals (b : BUF) (src : Src) (h : Option BUF) (n : Nat) (e a : Bool) (c : UInt8) :
    build none src n a = C.ok (none, false) ∧ append_build none src n a = C.ok (none, false) ∧
    pre_build none n a = (none, false) ∧ unbuild none = (none, false) ∧ enlarge none n a = (none, false) ∧
    shrink none n e a = C.ok (none, false) ∧ append none h e a = C.ok (none, false) ∧
    append (some b) none e a = C.ok (some b, false) ∧ prepend none h e a = C.ok (none, false) ∧
    prepend (some b) none e a = C.ok (some b, false) ∧ fill none c = C.ok (none, false) ∧
    append_build (some b) .null n a = C.ok (some b, false) ∧
    (n ≠ 0 → build (some b) .null n a = C.ok (some b, false)) ∧
    append (some b) (some b) true a = C.ok (some b, false) ∧ prepend (some b) (some b) true a = C.ok (some b, false) := by
  refine ⟨rfl, rfl, rfl, rfl, rfl, rfl, rfl, rfl, rfl, rfl, rfl, rfl, ?_, rfl, rfl⟩
  intro h; simp [build, h]

/-- Finding: nothing in the headers forbids a source that points into the buffer itself (appending a buffer's own bytes to it,
say), but both functions read the source after `realloc` released the block it points into. -/
theorem self_source_ub (m : Mem) (sz off n : Nat) (h0 : n ≠ 0) (hs : sz + n ≤ SIZE_MAX) :
    build (some ⟨some m, sz⟩) (.own off) n true = C.ub ∧ append_build (some ⟨some m, sz⟩) (.own off) n true = C.ub := by
  constructor
  · simp [build, h0]
  · simp only [append_build]
    rw [if_neg h0, if_neg (by simp; omega)]

/- The hypotheses are met, with success, failure for lack of memory and refusals in one history. -/
example : execAll [(.build [1, 2, 3] 2, true), (.enlarge 1, false), (.append_build [7] 1, true), (.shrink 1 false, true),
      (.prepend ⟨some [some 9], 1⟩, true), (.pre_build 3, true), (.fill 5, true), (.shrink 3 true, true)] ⟨none, 0⟩ =
    C.ok (⟨none, 0⟩, [true, false, true, true, true, false, true, true]) := rfl
example : execAll [(.build [1, 2, 3] 2, true), (.append_build [7] 1, true), (.shrink 1 false, true),
      (.prepend ⟨some [some 9], 1⟩, true)] ⟨none, 0⟩ =
    C.ok (⟨some [some 9, some 2, some 7], 3⟩, [true, true, true, true]) := rfl
example : Wf ⟨some [some 9], 1⟩ := rfl
example : (Call.prepend ⟨some [some 9], 1⟩).valid := rfl

end CUtil.Buffer
