import Verif.Uuid.Props
import Verif.Strings.Props
import Verif.TestHelpers.Spec

/-! C87: GUIDs as text.  C88: how asserts and mocks treat RC_STRING handles. -/

namespace CUtil.TestHelpers
open Spec

theorem denotes_length {s u : List UInt8} (h : Uuid.Spec.Denotes s u) : s.length = 36 ∧ u.length = 16 := by
  obtain ⟨t1, t2, t3, t4, t5, u1, u2, u3, u4, u5, rfl, rfl, l1, l2, l3, l4, l5, h1, h2, h3, h4, h5⟩ := h
  have e1 := Uuid.hexText_length h1
  have e2 := Uuid.hexText_length h2
  have e3 := Uuid.hexText_length h3
  have e4 := Uuid.hexText_length h4
  have e5 := Uuid.hexText_length h5
  simp only [List.length_append, List.length_singleton]
  omega

/-- What the call answers, for every text and every behaviour of GUID_from_uuid. -/
theorem from_string_cases {γ : Type} (convert : Mem → Option γ) (s t : List UInt8) (h0 : (0 : UInt8) ∉ s) (g : γ) :
    (∃ u, Uuid.Spec.Denotes s u ∧ getGuidFromString convert (some (s ++ 0 :: t)) (some g) =
        C.ok (match convert (u.map some) with | none => (false, some g) | some g' => (true, some g'))) ∨
      ((∀ u, ¬ Uuid.Spec.Denotes s u) ∧ getGuidFromString convert (some (s ++ 0 :: t)) (some g) = C.ok (false, some g)) := by
  unfold getGuidFromString
  simp only [strlen_zstr s t h0, C.ok_bind, C.pure_eq]
  by_cases hl : s.length = 36
  · rw [if_neg (by simpa using hl)]
    have hd : (uninit 16 : Mem).length = 16 := by simp [uninit]
    by_cases hx : ∃ u, Uuid.Spec.Denotes s u
    · obtain ⟨u, hu⟩ := hx
      refine .inl ⟨u, hu, ?_⟩
      rw [Uuid.from_string_accepts s u (0 :: t) _ hd hu]
      simp only [C.ok_bind, Option.bind_some]
      rw [if_neg (by simp)]
      cases convert (u.map some) <;> rfl
    · refine .inr ⟨fun u hu => hx ⟨u, hu⟩, ?_⟩
      obtain ⟨r, d, e, _, hr⟩ := Uuid.from_string_safe s t (uninit 16) hd
      rw [e]
      simp only [C.ok_bind]
      rw [if_pos]
      rintro rfl
      obtain ⟨a, u, b, e', hden, _⟩ := Uuid.from_string_sound _ _ hd _ e
      have hal := (denotes_length hden).1
      have : a = s := by
        have := congrArg (List.take 36) e'
        rw [← hal, List.take_append_of_le_length (by omega), List.take_of_length_le (by omega), List.take_append_of_le_length (by omega),
          List.take_of_length_le (by omega)] at this
        exact this.symm
      exact hx ⟨u, this ▸ hden⟩
  · rw [if_pos (by simpa using hl)]
    exact .inr ⟨fun u hu => hl (denotes_length hu).1, rfl⟩

/-- C87: getGuidFromString succeeds exactly for the texts of uuids, nothing before, nothing behind them, that
GUID_from_uuid converts, and then stores what it makes of those 16 bytes. -/
theorem guid_from_string_iff {γ : Type} (convert : Mem → Option γ) (s t : List UInt8) (h0 : (0 : UInt8) ∉ s) (g g' : γ) :
    getGuidFromString convert (some (s ++ 0 :: t)) (some g) = C.ok (true, some g') ↔
      ∃ u, Uuid.Spec.Denotes s u ∧ convert (u.map some) = some g' := by
  rcases from_string_cases convert s t h0 g with ⟨u, hu, e⟩ | ⟨hn, e⟩
  · rw [e]
    constructor
    · intro h
      refine ⟨u, hu, ?_⟩
      cases hc : convert (u.map some) with
      | none => simp [hc] at h
      | some g'' => simp [hc] at h; rw [h]
    · rintro ⟨u', hu', hc⟩
      have e1 := Uuid.from_string_accepts s u [] (uninit 16) (by simp [uninit]) hu
      have e2 := Uuid.from_string_accepts s u' [] (uninit 16) (by simp [uninit]) hu'
      rw [e1] at e2
      have : u.map some = u'.map some := by simpa using e2
      rw [this, hc]
  · rw [e]
    constructor
    · intro h; simp at h
    · rintro ⟨u, hu, _⟩; exact absurd hu (hn u)

/-- C87: whatever the text, the call is defined; when it fails `*guid` is as it was (GUID_from_uuid storing nothing when it
fails); NULL arguments are refused. -/
theorem guid_from_string_fails {γ : Type} (convert : Mem → Option γ) (s t : List UInt8) (h0 : (0 : UInt8) ∉ s) (g : γ) :
    (∃ ok g', getGuidFromString convert (some (s ++ 0 :: t)) (some g) = C.ok (ok, some g') ∧ (ok = false → g' = g)) ∧
    (∀ x, getGuidFromString convert none x = C.ok (false, x)) ∧
    ∀ x, getGuidFromString convert x none = C.ok (false, none) := by
  refine ⟨?_, fun x => rfl, fun x => by cases x <;> rfl⟩
  rcases from_string_cases convert s t h0 g with ⟨u, hu, e⟩ | ⟨hn, e⟩
  · rw [e]
    cases convert (u.map some) with
    | none => exact ⟨false, g, rfl, fun _ => rfl⟩
    | some g' => exact ⟨true, g', rfl, by simp⟩
  · exact ⟨false, g, e, fun _ => rfl⟩

/-- C87: getGuidAsString gives NULL exactly if no uuid is produced or there is no memory, and otherwise a text of 36
characters that getGuidFromString takes back to the uuid produced. -/
theorem guid_as_string_spec {γ : Type} (convert : Mem → Option γ) (produced : Option (List UInt8)) (allocOk : Bool)
    (hp : ∀ u, produced = some u → u.length = 16) (g : γ) :
    ∃ r, getGuidAsString produced allocOk = C.ok r ∧ (r = none ↔ produced = none ∨ allocOk = false) ∧
      ∀ s, r = some s → s.length = 36 ∧ (0 : UInt8) ∉ s ∧ ∃ u, produced = some u ∧ Uuid.Spec.Denotes s u ∧ Uuid.Spec.Lower s ∧
        ∀ g', getGuidFromString convert (some (zstr s)) (some g) = C.ok (true, some g') ↔ convert (u.map some) = some g' := by
  cases produced with
  | none => exact ⟨none, rfl, by simp, by simp⟩
  | some u =>
    obtain ⟨r, hr, hf, ht⟩ := Uuid.to_string_denotes allocOk u (hp u rfl)
    refine ⟨r, hr, ?_, ?_⟩
    · cases allocOk with
      | false => simp [hf rfl]
      | true => obtain ⟨s, rfl, _⟩ := ht rfl; simp
    · rintro s rfl
      cases allocOk with
      | false => simp at hf
      | true =>
        obtain ⟨s', e, hden, hlow, hz, hl⟩ := ht rfl
        injection e with e
        subst e
        refine ⟨hl, hz, u, rfl, hden, hlow, fun g' => ?_⟩
        have := guid_from_string_iff convert s [] hz g g'
        unfold zstr
        rw [this]
        constructor
        · rintro ⟨u', hu', hc⟩
          have e1 := Uuid.from_string_accepts s u [] (uninit 16) (by simp [uninit]) hden
          have e2 := Uuid.from_string_accepts s u' [] (uninit 16) (by simp [uninit]) hu'
          rw [e1] at e2
          have : u.map some = u'.map some := by simpa using e2
          rw [this, hc]
        · exact fun hc => ⟨u, hden, hc⟩

/-- C88: the assert's comparison is the order of what the handles stand for. -/
theorem compare_order {l r : Handle} {a b : Val} (hl : Stands l a) (hr : Stands r b) :
    ∃ c, compare l r = C.ok c ∧ (c = 0 ↔ a = b) ∧ (c < 0 ↔ Less a b) ∧ (0 < c ↔ Less b a) := by
  match l, a, r, b, hl, hr with
  | none, .null, none, .null, _, _ => exact ⟨0, rfl, by simp, by simp [Less], by simp [Less]⟩
  | none, .null, some (some m), .text s, _, _ => exact ⟨-1, rfl, by simp, by simp [Less], by simp [Less]⟩
  | some (some m), .text s, none, .null, _, _ => exact ⟨1, rfl, by simp, by simp [Less], by simp [Less]⟩
  | some (some m), .text s, some (some n), .text t, hl, hr =>
    obtain ⟨c, hc, h1, h2, h3⟩ := (Strings.compare_spec m n s t hl hr).1
    exact ⟨c, hc, by simpa using h1, h2, h3⟩

/-- `Less` is a strict total order. -/
theorem less_order (a b c : Val) : ¬ Less a a ∧ (Less a b → Less b c → Less a c) ∧ (Less a b ∨ a = b ∨ Less b a) := by
  refine ⟨?_, ?_, ?_⟩
  · cases a with
    | null => simp [Less]
    | text s => exact List.lt_irrefl s
  · cases a <;> cases b <;> cases c <;> simp [Less]
    exact fun h1 h2 => List.lt_trans h1 h2
  · cases a <;> cases b <;> simp [Less]
    rename_i s t
    rcases Decidable.em (s < t) with h | h
    · exact .inl h
    · rcases Decidable.em (t < s) with h' | h'
      · exact .inr (.inr h')
      · exact .inr (.inl (List.le_antisymm h' h))

/-- C88: mocks take two arguments for equal exactly if the assert does, that is if both are NULL or have the same text. -/
theorem mock_agrees {l r : Handle} {a b : Val} (hl : Stands l a) (hr : Stands r b) :
    ∃ e c, areEqual (some l) (some r) = C.ok e ∧ compare l r = C.ok c ∧ (e = 1 ↔ a = b) ∧ (e = 0 ↔ a ≠ b) ∧ (c = 0 ↔ e = 1) := by
  obtain ⟨c, hc, h0, _, _⟩ := compare_order hl hr
  match l, a, r, b, hl, hr with
  | none, .null, none, .null, _, _ => exact ⟨1, c, rfl, hc, by simp, by simp, by simp [h0]⟩
  | none, .null, some (some m), .text s, _, _ => exact ⟨0, c, rfl, hc, by simp, by simp, by simp [h0]⟩
  | some (some m), .text s, none, .null, _, _ => exact ⟨0, c, rfl, hc, by simp, by simp, by simp [h0]⟩
  | some (some m), .text s, some (some n), .text t, hl, hr =>
    have hs : Strings.strcmp m n = C.ok c := hc
    refine ⟨if c = 0 then 1 else 0, c, ?_, hc, ?_, ?_, ?_⟩
    · simp only [areEqual, charptrEqual, hs, C.ok_bind, C.pure_eq]
    · by_cases h : c = 0 <;> simp [h, ← h0]
    · by_cases h : c = 0 <;> simp [h, ← h0]
    · by_cases h : c = 0 <;> simp [h]

/-- NULL pointers to handles are answered with -1. -/
theorem mock_refuses (x : Option Handle) : areEqual none x = C.ok (-1) ∧ areEqual x none = C.ok (-1) := by
  refine ⟨rfl, ?_⟩
  match x with
  | none => rfl
  | some none => rfl
  | some (some none) => rfl
  | some (some (some m)) => rfl

/-- Note: for an object whose text pointer is NULL, which no rc_string function makes, the two disagree: such a value is
not even equal to itself for a mock. -/
theorem null_text_disagrees : compare (some none) (some none) = C.ok 0 ∧ areEqual (some (some none)) (some (some none)) = C.ok 0 :=
  ⟨rfl, rfl⟩

/-- Such an object comes after NULL and before every text, for the assert. -/
theorem null_text_order (m : Mem) : (∃ c, compare none (some none) = C.ok c ∧ c < 0) ∧ (∃ c, compare (some none) none = C.ok c ∧ 0 < c) ∧
    (∃ c, compare (some none) (some (some m)) = C.ok c ∧ c < 0) ∧ ∃ c, compare (some (some m)) (some none) = C.ok c ∧ 0 < c :=
  ⟨⟨_, rfl, by decide⟩, ⟨_, rfl, by decide⟩, ⟨_, rfl, by decide⟩, ⟨_, rfl, by decide⟩⟩

/-- C88: copying takes one reference and freeing the copy gives it back and leaves NULL, so that freeing again does nothing. -/
theorem copy_free (refs : Refs) (source : Option Nat) (ha : ∀ p, source = some p → refs p ≠ 0) :
    ∃ refs', copy refs false (some source) = C.ok (true, some source, refs') ∧
      (∀ q, refs' q = refs q + if source = some q then 1 else 0) ∧
      free refs' (some source) = C.ok (some none, refs) ∧ (∀ r, free r (some none) = C.ok (some none, r)) ∧
      (∀ r, free r none = C.ok (none, r)) ∧
      (∀ x, copy refs true x = C.ok (false, none, refs)) ∧ ∀ d, copy refs d none = C.ok (false, none, refs) := by
  cases source with
  | none =>
    refine ⟨refs, rfl, by simp, rfl, fun _ => rfl, fun _ => rfl, fun x => ?_, fun d => by cases d <;> rfl⟩
    cases x <;> rfl
  | some p =>
    have hp := ha p rfl
    refine ⟨fun q => if q = p then refs q + 1 else refs q, ?_, ?_, ?_, fun _ => rfl, fun _ => rfl, fun x => ?_, fun d => by cases d <;> rfl⟩
    · simp only [copy]; rw [if_neg hp]; rfl
    · intro q
      by_cases h : q = p
      · subst h; simp
      · have h' : p ≠ q := fun e => h e.symm
        simp [h, h']
    · simp only [free]
      rw [if_neg (by simp)]
      simp only [C.pure_eq, C.ok.injEq, Prod.mk.injEq, true_and]
      funext q
      by_cases h : q = p <;> simp [h]
    · cases x <;> rfl

/-! The hypotheses are met. -/

example : (0 : UInt8) ∉ "8C9F1E63-3F22-4AFD-bc7d-8d1b20f968d6".toUTF8.toList ∧
    getGuidFromString (fun m => some m) (some (zstr "8C9F1E63-3F22-4AFD-bc7d-8d1b20f968d6".toUTF8.toList)) (some []) =
      C.ok (true, some ([0x8c, 0x9f, 0x1e, 0x63, 0x3f, 0x22, 0x4a, 0xfd, 0xbc, 0x7d, 0x8d, 0x1b, 0x20, 0xf9, 0x68, 0xd6].map some)) := by
  decide +kernel

/-- One more character and the text is refused, although uuid_from_string would take it. -/
example : getGuidFromString (fun m => some m) (some (zstr "8C9F1E63-3F22-4AFD-bc7d-8d1b20f968d67".toUTF8.toList)) (some []) =
    C.ok (false, some []) := by decide +kernel

example : Stands (some (some ([97, 98, 0].map some))) (.text [97, 98]) ∧ Stands (some (some ([97, 99, 0, 5].map some))) (.text [97, 99]) ∧
    Less (.text [97, 98]) (.text [97, 99]) ∧ Stands none .null := by
  refine ⟨?_, ?_, ?_, trivial⟩
  · show cstr _ = _; decide
  · show cstr _ = _; decide
  · show ([97, 98] : List UInt8) < [97, 99]; decide

example : ∀ p, some 3 = some p → (fun q : Nat => if q = 3 then 1 else 0) p ≠ 0 := by rintro p h; cases h; decide

end CUtil.TestHelpers
