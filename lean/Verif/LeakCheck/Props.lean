import Verif.LeakCheck.Model
import Verif.Folder.Props
/-
C75: the check for leaks looks at every log.
-/
namespace CUtil.LeakCheck
open CUtil CUtil.Folder

/-! ### Specification -/

/-- The file is a report of leaks. -/
def Reports (content : List UInt8) : Prop := warning <+: content

/-- What is printed of a file: a report of leaks completely, the beginning of one that is no report, nothing of a report that there are no leaks or of one that is too short. -/
def Prints (content : List UInt8) (chunks : List (List UInt8)) : Prop :=
  (Reports content → chunks.flatten = content ∧ ∀ c ∈ chunks, c.length ≤ 256) ∧
  (¬ Reports content → chunks = if noLeaks <+: content ∨ content.length < warning.length then [] else [content.take 256])

/-- The path of the entry `name` of a folder: the two with a slash between. -/
abbrev InFolder (folder name : Path) : Path := folder ++ 47 :: name

theorem fullName_eq (folder : Path) (e : Entry) : fullName folder e = InFolder folder e.name := by simp [fullName]

/-- The entry of the folder is a report of leaks that can be opened. -/
def Leaky (file : Path → Option (List UInt8)) (folder : Path) (e : Entry) : Prop :=
  e.name ≠ [46] ∧ e.name ≠ [46, 46] ∧ ∃ content, file (InFolder folder e.name) = some content ∧ Reports content

/-! ### One file -/

theorem strncmpEq_prefix : ∀ (b a : List UInt8), (0 : UInt8) ∉ b → b.length ≤ a.length → strncmpEq a b b.length = C.ok (decide (b <+: a))
  | [], a, _, _ => by simp [strncmpEq]
  | y :: b, [], _, h => by simp at h
  | y :: b, x :: a, h0, h => by
    have ih := strncmpEq_prefix b a (by simp_all) (by simpa using h)
    have hy : y ≠ 0 := by rintro rfl; simp at h0
    rw [List.length_cons, strncmpEq]
    by_cases e : x = y
    · subst e; simp [hy, ih]
    · have e' : ¬ y = x := fun h => e h.symm
      simp [e, e']

theorem prefix_take {b a : List UInt8} {n : Nat} (h : b.length ≤ n) : b <+: a.take n ↔ b <+: a :=
  ⟨fun h' => h'.trans (List.take_prefix n a), fun h' => List.prefix_take_iff.2 ⟨h', h⟩⟩

theorem printAll_spec : ∀ (k : Nat) (chunk rest : List UInt8) (printed : List (List UInt8)), (chunk = [] → rest = []) → chunk.length + rest.length < k → chunk.length ≤ 256 →
    ∃ cs, printAll chunk rest printed k = printed ++ cs ∧ cs.flatten = chunk ++ rest ∧ ∀ c ∈ cs, c.length ≤ 256
  | 0, _, _, _, _, h, _ => by omega
  | k + 1, chunk, rest, printed, he, h, hl => by
    rw [printAll]
    by_cases hc : chunk.length > 0
    · rw [if_pos hc]
      obtain ⟨cs, e1, e2, e3⟩ := printAll_spec k (rest.take 256) (rest.drop 256) (printed ++ [chunk])
        (by intro h'; cases rest <;> simp_all) (by have := List.take_append_drop 256 rest; have := congrArg List.length this; rw [List.length_append] at this; omega) (by simp; omega)
      refine ⟨chunk :: cs, by simp [e1], by simp [e2], ?_⟩
      intro c hc'
      rcases List.mem_cons.1 hc' with rfl | hc'
      · exact hl
      · exact e3 c hc'
    · rw [if_neg hc]
      have : chunk = [] := List.length_eq_zero_iff.1 (by omega)
      exact ⟨[], by simp, by simp [this, he this], by simp⟩

theorem warning_not_noLeaks {content : List UInt8} (h : Reports content) : ¬ noLeaks <+: content := by
  intro h'
  obtain ⟨t, rfl⟩ := h
  obtain ⟨u, hu⟩ := h'
  simp [warning, noLeaks] at hu

/-- C75: the examination of a file is defined whatever is in it; it raises the flag exactly for a report of leaks, and prints it completely. -/
theorem examine_spec (content : List UInt8) (s : St) :
    ∃ found chunks, examine content s = C.ok ⟨s.found || found, s.printed ++ chunks⟩ ∧ (found = true ↔ Reports content) ∧ Prints content chunks := by
  have lw : warning.length = 52 := rfl
  have ln : noLeaks.length = 25 := rfl
  have hlen : ∀ b : List UInt8, b <+: content → b.length ≤ content.length := fun b h => h.length_le
  have lt : (content.take 256).length = min 256 content.length := List.length_take ..
  unfold examine
  by_cases h1 : (content.take 256).length < noLeaks.length
  · have nr : ¬ Reports content := fun h => by have := hlen _ h; omega
    refine ⟨false, [], by simp only [h1, if_true]; simp, by simp [nr], fun h => (nr h).elim, fun _ => ?_⟩
    rw [if_pos (Or.inr (by omega))]
  · have e1 := strncmpEq_prefix noLeaks (content.take 256) (by decide) (by omega)
    simp only [h1, if_false, e1, C.ok_bind]
    by_cases h2 : noLeaks <+: content
    · have nr : ¬ Reports content := fun h => warning_not_noLeaks h h2
      refine ⟨false, [], by simp [(prefix_take (n := 256) (by omega)).2 h2], by simp [nr], fun h => (nr h).elim, fun _ => ?_⟩
      rw [if_pos (Or.inl h2)]
    · have n2 : ¬ noLeaks <+: content.take 256 := fun h => h2 ((prefix_take (by omega)).1 h)
      simp only [n2, decide_false, Bool.false_eq_true, if_false]
      by_cases h3 : (content.take 256).length < warning.length
      · have nr : ¬ Reports content := fun h => by have := hlen _ h; omega
        refine ⟨false, [], by simp only [h3, if_true]; simp, by simp [nr], fun h => (nr h).elim, fun _ => ?_⟩
        rw [if_pos (Or.inr (by omega))]
      · have e2 := strncmpEq_prefix warning (content.take 256) (by decide) (by omega)
        simp only [h3, if_false, e2, C.ok_bind]
        by_cases h4 : Reports content
        · have y4 : warning <+: content.take 256 := (prefix_take (by omega)).2 h4
          obtain ⟨cs, p1, p2, p3⟩ := printAll_spec (content.length + 1) (content.take 256) (content.drop 256) s.printed
            (by intro h; have : content = [] := (List.take_eq_nil_iff.1 h).resolve_left (by omega); rw [this]; rfl) (by have := congrArg List.length (List.take_append_drop 256 content); rw [List.length_append] at this; omega) (by omega)
          refine ⟨true, cs, by simp [y4, p1], by simp [h4], fun _ => ⟨by rw [p2, List.take_append_drop], p3⟩, fun h => (h h4).elim⟩
        · have n4 : ¬ warning <+: content.take 256 := fun h => h4 ((prefix_take (by omega)).1 h)
          refine ⟨false, [content.take 256], by simp [n4], by simp [h4], fun h => (h4 h).elim, fun _ => ?_⟩
          rw [if_neg (fun h => h.elim h2 (fun h => by omega))]

/-! ### The folder -/

/-- The callback is defined, keeps the flag, and raises it for a leaky entry. -/
theorem callback_spec (file : Path → Option (List UInt8)) (alloc : Path → Bool) (folder : Path) (e : Entry) (w : W (C St)) (s : St) (hs : w.user = C.ok s) :
    ∃ s', (checkLogFile file alloc folder e w).2.2.user = C.ok s' ∧ ((checkLogFile file alloc folder e w).1 = 0 → (s'.found = true ↔ s.found = true ∨ Leaky file folder e)) ∧
      ((checkLogFile file alloc folder e w).1 = 0 → (checkLogFile file alloc folder e w).2.1 = true) ∧
      ((checkLogFile file alloc folder e w).1 = 0 ↔ e.name = [46] ∨ e.name = [46, 46] ∨ alloc (InFolder folder e.name) = true) := by
  unfold checkLogFile
  rw [fullName_eq]
  by_cases h1 : e.name = [46] ∨ e.name = [46, 46]
  · rw [if_pos h1]
    refine ⟨s, hs, fun _ => ?_, fun _ => rfl, by rcases h1 with h | h <;> simp [h]⟩
    rcases h1 with h | h <;> simp [Leaky, h]
  · rw [if_neg h1]
    have n1 : e.name ≠ [46] := fun h => h1 (.inl h)
    have n2 : e.name ≠ [46, 46] := fun h => h1 (.inr h)
    cases ha : alloc (InFolder folder e.name) with
    | false =>
      rw [if_pos rfl]
      exact ⟨s, hs, fun h => (nomatch h), fun h => (nomatch h), by simp [n1, n2, MU_FAILURE]⟩
    | true =>
      rw [if_neg (by simp)]
      cases hf : file (InFolder folder e.name) with
      | none => exact ⟨s, hs, fun _ => by simp [Leaky, hf], fun _ => rfl, by simp⟩
      | some content =>
        obtain ⟨found, chunks, e1, e2, _⟩ := examine_spec content s
        refine ⟨_, by rw [hs]; exact e1, fun _ => ?_, fun _ => rfl, by simp⟩
        simp [Leaky, hf, n1, n2, e2]

/-- The loop over the entries. -/
theorem loop_leaks (file : Path → Option (List UInt8)) (alloc : Path → Bool) (folder : Path) (lastError : Nat) : ∀ (rest : List Entry) (e : Entry) (w : W (C St)) (s : St), w.user = C.ok s →
    ∃ s', (loop (checkLogFile file alloc) folder lastError e rest w).2.user = C.ok s' ∧
      ((loop (checkLogFile file alloc) folder lastError e rest w).1 = false →
        (s'.found = true ↔ s.found = true ∨ ∃ x ∈ e :: rest, Leaky file folder x)) ∧
      ((loop (checkLogFile file alloc) folder lastError e rest w).1 = false ↔
        lastError = ERROR_NO_MORE_FILES ∧ ∀ x ∈ e :: rest, x.name = [46] ∨ x.name = [46, 46] ∨ alloc (InFolder folder x.name) = true)
  | rest, e, w, s, hs => by
    obtain ⟨s1, c1, c2, c3, c4⟩ := callback_spec file alloc folder e w s hs
    unfold loop
    by_cases h : (checkLogFile file alloc folder e w).1 = 0
    · rw [if_neg (by simpa using h), if_neg (by simp [c3 h])]
      cases rest with
      | nil =>
        dsimp only
        by_cases hl : lastError = ERROR_NO_MORE_FILES
        · rw [if_pos hl]
          exact ⟨s1, c1, fun _ => by simpa using c2 h, by simpa [hl] using c4.1 h⟩
        · rw [if_neg hl]
          exact ⟨s1, c1, fun h => (nomatch h), by simp [hl]⟩
      | cons e' rest =>
        obtain ⟨s2, d1, d2, d3⟩ := loop_leaks file alloc folder lastError rest e' _ s1 c1
        refine ⟨s2, d1, fun hr => ?_, ?_⟩
        · rw [d2 hr, c2 h]
          simp [or_assoc]
        · dsimp only; rw [d3, List.forall_mem_cons (a := e)]
          exact ⟨fun ⟨a, b⟩ => ⟨a, c4.1 h, b⟩, fun ⟨a, _, b⟩ => ⟨a, b⟩⟩
    · rw [if_pos h]
      refine ⟨s1, c1, fun h => (nomatch h), ?_⟩
      constructor
      · intro h; cases h
      · intro ⟨_, h'⟩; exact (h (c4.2 (h' e (by simp)))).elim

/-- C75: on a folder with entries the check is defined; it is an error exactly if memory ran out or the listing broke off; and else it says that there are leaks
exactly if one of the files that can be opened is a report of leaks, wherever in the folder it is. -/
theorem check_folder (find : Path → W (C St) → Found) (file : Path → Option (List UInt8)) (alloc : Path → Bool) (folder : Path) {e : Entry} {rest : List Entry} {lastError : Nat}
    (hf : ∀ w, find (folder ++ [92, 42]) w = .listing e rest lastError) (ha : alloc (folder ++ [92, 42]) = true) :
    ∃ r printed, checkFolder find file alloc true (some folder) = C.ok (r, printed) ∧
      (r = .error ↔ ¬ (lastError = ERROR_NO_MORE_FILES ∧ ∀ x ∈ e :: rest, x.name = [46] ∨ x.name = [46, 46] ∨ alloc (InFolder folder x.name) = true)) ∧
      (r = .leaksFound → ∃ x ∈ e :: rest, Leaky file folder x) ∧
      (r = .ok → ¬ ∃ x ∈ e :: rest, Leaky file folder x) := by
  obtain ⟨s, h1, h2, h3⟩ := loop_leaks file alloc folder lastError rest e ⟨C.ok ⟨false, []⟩, [] ++ [.opened folder]⟩ ⟨false, []⟩ rfl
  simp only [checkFolder, forEachInFolder, ha, hf, Bool.true_eq_false, if_false, C.pure_eq, h1, C.ok_bind]
  rw [← h3]
  cases hb : (loop (checkLogFile file alloc) folder lastError e rest ⟨C.ok ⟨false, []⟩, [] ++ [.opened folder]⟩).1 with
  | true => exact ⟨.error, s.printed, by simp [MU_FAILURE], by simp, by simp, by simp⟩
  | false =>
    have h2 := h2 hb
    cases hs : s.found with
    | true => exact ⟨.leaksFound, s.printed, by simp, by simp, fun _ => by simpa using h2.1 hs, by simp⟩
    | false =>
      refine ⟨.ok, s.printed, by simp, by simp, by simp, fun _ h => ?_⟩
      have := h2.2 (.inr h)
      rw [hs] at this; cases this

/-- C75: a folder that is not there has no leaks; NULL and lack of memory are errors. -/
theorem check_folder_none (find : Path → W (C St) → Found) (file : Path → Option (List UInt8)) (alloc : Path → Bool) (folder : Path) :
    checkFolder find file alloc true none = C.ok (.error, []) ∧ checkFolder find file alloc false (some folder) = C.ok (.error, []) ∧
    (alloc (folder ++ [92, 42]) = false → checkFolder find file alloc true (some folder) = C.ok (.error, [])) ∧
    (∀ lastError, alloc (folder ++ [92, 42]) = true → (∀ w, find (folder ++ [92, 42]) w = .fail lastError) →
      checkFolder find file alloc true (some folder) = C.ok (if lastError = 2 ∨ lastError = 3 then .ok else .error, [])) := by
  refine ⟨rfl, rfl, fun h => by simp [checkFolder, forEachInFolder, h, MU_FAILURE], fun l h hf => ?_⟩
  by_cases hl : l = 2 ∨ l = 3 <;> simp [checkFolder, forEachInFolder, h, hf, hl, MU_FAILURE]

/-- The hypotheses can be met: of two files the second is a report of leaks. -/
example : ∃ printed, checkFolder (fun _ _ => .listing ⟨false, [97]⟩ [⟨true, [46]⟩, ⟨false, [98]⟩] 18)
    (fun p => if p = [99, 47, 98] then some (warning ++ [10]) else some noLeaks) (fun _ => true) true (some [99]) = C.ok (.leaksFound, printed) :=
  ⟨_, rfl⟩

/-- Finding: a report of leaks that cannot be opened (it is in use, say) counts as no leak. -/
theorem unreadable_passes : checkFolder (fun _ _ => .listing ⟨false, [97]⟩ [] 18) (fun _ => none) (fun _ => true) true (some [99]) = C.ok (.ok, []) := rfl

end CUtil.LeakCheck
