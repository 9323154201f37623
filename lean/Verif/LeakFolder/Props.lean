import Verif.LeakFolder.Spec
/-
C86: the folders for leak logs.
-/
namespace CUtil.LeakFolder
open Spec

/-- C86: leak_log_folder_create succeeds exactly if nothing it calls fails; the result is then the path made of the name of the
computer, the root and a new uuid, and one folder was asked for with `mkdir`, by that path. -/
theorem create_spec (e : Env) (root : List Char) (path : List Char) :
    (create e root).1 = some path ↔
      ∃ guid computer, e.uuidOk = true ∧ e.uuidString = some guid ∧ e.computer = some computer ∧ e.pathOk = true ∧ e.wideOk = true ∧
        e.commandOk = true ∧ e.status = 0 ∧ e.errno = 0 ∧ path = fullPath computer root guid ∧
        commands (create e root).2 = [mkdir path] := by
  obtain ⟨uok, us, comp, pok, wok, cok, st, er⟩ := e
  cases uok <;> cases us <;> cases comp <;> cases pok <;> cases wok <;> cases cok <;>
    by_cases h : st ≠ 0 ∨ er ≠ 0 <;>
    simp [create, getGuidAsString, commands, h]
  · intro h1 h2; omega
  · constructor
    · intro h1; subst h1; exact ⟨by omega, by omega, rfl, rfl⟩
    · intro h1; exact h1.2.2.1.symm

/-- C86: whatever fails, every block the call allocates is allocated at most once and freed as often as allocated, except the path it
returns, which is the caller's; nothing is freed that was not allocated. -/
theorem create_memory (e : Env) (root : List Char) (b : Block) :
    allocs b (create e root).2 ≤ 1 ∧
    frees b (create e root).2 = if b = .wide ∧ (create e root).1 ≠ none then 0 else allocs b (create e root).2 := by
  obtain ⟨uok, us, comp, pok, wok, cok, st, er⟩ := e
  cases uok <;> cases us <;> cases comp <;> cases pok <;> cases wok <;> cases cok <;>
    by_cases h : st ≠ 0 ∨ er ≠ 0 <;> cases b <;>
    simp [create, getGuidAsString, allocs, frees, h]

/-- C86: leak_log_folder_destroy frees the path it is given, also if it cannot remove the folder. -/
theorem destroy_memory (folder : Option (List Char)) (commandOk : Bool) (b : Block) :
    frees b (destroy folder commandOk) = allocs b (destroy folder commandOk) + if b = .wide ∧ folder ≠ none then 1 else 0 := by
  cases folder <;> cases commandOk <;> cases b <;> simp [destroy, allocs, frees]

theorem wordsFrom_plain (p : List Char) : ∀ (cur rest : List Char), (∀ c ∈ p, isSep c = false) →
    wordsFrom cur (p ++ ' ' :: rest) = if cur ++ p = [] then wordsFrom [] rest else (cur ++ p) :: wordsFrom [] rest := by
  induction p with
  | nil => intro cur rest _; simp [wordsFrom, isSep]
  | cons c p ih =>
    intro cur rest h
    have h1 := h c (by simp)
    simp only [List.cons_append, wordsFrom, h1]
    rw [if_neg (by simp), ih _ _ (fun x hx => h x (by simp [hx]))]
    simp

theorem words_cmd (pre p : List Char) (hp : p ≠ []) (h : ∀ c ∈ p, isSep c = false) (ws : List (List Char))
    (hpre : ∀ rest, words (pre ++ rest) = ws ++ words rest) :
    words (pre ++ p ++ " 1>nul 2>nul".toList) = ws ++ [p, "1>nul".toList, "2>nul".toList] := by
  rw [List.append_assoc, hpre]
  have : " 1>nul 2>nul".toList = ' ' :: "1>nul 2>nul".toList := rfl
  rw [this]
  simp only [words]
  rw [wordsFrom_plain p [] _ h, if_neg (by simpa using hp)]
  rfl

theorem words_mkdir (rest : List Char) : words ("mkdir ".toList ++ rest) = ["mkdir".toList] ++ words rest := rfl

theorem words_rmdir (rest : List Char) :
    words ("rmdir /s /q ".toList ++ rest) = ["rmdir".toList, "/s".toList, "/q".toList] ++ words rest := rfl

theorem plain_not (p : List Char) (h : Plain p) : isRedirection p = false := by
  cases hh : isRedirection p with
  | false => rfl
  | true =>
    simp only [isRedirection, List.contains_iff_mem] at hh
    exact absurd rfl (h _ hh).2

/-- C86: if the names hold nothing special, the command of create makes exactly the folder that is returned, and that of destroy removes
exactly it.  Missing: names with separators, for which both are false (`other_folder_removed`). -/
theorem same_folder_partial (computer root guid : List Char) (hc : Plain computer) (hr : Plain root) (hg : Plain guid) :
    folders (mkdir (fullPath computer root guid)) = some ("mkdir".toList, [fullPath computer root guid]) ∧
    folders (rmdir (fullPath computer root guid)) = some ("rmdir".toList, [fullPath computer root guid]) := by
  have hp : Plain (fullPath computer root guid) := by
    intro c hcm
    simp only [fullPath, List.mem_cons, List.mem_append] at hcm
    have hs : isSep '\\' = false ∧ '\\' ≠ '>' := by decide
    grind [Plain]
  have hne : fullPath computer root guid ≠ [] := by simp [fullPath]
  have hsw : isSwitch (fullPath computer root guid) = false := by simp [fullPath, isSwitch]
  have hre := plain_not _ hp
  have hsep : ∀ c ∈ fullPath computer root guid, isSep c = false := fun c hcm => (hp c hcm).1
  have r1 : isRedirection "1>nul".toList = true := by decide
  have r2 : isRedirection "2>nul".toList = true := by decide
  have s1 : isSwitch "/s".toList = true := by decide
  have s2 : isSwitch "/q".toList = true := by decide
  have e1 : words (mkdir (fullPath computer root guid)) = _ := words_cmd "mkdir ".toList _ hne hsep ["mkdir".toList] words_mkdir
  have e2 : words (rmdir (fullPath computer root guid)) = _ :=
    words_cmd "rmdir /s /q ".toList _ hne hsep ["rmdir".toList, "/s".toList, "/q".toList] words_rmdir
  generalize fullPath computer root guid = p at *
  constructor
  · simp only [folders, e1, List.singleton_append, List.filter, hre, hsw, r1, r2, Bool.not_true, Bool.not_false, Bool.and_true, Bool.false_and]
  · simp only [folders, e2, List.cons_append, List.nil_append, List.filter, hre, hsw, r1, r2, s1, s2, Bool.not_true, Bool.not_false,
      Bool.and_true, Bool.false_and, Bool.and_false]

/-- The names of a run: computer `PC`, root `logs`, uuid `7`. -/
example : Plain "PC".toList ∧ Plain "logs".toList ∧ Plain "7".toList ∧
    folders (rmdir (fullPath "PC".toList "logs".toList "7".toList)) = some ("rmdir".toList, ["\\\\PC\\logs\\7".toList]) := by
  refine ⟨?_, ?_, ?_, by decide +kernel⟩ <;> (intro c hc; revert c; decide +kernel)

/-- C86: with a space in the name of the root, what create makes is not the folder it returns, and destroy removes, with all that is in
it, the folder named by the part before the space: the names are not quoted. -/
theorem other_folder_removed (e : Env) (he : e = ⟨true, some "7".toList, some "PC".toList, true, true, true, 0, 0⟩) :
    (create e "leak logs".toList).1 = some "\\\\PC\\leak logs\\7".toList ∧
    (commands (create e "leak logs".toList).2).map folders = [some ("mkdir".toList, ["\\\\PC\\leak".toList, "logs\\7".toList])] ∧
    (commands (destroy (create e "leak logs".toList).1 true)).map folders =
      [some ("rmdir".toList, ["\\\\PC\\leak".toList, "logs\\7".toList])] := by
  subst he
  refine ⟨by decide +kernel, by decide +kernel, by decide +kernel⟩

/-- C86: every command that is run discards both what it prints and its error messages. -/
theorem silent (e : Env) (root : List Char) (folder : Option (List Char)) (commandOk : Bool) :
    (∀ c ∈ commands (create e root).2, " 1>nul 2>nul".toList <:+ c) ∧ ∀ c ∈ commands (destroy folder commandOk), " 1>nul 2>nul".toList <:+ c := by
  constructor
  · obtain ⟨uok, us, comp, pok, wok, cok, st, er⟩ := e
    cases uok <;> cases us <;> cases comp <;> cases pok <;> cases wok <;> cases cok <;>
      by_cases h : st ≠ 0 ∨ er ≠ 0 <;> simp [create, getGuidAsString, commands, h] <;> exact ⟨_, rfl⟩
  · cases folder <;> cases commandOk <;> simp [destroy, commands]
    exact ⟨_, rfl⟩

/-- A call that succeeds, and one in which `mkdir` fails. -/
example : create ⟨true, some "7".toList, some "PC".toList, true, true, true, 0, 0⟩ "logs".toList =
    (some "\\\\PC\\logs\\7".toList, [.alloc .guid, .alloc .path, .alloc .wide, .alloc .command,
      .system "mkdir \\\\PC\\logs\\7 1>nul 2>nul".toList, .free .command, .free .path, .free .guid]) := by decide +kernel
example : create ⟨true, some "7".toList, some "PC".toList, true, true, true, 1, 0⟩ "logs".toList =
    (none, [.alloc .guid, .alloc .path, .alloc .wide, .alloc .command,
      .system "mkdir \\\\PC\\logs\\7 1>nul 2>nul".toList, .free .command, .free .wide, .free .path, .free .guid]) := by decide +kernel

end CUtil.LeakFolder
