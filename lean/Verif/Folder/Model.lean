import Verif.Base
/-
for_each_in_folder and for_each_in_sub_folder: /repo/src/for_each_in_folder.c, /repo/src/for_each_in_sub_folder.c (Windows).

A callback is any function of the folder, the entry and a state `σ` (its context and whatever else it changes); it gives its
return value, what it leaves in `*enumerationShouldContinue` and the new state. FindFirstFileA is an oracle: what it and the
FindNextFileA calls on its handle would give, in order, and the error that ends the listing. `sprintf_char` fails as the
parameter `alloc` says. The calls to the system and to the user are recorded in a log.
-/
namespace CUtil.Folder
open CUtil

abbrev Path := List UInt8

/-- The parts of WIN32_FIND_DATAA that are looked at. -/
structure Entry where
  isDir : Bool
  name : List UInt8
  deriving DecidableEq, Repr

abbrev ERROR_FILE_NOT_FOUND : Nat := 2
abbrev ERROR_PATH_NOT_FOUND : Nat := 3
abbrev ERROR_NO_MORE_FILES : Nat := 18

/-- What FindFirstFileA gives: an error; or a handle, the first entry, the entries after it and the error that ends them. -/
inductive Found where
  | fail (lastError : Nat)
  | listing (first : Entry) (rest : List Entry) (lastError : Nat)

/-- What is observable: a search is opened, closed; the user's callback is called. -/
inductive Ev where
  | opened (p : Path)
  | closed (p : Path)
  | call (p : Path) (e : Entry)
  deriving DecidableEq, Repr

/-- State of callbacks and the log. -/
structure W (σ : Type) where
  user : σ
  log : List Ev

/-- ON_EACH_IN_FOLDER: return value, `*enumerationShouldContinue`, state. -/
abbrev Callback (σ : Type) := Path → Entry → W σ → Int × Bool × W σ

/-- for_each_in_folder.c:66-109 the do-while loop on one handle: `wasError` and the state. -/
def loop {σ : Type} (cb : Callback σ) (folder : Path) (lastError : Nat) : Entry → List Entry → W σ → Bool × W σ
  | e, rest, w =>
    if (cb folder e w).1 ≠ 0 then (true, (cb folder e w).2.2)
    else if (cb folder e w).2.1 = false then (false, (cb folder e w).2.2)
    else match rest with
      | e' :: rest' => loop cb folder lastError e' rest' (cb folder e w).2.2
      | [] => if lastError = ERROR_NO_MORE_FILES then (false, (cb folder e w).2.2) else (true, (cb folder e w).2.2)

/-- Result of MU_FAILURE: not zero. -/
abbrev MU_FAILURE : Int := 1

/-- for_each_in_folder.c:15-125 `for_each_in_folder`. `none`: NULL. -/
def forEachInFolder {σ : Type} (find : Path → W σ → Found) (alloc : Path → Bool) (folder : Option Path) (cb : Option (Callback σ)) (w : W σ) :
    Int × W σ :=
  match folder, cb with
  | some folder, some cb =>
    -- line 34: `"%s\\*"`
    if alloc (folder ++ [92, 42]) = false then (MU_FAILURE, w)
    else match find (folder ++ [92, 42]) w with
      | .fail lastError =>
        if lastError = ERROR_FILE_NOT_FOUND ∨ lastError = ERROR_PATH_NOT_FOUND then (0, w) else (MU_FAILURE, w)
      | .listing first rest lastError =>
        let r := loop cb folder lastError first rest { w with log := w.log ++ [.opened folder] }
        -- line 106: FindClose
        (if r.1 then MU_FAILURE else 0, { r.2 with log := r.2.log ++ [.closed folder] })
  | _, _ => (MU_FAILURE, w)

/-- for_each_in_sub_folder.c:21-76 `on_subfolder_folder`; the context holds the user's callback. When it fails it does not write
`*enumerationShouldContinue`; the model gives false then, which is never looked at. -/
def onSubfolder {σ : Type} (find : Path → W σ → Found) (alloc : Path → Bool) (cb : Callback σ) : Callback σ :=
  fun folder e w =>
    if e.isDir = false then (0, true, w)
    else if e.name = [46] ∨ e.name = [46, 46] then (0, true, w)
    -- line 51: `"%s\\%s"`
    else if alloc (folder ++ [92] ++ e.name) = false then (MU_FAILURE, false, w)
    else if (forEachInFolder find alloc (some (folder ++ [92] ++ e.name)) (some cb) w).1 ≠ 0 then
      (MU_FAILURE, false, (forEachInFolder find alloc (some (folder ++ [92] ++ e.name)) (some cb) w).2)
    else (0, true, (forEachInFolder find alloc (some (folder ++ [92] ++ e.name)) (some cb) w).2)

/-- for_each_in_sub_folder.c:78-114 `for_each_in_sub_folder`. -/
def forEachInSubFolder {σ : Type} (find : Path → W σ → Found) (alloc : Path → Bool) (folder : Option Path) (cb : Option (Callback σ)) (w : W σ) :
    Int × W σ :=
  match folder, cb with
  | some folder, some cb =>
    if (forEachInFolder find alloc (some folder) (some (onSubfolder find alloc cb)) w).1 ≠ 0 then
      (MU_FAILURE, (forEachInFolder find alloc (some folder) (some (onSubfolder find alloc cb)) w).2)
    else (0, (forEachInFolder find alloc (some folder) (some (onSubfolder find alloc cb)) w).2)
  | _, _ => (MU_FAILURE, w)

end CUtil.Folder
