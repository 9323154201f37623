/-
The folders for the leak logs of the test helpers: /repo/test_helpers/src/leak_log_folder.c, with getGuidAsString of
/repo/test_helpers/src/guid_as_string.c:19-40.

Every function called that can fail is given as what it returns.  Strings are lists of characters; mbs_to_wcs and %ls are assumed to convert without
loss.  Memory is followed as a log of what is allocated and freed, commands as a log of what is given to `system`.
-/
namespace CUtil.LeakFolder

/-- The blocks a call allocates. -/
inductive Block where
  | guid | path | wide | command
  deriving DecidableEq, Repr

inductive Ev where
  | alloc (b : Block)
  | free (b : Block)
  /-- `system` is called -/
  | system (command : List Char)
  deriving DecidableEq, Repr

/-- What the environment answers. -/
structure Env where
  /-- real_uuid_produce succeeds -/
  uuidOk : Bool
  /-- real_uuid_to_string -/
  uuidString : Option (List Char)
  /-- GetComputerNameA -/
  computer : Option (List Char)
  /-- sprintf_char of the path -/
  pathOk : Bool
  /-- mbs_to_wcs -/
  wideOk : Bool
  /-- sprintf_char of the command -/
  commandOk : Bool
  /-- `system` -/
  status : Int
  /-- `errno` after it -/
  errno : Nat

/-- guid_as_string.c:19-40 `getGuidAsString`. -/
def getGuidAsString (e : Env) : Option (List Char) :=
  if e.uuidOk = false then none
  else e.uuidString

/-- leak_log_folder.c:37: the format `\\%s\%s\%s`. -/
def fullPath (computer root guid : List Char) : List Char := '\\' :: '\\' :: computer ++ '\\' :: root ++ '\\' :: guid

/-- leak_log_folder.c:51: the format `mkdir %s 1>nul 2>nul`. -/
def mkdir (path : List Char) : List Char := "mkdir ".toList ++ path ++ " 1>nul 2>nul".toList

/-- leak_log_folder.c:97: the format `rmdir /s /q %ls 1>nul 2>nul`. -/
def rmdir (path : List Char) : List Char := "rmdir /s /q ".toList ++ path ++ " 1>nul 2>nul".toList

/-- leak_log_folder.c:17-87 `leak_log_folder_create`: the result and what was done. -/
def create (e : Env) (root : List Char) : Option (List Char) × List Ev :=
  match getGuidAsString e with
  | none => (none, [])
  | some guid =>
    -- :27-80
    let (result, log) : Option (List Char) × List Ev :=
      match e.computer with
      | none => (none, [])
      | some computer =>
        if e.pathOk = false then (none, [])
        else
          let path := fullPath computer root guid
          -- :44-77
          let (result, log) : Option (List Char) × List Ev :=
            if e.wideOk = false then (none, [])
            else
              -- :51-76
              let (result, log) : Option (List Char) × List Ev :=
                if e.commandOk = false then (none, [])
                else
                  let result := if e.status ≠ 0 ∨ e.errno ≠ 0 then none else some path
                  (result, [.alloc .command, .system (mkdir path), .free .command])
              (result, .alloc .wide :: log ++ if result = none then [.free .wide] else [])
          (result, .alloc .path :: log ++ [.free .path])
    (result, .alloc .guid :: log ++ [.free .guid])

/-- leak_log_folder.c:89-107 `leak_log_folder_destroy`; `commandOk`: sprintf_char succeeds. -/
def destroy (folder : Option (List Char)) (commandOk : Bool) : List Ev :=
  match folder with
  | none => []
  | some path =>
    (if commandOk then [.alloc .command, .system (rmdir path), .free .command] else []) ++ [.free .wide]

end CUtil.LeakFolder
