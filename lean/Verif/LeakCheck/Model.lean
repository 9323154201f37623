import Verif.Folder.Model
/-
The check for leaks of the test helpers: /repo/test_helpers/src/leak_log_checker.c, on top of for_each_in_folder (Verif/Folder).

`file` says what is in a file, `none` if fopen fails; fread gives as many bytes as there are, up to the size of the buffer. `sprintf_char` fails
as `alloc` says. `file` gives the bytes as the text mode of fopen shows them. What is printed (LogInfo of the contents of the buffer) is recorded.
-/
namespace CUtil.LeakCheck
open CUtil CUtil.Folder

/-- leak_log_checker.c:16 `expected_vld_warning`, "WARNING: Visual Leak Detector detected memory leaks!", without the terminator. -/
def warning : List UInt8 := [87, 65, 82, 78, 73, 78, 71, 58, 32, 86, 105, 115, 117, 97, 108, 32, 76, 101, 97, 107, 32, 68, 101, 116, 101, 99, 116, 111, 114, 32, 100, 101, 116, 101, 99, 116, 101, 100, 32, 109, 101, 109, 111, 114, 121, 32, 108, 101, 97, 107, 115, 33]

/-- leak_log_checker.c:17 `expected_no_leaks_vld_warning`, "No memory leaks detected.", without the terminator. -/
def noLeaks : List UInt8 := [78, 111, 32, 109, 101, 109, 111, 114, 121, 32, 108, 101, 97, 107, 115, 32, 100, 101, 116, 101, 99, 116, 101, 100, 46]

/-- strncmp(a, b, n) == 0; `a` is the buffer, `b` ends where its terminator is. Undefined beyond the end of the buffer. -/
def strncmpEq : List UInt8 → List UInt8 → Nat → C Bool
  | _, _, 0 => pure true
  | [], _, _ + 1 => C.ub
  | x :: _, [], _ + 1 => pure (decide (x = 0))
  | x :: a, y :: b, n + 1 => if x ≠ y then pure false else if x = 0 then pure true else strncmpEq a b n

/-- What the callback changes: the flag of the caller, what is printed. -/
structure St where
  found : Bool
  printed : List (List UInt8)
  deriving DecidableEq

/-- leak_log_checker.c:85-92 print the buffer, read the next chunk, until nothing is read. `rest`: what has not been read; `chunk`: what is in the buffer. -/
def printAll (chunk rest : List UInt8) (printed : List (List UInt8)) : Nat → List (List UInt8)
  | 0 => printed
  | k + 1 => if chunk.length > 0 then printAll (rest.take 256) (rest.drop 256) (printed ++ [chunk]) k else printed

/-- leak_log_checker.c:54-99 an open file with these contents. The loop at :85 ends after as many rounds as there are bytes, at most. -/
def examine (content : List UInt8) (s : St) : C St :=
  let text_buffer := content.take 256
  if text_buffer.length < noLeaks.length then pure s
  else do
    let clean ← strncmpEq text_buffer noLeaks noLeaks.length
    if clean then pure s
    else if text_buffer.length < warning.length then pure s
    else do
      let warned ← strncmpEq text_buffer warning warning.length
      if warned = false then pure { s with printed := s.printed ++ [text_buffer] }
      else pure { found := true, printed := printAll text_buffer (content.drop 256) s.printed (content.length + 1) }

/-- leak_log_checker.c:36 `"%s/%s"`. -/
def fullName (folder : Path) (e : Entry) : Path := folder ++ [47] ++ e.name

/-- leak_log_checker.c:21-113 `check_log_file`. (When it fails it does not write `*enumerationShouldContinue`, which is then not looked at. Should the examination of
the file be undefined, the callback is: `examine_spec` shows that it is not; the state is then left as it is.) -/
def checkLogFile (file : Path → Option (List UInt8)) (alloc : Path → Bool) : Callback (C St) :=
  fun folder e w =>
    if e.name = [46] ∨ e.name = [46, 46] then (0, true, w)
    else if alloc (fullName folder e) = false then (MU_FAILURE, false, w)
    else match file (fullName folder e) with
      | none => (0, true, w)
      | some content => (0, true, { w with user := w.user.bind (examine content) })

inductive Result where
  | ok | leaksFound | error
  deriving DecidableEq, Repr

/-- leak_log_checker.c:115-160 `leak_log_checker_check_folder`; `nameOk`: the first sprintf_char succeeds. The result, and what was printed. -/
def checkFolder (find : Path → W (C St) → Found) (file : Path → Option (List UInt8)) (alloc : Path → Bool) (nameOk : Bool) (folder : Option Path) :
    C (Result × List (List UInt8)) :=
  match folder with
  | none => pure (.error, [])
  | some folder =>
    if nameOk = false then pure (.error, [])
    else do
      let r := forEachInFolder find alloc (some folder) (some (checkLogFile file alloc)) ⟨pure ⟨false, []⟩, []⟩
      let s ← r.2.user
      if r.1 ≠ 0 then pure (.error, s.printed)
      else if s.found then pure (.leaksFound, s.printed)
      else pure (.ok, s.printed)

end CUtil.LeakCheck
