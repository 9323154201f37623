import Verif.Base
/-
external_command_helper_execute: /repo/src/external_command_helper.c.

The command is what it writes and how the pipe ends; pipe_popen, pipe_pclose (c_pal), fgets and feof are modelled by
what they are documented to do. RC_STRING is its text (see RcString for the object). Only the count of lines is
simplified: a command that writes 2^32 lines or more is outside the model (undefined).
-/
namespace CUtil.External
open CUtil

abbrev bufferSize : Nat := 2048

/-- What the run of a command is: what it writes, whether reading the pipe ends with an error instead of the end of the
stream, and which calls succeed: `pipe_popen`, the `i`-th `realloc_flex` and `rc_string_create`, `rc_string_array_create`,
`pipe_pclose` (with the exit code). -/
structure Env where
  data : List UInt8
  readError : Bool
  popen : Bool
  reallocOk : Nat → Bool
  createOk : Nat → Bool
  arrayOk : Bool
  pclose : Option Int

/-- At most `k` bytes, up to and with the first newline; and what is left. -/
def takeLine : Nat → List UInt8 → List UInt8 × List UInt8
  | 0, s => ([], s)
  | _ + 1, [] => ([], [])
  | k + 1, c :: s => if c = 10 then ([c], s) else (c :: (takeLine k s).1, (takeLine k s).2)

/-- C `fgets` into a buffer of `n` bytes: NULL at the end of the stream with nothing read, and when an error came before a
newline or a full buffer. The bytes put in the buffer (before the terminating zero) and what is left of the stream. -/
def fgets (n : Nat) (s : List UInt8) (readError : Bool) : Option (List UInt8 × List UInt8) :=
  if (takeLine (n - 1) s).1 = [] then none
  else if readError ∧ (takeLine (n - 1) s).2 = [] ∧ (takeLine (n - 1) s).1.getLast? ≠ some 10 ∧ (takeLine (n - 1) s).1.length < n - 1 then none
  else some (takeLine (n - 1) s)

/-- C `strlen` of the bytes followed by a zero. -/
def strlen (s : List UInt8) : Nat := (s.takeWhile (fun c => c != 0)).length

/-- C `strcspn(s, "\r\n")`. -/
def strcspn (s : List UInt8) : Nat := (s.takeWhile (fun c => c != 0 && c != 13 && c != 10)).length

/-- external_command_helper.c:66-125 the while loop. `lines`: `line_array`, entries may be NULL. -/
def loop (env : Env) : Nat → List UInt8 → Bool → List (Option (List UInt8)) → C (Bool × List (Option (List UInt8)))
  | 0, _, _, _ => C.ub
  | fuel + 1, s, failed, lines =>
    match fgets bufferSize s env.readError with
    | none => C.ok (failed, lines)
    | some (buf, rest) =>
      if failed then loop env fuel rest true lines
      else if strlen buf = strcspn buf ∨ strcspn buf ≥ bufferSize then loop env fuel rest true lines
      else if env.reallocOk lines.length then
        if lines.length + 1 = 4294967296 then C.ub
        else if env.createOk lines.length then loop env fuel rest false (lines ++ [some (buf.take (strcspn buf))])
        else loop env fuel rest true (lines ++ [none])
      else loop env fuel rest true lines

inductive Status where
  | ok | invalidArgs | error
  deriving DecidableEq, Repr

/-- What a call did: the result, `*lines` and `*return_code` when they were stored, the strings whose reference it
released, and whether the pipe it opened was closed. -/
structure Out where
  status : Status
  lines : Option (List (Option (List UInt8)))
  code : Option Int
  released : List (List UInt8)
  opened : Bool
  closed : Bool
  deriving DecidableEq, Repr

/-- external_command_helper.c:25-191 `external_command_helper_execute`. `command = none`: NULL; `linesNull`, `codeNull`:
the out arguments are NULL. -/
def execute (command : Option (List UInt8)) (linesNull codeNull : Bool) (env : Env) : C Out :=
  match command with
  | none => C.ok ⟨.invalidArgs, none, none, [], false, false⟩
  | some command =>
    if command = [] ∨ linesNull ∨ codeNull then C.ok ⟨.invalidArgs, none, none, [], false, false⟩
    else if env.popen = false then C.ok ⟨.error, none, none, [], false, false⟩
    else
      loop env (env.data.length + 1) env.data false [] >>= fun r =>
      -- lines 173-180: what is left in line_array is released
      let cleanup := r.2.filterMap id
      if r.1 = false ∧ env.readError then C.ok ⟨.error, none, none, cleanup, true, false⟩
      else
        match env.pclose with
        | none => C.ok ⟨.error, none, none, cleanup, true, true⟩
        | some code =>
          if r.1 then C.ok ⟨.error, none, none, cleanup, true, true⟩
          else if env.arrayOk then C.ok ⟨.ok, some r.2, some code, [], true, true⟩
          else C.ok ⟨.error, none, none, cleanup, true, true⟩

end CUtil.External
