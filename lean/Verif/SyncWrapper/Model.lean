import Verif.Base
/-
SYNC_WRAPPER: /repo/inc/c_util/sync_wrapper.h.

The macro generates, from the list of out arguments, a callback and a function. An out argument is copied by assignment or by a
copy handler that may fail (`custom`); the copies and the frees are recorded in a log, by the number of the argument.

The asynchronous function is the environment: it returns a value, and, when that is the expected one, calls the callback once.
InterlockedHL_WaitForValue returns OK only after the callback set `complete` (c_pal); it may also fail.
-/
namespace CUtil.SyncWrapper
open CUtil

/-- An out argument: has it a copy handler; does the handler succeed when called. -/
structure Arg where
  custom : Bool
  copyOk : Bool
  deriving DecidableEq, Repr

inductive Ev where
  /-- `*context->arg = arg` -/
  | assign (i : Nat)
  /-- the copy handler succeeded -/
  | copied (i : Nat)
  /-- the copy handler failed -/
  | copyFailed (i : Nat)
  /-- the free handler was called on the copy -/
  | freed (i : Nat)
  deriving DecidableEq, Repr

/-- sync_wrapper.h:103-142 `SYNC_WRAPPER_COPY_CALLBACK_OUT_ARGS`, from argument `i` on: the log, the `_free_needed` of the
arguments, `error_copying_out_args`. -/
def copyArgs : List Arg → Nat → Bool → List Ev × List Bool × Bool
  | [], _, error => ([], [], error)
  | a :: args, i, error =>
    if a.custom then
      if error then
        let (log, flags, error') := copyArgs args (i + 1) error
        (log, false :: flags, error')
      else if a.copyOk then
        let (log, flags, error') := copyArgs args (i + 1) error
        (.copied i :: log, true :: flags, error')
      else
        let (log, flags, error') := copyArgs args (i + 1) true
        (.copyFailed i :: log, false :: flags, error')
    else
      let (log, flags, error') := copyArgs args (i + 1) error
      (.assign i :: log, false :: flags, error')

/-- sync_wrapper.h:144-166 `SYNC_WRAPPER_FREE_FAILED_CALLBACK_OUT_ARGS`. -/
def freeFailed : List Arg → List Bool → Nat → Bool → List Ev
  | a :: args, f :: flags, i, error =>
    if a.custom then
      if error && f then .freed i :: freeFailed args flags (i + 1) error else freeFailed args flags (i + 1) error
    else freeFailed args flags (i + 1) error
  | _, _, _, _ => []

/-- sync_wrapper.h:217-235 `on_..._complete`: the log and `error_copying_out_args`. -/
def callback (args : List Arg) : List Ev × Bool :=
  let (log, flags, error) := copyArgs args 0 false
  (log ++ freeFailed args flags 0 error, error)

inductive Result where
  | ok | invalidArgs | callbackCopyArgError | callError | otherError
  deriving DecidableEq, Repr

/-- sync_wrapper.h:255-303 the function. `null`: one of the pointers is NULL; `expected`: the asynchronous function returned the
expected value; `waitOk`: InterlockedHL_WaitForValue returned OK. The log is what was done to the out arguments when the function
returns, `none` if it is not known then (the callback may still be running, or not have started). -/
def wrapper (args : List Arg) (null expected waitOk : Bool) : Result × Option (List Ev) :=
  if null then (.invalidArgs, some [])
  else if expected = false then (.callError, some [])
  else if waitOk = false then (.otherError, none)
  else
    let (log, error) := callback args
    (if error then .callbackCopyArgError else .ok, some log)

end CUtil.SyncWrapper
