import Verif.SyncWrapper.Model
/-
SYNC_WRAPPER again (/repo/inc/c_util/sync_wrapper.h), as a transition system: the caller of the generated function and the thread that calls
the generated callback, with one transition for each access to the context. The context is a local variable of the generated
function: it ceases to exist when the function returns.

The asynchronous function is the environment: it accepts the call, and then the callback is called once, at any time after, also before the
asynchronous function returns (by the same thread or another one); or it returns another value and the callback is not called.
InterlockedHL_WaitForValue (c_pal) compares, and sleeps on the address while the value is the one it saw (wait_on_address compares and falls
asleep atomically, and may return for no reason); it can fail if `Cfg.waitFails`. InterlockedHL_SetAndWake exchanges, and then wakes all that sleep on
the address; the wake uses the address only, not the memory there.
-/
namespace CUtil.SyncWait
open CUtil CUtil.SyncWrapper

structure Cfg where
  /-- one of the pointers is NULL -/
  null : Bool
  /-- wait_on_address can fail -/
  waitFails : Bool
  args : List Arg

/-- The thread in the generated function. -/
inductive Caller where
  /-- :259-269, about to check the arguments -/
  | check
  /-- :273 -/
  | init
  /-- :275, in the asynchronous function -/
  | call
  /-- :283, about to compare -/
  | test
  /-- :283, about to wait, having seen another value -/
  | wait
  | asleep
  /-- :291 -/
  | read
  /-- :302, returned -/
  | ret (r : Result)
  deriving DecidableEq, Repr

/-- The thread that calls the generated callback. -/
inductive Cb where
  /-- the asynchronous function has not accepted the call -/
  | none
  /-- the callback will be called -/
  | due
  /-- :227 -/
  | start
  /-- :228, argument `i` is next -/
  | copying (i : Nat)
  /-- :229, argument `i` is next -/
  | freeing (i : Nat)
  /-- :230, about to exchange -/
  | set
  /-- :230, about to wake -/
  | wake
  | done
  deriving DecidableEq, Repr

structure Sys where
  caller : Caller
  cb : Cb
  /-- the context exists -/
  frame : Bool
  /-- `complete`, `none` before it is first written -/
  complete : Option Bool
  /-- `error_copying_out_args`, `none` before it is first written -/
  error : Option Bool
  /-- the local variables `_free_needed` of the callback -/
  flags : List Bool
  /-- what was done to the out arguments -/
  log : List Ev
  /-- the context was used when it did not exist, or a field was read that had not been written -/
  bad : Bool

/-- The function is called. -/
def start : Sys := ⟨.check, .none, false, none, none, [], [], false⟩

/-- An access to the context by the callback. -/
def touch (s : Sys) : Bool := s.bad || !s.frame

/-- The value of `error_copying_out_args`, when it has been written. -/
def err (s : Sys) : Bool := s.error == some true

inductive Step (cfg : Cfg) : Sys → Sys → Prop
  /-- :259-269 -/
  | invalid (s : Sys) (h : s.caller = .check) (hn : cfg.null = true) : Step cfg s { s with caller := .ret .invalidArgs }
  /-- :272 the context comes into being -/
  | valid (s : Sys) (h : s.caller = .check) (hn : cfg.null = false) : Step cfg s { s with caller := .init, frame := true }
  /-- :273-274 -/
  | init (s : Sys) (h : s.caller = .init) : Step cfg s { s with caller := .call, complete := some false }
  /-- :275 the asynchronous function accepts the call -/
  | accept (s : Sys) (h : s.caller = .call) (hc : s.cb = .none) : Step cfg s { s with cb := .due }
  /-- :276-280, :302 it returns another value -/
  | refuse (s : Sys) (h : s.caller = .call) (hc : s.cb = .none) : Step cfg s { s with caller := .ret .callError, frame := false }
  /-- :275-276 it returns the expected value -/
  | return_ (s : Sys) (h : s.caller = .call) (hc : s.cb ≠ .none) : Step cfg s { s with caller := .test }
  /-- :283 complete: the wait returns OK -/
  | complete (s : Sys) (h : s.caller = .test) (hc : s.complete = some true) : Step cfg s { s with caller := .read }
  /-- :283 not complete -/
  | incomplete (s : Sys) (h : s.caller = .test) (hc : s.complete ≠ some true) : Step cfg s { s with caller := .wait, bad := s.bad || decide (s.complete = none) }
  /-- :283 fall asleep -/
  | sleep (s : Sys) (h : s.caller = .wait) (hc : s.complete = some false) : Step cfg s { s with caller := .asleep }
  /-- :283 the value has changed -/
  | noSleep (s : Sys) (h : s.caller = .wait) (hc : s.complete ≠ some false) : Step cfg s { s with caller := .test }
  /-- :283 wake for no reason -/
  | spurious (s : Sys) (h : s.caller = .asleep) : Step cfg s { s with caller := .test }
  /-- :284-287, :302 the wait fails -/
  | waitFails (s : Sys) (h : s.caller = .wait ∨ s.caller = .asleep) (hw : cfg.waitFails = true) : Step cfg s { s with caller := .ret .otherError, frame := false }
  /-- :291-299, :302 -/
  | result (s : Sys) (h : s.caller = .read) :
      Step cfg s { s with caller := .ret (if err s then .callbackCopyArgError else .ok), frame := false, bad := s.bad || decide (s.error = none) }
  /-- :218 the callback is called, with the context -/
  | called (s : Sys) (h : s.cb = .due) : Step cfg s { s with cb := .start }
  /-- :227 -/
  | noError (s : Sys) (h : s.cb = .start) : Step cfg s { s with cb := .copying 0, error := some false, flags := [], bad := touch s }
  /-- :133-135 the argument is assigned -/
  | assign (s : Sys) (i : Nat) (a : Arg) (h : s.cb = .copying i) (ha : cfg.args[i]? = some a) (hc : a.custom = false) :
      Step cfg s { s with cb := .copying (i + 1), log := s.log ++ [.assign i], flags := s.flags ++ [false], bad := touch s }
  /-- :103-115, :118-130 an earlier argument could not be copied -/
  | skip (s : Sys) (i : Nat) (a : Arg) (h : s.cb = .copying i) (ha : cfg.args[i]? = some a) (hc : a.custom = true) (he : err s = true) :
      Step cfg s { s with cb := .copying (i + 1), flags := s.flags ++ [false], bad := touch s }
  /-- :103-115, :118-130 the argument is copied -/
  | copy (s : Sys) (i : Nat) (a : Arg) (h : s.cb = .copying i) (ha : cfg.args[i]? = some a) (hc : a.custom = true) (he : err s = false) (ho : a.copyOk = true) :
      Step cfg s { s with cb := .copying (i + 1), log := s.log ++ [.copied i], flags := s.flags ++ [true], bad := touch s }
  /-- :103-115, :118-130 it cannot be copied -/
  | copyFails (s : Sys) (i : Nat) (a : Arg) (h : s.cb = .copying i) (ha : cfg.args[i]? = some a) (hc : a.custom = true) (he : err s = false) (ho : a.copyOk = false) :
      Step cfg s { s with cb := .copying (i + 1), log := s.log ++ [.copyFailed i], flags := s.flags ++ [false], error := some true, bad := touch s }
  /-- :228 no more arguments -/
  | copyEnd (s : Sys) (i : Nat) (h : s.cb = .copying i) (ha : cfg.args[i]? = none) : Step cfg s { s with cb := .freeing 0 }
  /-- :144-148, :151-155 the copy is freed -/
  | free (s : Sys) (i : Nat) (a : Arg) (h : s.cb = .freeing i) (ha : cfg.args[i]? = some a) (hc : a.custom = true ∧ err s = true ∧ s.flags[i]? = some true) :
      Step cfg s { s with cb := .freeing (i + 1), log := s.log ++ [.freed i], bad := touch s }
  /-- :144-148, :151-155, :158-159 it is not -/
  | noFree (s : Sys) (i : Nat) (a : Arg) (h : s.cb = .freeing i) (ha : cfg.args[i]? = some a) (hc : ¬ (a.custom = true ∧ err s = true ∧ s.flags[i]? = some true)) :
      Step cfg s { s with cb := .freeing (i + 1), bad := touch s }
  /-- :229 no more arguments -/
  | freeEnd (s : Sys) (i : Nat) (h : s.cb = .freeing i) (ha : cfg.args[i]? = none) : Step cfg s { s with cb := .set }
  /-- :230 the exchange -/
  | set (s : Sys) (h : s.cb = .set) : Step cfg s { s with cb := .wake, complete := some true, bad := touch s }
  /-- :230 the wake: the caller sleeps -/
  | wake (s : Sys) (h : s.cb = .wake) (hc : s.caller = .asleep) : Step cfg s { s with cb := .done, caller := .test }
  /-- :230 the wake: it does not -/
  | wakeNone (s : Sys) (h : s.cb = .wake) (hc : s.caller ≠ .asleep) : Step cfg s { s with cb := .done }

inductive Reach (cfg : Cfg) : Sys → Prop
  | init : Reach cfg start
  | step {s s' : Sys} (h : Reach cfg s) (st : Step cfg s s') : Reach cfg s'

end CUtil.SyncWait
