import Verif.SyncWrapper.Model
/-
ASYNC_RETRY_WRAPPER: /repo/inc/c_util/async_retry_wrapper.h, as a transition system.

One call of the wrapper is followed from its start to its end: the caller's thread, the callbacks of the asynchronous function and
the work items on the threadpool. The atomic steps are the calls of the asynchronous function and what the wrapper does between
them; `bad` is set when a step uses the context after it was freed, so that the steps may be taken one at a time is part of what
is proved (only one of them owns the context).

The environment: the asynchronous function either refuses (returns another value, no callback) or accepts (the callback is called
once, before or after the function returns the expected value, from any thread). A work item that was scheduled is run once.
Time is the value of timer_global_get_elapsed_ms, as a rational; it does not go back, and a sleep takes at least its length.
-/
namespace CUtil.Retry
open CUtil CUtil.SyncWrapper

/-- An out argument of the asynchronous function: ENUM(...) or ARG(...), async_retry_wrapper.h:118-137. -/
structure Out where
  isEnum : Bool
  errorValue : Nat
  timeoutValue : Option Nat
  deriving DecidableEq, Repr

structure Cfg where
  /-- in arguments: with a copy handler or not, and whether copying succeeds -/
  args : List Arg
  outs : List Out
  timeout : Nat
  expected : Nat
  /-- RETRY_ON_SYNC -/
  syncRetry : Nat → Bool
  /-- RETRY_ON_ASYNC, of the values the callback is given (that of the ENUM) -/
  asyncRetry : List Nat → Bool

/-- UINT32_MAX: no timeout -/
abbrev forever : Nat := 4294967295
/-- async_retry_wrapper.h `ASYNC_RETRY_WRAPPER_MAX_BACKOFF_MS` -/
abbrev maxBackoff : Nat := 10000

inductive Result where
  | ok | invalidArgs | copyArgError | callError | timeout | error
  deriving DecidableEq, Repr

/-- What the user's callback is called with. -/
inductive UserCall where
  /-- the values the asynchronous function gave -/
  | final (values : List Nat)
  /-- the error values -/
  | error (values : List Nat)
  /-- the timeout value for the ENUM, the error values for the others -/
  | timeout (values : List Nat)
  deriving DecidableEq, Repr

inductive Caller where
  /-- in the loop, about to call the asynchronous function -/
  | calling
  /-- in an accepted call -/
  | returning
  | ret (r : Result)
  deriving DecidableEq, Repr

structure Sys where
  now : Rat
  start : Rat
  /-- the context is allocated -/
  alive : Bool
  backoff : Nat
  /-- references to the threadpool held by the context -/
  pool : Int
  /-- copies and frees of the in arguments -/
  log : List Ev
  caller : Caller
  /-- accepted calls whose callback was not called yet -/
  pending : Nat
  /-- work items scheduled -/
  scheduled : Nat
  /-- work items in their loop, about to call the asynchronous function -/
  retrying : Nat
  /-- work items in an accepted call -/
  returning : Nat
  /-- the sleeps: elapsed time at their start, and length -/
  sleeps : List (Rat × Nat)
  /-- the calls of the user's callback -/
  user : List UserCall
  /-- the values given to the callback of the asynchronous function, so far -/
  received : List (List Nat)
  /-- the context was used after it was freed -/
  bad : Bool

/-- A use of the context. -/
def touch (s : Sys) : Sys := if s.alive then s else { s with bad := true }

/-- async_retry_wrapper.h:358-378 `FREE_FIELDS`: every argument that has handlers. -/
def freeFields : List Arg → Nat → List Ev
  | [], _ => []
  | a :: args, i => if a.custom then .freed i :: freeFields args (i + 1) else freeFields args (i + 1)

/-- async_retry_wrapper.h:429-433, 443-447, 489-493, 505-509, 521-525: free the arguments, release the threadpool, free the context. -/
def cleanUp (cfg : Cfg) (s : Sys) : Sys :=
  let s := touch s
  { s with log := s.log ++ freeFields cfg.args 0, pool := s.pool - 1, alive := false }

/-- async_retry_wrapper.h:118-125, 145-149. -/
def errorValues (cfg : Cfg) : List Nat := cfg.outs.map Out.errorValue

/-- async_retry_wrapper.h:127-137, 154-155. -/
def timeoutValues (cfg : Cfg) : List Nat :=
  cfg.outs.map (fun o => if o.isEnum then o.timeoutValue.getD o.errorValue else o.errorValue)

/-- Call the user's callback (it is read from the context). -/
def callUser (s : Sys) (u : UserCall) : Sys :=
  let s := touch s
  { s with user := s.user ++ [u] }

/-- async_retry_wrapper.h:400-413, 592-603, 478-482: would the timeout pass during the next back-off? -/
def timedOut (cfg : Cfg) (s : Sys) : Bool :=
  if cfg.timeout < forever then decide ((s.now - s.start) + (s.backoff : Rat) > (cfg.timeout : Rat)) else false

/-- async_retry_wrapper.h:415-420, 605-610: sleep until `t`, double the back-off. -/
def sleep (s : Sys) (t : Rat) : Sys :=
  { s with
    sleeps := s.sleeps ++ [(s.now - s.start, s.backoff)]
    now := t
    backoff := if s.backoff * 2 > maxBackoff then maxBackoff else s.backoff * 2 }

/-- async_retry_wrapper.h:585-642: the caller's loop after the asynchronous function returned `r`; `t` is the time at which the sleep, if any,
ends. `flags` (`_free_needed`) are those of successful copies here, so FREE_FAILED frees them. -/
def callerGot (cfg : Cfg) (s : Sys) (r : Nat) (t : Rat) : Sys :=
  let fail (s : Sys) (res : Result) : Sys :=
    let s := touch s
    { s with pool := s.pool - 1, log := s.log ++ freeFailed cfg.args (copyArgs cfg.args 0 false).2.1 0 true, alive := false, caller := .ret res }
  if cfg.syncRetry r then
    let s := touch s
    if timedOut cfg s then fail s .timeout
    else { sleep s t with caller := .calling }
  else if r ≠ cfg.expected then fail s .callError
  else { s with caller := .ret .ok }

/-- async_retry_wrapper.h:394-453: the loop of a work item after the asynchronous function returned `r`. The work item's own count is
`retrying` while it is in its loop. -/
def workGot (cfg : Cfg) (s : Sys) (r : Nat) (t : Rat) : Sys :=
  if cfg.syncRetry r then
    let s := touch s
    if timedOut cfg s then cleanUp cfg (callUser s (.timeout (timeoutValues cfg)))
    else { sleep s t with retrying := s.retrying + 1 }
  else if r ≠ cfg.expected then cleanUp cfg (callUser s (.error (errorValues cfg)))
  else s

/-- async_retry_wrapper.h:462-528: the callback, given `values`; `scheduleOk`: threadpool_schedule_work succeeds. -/
def callback (cfg : Cfg) (s : Sys) (values : List Nat) (scheduleOk : Bool) : Sys :=
  let s := { s with received := s.received ++ [values] }
  if cfg.asyncRetry values then
    let s := touch s
    if timedOut cfg s then cleanUp cfg (callUser s (.timeout (timeoutValues cfg)))
    else if scheduleOk then { s with scheduled := s.scheduled + 1 }
    else cleanUp cfg (callUser s (.error (errorValues cfg)))
  else cleanUp cfg (callUser s (.final values))

/-- async_retry_wrapper.h:531-584, 636-637: the wrapper up to its loop. `null`: a pointer argument is NULL. -/
def enter (cfg : Cfg) (null mallocOk : Bool) (t : Rat) : Sys :=
  let s : Sys := ⟨t, t, false, 0, 0, [], .calling, 0, 0, 0, 0, [], [], [], false⟩
  if null then { s with caller := .ret .invalidArgs }
  else if mallocOk = false then { s with caller := .ret .error }
  else
    let (log, flags, err) := copyArgs cfg.args 0 false
    if err then { s with log := log ++ freeFailed cfg.args flags 0 true, caller := .ret .copyArgError }
    else { s with alive := true, log := log, pool := 1, backoff := 1 }

/-- One step. -/
inductive Step (cfg : Cfg) : Sys → Sys → Prop
  /-- time passes -/
  | tick (s : Sys) (t : Rat) (h : s.now ≤ t) : Step cfg s { s with now := t }
  /-- the asynchronous function, called at :589, refuses with `r` -/
  | callerRefused (s : Sys) (r : Nat) (t : Rat) (hc : s.caller = .calling) (hr : r ≠ cfg.expected) (ht : s.now + (s.backoff : Rat) ≤ t) :
      Step cfg s (callerGot cfg (touch s) r t)
  /-- it accepts -/
  | callerAccepted (s : Sys) (hc : s.caller = .calling) : Step cfg s { touch s with caller := .returning, pending := s.pending + 1 }
  /-- it returns from an accepted call -/
  | callerReturn (s : Sys) (t : Rat) (hc : s.caller = .returning) (ht : s.now + (s.backoff : Rat) ≤ t) : Step cfg s (callerGot cfg s cfg.expected t)
  /-- the callback of an accepted call -/
  | callback (s : Sys) (values : List Nat) (scheduleOk : Bool) (hp : 0 < s.pending) :
      Step cfg s (callback cfg { s with pending := s.pending - 1 } values scheduleOk)
  /-- a work item starts -/
  | work (s : Sys) (hp : 0 < s.scheduled) : Step cfg s { s with scheduled := s.scheduled - 1, retrying := s.retrying + 1 }
  /-- the asynchronous function, called at :397, refuses with `r` -/
  | workRefused (s : Sys) (r : Nat) (t : Rat) (hp : 0 < s.retrying) (hr : r ≠ cfg.expected) (ht : s.now + (s.backoff : Rat) ≤ t) :
      Step cfg s (workGot cfg (touch { s with retrying := s.retrying - 1 }) r t)
  /-- it accepts -/
  | workAccepted (s : Sys) (hp : 0 < s.retrying) :
      Step cfg s { touch s with retrying := s.retrying - 1, returning := s.returning + 1, pending := s.pending + 1 }
  /-- it returns from an accepted call -/
  | workReturn (s : Sys) (t : Rat) (hp : 0 < s.returning) (ht : s.now + (s.backoff : Rat) ≤ t) :
      Step cfg s (workGot cfg { s with returning := s.returning - 1 } cfg.expected t)

inductive Reach (cfg : Cfg) : Sys → Prop
  | start (null mallocOk : Bool) (t : Rat) : Reach cfg (enter cfg null mallocOk t)
  | step {s s' : Sys} (h : Reach cfg s) (st : Step cfg s s') : Reach cfg s'

end CUtil.Retry
