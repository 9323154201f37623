import Verif.Conc
/-
Model of /repo/src/channel.c as a transition system with any number of threads.

Assumed (c_pal, not in the repository): the reader/writer lock excludes; `sm` lets a close begin only when opened, calls the callback given to
`sm_close_begin_with_cb` once the state says closing (from then on `sm_exec_begin` is refused) and then waits until as many executions have ended as had
begun; `threadpool_schedule_work` runs each work item it accepts exactly once.

Simplifications.  What is done while holding the lock is one step.  The lists are lists of operations; what the links of an entry removed from a list
still point to is kept (`nxt`), because `cancel_op` follows it.  Callbacks given to push and pull are not NULL.  The correlation ids are identified with
the requests.  A callback given by the user may call anything: these calls are the calls of other threads in the model.  A caller keeps the channel
alive during its own calls.
-/
namespace CUtil.Channel
open CUtil.Conc

inductive Kind
  | pull | push
  deriving DecidableEq

/-- inc/c_util/channel.h:30-33 CHANNEL_CALLBACK_RESULT. -/
inductive Res
  | ok | cancelled | abandoned
  deriving DecidableEq

/-- The state machine of the channel (`sm`). -/
inductive Sm
  | closed | opening | opened | closing
  deriving DecidableEq

/-- What the forward link of an entry points to: the entry of another operation, the head in the channel, the head on the stack of
`abandon_pending_operations`. -/
inductive Ptr
  | op (o : Nat) | chanHead | stackHead
  deriving DecidableEq

/-- Who runs `execute_callbacks`: the threadpool, or `abandon_pending_operations`. -/
inductive Ret
  | worker | closer
  deriving DecidableEq

/-- Where an operation is (ghost). -/
inductive Place
  | fresh
  /-- In the list of the channel. -/
  | queue
  /-- In the list of `abandon_pending_operations`. -/
  | loc
  /-- Given to the threadpool. -/
  | sched
  /-- In the hands of thread `t`, its executions not ended yet. -/
  | run (t : Nat)
  /-- In the hands of thread `t`, its executions ended. -/
  | fin (t : Nat)
  /-- Its callbacks were called. -/
  | done
  /-- In no list and nobody's: a failure of the threadpool. -/
  | lost
  deriving DecidableEq

/-- One execution begun and not ended (ghost): by a request, or by a call under way. -/
inductive Tok
  | req (r : Nat) | thr (t : Nat)
  deriving DecidableEq

/-- One call of a user's callback: of which request, the result, both correlation ids (given by the requests) and, for pull, the data. -/
structure Call where
  req : Nat
  res : Res
  pull : Option Nat
  push : Option Nat
  data : Option Nat
  deriving DecidableEq

/-- Where a thread is (lines of channel.c). -/
inductive Pc
  | out
  /-- :467, :537 pull or push (with data `d`): about to begin. -/
  | rBegin (k : Kind) (d : Nat)
  /-- :477, :547: about to take the lock. -/
  | rLock (k : Kind) (d : Nat)
  /-- :525, :595 failing: about to end. -/
  | rEnd
  /-- :527, :598: returning; the number of the request when OK. -/
  | rRet (r : Option Nat)
  /-- :299 cancel: about to read the channel. -/
  | xChan (o : Nat)
  /-- :304 about to begin. -/
  | xBegin (o : Nat)
  /-- :313 about to take the lock. -/
  | xLock (o : Nat)
  /-- :329 about to look at the result; `f`: was found in a list. -/
  | xRes (o : Nat) (f : Bool)
  /-- :331 about to set the result. -/
  | xSet (o : Nat) (f : Bool)
  /-- :335-337 about to schedule. -/
  | xSched (o : Nat) (f : Bool)
  /-- :348 about to end. -/
  | xEnd
  /-- :210 open: about to begin. -/
  | oBegin
  /-- :222-228 -/
  | oSet
  /-- :231 -/
  | oEnd
  /-- :136 close: about to begin. -/
  | cBegin
  /-- :96 about to take the lock. -/
  | cMove
  /-- :112 about to read the head of the list. -/
  | cHead
  /-- :112 about to unlink the entry of `o`. -/
  | cTake (o : Nat)
  /-- :117 about to set the result. -/
  | cRes (o : Nat)
  /-- :136 waiting for the executions to end. -/
  | cWait
  /-- :144 -/
  | cEnd
  /-- :249 execute_callbacks: about to read the result. -/
  | e1 (o : Nat) (k : Ret)
  /-- :257-266 about to end the executions. -/
  | e2 (o : Nat) (r : Res) (k : Ret)
  /-- :271 about to drop the channel. -/
  | e3 (o : Nat) (r : Res) (k : Ret)
  /-- :273-277 about to call the callback of pull. -/
  | e4 (o : Nat) (r : Res) (k : Ret)
  /-- :278-282 about to call the callback of push. -/
  | e5 (o : Nat) (r : Res) (k : Ret)
  /-- :285-292 about to clean up. -/
  | e6 (o : Nat) (k : Ret)
  deriving DecidableEq

structure Sys where
  sm : Sm
  /-- Executions begun and not ended. -/
  execs : Nat
  /-- :36 -/
  isOpen : Bool
  /-- :38 -/
  q : List Nat
  /-- :93 -/
  loc : List Nat
  /-- The list head of :93 exists. -/
  stack : Bool
  /-- The operations created, and the fields of each (:44-60): the requests whose callbacks it has, its data, result, whether it has a reference to the
  channel and one to itself. -/
  nops : Nat
  avail : Nat → Option Nat
  cons : Nat → Option Nat
  data : Nat → Option Nat
  res : Nat → Res
  chan : Nat → Bool
  self : Nat → Bool
  /-- The references the users have to each operation. -/
  uref : Nat → Nat
  /-- What the forward link of an operation in no list points to. -/
  nxt : Nat → Ptr
  /-- The work items given to the threadpool and not yet started. -/
  pend : Nat → Nat
  pc : Nat → Pc
  /-- Undefined behaviour has happened. -/
  bad : Bool
  /-- Ghosts: the requests accepted, numbered in the order in which they took the lock; their kind and data; whether they were cancelled, abandoned or
  lost while waiting; the pairs matched, in order; the calls of callbacks; where each operation is; the executions begun and not ended. -/
  nreq : Nat
  kind : Nat → Kind
  dat : Nat → Nat
  removed : Nat → Bool
  matched : List (Nat × Nat)
  log : List Call
  place : Nat → Place
  toks : List Tok

/-- A channel after channel_create (:149). -/
def init : Sys :=
  { sm := .closed, execs := 0, isOpen := false, q := [], loc := [], stack := false, nops := 0, avail := fun _ => none, cons := fun _ => none,
    data := fun _ => none, res := fun _ => .ok, chan := fun _ => false, self := fun _ => false, uref := fun _ => 0, nxt := fun _ => .chanHead,
    pend := fun _ => 0, pc := fun _ => .out, bad := false, nreq := 0, kind := fun _ => .pull, dat := fun _ => 0, removed := fun _ => false,
    matched := [], log := [], place := fun _ => .fresh, toks := [] }

/-- A list without an element. -/
def without (l : List Nat) (o : Nat) : List Nat := l.filter (fun x => decide (x ≠ o))

/-- The tokens without one. -/
def drop (l : List Tok) (k : Tok) : List Tok := l.filter (fun x => decide (x ≠ k))

/-- The tokens without the one of a request, if there is one. -/
def dropReq (l : List Tok) : Option Nat → List Tok
  | none => l
  | some r => drop l (.req r)

/-- What follows an element in a list whose head is `h`. -/
def after (h : Ptr) : List Nat → Nat → Ptr
  | [], _ => h
  | [_], _ => h
  | x :: y :: l, o => if x = o then .op y else after h (y :: l) o

/-- The memory of an operation has been released: nobody has a reference. -/
def freed (s : Sys) (o : Nat) : Bool := !s.self o && decide (s.uref o = 0)

/-- What a link points to does not exist any more. -/
def dead (s : Sys) : Ptr → Bool
  | .op o => freed s o
  | .chanHead => false
  | .stackHead => !s.stack

/-- How many callbacks an operation has: 0, 1 or 2 (:257-266). -/
def callbacks (s : Sys) (o : Nat) : Nat := (if s.avail o = none then 0 else 1) + (if s.cons o = none then 0 else 1)

/-- The request is one of those of the operation. -/
def ofOp (s : Sys) (o r : Nat) : Bool := decide (s.avail o = some r) || decide (s.cons o = some r)

/-- The thread is cancelling `o` and has not looked at the list yet. -/
def aim : Pc → Option Nat
  | .xChan o | .xBegin o | .xLock o => some o
  | .out | .rBegin _ _ | .rLock _ _ | .rEnd | .rRet _ | .xRes _ _ | .xSet _ _ | .xSched _ _ | .xEnd | .oBegin | .oSet | .oEnd | .cBegin | .cMove
  | .cHead | .cTake _ | .cRes _ | .cWait | .cEnd | .e1 _ _ | .e2 _ _ _ | .e3 _ _ _ | .e4 _ _ _ | .e5 _ _ _ | .e6 _ _ => none

/-- The thread is cancelling `o` and may still look at it. -/
def xing : Pc → Option Nat
  | .xChan o | .xBegin o | .xLock o | .xRes o _ | .xSet o _ | .xSched o _ => some o
  | .out | .rBegin _ _ | .rLock _ _ | .rEnd | .rRet _ | .xEnd | .oBegin | .oSet | .oEnd | .cBegin | .cMove
  | .cHead | .cTake _ | .cRes _ | .cWait | .cEnd | .e1 _ _ | .e2 _ _ _ | .e3 _ _ _ | .e4 _ _ _ | .e5 _ _ _ | .e6 _ _ => none

/-- Where `execute_callbacks` returns to. -/
def back : Ret → Pc
  | .worker => .out
  | .closer => .cHead

/-- What the environment guarantees.  `quiet`: cancel is called only for an operation waiting in the list, and until it has looked at the list nothing
else takes that operation out of it (no push or pull, no close, no other cancel).  `sched`: the threadpool accepts every work item. -/
structure Cfg where
  quiet : Bool
  sched : Bool

/-- One step. -/
inductive Step (cfg : Cfg) : Sys → Sys → Prop
  /-- :461, :530 -/
  | request (s) (t k d) : s.pc t = .out → Step cfg s { s with pc := upd s.pc t (.rBegin k d) }
  /-- :467-473, :537-542 -/
  | rRefused (s) (t k d) : s.pc t = .rBegin k d → s.sm ≠ .opened → Step cfg s { s with pc := upd s.pc t (.rRet none) }
  | rGranted (s) (t k d) : s.pc t = .rBegin k d → s.sm = .opened →
      Step cfg s { s with execs := s.execs + 1, toks := .thr t :: s.toks, pc := upd s.pc t (.rLock k d) }
  /-- :480-485, :550-555 -/
  | rNotOpen (s) (t k d) : s.pc t = .rLock k d → s.isOpen = false → Step cfg s { s with pc := upd s.pc t .rEnd }
  /-- :364-369: no memory. -/
  | rNoMem (s) (t k d) : s.pc t = .rLock k d → s.isOpen = true → Step cfg s { s with pc := upd s.pc t .rEnd }
  /-- :489-503 with :358-403: a pull waits. -/
  | pullEnq (s) (t d) : s.pc t = .rLock .pull d → s.isOpen = true → (∀ o rest, s.q = o :: rest → s.avail o ≠ none) →
      Step cfg s { s with
        nops := s.nops + 1, avail := upd s.avail s.nops (some s.nreq), cons := upd s.cons s.nops none, data := upd s.data s.nops none,
        res := upd s.res s.nops .ok, chan := upd s.chan s.nops true, self := upd s.self s.nops true, uref := upd s.uref s.nops 1,
        q := s.q ++ [s.nops], nreq := s.nreq + 1, kind := upd s.kind s.nreq .pull, dat := upd s.dat s.nreq d,
        place := upd s.place s.nops .queue, toks := .req s.nreq :: drop s.toks (.thr t), pc := upd s.pc t (.rRet (some s.nreq)) }
  /-- :507-518 with :405-459: a pull meets a push. -/
  | pullDeq (s) (t d o rest c) : s.pc t = .rLock .pull d → s.isOpen = true → s.q = o :: rest → s.avail o = none → s.cons o = some c →
      (cfg.quiet = true → ∀ u, aim (s.pc u) ≠ some o) →
      Step cfg s { s with
        q := rest, nxt := upd s.nxt o (after .chanHead s.q o), avail := upd s.avail o (some s.nreq), pend := upd s.pend o (s.pend o + 1),
        uref := upd s.uref o (s.uref o + 1), nreq := s.nreq + 1, kind := upd s.kind s.nreq .pull, dat := upd s.dat s.nreq d,
        matched := s.matched ++ [(s.nreq, c)],
        place := upd s.place o .sched, toks := .req s.nreq :: drop s.toks (.thr t), pc := upd s.pc t (.rRet (some s.nreq)) }
  /-- :435-444: the threadpool refuses; the operation that was waiting is in no list any more. -/
  | pullDeqFail (s) (t d o rest) : cfg.sched = false → s.pc t = .rLock .pull d → s.isOpen = true → s.q = o :: rest → s.avail o = none →
      (cfg.quiet = true → ∀ u, aim (s.pc u) ≠ some o) →
      Step cfg s { s with
        q := rest, nxt := upd s.nxt o (after .chanHead s.q o), removed := fun r => s.removed r || ofOp s o r,
        place := upd s.place o .lost, pc := upd s.pc t .rEnd }
  /-- :559-574: a push waits. -/
  | pushEnq (s) (t d) : s.pc t = .rLock .push d → s.isOpen = true → (∀ o rest, s.q = o :: rest → s.cons o ≠ none) →
      Step cfg s { s with
        nops := s.nops + 1, avail := upd s.avail s.nops none, cons := upd s.cons s.nops (some s.nreq), data := upd s.data s.nops (some d),
        res := upd s.res s.nops .ok, chan := upd s.chan s.nops true, self := upd s.self s.nops true, uref := upd s.uref s.nops 1,
        q := s.q ++ [s.nops], nreq := s.nreq + 1, kind := upd s.kind s.nreq .push, dat := upd s.dat s.nreq d,
        place := upd s.place s.nops .queue, toks := .req s.nreq :: drop s.toks (.thr t), pc := upd s.pc t (.rRet (some s.nreq)) }
  /-- :577-588: a push meets a pull. -/
  | pushDeq (s) (t d o rest a) : s.pc t = .rLock .push d → s.isOpen = true → s.q = o :: rest → s.cons o = none → s.avail o = some a →
      (cfg.quiet = true → ∀ u, aim (s.pc u) ≠ some o) →
      Step cfg s { s with
        q := rest, nxt := upd s.nxt o (after .chanHead s.q o), cons := upd s.cons o (some s.nreq), data := upd s.data o (some d),
        pend := upd s.pend o (s.pend o + 1), uref := upd s.uref o (s.uref o + 1), nreq := s.nreq + 1, kind := upd s.kind s.nreq .push,
        dat := upd s.dat s.nreq d, matched := s.matched ++ [(a, s.nreq)],
        place := upd s.place o .sched, toks := .req s.nreq :: drop s.toks (.thr t), pc := upd s.pc t (.rRet (some s.nreq)) }
  /-- :435-438,445-448 -/
  | pushDeqFail (s) (t d o rest) : cfg.sched = false → s.pc t = .rLock .push d → s.isOpen = true → s.q = o :: rest → s.cons o = none →
      (cfg.quiet = true → ∀ u, aim (s.pc u) ≠ some o) →
      Step cfg s { s with
        q := rest, nxt := upd s.nxt o (after .chanHead s.q o), data := upd s.data o (some d), removed := fun r => s.removed r || ofOp s o r,
        place := upd s.place o .lost, pc := upd s.pc t .rEnd }
  /-- :525, :595 -/
  | rEnd (s) (t) : s.pc t = .rEnd →
      Step cfg s { s with execs := s.execs - 1, bad := s.bad || decide (s.execs = 0), toks := drop s.toks (.thr t), pc := upd s.pc t (.rRet none) }
  /-- :527, :598 -/
  | rRet (s) (t r) : s.pc t = .rRet r → Step cfg s { s with pc := upd s.pc t .out }
  /-- The user drops a reference; not the last one while cancelling. -/
  | release (s) (o) : 0 < s.uref o → (s.uref o = 1 → ∀ u, xing (s.pc u) ≠ some o) → Step cfg s { s with uref := upd s.uref o (s.uref o - 1) }
  /-- async_op_cancel, by a user who has a reference. -/
  | cancel (s) (t o) : s.pc t = .out → 0 < s.uref o → (cfg.quiet = true → o ∈ s.q ∧ ∀ u, aim (s.pc u) ≠ some o) →
      Step cfg s { s with pc := upd s.pc t (.xChan o) }
  /-- :299 -/
  | xChan (s) (t o) : s.pc t = .xChan o → s.chan o = true → Step cfg s { s with pc := upd s.pc t (.xBegin o) }
  /-- :299, :304: NULL is dereferenced. -/
  | xNull (s) (t o) : s.pc t = .xChan o → s.chan o = false → Step cfg s { s with bad := true, pc := upd s.pc t .out }
  /-- :304-308 -/
  | xRefused (s) (t o) : s.pc t = .xBegin o → s.sm ≠ .opened → Step cfg s { s with pc := upd s.pc t .out }
  | xGranted (s) (t o) : s.pc t = .xBegin o → s.sm = .opened →
      Step cfg s { s with execs := s.execs + 1, toks := .thr t :: s.toks, pc := upd s.pc t (.xLock o) }
  /-- :313-325: the entry is in the list of the channel. -/
  | xFoundQ (s) (t o) : s.pc t = .xLock o → o ∈ s.q →
      Step cfg s { s with
        q := without s.q o, nxt := upd s.nxt o (after .chanHead s.q o), removed := fun r => s.removed r || ofOp s o r,
        place := upd s.place o (.run t), pc := upd s.pc t (.xRes o true) }
  /-- :313-325: … or in that of abandon_pending_operations. -/
  | xFoundLoc (s) (t o) : s.pc t = .xLock o → o ∉ s.q → o ∈ s.loc →
      Step cfg s { s with
        loc := without s.loc o, nxt := upd s.nxt o (after .stackHead s.loc o), place := upd s.place o (.run t), pc := upd s.pc t (.xRes o true) }
  /-- :316-319: in none; the link left in the entry is followed. -/
  | xNotFound (s) (t o) : s.pc t = .xLock o → o ∉ s.q → o ∉ s.loc →
      Step cfg s { s with bad := s.bad || dead s (s.nxt o), pc := upd s.pc t (.xRes o false) }
  /-- :329 -/
  | xResOk (s) (t o f) : s.pc t = .xRes o f → s.res o = .ok → Step cfg s { s with pc := upd s.pc t (.xSet o f) }
  | xResNo (s) (t o f) : s.pc t = .xRes o f → s.res o ≠ .ok → Step cfg s { s with pc := upd s.pc t (.xSched o f) }
  /-- :331 -/
  | xSet (s) (t o f) : s.pc t = .xSet o f → Step cfg s { s with res := upd s.res o .cancelled, pc := upd s.pc t (.xSched o f) }
  /-- :335 -/
  | xNone (s) (t o) : s.pc t = .xSched o false → Step cfg s { s with pc := upd s.pc t .xEnd }
  /-- :337 -/
  | xSchedOk (s) (t o) : s.pc t = .xSched o true → Step cfg s { s with pend := upd s.pend o (s.pend o + 1), place := upd s.place o .sched, pc := upd s.pc t .xEnd }
  /-- :337-340 -/
  | xSchedFail (s) (t o) : cfg.sched = false → s.pc t = .xSched o true → Step cfg s { s with place := upd s.place o .lost, pc := upd s.pc t .xEnd }
  /-- :348 -/
  | xEnd (s) (t) : s.pc t = .xEnd →
      Step cfg s { s with execs := s.execs - 1, bad := s.bad || decide (s.execs = 0), toks := drop s.toks (.thr t), pc := upd s.pc t .out }
  /-- :206 -/
  | open_ (s) (t) : s.pc t = .out → Step cfg s { s with pc := upd s.pc t .oBegin }
  /-- :210-216 -/
  | oRefused (s) (t) : s.pc t = .oBegin → s.sm ≠ .closed → Step cfg s { s with pc := upd s.pc t .out }
  | oGranted (s) (t) : s.pc t = .oBegin → s.sm = .closed → Step cfg s { s with sm := .opening, pc := upd s.pc t .oSet }
  /-- :222-228 -/
  | oSet (s) (t) : s.pc t = .oSet → Step cfg s { s with isOpen := true, pc := upd s.pc t .oEnd }
  /-- :231 -/
  | oEnd (s) (t) : s.pc t = .oEnd → Step cfg s { s with sm := .opened, pc := upd s.pc t .out }
  /-- :124 -/
  | close (s) (t) : s.pc t = .out → Step cfg s { s with pc := upd s.pc t .cBegin }
  /-- :136-140 -/
  | cRefused (s) (t) : s.pc t = .cBegin → s.sm ≠ .opened → Step cfg s { s with pc := upd s.pc t .out }
  | cGranted (s) (t) : s.pc t = .cBegin → s.sm = .opened → Step cfg s { s with sm := .closing, pc := upd s.pc t .cMove }
  /-- :93-109 -/
  | cMove (s) (t) : s.pc t = .cMove → (cfg.quiet = true → ∀ u, aim (s.pc u) = none) →
      Step cfg s { s with
        isOpen := false, loc := s.q, q := [], stack := true, removed := fun r => s.removed r || s.q.any (fun o => ofOp s o r),
        place := fun o => if o ∈ s.q then .loc else s.place o, pc := upd s.pc t .cHead }
  /-- :112 -/
  | cHead (s) (t o rest) : s.pc t = .cHead → s.loc = o :: rest → Step cfg s { s with pc := upd s.pc t (.cTake o) }
  /-- :112,122: the list is empty; the list head ceases to exist. -/
  | cNone (s) (t) : s.pc t = .cHead → s.loc = [] → Step cfg s { s with stack := false, pc := upd s.pc t .cWait }
  /-- :112 -/
  | cTake (s) (t o) : s.pc t = .cTake o →
      Step cfg s { s with
        loc := without s.loc o, nxt := upd s.nxt o (after .stackHead s.loc o), place := upd s.place o (.run t), pc := upd s.pc t (.cRes o) }
  /-- :117 -/
  | cRes (s) (t o) : s.pc t = .cRes o → Step cfg s { s with bad := s.bad || freed s o, res := upd s.res o .abandoned, pc := upd s.pc t (.e1 o .closer) }
  /-- :136 -/
  | cWait (s) (t) : s.pc t = .cWait → s.execs = 0 → Step cfg s { s with pc := upd s.pc t .cEnd }
  /-- :144 -/
  | cEnd (s) (t) : s.pc t = .cEnd → Step cfg s { s with sm := .closed, pc := upd s.pc t .out }
  /-- A thread of the threadpool starts a work item. -/
  | work (s) (t o) : s.pc t = .out → 0 < s.pend o →
      Step cfg s { s with pend := upd s.pend o (s.pend o - 1), place := upd s.place o (.run t), pc := upd s.pc t (.e1 o .worker) }
  /-- :249 -/
  | e1 (s) (t o k) : s.pc t = .e1 o k → Step cfg s { s with bad := s.bad || freed s o, pc := upd s.pc t (.e2 o (s.res o) k) }
  /-- :251-266 -/
  | e2 (s) (t o r k) : s.pc t = .e2 o r k →
      Step cfg s { s with
        bad := s.bad || freed s o || !s.chan o || decide (s.execs < callbacks s o), execs := s.execs - callbacks s o,
        toks := dropReq (dropReq s.toks (s.avail o)) (s.cons o), place := upd s.place o (.fin t), pc := upd s.pc t (.e3 o r k) }
  /-- :271 -/
  | e3 (s) (t o r k) : s.pc t = .e3 o r k → Step cfg s { s with chan := upd s.chan o false, pc := upd s.pc t (.e4 o r k) }
  /-- :273-277 -/
  | e4 (s) (t o r k a) : s.pc t = .e4 o r k → s.avail o = some a →
      Step cfg s { s with log := { req := a, res := r, pull := s.avail o, push := s.cons o, data := s.data o } :: s.log, pc := upd s.pc t (.e5 o r k) }
  | e4No (s) (t o r k) : s.pc t = .e4 o r k → s.avail o = none → Step cfg s { s with pc := upd s.pc t (.e5 o r k) }
  /-- :278-282 -/
  | e5 (s) (t o r k c) : s.pc t = .e5 o r k → s.cons o = some c →
      Step cfg s { s with log := { req := c, res := r, pull := s.avail o, push := s.cons o, data := none } :: s.log, pc := upd s.pc t (.e6 o k) }
  | e5No (s) (t o r k) : s.pc t = .e5 o r k → s.cons o = none → Step cfg s { s with pc := upd s.pc t (.e6 o k) }
  /-- :285-292 -/
  | e6 (s) (t o k) : s.pc t = .e6 o k →
      Step cfg s { s with
        bad := s.bad || freed s o, data := upd s.data o none, self := upd s.self o false, place := upd s.place o .done, pc := upd s.pc t (back k) }

/-- The states an execution can be in. -/
inductive Reach (cfg : Cfg) : Sys → Prop
  | init : Reach cfg init
  | step {s s'} : Reach cfg s → Step cfg s s' → Reach cfg s'

end CUtil.Channel
