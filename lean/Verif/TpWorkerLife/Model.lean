import Verif.Conc
/-
tp_worker_thread.c: /repo/src/tp_worker_thread.c, the life of the object: create, open, close, destroy by any number of threads, with the
threadpool and the work item it holds. What schedule_process does between sm_exec_begin and sm_exec_end is in Verif/TpWorker; here it
is one call that may hand the work item to the threadpool.

Assumed (c_pal): sm grants an open only in the created state, an exec only in the opened state, a close only in the opened state and once
no exec is running; the threadpool runs work it was given at any later time; letting go of the last reference to a work item waits for the
work given with it. Assumed of the callers: destroy is called when no other call is in progress, and nothing is called after it.
-/
namespace CUtil.TpWorkerLife
open CUtil.Conc

/-- sm.h (c_pal): the state of the gate. -/
inductive Gate where
  | created | opening | opened | closing
  deriving DecidableEq, Repr

/-- A calling thread. -/
inductive Pc where
  | out
  /-- :202, open was granted -/
  | oReset
  /-- :205 -/
  | oPool
  /-- :215 -/
  | oItem
  /-- :231 -/
  | oOk
  /-- :235 -/
  | oDrop
  /-- :239 -/
  | oFail
  /-- :285-313, exec was granted -/
  | eRun
  /-- :319 -/
  | eEnd
  /-- :103, in sm_close_begin (`d`: called by destroy) -/
  | cWait (d : Bool)
  /-- :106 -/
  | cItem (d : Bool)
  /-- :109 -/
  | cPool (d : Bool)
  /-- :112 -/
  | cEnd (d : Bool)
  /-- :129 -/
  | dRef
  /-- :133 -/
  | dSm
  /-- :136 -/
  | dFree
  deriving DecidableEq, Repr

structure Sys where
  gate : Gate
  pc : Nat → Pc
  /-- worker_thread->threadpool, the number of the threadpool -/
  pool : Option Nat
  /-- worker_thread->threadpool_work_item -/
  item : Option Nat
  /-- threadpools created so far -/
  pools : Nat
  items : Nat
  /-- how often the reference to a threadpool was given up -/
  poolRel : Nat → Nat
  itemRel : Nat → Nat
  /-- the work given to the threadpool with this work item that is waiting or running -/
  work : Nat → Nat
  /-- references to the execution engine -/
  engine : Nat
  /-- the sm exists, the structure is allocated -/
  smLive : Bool
  alive : Bool
  /-- ghost: destroy was called -/
  destroyed : Bool
  /-- ghost: the thread whose open or close was last granted -/
  owner : Nat
  /-- a missing or released threadpool or work item was used, or the object after its end -/
  bad : Bool

/-- tp_worker_thread.c:61-91, after a successful tp_worker_thread_create. -/
def init : Sys := ⟨.created, fun _ => .out, none, none, 0, 0, fun _ => 0, fun _ => 0, fun _ => 0, 1, true, true, false, 0, false⟩

/-- tp_worker_thread.c:43-98: what a failed create leaves: the structure, the sm, the reference to the engine. -/
def create (engineNull funcNull mallocOk smOk : Bool) : Option Unit × (Nat × Nat × Nat) :=
  if engineNull || funcNull then (none, (0, 0, 0))
  else
    let structs := if mallocOk then 1 else 0
    if mallocOk = false then (none, (structs, 0, 0))
    else if smOk = false then (none, (structs - 1, 0, 0))
    else (some (), (structs, 1, 1))

/-- A use of the object. -/
def touch (s : Sys) : Sys := { s with bad := s.bad || !s.alive }

/-- The handle is there and was not given up. -/
def uses (h : Option Nat) (rel : Nat → Nat) : Bool :=
  match h with
  | none => false
  | some i => rel i == 0

/-- One more for the one the handle stands for. -/
def bump (h : Option Nat) (f : Nat → Nat) : Nat → Nat :=
  match h with
  | none => f
  | some i => upd f i (f i + 1)

/-- The thread is between sm_exec_begin and sm_exec_end. -/
def inExec : Pc → Bool
  | .eRun | .eEnd => true
  | _ => false

inductive Step : Sys → Sys → Prop
  /-- :191 sm_open_begin is granted -/
  | openBegin (s : Sys) (t : Nat) (h : s.pc t = .out) (hl : s.destroyed = false) (hg : s.gate = .created) :
      Step s { s with gate := .opening, owner := t, pc := upd s.pc t .oReset }
  /-- :202 -/
  | openReset (s : Sys) (t : Nat) (h : s.pc t = .oReset) : Step s { touch s with pc := upd s.pc t .oPool }
  /-- :205, the threadpool is created; whatever the field held is overwritten -/
  | openPool (s : Sys) (t : Nat) (h : s.pc t = .oPool) : Step s { touch s with pool := some s.pools, pools := s.pools + 1, pc := upd s.pc t .oItem }
  /-- :206-211 -/
  | openPoolFails (s : Sys) (t : Nat) (h : s.pc t = .oPool) : Step s { touch s with pool := none, pc := upd s.pc t .oFail }
  /-- :215, 225 -/
  | openItem (s : Sys) (t : Nat) (h : s.pc t = .oItem) :
      Step s { touch s with item := some s.items, items := s.items + 1, pc := upd s.pc t .oOk, bad := s.bad || !s.alive || !uses s.pool s.poolRel }
  /-- :216-221 -/
  | openItemFails (s : Sys) (t : Nat) (h : s.pc t = .oItem) : Step s { touch s with pc := upd s.pc t .oDrop, bad := s.bad || !s.alive || !uses s.pool s.poolRel }
  /-- :231 -/
  | openOk (s : Sys) (t : Nat) (h : s.pc t = .oOk) : Step s { touch s with gate := .opened, pc := upd s.pc t .out }
  /-- :235 -/
  | openDrop (s : Sys) (t : Nat) (h : s.pc t = .oDrop) : Step s { touch s with pool := none, poolRel := bump s.pool s.poolRel, pc := upd s.pc t .oFail }
  /-- :239 -/
  | openFail (s : Sys) (t : Nat) (h : s.pc t = .oFail) : Step s { touch s with gate := .created, pc := upd s.pc t .out }
  /-- :275 sm_exec_begin is granted -/
  | execBegin (s : Sys) (t : Nat) (h : s.pc t = .out) (hl : s.destroyed = false) (hg : s.gate = .opened) : Step s { s with pc := upd s.pc t .eRun }
  /-- :304 the work item is given to the threadpool -/
  | execSchedule (s : Sys) (t : Nat) (h : s.pc t = .eRun) :
      Step s { touch s with pc := upd s.pc t .eEnd, work := bump s.item s.work,
                            bad := s.bad || !s.alive || !uses s.pool s.poolRel || !uses s.item s.itemRel }
  /-- :293, or the threadpool refuses at :304 -/
  | execQuiet (s : Sys) (t : Nat) (h : s.pc t = .eRun) : Step s { touch s with pc := upd s.pc t .eEnd }
  /-- :319 -/
  | execEnd (s : Sys) (t : Nat) (h : s.pc t = .eEnd) : Step s { touch s with pc := upd s.pc t .out }
  /-- :140-174 work ends: it has used the object (its context) until here -/
  | workEnds (s : Sys) (i : Nat) (h : 0 < s.work i) : Step s { touch s with work := upd s.work i (s.work i - 1) }
  /-- :256 close is called and the gate is open: no exec is granted any more -/
  | closeBegin (s : Sys) (t : Nat) (h : s.pc t = .out) (hl : s.destroyed = false) (hg : s.gate = .opened) :
      Step s { s with gate := .closing, owner := t, pc := upd s.pc t (.cWait false) }
  /-- :126 destroy is called, by nobody else being in a call; the gate is open -/
  | destroyClose (s : Sys) (t : Nat) (h : ∀ u, s.pc u = .out) (hl : s.destroyed = false) (hg : s.gate = .opened) :
      Step s { s with gate := .closing, owner := t, destroyed := true, pc := upd s.pc t (.cWait true) }
  /-- :126 the gate is not open: close is refused -/
  | destroy (s : Sys) (t : Nat) (h : ∀ u, s.pc u = .out) (hl : s.destroyed = false) (hg : s.gate ≠ .opened) : Step s { s with destroyed := true, pc := upd s.pc t .dRef }
  /-- :103 sm_close_begin returns, the execs being over -/
  | closeGranted (s : Sys) (t : Nat) (d : Bool) (h : s.pc t = .cWait d) (he : ∀ u, inExec (s.pc u) = false) : Step s { touch s with pc := upd s.pc t (.cItem d) }
  /-- :106, which waits for the work -/
  | closeItem (s : Sys) (t : Nat) (d : Bool) (h : s.pc t = .cItem d) (hw : ∀ i, s.item = some i → s.work i = 0) :
      Step s { touch s with item := none, itemRel := bump s.item s.itemRel, pc := upd s.pc t (.cPool d) }
  /-- :109 -/
  | closePool (s : Sys) (t : Nat) (d : Bool) (h : s.pc t = .cPool d) : Step s { touch s with pool := none, poolRel := bump s.pool s.poolRel, pc := upd s.pc t (.cEnd d) }
  /-- :112 -/
  | closeEnd (s : Sys) (t : Nat) (d : Bool) (h : s.pc t = .cEnd d) : Step s { touch s with gate := .created, pc := upd s.pc t (if d then .dRef else .out) }
  /-- :129-130 -/
  | destroyRef (s : Sys) (t : Nat) (h : s.pc t = .dRef) : Step s { touch s with engine := s.engine - 1, bad := s.bad || !s.alive || s.engine == 0, pc := upd s.pc t .dSm }
  /-- :133 -/
  | destroySm (s : Sys) (t : Nat) (h : s.pc t = .dSm) : Step s { touch s with smLive := false, bad := s.bad || !s.alive || !s.smLive, pc := upd s.pc t .dFree }
  /-- :136 -/
  | destroyFree (s : Sys) (t : Nat) (h : s.pc t = .dFree) : Step s { touch s with alive := false, pc := upd s.pc t .out }

inductive Reach : Sys → Prop
  | init : Reach init
  | step {s s' : Sys} (h : Reach s) (st : Step s s') : Reach s'

end CUtil.TpWorkerLife
