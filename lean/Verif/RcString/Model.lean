import Verif.Base
/-
RC_STRING and RC_PTR: /repo/src/rc_string.c and /repo/src/rc_ptr.c.

The heap maps addresses to cells; `none` is an address never allocated or already freed, and
addresses are not reused, so that `free` of anything but a live block is undefined.  THANDLE
(c-pal, not in this repository) is modelled by its contract: an object with a count, created
with count 1; the thread whose decrement reaches zero runs the dispose function and then frees
the object.  An object whose count reached zero is `dying` until that thread has done so, so
that what other threads do in between is covered.  The count is a `Nat`: fewer than 2^32
references are assumed.
-/
namespace CUtil.RcString
open CUtil

/-- What an object was created with.  The three storage types of RC_STRING_INTERNAL
(rc_string.c:20-39) and RC_PTR (rc_ptr.c:11-59).  The memory behind `custom` belongs to the user,
who keeps `text` intact until `free_func` is called. -/
inductive Kind where
  | copied (m : Mem)                                -- copied_string[]
  | moved (block : Nat)                             -- string, to be freed with free
  | custom (text : List UInt8) (f ctx : Nat)        -- string, free_func, free_func_context
  | ptr (p : Nat) (f : Option Nat) (ctx : Nat)      -- RC_PTR: ptr, free_func (NULL allowed), context
deriving DecidableEq, Repr

/-- A THANDLE object. -/
structure Obj where
  kind : Kind
  count : Nat
  dying : Bool
deriving DecidableEq, Repr

inductive Cell where
  | raw (m : Mem)                                    -- a block of bytes
  | obj (o : Obj)                                    -- a THANDLE object
  | header (count : Nat) (arr : Option Nat)          -- an RC_STRING_ARRAY structure
  | slots (l : List (Option Nat))                    -- its array of handles
deriving DecidableEq, Repr

/-- Visible effects. -/
inductive Event where
  | free (p : Nat)
  | strFree (h f ctx : Nat)             -- free_func(free_func_context) for string h
  | ptrFree (h f ctx p : Nat)           -- free_func(free_func_context, ptr) for pointer h
deriving DecidableEq, Repr

structure Heap where
  next : Nat
  cell : Nat → Option Cell
  log : List Event

def setCell (f : Nat → Option Cell) (p : Nat) (c : Option Cell) : Nat → Option Cell :=
  fun q => if q = p then c else f q

/-- A successful allocation. -/
def malloc (h : Heap) (c : Cell) : Nat × Heap :=
  (h.next, { h with next := h.next + 1, cell := setCell h.cell h.next (some c) })

/-- `free` of a non-NULL pointer. -/
def free (h : Heap) (p : Nat) : C Heap :=
  match h.cell p with
  | some _ => C.ok { h with cell := setCell h.cell p none, log := .free p :: h.log }
  | none => C.ub

/-- Access to an object through a handle: it must be alive. -/
def getObj (h : Heap) (p : Nat) : C Obj :=
  match h.cell p with
  | some (.obj o) => if o.dying then C.ub else C.ok o
  | _ => C.ub

/-- The memory `rc->string` points to. -/
def textMem (h : Heap) (o : Obj) : C Mem :=
  match o.kind with
  | .copied m => C.ok m
  | .moved b => match h.cell b with
    | some (.raw m) => C.ok m
    | _ => C.ub
  | .custom t _ _ => C.ok ((t ++ [0]).map some)
  | .ptr .. => C.ub

/-- The text a holder of the handle reads: the bytes at `rc->string` up to the terminator. -/
def content (h : Heap) (p : Nat) : C (List UInt8) := do
  let o ← getObj h p
  let m ← textMem h o
  cstr m

/-- The pointer a holder of an RC_PTR reads (`rc_ptr->ptr`). -/
def pointer (h : Heap) (p : Nat) : C Nat := do
  let o ← getObj h p
  match o.kind with
  | .ptr x _ _ => C.ok x
  | _ => C.ub

/-- `sizeof(RC_STRING_INTERNAL) - sizeof(RC_STRING)` on a 64 bit target. -/
abbrev extraSize : Nat := 24
abbrev sizeMax : Nat := 18446744073709551615
abbrev intMax : Nat := 2147483647

def newObj (h : Heap) (k : Kind) : Option Nat × Heap :=
  let (p, h) := malloc h (.obj ⟨k, 1, false⟩)
  (some p, h)

/-- rc_string.c:68-104 `rc_string_create_impl`: `string` is the memory the argument points to. -/
def createImpl (h : Heap) (string : Mem) (alloc : Bool) : C (Option Nat × Heap) := do
  let t ← cstr string
  let len1 := t.length + 1
  if len1 > sizeMax - extraSize then C.ok (none, h)
  else if alloc = false then C.ok (none, h)
  else do
    let m ← memcpy (uninit len1) 0 string 0 len1
    C.ok (newObj h (.copied m))

/-- rc_string.c:106-121 `rc_string_create`. -/
def create (h : Heap) (string : Option Mem) (alloc : Bool) : C (Option Nat × Heap) :=
  match string with
  | none => C.ok (none, h)
  | some s => createImpl h s alloc

/-- What `vsnprintf(dst, n, ...)` writes for the formatted text `t`: as much as fits, and the
terminator. -/
def snprintfInto (n : Nat) (t : List UInt8) : C Mem :=
  if n = 0 then C.ok []
  else C.ok (((t.take (n - 1)) ++ [0]).map some ++ uninit (n - ((t.take (n - 1)).length + 1)))

/-- rc_string.c:123-187 `rc_string_create_with_vformat` (and 189-196, its variadic front end).
`vsnprintf` is an oracle: `measured` is the result of the first call (`none`: negative) and
`formatted` the text the second one produces (`none`: negative result).
`int string_length_with_terminator = string_length + 1` is computed before the test for
`INT_MAX`, so that value is undefined behaviour. -/
def createVformat (h : Heap) (formatNull : Bool) (measured : Option Nat) (formatted : Option (List UInt8))
    (alloc : Bool) : C (Option Nat × Heap) :=
  if formatNull then C.ok (none, h)
  else match measured with
    | none => C.ok (none, h)
    | some n =>
      if n ≥ intMax then C.ub
      else if alloc = false then C.ok (none, h)
      else do
        let (p, h) := malloc h (.obj ⟨.copied (uninit (n + 1)), 1, false⟩)
        match formatted with
        | none => do
          let h ← free h p
          C.ok (none, h)
        | some t => do
          let m ← snprintfInto (n + 1) t
          C.ok (some p, { h with cell := setCell h.cell p (some (.obj ⟨.copied m, 1, false⟩)) })

/-- rc_string.c:198-230 `rc_string_create_with_move_memory`. -/
def createMove (h : Heap) (string : Option Nat) (alloc : Bool) : C (Option Nat × Heap) :=
  match string with
  | none => C.ok (none, h)
  | some b => if alloc = false then C.ok (none, h) else C.ok (newObj h (.moved b))

/-- rc_string.c:232-272 `rc_string_create_with_custom_free`. -/
def createCustom (h : Heap) (string : Option (List UInt8)) (f : Option Nat) (ctx : Nat) (alloc : Bool) :
    C (Option Nat × Heap) :=
  match string, f with
  | some t, some f => if alloc = false then C.ok (none, h) else C.ok (newObj h (.custom t f ctx))
  | _, _ => C.ok (none, h)

/-- rc_string.c:275-298 `rc_string_recreate`. -/
def recreate (h : Heap) (self : Option Nat) (alloc : Bool) : C (Option Nat × Heap) :=
  match self with
  | none => C.ok (none, h)
  | some p => do
    let o ← getObj h p
    let m ← textMem h o
    createImpl h m alloc

/-- rc_ptr.c:28-59 `rc_ptr_create_with_move_pointer`. -/
def ptrCreate (h : Heap) (ptr : Option Nat) (f : Option Nat) (ctx : Nat) (alloc : Bool) : C (Option Nat × Heap) :=
  match ptr with
  | none => C.ok (none, h)
  | some x => if alloc = false then C.ok (none, h) else C.ok (newObj h (.ptr x f ctx))

/-- Taking a reference (`THANDLE_ASSIGN`/`THANDLE_INITIALIZE` from a non-NULL handle). -/
def incRef (h : Heap) (p : Nat) : C Heap := do
  let o ← getObj h p
  C.ok { h with cell := setCell h.cell p (some (.obj { o with count := o.count + 1 })) }

/-- Dropping a reference: the atomic decrement. -/
def decRef (h : Heap) (p : Nat) : C Heap := do
  let o ← getObj h p
  if o.count = 0 then C.ub
  else C.ok { h with cell := setCell h.cell p (some (.obj { o with count := o.count - 1, dying := decide (o.count = 1) })) }

/-- rc_string.c:44-66 `rc_string_dispose`, rc_ptr.c:19-26 `rc_ptr_dispose`. -/
def dispose (h : Heap) (p : Nat) (k : Kind) : C Heap :=
  match k with
  | .copied _ => C.ok h
  | .moved b => free h b
  | .custom _ f ctx => C.ok { h with log := .strFree p f ctx :: h.log }
  | .ptr x (some f) ctx => C.ok { h with log := .ptrFree p f ctx x :: h.log }
  | .ptr _ none _ => C.ok h

/-- What the thread that brought the count to zero does next: dispose, then free the object. -/
def finish (h : Heap) (p : Nat) : C Heap :=
  match h.cell p with
  | some (.obj o) => if o.dying then do
      let h ← dispose h p o.kind
      free h p
    else C.ub
  | _ => C.ub

/-- `THANDLE_ASSIGN(..., NULL)` run to its end by one thread. -/
def drop (h : Heap) (p : Nat) : C Heap := do
  let h ← decRef h p
  match h.cell p with
  | some (.obj o) => if o.dying then finish h p else C.ok h
  | _ => C.ub

end CUtil.RcString
