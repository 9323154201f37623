import Verif.Base
/-
Copy and free handlers for arguments of asynchronous calls and arrays of handles:
/repo/src/async_type_helper.c, /repo/inc/c_util/async_type_helper_ref_counted_handler.h, async_type_helper_thandle_handler.h,
async_type_helper_copy_value_handler.h, thandle_tuple_array.h.

The heap has reference counted objects (numbers; the count of one that is gone is 0) and blocks. Taking or releasing a
reference of an object that is gone is undefined; the object goes with its last reference. Reference counts do not overflow
(simplification: they are natural numbers). `inc_ref` and `dec_ref` of NULL only log (constbuffer_array.c), as THANDLE_ASSIGN
of NULL over NULL does nothing.
-/
namespace CUtil.AsyncType
open CUtil

/-- A block: a string, an array of handles, or an array of tuples of handles; a handle may be NULL. -/
inductive Block where
  | str (m : List (Option UInt8))
  | handles (m : List (Option (Option Nat)))
  | tuples (m : List (List (Option Nat)))
  deriving DecidableEq, Repr

structure Heap where
  refs : Nat → Nat
  mem : Nat → Option Block

/-- `inc_ref`. -/
def inc (h : Heap) : Option Nat → C Heap
  | none => C.ok h
  | some x => if h.refs x = 0 then C.ub else C.ok { h with refs := fun y => if y = x then h.refs y + 1 else h.refs y }

/-- `dec_ref`. -/
def dec (h : Heap) : Option Nat → C Heap
  | none => C.ok h
  | some x => if h.refs x = 0 then C.ub else C.ok { h with refs := fun y => if y = x then h.refs y - 1 else h.refs y }

/-- `malloc` at a free address. -/
def Heap.put (h : Heap) (p : Nat) (b : Block) : Heap := { h with mem := fun q => if q = p then some b else h.mem q }

/-- `free`. -/
def free (h : Heap) (p : Nat) : C Heap :=
  match h.mem p with
  | some _ => C.ok { h with mem := fun q => if q = p then none else h.mem q }
  | none => C.ub

/-- strcpy into a block: the bytes up to and with the zero. -/
def strcpy (src : List UInt8) : Nat → Nat → List (Option UInt8) → C (List (Option UInt8))
  | 0, _, _ => C.ub
  | fuel + 1, i, dst =>
    rd src i >>= fun c =>
    wr dst i c >>= fun dst =>
    if c = 0 then C.ok dst else strcpy src fuel (i + 1) dst

/-- What a copy handler leaves: the result (0: success), `*dest` when it was written, the heap. -/
structure Copied where
  result : Nat
  dest : Option (Option Nat)
  heap : Heap

/-- async_type_helper.c:17-58 copy handler of `const_charptr_t`. `destNull`: dest is NULL; `source`: the memory it points to;
`alloc`: the address `malloc` gives, `none` when it fails. -/
def charptrCopy (h : Heap) (destNull : Bool) (source : Option (List UInt8)) (alloc : Option Nat) : C Copied :=
  if destNull then C.ok ⟨1, none, h⟩
  else match source with
    | none => C.ok ⟨0, some none, h⟩
    | some src =>
      strlen src >>= fun n =>
      match alloc with
      | none => C.ok ⟨1, some none, h⟩
      | some p =>
        strcpy src (n + 1) 0 (uninit (n + 1)) >>= fun m =>
        C.ok ⟨0, some (some p), h.put p (.str m)⟩

/-- async_type_helper.c:61-73 free handler of `const_charptr_t`. -/
def charptrFree (h : Heap) (value : Option Nat) : C Heap :=
  match value with
  | none => C.ok h
  | some p => free h p

/-- async_type_helper.c:108-115 the loop; `n` rounds are left. -/
def copyLoop (src : List (Option Nat)) : Nat → Nat → Heap → List (Option (Option Nat)) → C (Heap × List (Option (Option Nat)))
  | 0, _, h, dst => C.ok (h, dst)
  | n + 1, i, h, dst =>
    rd src i >>= fun x =>
    inc h x >>= fun h =>
    wr dst i x >>= fun dst =>
    copyLoop src n (i + 1) h dst

/-- async_type_helper.c:75-121 `constbuffer_array_ptr_copy`. -/
def arrayPtrCopy (h : Heap) (destNull : Bool) (src : Option (List (Option Nat))) (itemCount : Nat) (alloc : Option Nat) : C Copied :=
  if destNull ∨ itemCount = 0 then C.ok ⟨1, none, h⟩
  else match src with
    | none => C.ok ⟨0, some none, h⟩
    | some src =>
      match alloc with
      | none => C.ok ⟨1, some none, h⟩
      | some p =>
        copyLoop src itemCount 0 h (uninit itemCount) >>= fun r =>
        C.ok ⟨0, some (some p), r.1.put p (.handles r.2)⟩

/-- async_type_helper.c:135-139 the loop. -/
def freeLoop (value : List (Option (Option Nat))) : Nat → Nat → Heap → C Heap
  | 0, _, h => C.ok h
  | n + 1, i, h =>
    rd value i >>= fun x =>
    match x with
    | none => C.ub
    | some x => dec h x >>= fun h => freeLoop value n (i + 1) h

/-- async_type_helper.c:123-143 `constbuffer_array_ptr_free`. -/
def arrayPtrFree (h : Heap) (value : Option Nat) (itemCount : Nat) : C Heap :=
  match value with
  | none => C.ok h
  | some p =>
    if itemCount = 0 then C.ok h
    else match h.mem p with
      | some (.handles m) => freeLoop m itemCount 0 h >>= fun h => free h p
      | _ => C.ub

/-- async_type_helper_ref_counted_handler.h:21-45 copy handler; async_type_helper_thandle_handler.h:20-36 is the same with
THANDLE_INITIALIZE. -/
def refCopy (h : Heap) (dstNull : Bool) (src : Option Nat) : C Copied :=
  if dstNull then C.ok ⟨1, none, h⟩
  else inc h src >>= fun h => C.ok ⟨0, some src, h⟩

/-- async_type_helper_ref_counted_handler.h:46-59 free handler; async_type_helper_thandle_handler.h:38-50. -/
def refFree (h : Heap) (arg : Option Nat) : C Heap := dec h arg

/-- async_type_helper_copy_value_handler.h:22-38 copy handler: `*dst = src`. -/
def valueCopy {α : Type} (dstNull : Bool) (src : α) : Nat × Option α := if dstNull then (1, none) else (0, some src)

/-- thandle_tuple_array.h:51-81 `THANDLE_TUPLE_ARRAY_CREATE`: `members` handles per tuple. -/
def tupleCreate (h : Heap) (members count : Nat) (alloc : Option Nat) : Option Nat × Heap :=
  match alloc with
  | none => (none, h)
  | some p => (some p, h.put p (.tuples (List.replicate count (List.replicate members none))))

/-- thandle_tuple_array.h:83-87 for each member: released if not NULL. -/
def freeMembers : List (Option Nat) → Heap → C Heap
  | [], h => C.ok h
  | x :: xs, h => (match x with | none => C.ok h | some _ => dec h x) >>= fun h => freeMembers xs h

/-- thandle_tuple_array.h:101-104 for each tuple. -/
def freeTuples : List (List (Option Nat)) → Heap → C Heap
  | [], h => C.ok h
  | t :: ts, h => freeMembers t h >>= fun h => freeTuples ts h

/-- thandle_tuple_array.h:89-108 `THANDLE_TUPLE_ARRAY_DESTROY`. -/
def tupleDestroy (h : Heap) (a : Option Nat) : C Heap :=
  match a with
  | none => C.ok h
  | some p =>
    match h.mem p with
    | some (.tuples ts) => freeTuples ts h >>= fun h => free h p
    | _ => C.ub

end CUtil.AsyncType
