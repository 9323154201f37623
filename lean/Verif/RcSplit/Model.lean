import Verif.RcString.Model
/-
RC_STRING_ARRAY and splitting: /repo/src/rc_string_array.c and /repo/src/rc_string_utils.c, over the
heap of `Verif.RcString.Model`.
-/
namespace CUtil.RcSplit
open CUtil RcString

/-- rc_string_array.c:18-73 `rc_string_array_create`; the two flags are the outcomes of its two
allocations.  The loop that initialises the elements to NULL is done at once. -/
def arrayCreate (h : Heap) (count : Nat) (al1 al2 : Bool) : C (Option Nat × Heap) :=
  if al1 = false then C.ok (none, h)
  else
    let (a, h) := malloc h (.header 0 none)
    if count > 0 then
      if al2 = false then do
        let h ← free h a
        C.ok (none, h)
      else
        let (arr, h) := malloc h (.slots (List.replicate count none))
        C.ok (some a, { h with cell := setCell h.cell a (some (.header count (some arr))) })
    else C.ok (some a, { h with cell := setCell h.cell a (some (.header count none)) })

/-- `array->string_array[i] = v` -/
def setSlot (h : Heap) (a i : Nat) (v : Option Nat) : C Heap :=
  match h.cell a with
  | some (.header _ (some arr)) => match h.cell arr with
    | some (.slots l) => if i < l.length then C.ok { h with cell := setCell h.cell arr (some (.slots (l.set i v))) } else C.ub
    | _ => C.ub
  | _ => C.ub

/-- `array->string_array[i]` -/
def getSlot (h : Heap) (a i : Nat) : C (Option Nat) :=
  match h.cell a with
  | some (.header _ (some arr)) => match h.cell arr with
    | some (.slots l) => rd l i
    | _ => C.ub
  | _ => C.ub

/-- rc_string_array.c:86-92: the loop of `rc_string_array_destroy`, from index `i`, `n` iterations. -/
def destroyLoop (h : Heap) (a : Nat) : Nat → Nat → C Heap
  | 0, _ => C.ok h
  | n + 1, i => do
    let s ← getSlot h a i
    let h ← match s with
      | none => C.ok h
      | some p => do
        let h ← drop h p
        setSlot h a i none
    destroyLoop h a n (i + 1)

/-- rc_string_array.c:75-100 `rc_string_array_destroy`. -/
def arrayDestroy (h : Heap) (a : Option Nat) : C Heap :=
  match a with
  | none => C.ok h
  | some a => match h.cell a with
    | some (.header count arr) => do
      let h ← destroyLoop h a count 0
      let h ← match arr with
        | none => C.ok h
        | some arr => free h arr
      free h a
    | _ => C.ub

/-- Outcomes of the allocations of one split: header and array, and for each piece its memory and
its handle. -/
structure Alloc where
  hdr : Bool
  arr : Bool
  piece : Nat → Bool
  handle : Nat → Bool

/-- rc_string_utils.c:36-43: the counting loop; `num_splits` is a `uint32_t`. -/
def countLoop (d : UInt8) : List UInt8 → Nat → Nat
  | [], n => n
  | c :: cs, n => countLoop d cs (if c = d then add32 n 1 else n)

/-- A byte that must have been written. -/
def rdByte (m : Mem) (i : Nat) : C UInt8 := do
  match ← rd m i with
  | some b => C.ok b
  | none => C.ub

/-- rc_string_utils.c:69-111: the splitting loop from index `i`, `n` iterations left; `m` is the memory
of `str->string` (the caller owns a reference to `str`, so it does not change).  The result
tells whether the loop ran to its end (`i == str_len + 1`). -/
def splitLoop (m : Mem) (d : UInt8) (a : Nat) (al : Alloc) : Nat → Nat → Nat → Nat → Heap → C (Bool × Heap)
  | 0, _, _, _, h => C.ok (true, h)
  | n + 1, i, start, idx, h => do
    let c ← rdByte m i
    if c = d ∨ c = 0 then
      if al.piece idx = false then C.ok (false, h)
      else do
        let (b, h) := malloc h (.raw (uninit (i - start + 1)))
        let mem ← memcpy (uninit (i - start + 1)) 0 m start (i - start)
        let mem ← wr mem (i - start) 0
        let h := { h with cell := setCell h.cell b (some (.raw mem)) }
        let r ← createMove h (some b) (al.handle idx)
        match r with
        | (none, h) => do
          let h ← free h b
          C.ok (false, h)
        | (some p, h) => do
          let h ← setSlot h a idx (some p)
          splitLoop m d a al n (i + 1) (i + 1) (add32 idx 1) h
    else splitLoop m d a al n (i + 1) start idx h

/-- rc_string_utils.c:19-120 `rc_string_utils_split_by_char`. -/
def split (h : Heap) (str : Option Nat) (d : UInt8) (al : Alloc) : C (Option Nat × Heap) :=
  match str with
  | none => C.ok (none, h)
  | some p => do
    let o ← getObj h p
    let m ← textMem h o
    let t ← cstr m
    let num := add32 (countLoop d t 0) 1
    match ← arrayCreate h num al.hdr al.arr with
    | (none, h) => C.ok (none, h)
    | (some a, h) =>
      if num = 1 then do
        let h ← incRef h p
        let h ← setSlot h a 0 (some p)
        C.ok (some a, h)
      else do
        match ← splitLoop m d a al (t.length + 1) 0 0 0 h with
        | (true, h) => C.ok (some a, h)
        | (false, h) => do
          let h ← arrayDestroy h (some a)
          C.ok (none, h)

/-- What the caller sees in the returned array: its elements' handles and texts. -/
def elements (h : Heap) (a : Nat) : C (List Nat) :=
  match h.cell a with
  | some (.header count none) => if count = 0 then C.ok [] else C.ub
  | some (.header count (some arr)) => match h.cell arr with
    | some (.slots l) => if l.length = count then l.mapM (fun x => match x with | some p => C.ok p | none => C.ub) else C.ub
    | _ => C.ub
  | _ => C.ub

end CUtil.RcSplit
