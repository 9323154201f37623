import Verif.Base
/-
Model of /repo/src/map.c (all of it except `Map_ToJSON`, which is in Json.lean).

Strings live on a heap so that use after free, double free and leaks are visible: an address is an index into the heap, a
cell is `some text` while the block is allocated and `none` once it was freed.  The arrays `keys` and `values` are blocks of
pointer cells: `none` never written, `some none` NULL, `some (some p)` a pointer.
`al i` is the outcome of the i-th allocation site of the called function; it also stands for the overflow checks of
`malloc_2`, `realloc_2` and `realloc_flex`.
Keys and values passed in are C strings, given by their characters.
-/
namespace CUtil.Map

abbrev Str := List UInt8

abbrev Heap := List (Option Str)

def halloc (h : Heap) (s : Str) : Heap × Nat := (h ++ [some s], h.length)

/-- `free` of a block: it must be allocated. -/
def hfree (h : Heap) (p : Nat) : C Heap :=
  match h[p]? with
  | some (some _) => C.ok (h.set p none)
  | _ => C.ub

/-- Reading the characters of a block: it must be allocated. -/
def hget (h : Heap) (p : Nat) : C Str :=
  match h[p]? with
  | some (some s) => C.ok s
  | _ => C.ub

/-- A block of pointers. -/
abbrev Cells := List (Option (Option Nat))

/-- map.c:20-26 `MAP_HANDLE_DATA`; a filter is the predicate "accepted" (the callback returned 0). -/
structure MAP where
  keys : Option Cells
  values : Option Cells
  count : Nat
  filter : Option (Str → Str → Bool)

/-- inc/c_util/map.h:28-39 `MAP_RESULT`. -/
inductive Res where
  | OK | ERROR | INVALIDARG | KEYEXISTS | KEYNOTFOUND | FILTER_REJECT
deriving DecidableEq, Repr

/-- Reading the pointer `a[i]`, which must be a valid pointer to be used. -/
def ptr (a : Option Cells) (i : Nat) : C Nat :=
  match a with
  | none => C.ub
  | some l => do
    match ← rd l i with
    | some (some p) => C.ok p
    | _ => C.ub

/-- `a[i] = v`. -/
def setPtr (a : Option Cells) (i : Nat) (v : Option Nat) : C (Option Cells) :=
  match a with
  | none => C.ub
  | some l => do
    let l ← wr l i v
    pure (some l)

/-- map.c:30-44 `Map_Create`. -/
def create (filter : Option (Str → Str → Bool)) (a : Bool) : Option MAP :=
  if a then some ⟨none, none, 0, filter⟩ else none

/-- map.c:55-59: the loop of `Map_Destroy`, `n` entries left. -/
def destroyLoop (m : MAP) (h : Heap) (i : Nat) : Nat → C Heap
  | 0 => C.ok h
  | n + 1 => do
    let p ← ptr m.keys i
    let h ← hfree h p
    let p ← ptr m.values i
    let h ← hfree h p
    destroyLoop m h (i + 1) n

/-- map.c:46-64 `Map_Destroy`. -/
def destroy (h : Heap) (m : Option MAP) : C Heap :=
  match m with
  | none => C.ok h
  | some m => destroyLoop m h 0 m.count

/-- map.c:81-87: copying loop of `Map_CloneVector` at index `i`, `n` entries left; stops at the first failure.  Returns the index reached. -/
def cloneLoop (source : Option Cells) (al : Nat → Bool) (h : Heap) (result : Cells) (i : Nat) : Nat → C (Heap × Cells × Nat)
  | 0 => C.ok (h, result, i)
  | n + 1 => do
    let p ← ptr source i
    let s ← hget h p
    if al i = false then C.ok (h, result, i)
    else do
      let r := halloc h s
      let result ← wr result i (some r.2)
      cloneLoop source al r.1 result (i + 1) n

/-- map.c:96-99 and 149-152: freeing the first entries of a vector. -/
def freeLoop (cells : Cells) (h : Heap) (j : Nat) : Nat → C Heap
  | 0 => C.ok h
  | n + 1 => do
    let p ← ptr (some cells) j
    let h ← hfree h p
    freeLoop cells h (j + 1) n

/-- map.c:68-105 `Map_CloneVector`; `a` is the allocation of the vector. -/
def cloneVector (source : Option Cells) (count : Nat) (a : Bool) (al : Nat → Bool) (h : Heap) : C (Heap × Option Cells) :=
  if a = false then C.ok (h, none)
  else do
    let (h, result, i) ← cloneLoop source al h (uninit count) 0 count
    if i = count then C.ok (h, some result)
    else do
      let h ← freeLoop result h 0 i
      pure (h, none)

/-- map.c:108-168 `Map_Clone`; `a 0` the structure, `a 1`/`a 2` the vectors, `ka`/`va` the copies. -/
def clone (h : Heap) (m : Option MAP) (a : Nat → Bool) (ka va : Nat → Bool) : C (Heap × Option MAP) :=
  match m with
  | none => C.ok (h, none)
  | some m =>
    if a 0 = false then C.ok (h, none)
    else if m.count = 0 then C.ok (h, some ⟨none, none, 0, none⟩)
    else do
      let (h, ks) ← cloneVector m.keys m.count (a 1) ka h
      match ks with
      | none => C.ok (h, none)
      | some ks => do
        let (h, vs) ← cloneVector m.values m.count (a 2) va h
        match vs with
        | none => do
          let h ← freeLoop ks h 0 m.count
          pure (h, none)
        | some vs => C.ok (h, some ⟨some ks, some vs, m.count, m.filter⟩)

/-- map.c:170-218 `Map_IncreaseStorageKeysValues`; sites 0 keys, 1 values, 2 undo. -/
def increaseStorage (m : MAP) (al : Nat → Bool) : C (MAP × Bool) :=
  if al 0 = false then C.ok (m, false)
  else do
    let keys ← setPtr (some (reallocMem (m.keys.getD []) (m.count + 1))) m.count none
    if al 1 = false then
      if m.count = 0 then C.ok (⟨none, m.values, m.count, m.filter⟩, false)
      else if al 2 = false then C.ok (⟨keys, m.values, m.count, m.filter⟩, false)
      else C.ok (⟨some (reallocMem (keys.getD []) m.count), m.values, m.count, m.filter⟩, false)
    else do
      let values ← setPtr (some (reallocMem (m.values.getD []) (m.count + 1))) m.count none
      pure (⟨keys, values, m.count + 1, m.filter⟩, true)

/-- map.c:220-259 `Map_DecreaseStorageKeysValues`; sites 5 keys, 6 values. -/
def decreaseStorage (m : MAP) (al : Nat → Bool) : MAP :=
  if m.count = 1 then ⟨none, none, 0, none⟩
  else
    ⟨if al 5 then some (reallocMem (m.keys.getD []) (m.count - 1)) else m.keys,
     if al 6 then some (reallocMem (m.values.getD []) (m.count - 1)) else m.values,
     m.count - 1, m.filter⟩

/-- map.c:270-278 and 293-301: the search loop at index `i`, `n` entries left. -/
def findLoop (h : Heap) (cells : Option Cells) (key : Str) (i : Nat) : Nat → C (Option Nat)
  | 0 => C.ok none
  | n + 1 => do
    let p ← ptr cells i
    let s ← hget h p
    if s = key then C.ok (some i) else findLoop h cells key (i + 1) n

/-- map.c:261-282 `findKey` and 284-305 `findValue`; the result is the index of the cell the returned pointer points at. -/
def find (h : Heap) (cells : Option Cells) (key : Str) (count : Nat) : C (Option Nat) :=
  if cells = none then C.ok none else findLoop h cells key 0 count

/-- A `const char* value` argument: the caller's string, or a pointer the map itself handed out (`Map_GetValueFromKey`,
`Map_GetInternals`). -/
inductive Val where
  | ext (s : Str)
  | own (p : Nat)

/-- Reading such an argument. -/
def Val.read (h : Heap) : Val → C Str
  | .ext s => C.ok s
  | .own p => hget h p

/-- map.c:307-338 `insertNewKeyValue`; sites 3 key copy, 4 value copy. -/
def insertNewKeyValue (h : Heap) (m : MAP) (key : Str) (value : Val) (al : Nat → Bool) : C (Heap × MAP × Bool) := do
  let (m, ok) ← increaseStorage m al
  if ok = false then C.ok (h, m, false)
  else if al 3 = false then do
    let keys ← setPtr m.keys (m.count - 1) none
    pure (h, decreaseStorage ⟨keys, m.values, m.count, m.filter⟩ al, false)
  else do
    let (h, p) := halloc h key
    let keys ← setPtr m.keys (m.count - 1) (some p)
    let v ← value.read h
    if al 4 = false then do
      let values ← setPtr m.values (m.count - 1) none
      let p ← ptr keys (m.count - 1)
      let h ← hfree h p
      pure (h, decreaseStorage ⟨keys, values, m.count, m.filter⟩ al, false)
    else do
      let (h, p) := halloc h v
      let values ← setPtr m.values (m.count - 1) (some p)
      pure (h, ⟨keys, values, m.count, m.filter⟩, true)

/-- The filter, when there is one, rejects the pair. -/
def rejects (m : MAP) (key value : Str) : Bool :=
  match m.filter with
  | none => false
  | some f => !f key value

/-- map.c:340-388 `Map_Add`. -/
def add (h : Heap) (m : Option MAP) (key : Option Str) (value : Option Val) (al : Nat → Bool) : C (Heap × Option MAP × Res) :=
  match m, key, value with
  | some m, some key, some value => do
    match ← find h m.keys key m.count with
    | some _ => C.ok (h, some m, .KEYEXISTS)
    | none => do
      let v ← value.read h
      if rejects m key v then C.ok (h, some m, .FILTER_REJECT)
      else do
        let (h, m, ok) ← insertNewKeyValue h m key value al
        pure (h, some m, if ok then .OK else .ERROR)
  | m, _, _ => C.ok (h, m, .INVALIDARG)

/-- map.c:390-457 `Map_AddOrUpdate`; site 7 is the reallocation of an existing value. -/
def addOrUpdate (h : Heap) (m : Option MAP) (key : Option Str) (value : Option Val) (al : Nat → Bool) :
    C (Heap × Option MAP × Res) :=
  match m, key, value with
  | some m, some key, some value => do
    let v ← value.read h
    if rejects m key v then C.ok (h, some m, .FILTER_REJECT)
    else do
      match ← find h m.keys key m.count with
      | none => do
        let (h, m, ok) ← insertNewKeyValue h m key value al
        pure (h, some m, if ok then .OK else .ERROR)
      | some index => do
        let _ ← value.read h
        let p ← ptr m.values index
        if al 7 = false then C.ok (h, some m, .ERROR)
        else do
          -- `realloc` released the old block; the argument is read only now
          let h ← hfree h p
          let v ← value.read h
          let (h, p) := halloc h v
          let values ← setPtr m.values index (some p)
          pure (h, some ⟨m.keys, values, m.count, m.filter⟩, .OK)
  | m, _, _ => C.ok (h, m, .INVALIDARG)

/-- `memmove(a + d, a + s, n * sizeof(char*))`. -/
def moveCells (a : Option Cells) (d s n : Nat) : C (Option Cells) :=
  match a with
  | none => C.ub
  | some m =>
    if s + n ≤ m.length ∧ d + n ≤ m.length then
      C.ok (some (m.take d ++ ((m.drop s).take n ++ m.drop (d + n))))
    else C.ub

/-- map.c:459-495 `Map_Delete`. -/
def delete (h : Heap) (m : Option MAP) (key : Option Str) (al : Nat → Bool) : C (Heap × Option MAP × Res) :=
  match m, key with
  | some m, some key => do
    match ← find h m.keys key m.count with
    | none => C.ok (h, some m, .KEYNOTFOUND)
    | some index => do
      let p ← ptr m.keys index
      let h ← hfree h p
      let p ← ptr m.values index
      let h ← hfree h p
      let keys ← moveCells m.keys index (index + 1) (m.count - index - 1)
      let values ← moveCells m.values index (index + 1) (m.count - index - 1)
      pure (h, some (decreaseStorage ⟨keys, values, m.count, m.filter⟩ al), .OK)
  | m, _ => C.ok (h, m, .INVALIDARG)

/-- map.c:497-519 `Map_ContainsKey` (`out`: the output pointer is not NULL). -/
def containsKey (h : Heap) (m : Option MAP) (key : Option Str) (out : Bool) : C (Res × Option Bool) :=
  match m, key, out with
  | some m, some key, true => do
    let r ← find h m.keys key m.count
    pure (.OK, some r.isSome)
  | _, _, _ => C.ok (.INVALIDARG, none)

/-- map.c:521-543 `Map_ContainsValue`. -/
def containsValue (h : Heap) (m : Option MAP) (value : Option Str) (out : Bool) : C (Res × Option Bool) :=
  match m, value, out with
  | some m, some value, true => do
    let r ← find h m.values value m.count
    pure (.OK, some r.isSome)
  | _, _, _ => C.ok (.INVALIDARG, none)

/-- map.c:545-574 `Map_GetValueFromKey`: the pointer returned. -/
def getValueFromKey (h : Heap) (m : Option MAP) (key : Option Str) : C (Option Nat) :=
  match m, key with
  | some m, some key => do
    match ← find h m.keys key m.count with
    | none => C.ok none
    | some index => do
      let p ← ptr m.values index
      pure (some p)
  | _, _ => C.ok none

/-- map.c:576-602 `Map_GetInternals`. -/
def getInternals (m : Option MAP) (out : Bool) : Res × Option (Option Cells × Option Cells × Nat) :=
  match m, out with
  | some m, true => (.OK, some (m.keys, m.values, m.count))
  | _, _ => (.INVALIDARG, none)

end CUtil.Map
