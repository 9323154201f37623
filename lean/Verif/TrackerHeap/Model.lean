import Verif.Conc
import Verif.DList.Model
import Verif.Tracker.Model
/-
/repo/src/object_lifetime_tracker.c again, statement by statement on a heap: KEY and OBJECT structures at addresses, linked through their anchors by the
functions of Verif/DList. Verif/Tracker has lists in their place; the theorems about this model say that this is right, and that no freed structure is touched.

Blocks are numbered. The block `n` has two entries of lists: `2 * n` is the `anchor` of a KEY or of an OBJECT, `2 * n + 1` is the list `objects` of a KEY;
the block 0 is the tracker itself and `1` its list `keys`. CONTAINING_RECORD is the division by two. An entry can be accessed while its block is allocated
with the type it belongs to. malloc gives any block that is not allocated, as the caller says; its links are what they were.

The lock and the handle that is NULL are in Verif/Tracker; all this happens holding the lock. The matching functions and the functions that destroy objects do not use the tracker.
-/
namespace CUtil.TrackerHeap
open CUtil CUtil.DList
open CUtil.Tracker (Match Obj Res URes ARes)
open CUtil.Conc (upd)

/-- The memory: the links, and the members of the structures. -/
structure Mem where
  f : Nat → Nat
  b : Nat → Nat
  /-- object_lifetime_tracker.c:27-32 `KEY`: the member `key` of the block; `none` if it is no KEY. -/
  key : Nat → Option Nat
  /-- object_lifetime_tracker.c:19-25 `OBJECT`: its members; `none` if it is no OBJECT. -/
  obj : Nat → Option Obj

/-- The memory as the functions of doublylinkedlist.c see it. -/
def Mem.d (m : Mem) : Heap := ⟨fun a => a == 1 || (m.key (a / 2)).isSome || (a % 2 == 0 && (m.obj (a / 2)).isSome), m.f, m.b⟩

/-- The memory after one of them has changed links. -/
def Mem.withD (m : Mem) (h : Heap) : Mem := { m with f := h.f, b := h.b }

/-- `free` of a KEY. -/
def freeKey (m : Mem) (k : Nat) : C Mem := if m.key k = none then C.ub else C.ok { m with key := upd m.key k none }

/-- `free` of an OBJECT. -/
def freeObj (m : Mem) (o : Nat) : C Mem := if m.obj o = none then C.ub else C.ok { m with obj := upd m.obj o none }

/-- object_lifetime_tracker.c:64-95 `is_same_key`, :98-129 `is_same_object`: `content` is what the structure holds, `mt` the comparison with what is
looked for. The state is `found_list_entry`. -/
def isSame {α : Type} (content : Nat → Option α) (mt : α → Match) : Action (Option Nat) := fun found h e =>
  match content (e / 2) with
  | none => C.ub
  | some x =>
    match mt x with
    | .matching => C.ok (h, some e, false, some false)
    | .notMatching => C.ok (h, found, false, some true)
    | .error => C.ok (h, found, true, some false)

/-- object_lifetime_tracker.c:216-218, :347-349, :421-423, :483-486: `DList_ForEach` over the keys; was it 0, and `found_list_entry`. The action does not change the memory. -/
def findKey (F : Nat) (km : Nat → Nat → Match) (m : Mem) (key : Nat) : C (Bool × Option Nat) := do
  let ((_, found), ok, _) ← forEach F m.d (some 1) (some (isSame m.key fun k => km k key)) none
  pure (ok, found)

/-- object_lifetime_tracker.c:261-264, :366-368, :503-505: `DList_ForEach` over the objects of the key `k`. -/
def findObj (F : Nat) (om : Nat → Nat → Match) (m : Mem) (k object : Nat) : C (Bool × Option Nat) := do
  let ((_, found), ok, _) ← forEach F m.d (some (2 * k + 1)) (some (isSame m.obj fun o => om o.object object)) none
  pure (ok, found)

/-- object_lifetime_tracker.c:226-251: the key found, or a new one; `pk` is what malloc gives. -/
def keyFor (pk : Option Nat) (m : Mem) (key : Nat) (found : Option Nat) : C (Mem × Option Nat) :=
  match found with
  | some e => C.ok (m, some (e / 2))
  | none =>
    match pk with
    | none => C.ok (m, none)
    | some p => do
      let m := { m with key := upd m.key p (some key) }
      let h ← initializeListHead m.d (2 * p + 1)
      let m := m.withD h
      let h ← insertHeadList m.d 1 (2 * p)
      C.ok (m.withD h, some p)

/-- object_lifetime_tracker.c:261-308; `po` is what malloc gives. -/
def insertObject (F : Nat) (po : Option Nat) (om : Nat → Nat → Match) (m : Mem) (k : Nat) (o : Obj) (newKey : Bool) : C (Mem × Res) := do
  let (ok, found) ← findObj F om m k o.object
  if ok = false then C.ok (m, .error)
  else
    match found with
    | none =>
      match po with
      | none => C.ok (m, .error)
      | some q => do
        let m := { m with obj := upd m.obj q (some o) }
        let h ← insertHeadList m.d (2 * k + 1) (2 * q)
        C.ok (m.withD h, if newKey then .newKey else .newObject)
    | some _ => C.ok (m, .exists)

/-- object_lifetime_tracker.c:196-325 `object_lifetime_tracker_register_object`. -/
def register (F : Nat) (pk po : Option Nat) (km om : Nat → Nat → Match) (m : Mem) (key : Nat) (o : Obj) : C (Mem × Res) :=
  if o.object = 0 ∨ o.destroy = 0 then C.ok (m, .muFailure)
  else do
    let (ok, found) ← findKey F km m key
    if ok = false then C.ok (m, .error)
    else do
      let (m, k) ← keyFor pk m key found
      match k with
      | none => C.ok (m, .error)
      | some k => do
        let (m, res) ← insertObject F po om m k o (decide (found = none))
        if res = .error ∧ found = none then do
          let (h, _) ← removeHeadList m.d 1
          let m ← freeKey (m.withD h) k
          C.ok (m, res)
        else C.ok (m, res)

/-- object_lifetime_tracker.c:383-398: the object of the entry `e` is taken out and freed, and so is the key `k` if that was its last one. -/
def removeObject (m : Mem) (k e : Nat) : C Mem := do
  let (h, empty) ← removeEntryList m.d e
  let m ← freeObj (m.withD h) (e / 2)
  if empty then do
    let (h, _) ← removeEntryList m.d (2 * k)
    freeKey (m.withD h) k
  else C.ok m

/-- object_lifetime_tracker.c:327-407 `object_lifetime_tracker_unregister_object`. -/
def unregister (F : Nat) (km om : Nat → Nat → Match) (m : Mem) (key object : Nat) : C (Mem × URes) :=
  if object = 0 then C.ok (m, .error)
  else do
    let (ok, found) ← findKey F km m key
    if ok = false then C.ok (m, .error)
    else
      match found with
      | none => C.ok (m, .keyNotFound)
      | some e => do
        let k := e / 2
        let (ok, found) ← findObj F om m k object
        if ok = false then C.ok (m, .error)
        else
          match found with
          | none => C.ok (m, .notFound)
          | some e => do
            let m ← removeObject m k e
            C.ok (m, .ok)

/-- object_lifetime_tracker.c:439-448: the objects of the key `k` are taken out, destroyed and freed, one after the other; the calls made, in order. -/
def destroyLoop (m : Mem) (k : Nat) : Nat → C (Mem × List Obj)
  | 0 => C.ub
  | n + 1 => do
    let (h, e) ← removeHeadList m.d (2 * k + 1)
    let m := m.withD h
    if e = 2 * k + 1 then C.ok (m, [])
    else
      match m.obj (e / 2) with
      | none => C.ub
      | some o => do
        let m ← freeObj m (e / 2)
        let (m, calls) ← destroyLoop m k n
        C.ok (m, o :: calls)

/-- object_lifetime_tracker.c:409-458 `object_lifetime_tracker_destroy_all_objects_for_key`. -/
def destroyAll (F : Nat) (km : Nat → Nat → Match) (m : Mem) (key : Nat) : C (Mem × List Obj) := do
  let (ok, found) ← findKey F km m key
  if ok = false then C.ok (m, [])
  else
    match found with
    | none => C.ok (m, [])
    | some e => do
      let k := e / 2
      let (m, calls) ← destroyLoop m k F
      let (h, _) ← removeEntryList m.d (2 * k)
      let m ← freeKey (m.withD h) k
      C.ok (m, calls)

/-- object_lifetime_tracker.c:460-544 `object_lifetime_tracker_act`; `action`: NULL, or whether the action succeeds when called with an object. The last component: the
object it was called with. -/
def act (F : Nat) (km om : Nat → Nat → Match) (m : Mem) (key object : Nat) (action : Option (Nat → Bool)) : C (ARes × Option Nat) :=
  match action with
  | none => C.ok (.error, none)
  | some action =>
    if key = 0 ∨ object = 0 then C.ok (.error, none)
    else do
      let (ok, found) ← findKey F km m key
      if ok = false then C.ok (.error, none)
      else
        match found with
        | none => C.ok (.keyNotFound, none)
        | some e => do
          let (ok, found) ← findObj F om m (e / 2) object
          if ok = false then C.ok (.error, none)
          else
            match found with
            | none => C.ok (.objectNotFound, none)
            | some e =>
              match m.obj (e / 2) with
              | none => C.ub
              | some o => C.ok (if action o.object then .ok else .error, some o.object)

end CUtil.TrackerHeap
