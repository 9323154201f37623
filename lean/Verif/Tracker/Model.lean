import Verif.Base
/-
Model of /repo/src/object_lifetime_tracker.c.

The lists of keys and of objects are Lean lists; the operations of doublylinkedlist.c on them are the list operations they were proved to be
(`Verif/DList/Props.lean`: insertion at the head, removal of an entry, removal of the head, iteration).  Pointers are numbers, 0 is NULL.
The lock is a flag: acquiring it twice or releasing it when it is free is undefined.  `blocks` counts the KEY and OBJECT structures allocated
and not freed.
-/
namespace CUtil.Tracker

/-- object_lifetime_tracker.h: `KEY_MATCH_FUNCTION_RESULT`, `OBJECT_MATCH_FUNCTION_RESULT`. -/
inductive Match | matching | notMatching | error
deriving DecidableEq

/-- object_lifetime_tracker.c:19-25 `OBJECT`. -/
structure Obj where
  object : Nat
  destroy : Nat
  ctx : Nat
deriving DecidableEq

/-- object_lifetime_tracker.c:27-32 `KEY`. -/
structure Key where
  key : Nat
  objs : List Obj
deriving DecidableEq

/-- object_lifetime_tracker.c:34-40 `OBJECT_LIFETIME_TRACKER`. -/
structure T where
  keys : List Key
  locked : Bool
  blocks : Nat
deriving DecidableEq

/-- object_lifetime_tracker.h:22-46: the results.  `muFailure` is the `MU_FAILURE` number, which is none of the enumeration. -/
inductive Res
  | newKey | newObject | «exists» | error | muFailure
deriving DecidableEq

inductive URes
  | ok | error | notFound | keyNotFound
deriving DecidableEq

inductive ARes
  | ok | error | keyNotFound | objectNotFound
deriving DecidableEq

def acquire (t : T) : C T := if t.locked then C.ub else C.ok { t with locked := true }
def release (t : T) : C T := if t.locked then C.ok { t with locked := false } else C.ub
/-- `free` of a KEY or OBJECT. -/
def freeBlock (t : T) : C T := if t.blocks = 0 then C.ub else C.ok { t with blocks := t.blocks - 1 }

/-- Outcome of a search: the callback failed, no entry, or the entry with what is before and after it. -/
inductive Found (α : Type)
  | fail
  | none
  | entry (before : List α) (x : α) (after : List α)

/-- object_lifetime_tracker.c:64-95 `is_same_key` (:98-129 `is_same_object`) under `DList_ForEach`. -/
def scan (m : α → Match) : List α → Found α
  | [] => .none
  | x :: xs =>
    match m x with
    | .matching => .entry [] x xs
    | .error => .fail
    | .notMatching =>
      match scan m xs with
      | .fail => .fail
      | .none => .none
      | .entry b y a => .entry (x :: b) y a

/-- object_lifetime_tracker.c:131-178 `object_lifetime_tracker_create`: `memory`, `lock`: do the allocations succeed. -/
def create (key_match object_match memory lock : Bool) : Option T :=
  if !key_match || !object_match then none
  else if !memory then none
  else if !lock then none
  else some ⟨[], false, 0⟩

/-- object_lifetime_tracker.c:180-194 `object_lifetime_tracker_destroy`: the KEY and OBJECT structures still allocated afterwards. -/
def destroy (t : Option T) : Nat :=
  match t with
  | none => 0
  | some t => t.blocks

/-- object_lifetime_tracker.c:261-308: finding the object and inserting it into the key `k` at `before ++ k :: after`. -/
def insertObject (al : Bool) (om : Nat → Nat → Match) (t : T) (before : List Key) (k : Key) (after : List Key) (o : Obj) (newKey : Bool) : T × Res :=
  match scan (fun x => om x.object o.object) k.objs with
  | .fail => (t, .error)
  | .none =>
    if al then
      ({ t with keys := before ++ { k with objs := o :: k.objs } :: after, blocks := t.blocks + 1 }, if newKey then .newKey else .newObject)
    else (t, .error)
  | .entry _ _ _ => (t, .exists)

/-- object_lifetime_tracker.c:309-314: taking a new key out again. -/
def cleanup (t : T) (res : Res) (newKey : Bool) : C T :=
  if res = .error ∧ newKey = true then freeBlock { t with keys := t.keys.drop 1 } else C.ok t

/-- object_lifetime_tracker.c:196-325 `object_lifetime_tracker_register_object`; `al1`, `al2`: do the allocations of the key and of the object succeed. -/
def register (al1 al2 : Bool) (km om : Nat → Nat → Match) (t : Option T) (key : Nat) (o : Obj) : C (Option T × Res) :=
  match t with
  | none => C.ok (none, .muFailure)
  | some t =>
    if o.object = 0 ∨ o.destroy = 0 then C.ok (some t, .muFailure)
    else do
      let t ← acquire t
      match scan (fun k : Key => km k.key key) t.keys with
      | .fail => do
        let t ← release t
        pure (some t, .error)
      | .none =>
        if al1 then do
          let t := { t with keys := ⟨key, []⟩ :: t.keys, blocks := t.blocks + 1 }
          let (t, res) := insertObject al2 om t [] ⟨key, []⟩ (t.keys.drop 1) o true
          let t ← cleanup t res true
          let t ← release t
          pure (some t, res)
        else do
          let t ← release t
          pure (some t, .error)
      | .entry b k a => do
        let (t, res) := insertObject al2 om t b k a o false
        let t ← cleanup t res false
        let t ← release t
        pure (some t, res)

/-- object_lifetime_tracker.c:376-399: removing the object found and, if it was the last one, the key. -/
def removeObject (t : T) (b : List Key) (k : Key) (a : List Key) (ob oa : List Obj) : C T := do
  let t ← freeBlock { t with keys := b ++ { k with objs := ob ++ oa } :: a }
  if ob ++ oa = [] then freeBlock { t with keys := b ++ a } else C.ok t

/-- object_lifetime_tracker.c:327-407 `object_lifetime_tracker_unregister_object`. -/
def unregister (km om : Nat → Nat → Match) (t : Option T) (key object : Nat) : C (Option T × URes) :=
  match t with
  | none => C.ok (none, .error)
  | some t =>
    if object = 0 then C.ok (some t, .error)
    else do
      let t ← acquire t
      match scan (fun k : Key => km k.key key) t.keys with
      | .fail => do
        let t ← release t
        pure (some t, .error)
      | .none => do
        let t ← release t
        pure (some t, .keyNotFound)
      | .entry b k a =>
        match scan (fun x => om x.object object) k.objs with
        | .fail => do
          let t ← release t
          pure (some t, .error)
        | .none => do
          let t ← release t
          pure (some t, .notFound)
        | .entry ob _ oa => do
          let t ← removeObject t b k a ob oa
          let t ← release t
          pure (some t, .ok)

/-- object_lifetime_tracker.c:439-448: the loop destroying the objects of a key; the calls made, in order. -/
def destroyLoop (t : T) : List Obj → C (T × List Obj)
  | [] => C.ok (t, [])
  | o :: os => do
    let t ← freeBlock t
    let (t, calls) ← destroyLoop t os
    pure (t, o :: calls)

/-- object_lifetime_tracker.c:409-458 `object_lifetime_tracker_destroy_all_objects_for_key`; the calls of the destroy functions, in order. -/
def destroyAll (km : Nat → Nat → Match) (t : Option T) (key : Nat) : C (Option T × List Obj) :=
  match t with
  | none => C.ok (none, [])
  | some t => do
    let t ← acquire t
    match scan (fun k : Key => km k.key key) t.keys with
    | .fail => do
      let t ← release t
      pure (some t, [])
    | .none => do
      let t ← release t
      pure (some t, [])
    | .entry b k a => do
      let (t, calls) ← destroyLoop t k.objs
      let t ← freeBlock { t with keys := b ++ a }
      let t ← release t
      pure (some t, calls)

/-- object_lifetime_tracker.c:460-544 `object_lifetime_tracker_act`; `action`: NULL, or whether the action succeeds when called with an object.  The
last component: the object it was called with.  The lock is taken shared, which the flag does not distinguish. -/
def act (km om : Nat → Nat → Match) (t : Option T) (key object : Nat) (action : Option (Nat → Bool)) : C (Option T × ARes × Option Nat) :=
  match t, action with
  | some t, some action =>
    if key = 0 ∨ object = 0 then C.ok (some t, .error, none)
    else do
      let t ← acquire t
      match scan (fun k : Key => km k.key key) t.keys with
      | .fail => do
        let t ← release t
        pure (some t, .error, none)
      | .none => do
        let t ← release t
        pure (some t, .keyNotFound, none)
      | .entry _ k _ =>
        match scan (fun x => om x.object object) k.objs with
        | .fail => do
          let t ← release t
          pure (some t, .error, none)
        | .none => do
          let t ← release t
          pure (some t, .objectNotFound, none)
        | .entry _ o _ => do
          let t ← release t
          pure (some t, if action o.object then .ok else .error, some o.object)
  | t, _ => C.ok (t, .error, none)

end CUtil.Tracker
