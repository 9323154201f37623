import Verif.Base
/-
Model of /repo/src/doublylinkedlist.c and the structure of /repo/inc/c_util/doublylinkedlist.h:15-19.

The heap says which addresses hold an entry that may be accessed, and the `Flink` and `Blink` of each.  Entries are the caller's:
nothing is allocated or freed here.
-/
namespace CUtil.DList

structure Heap where
  alive : Nat → Bool
  f : Nat → Nat
  b : Nat → Nat

def upd (g : Nat → Nat) (p v : Nat) : Nat → Nat := fun q => if q = p then v else g q

/-- `p->Flink`. -/
def getF (h : Heap) (p : Nat) : C Nat := if h.alive p then C.ok (h.f p) else C.ub
/-- `p->Blink`. -/
def getB (h : Heap) (p : Nat) : C Nat := if h.alive p then C.ok (h.b p) else C.ub
/-- `p->Flink = v`. -/
def setF (h : Heap) (p v : Nat) : C Heap := if h.alive p then C.ok ⟨h.alive, upd h.f p v, h.b⟩ else C.ub
/-- `p->Blink = v`. -/
def setB (h : Heap) (p v : Nat) : C Heap := if h.alive p then C.ok ⟨h.alive, h.f, upd h.b p v⟩ else C.ub

/-- doublylinkedlist.c:11-19 `DList_InitializeListHead`. -/
def initializeListHead (h : Heap) (listHead : Nat) : C Heap := do
  let h ← setB h listHead listHead
  setF h listHead listHead

/-- doublylinkedlist.c:21-29 `DList_IsListEmpty`. -/
def isListEmpty (h : Heap) (listHead : Nat) : C Bool := do
  let x ← getF h listHead
  pure (decide (x = listHead))

/-- doublylinkedlist.c:31-48 `DList_RemoveEntryList`. -/
def removeEntryList (h : Heap) (entry : Nat) : C (Heap × Bool) := do
  let flink ← getF h entry
  let blink ← getB h entry
  let h ← setF h blink flink
  let h ← setB h flink blink
  pure (h, decide (flink = blink))

/-- doublylinkedlist.c:50-66 `DList_RemoveHeadList`. -/
def removeHeadList (h : Heap) (listHead : Nat) : C (Heap × Nat) := do
  let entry ← getF h listHead
  let flink ← getF h entry
  let h ← setF h listHead flink
  let h ← setB h flink listHead
  pure (h, entry)

/-- doublylinkedlist.c:68-84 `DList_RemoveTailList`. -/
def removeTailList (h : Heap) (listHead : Nat) : C (Heap × Nat) := do
  let entry ← getB h listHead
  let blink ← getB h entry
  let h ← setB h listHead blink
  let h ← setF h blink listHead
  pure (h, entry)

/-- doublylinkedlist.c:88-103 `DList_InsertTailList`. -/
def insertTailList (h : Heap) (listHead entry : Nat) : C Heap := do
  let blink ← getB h listHead
  let h ← setF h entry listHead
  let h ← setB h entry blink
  let h ← setF h blink entry
  setB h listHead entry

/-- doublylinkedlist.c:106-120 `DList_AppendTailList`. -/
def appendTailList (h : Heap) (listHead listToAppend : Nat) : C Heap := do
  let listEnd ← getB h listHead
  let x ← getB h listHead
  let h ← setF h x listToAppend
  let y ← getB h listToAppend
  let h ← setB h listHead y
  let z ← getB h listToAppend
  let h ← setF h z listHead
  setB h listToAppend listEnd

/-- doublylinkedlist.c:124-130 `DList_InsertHeadList`. -/
def insertHeadList (h : Heap) (listHead entry : Nat) : C Heap := do
  let h ← setB h entry listHead
  let x ← getF h listHead
  let h ← setF h entry x
  let y ← getF h listHead
  let h ← setB h y entry
  setF h listHead entry

/-- What an action does with the entry it is given: it may change the heap and its own state; it reports failure, and what it stored
in `*continueProcessing` (`none`: nothing). -/
abbrev Action (σ : Type) := σ → Heap → Nat → C (Heap × σ × Bool × Option Bool)

/-- doublylinkedlist.c:149-173: the loop of `DList_ForEach`; the second component of the result is success.  The third is not in the
program: the entries the action was called with, and what it answered. -/
def forEachLoop (act : Action σ) (h : Heap) (s : σ) (listHead entry : Nat) : Nat → C ((Heap × σ) × Bool × List (Nat × Bool × Option Bool))
  | 0 => C.ub
  | n + 1 =>
    if entry = listHead then C.ok ((h, s), true, [])
    else do
      let next ← getF h entry
      let (h, s, failed, cont) ← act s h entry
      if failed then C.ok ((h, s), false, [(entry, failed, cont)])
      else
        match cont with
        | none => C.ub
        | some false => C.ok ((h, s), true, [(entry, failed, cont)])
        | some true => do
          let (hs, ok, calls) ← forEachLoop act h s listHead next n
          pure (hs, ok, (entry, failed, cont) :: calls)

/-- doublylinkedlist.c:132-179 `DList_ForEach`. -/
def forEach (n : Nat) (h : Heap) (listHead : Option Nat) (act : Option (Action σ)) (s : σ) :
    C ((Heap × σ) × Bool × List (Nat × Bool × Option Bool)) :=
  match listHead, act with
  | some listHead, some act => do
    let entry ← getF h listHead
    forEachLoop act h s listHead entry n
  | _, _ => C.ok ((h, s), false, [])

end CUtil.DList
