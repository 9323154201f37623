import Verif.DList.Model
/-
The list handling of /repo/src/channel.c on the heap of Verif/DList, statement by statement. Verif/Channel has lists of operations in its
place; the theorems about this model say that this is right.
-/
namespace CUtil.ChannelHeap
open CUtil CUtil.DList

/-- channel.c:81-87 `copy_entry`; the state of the action is its context, the head on the stack. -/
def copyEntry : Action Nat := fun stack h e => do
  let h ← insertTailList h stack e
  pure (h, stack, false, some true)

/-- channel.c:93-105 of `abandon_pending_operations`: the entries move to the list on the stack. -/
def moveAll (fuel : Nat) (h : Heap) (head stack : Nat) : C Heap := do
  let h ← initializeListHead h stack
  let ((h, _), _, _) ← forEach fuel h (some head) (some copyEntry) stack
  initializeListHead h head

/-- channel.c:112-121: take the first entry until the head itself comes back. The second component is not in the program: the entries in the
order in which their callbacks are executed. execute_callbacks (channel.c:238-294) drops the channel's reference: unless somebody kept the
operation's handle (`kept`), its memory is gone. -/
def drain (kept : Nat → Bool) (h : Heap) (stack : Nat) : Nat → C (Heap × List Nat)
  | 0 => C.ub
  | n + 1 => do
    let (h, e) ← removeHeadList h stack
    if e = stack then C.ok (h, [])
    else do
      let h : Heap := { h with alive := fun p => h.alive p && (p != e || kept e) }
      let (h, es) ← drain kept h stack n
      pure (h, e :: es)

/-- channel.c:89-122 `abandon_pending_operations`; `stack` is the address of its local variable `op_list`, which is there only during the call. -/
def abandon (kept : Nat → Bool) (fuel : Nat) (h : Heap) (head stack : Nat) : C (Heap × List Nat) := do
  let h : Heap := { h with alive := fun p => p == stack || h.alive p }
  let h ← moveAll fuel h head stack
  let (h, es) ← drain kept h stack fuel
  pure ({ h with alive := fun p => h.alive p && p != stack }, es)

/-- channel.c:316-319 of `cancel_op`: is the entry in a list? -/
def isLinked (h : Heap) (e : Nat) : C Bool := do
  let f ← getF h e
  if f = e then pure false
  else do
    let b ← getB h f
    pure (decide (e = b))

/-- channel.c:313-325 of `cancel_op`. -/
def unlink (h : Heap) (e : Nat) : C (Heap × Bool) := do
  let l ← isLinked h e
  if l then do
    let (h, _) ← removeEntryList h e
    pure (h, true)
  else pure (h, false)

end CUtil.ChannelHeap
