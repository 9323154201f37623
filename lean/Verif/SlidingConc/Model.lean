import Verif.Sliding.Model
import Verif.Conc

/-
/repo/src/sliding_window_average_by_count.c with any number of threads that call add and get on one window.

Every statement of add that reads or writes the window is a step of its own, so that nothing is taken for granted about the lock protecting it.
The lock (c_pal) is modelled by its contract: acquire_exclusive waits until nobody holds it, acquire_shared until nobody holds it
exclusively.  A statement whose arithmetic leaves its type, or that indexes outside `counts`, makes the execution undefined (`bad`), and nothing
is said about what follows.  The arithmetic is that of Verif/Sliding/Model.lean.
-/
namespace CUtil.SlidingConc
open CUtil.Sliding CUtil.Conc

/-- sliding_window_average_by_count.c:108: the window was filled before. -/
def full (w : Window) : Prop := w.window_count ≤ w.next_available_slot

instance (w : Window) : Decidable (full w) := inferInstanceAs (Decidable (_ ≤ _))

/-- sliding_window_average_by_count.c:105 `window_location`.  (Computed once in the code; neither operand changes before line 127.) -/
def location (w : Window) : Int := Int.tmod w.next_available_slot w.window_count

/-- sliding_window_average_by_count.c:105, 112, 120: the change of `current_sum`. -/
def changeSum (w : Window) (x : Int) : C Window :=
  if w.window_count = 0 then C.ub
  else if full w then do
    let d ← i64 (x - (← count w.counts (location w)))
    let s ← i64 (w.current_sum + d)
    C.ok { w with current_sum := s }
  else do
    let s ← i64 (w.current_sum + x)
    C.ok { w with current_sum := s }

/-- sliding_window_average_by_count.c:114, 122: the value is stored. -/
def storeValue (w : Window) (x : Int) : C Window := do
  let m ← setCount w.counts (location w) x
  C.ok { w with counts := m }

/-- sliding_window_average_by_count.c:124 `current_count++`, not done when the window was full. -/
def countIt (w : Window) : C Window :=
  if full w then C.ok w
  else do
    let n ← i64 (w.current_count + 1)
    C.ok { w with current_count := n }

/-- sliding_window_average_by_count.c:127 `++next_available_slot`. -/
def nextSlot (w : Window) : C Window := do
  let slot ← i32 (w.next_available_slot + 1)
  C.ok { w with next_available_slot := slot }

/-- sliding_window_average_by_count.c:129: the average. -/
def setAverage (w : Window) : C Window := C.ok { w with current_average := some (w.current_sum, w.current_count) }

/-- Where a thread is.  `i` is the number of the call of add (ghost), `x` its value. -/
inductive Pc where
  | out
  /-- before line 103 -/
  | aLock (i : Nat) (x : Int)
  /-- before the change of the sum -/
  | aSum (i : Nat) (x : Int)
  | aStore (i : Nat) (x : Int)
  | aCount (i : Nat) (x : Int)
  | aSlot (i : Nat) (x : Int)
  | aAverage (i : Nat) (x : Int)
  /-- before line 132 -/
  | aUnlock (i : Nat) (x : Int)
  /-- add returns 0 -/
  | aRet (i : Nat) (x : Int)
  /-- before line 155 -/
  | gLock
  /-- before line 158 -/
  | gRead
  /-- before line 161, `*average` is `v` -/
  | gUnlock (v : Option (Int × Int))
  /-- get returns 0 -/
  | gRet (v : Option (Int × Int))

structure Sys where
  w : Window
  bad : Bool
  /-- who holds the lock exclusively -/
  excl : Option Nat
  /-- who holds it shared -/
  shared : Nat → Bool
  pc : Nat → Pc
  /-- ghost: the number of the next call of add -/
  fresh : Nat
  /-- ghost: the value each call of add was given -/
  asked : Nat → Int
  /-- ghost: the additions done, in order -/
  hist : List (Nat × Int)
  /-- ghost: how many additions were done when the thread's present call was made -/
  since : Nat → Nat

/-- The state of a new window. -/
def start (w : Window) : Sys := ⟨w, false, none, fun _ => false, fun _ => .out, 0, fun _ => 0, [], fun _ => 0⟩

/-- The statement a thread of add is at: what it does to the window. -/
def statement (w : Window) : Pc → Option (C Window)
  | .aSum _ x => some (changeSum w x)
  | .aStore _ x => some (storeValue w x)
  | .aCount _ _ => some (countIt w)
  | .aSlot _ _ => some (nextSlot w)
  | .aAverage _ _ => some (setAverage w)
  | _ => none

inductive Step : Sys → Sys → Prop where
  /-- a thread calls add -/
  | callAdd (s) (t x) : s.pc t = .out →
      Step s { s with pc := upd s.pc t (.aLock s.fresh x), fresh := s.fresh + 1, asked := upd s.asked s.fresh x, since := upd s.since t s.hist.length }
  /-- sliding_window_average_by_count.c:103 -/
  | aLock (s) (t i x) : s.pc t = .aLock i x → s.excl = none → (∀ u, s.shared u = false) →
      Step s { s with excl := some t, pc := upd s.pc t (.aSum i x) }
  | aSum (s) (t i x w) : s.pc t = .aSum i x → changeSum s.w x = C.ok w → Step s { s with w := w, pc := upd s.pc t (.aStore i x) }
  | aStore (s) (t i x w) : s.pc t = .aStore i x → storeValue s.w x = C.ok w → Step s { s with w := w, pc := upd s.pc t (.aCount i x) }
  | aCount (s) (t i x w) : s.pc t = .aCount i x → countIt s.w = C.ok w → Step s { s with w := w, pc := upd s.pc t (.aSlot i x) }
  | aSlot (s) (t i x w) : s.pc t = .aSlot i x → nextSlot s.w = C.ok w → Step s { s with w := w, pc := upd s.pc t (.aAverage i x) }
  | aAverage (s) (t i x w) : s.pc t = .aAverage i x → setAverage s.w = C.ok w →
      Step s { s with w := w, pc := upd s.pc t (.aUnlock i x), hist := s.hist ++ [(i, x)] }
  /-- one of these statements is undefined -/
  | undefined (s) (t) : statement s.w (s.pc t) = some C.ub → Step s { s with bad := true }
  /-- sliding_window_average_by_count.c:132 -/
  | aUnlock (s) (t i x) : s.pc t = .aUnlock i x → Step s { s with excl := none, pc := upd s.pc t (.aRet i x) }
  | aRet (s) (t i x) : s.pc t = .aRet i x → Step s { s with pc := upd s.pc t .out }
  /-- a thread calls get -/
  | callGet (s) (t) : s.pc t = .out → Step s { s with pc := upd s.pc t .gLock, since := upd s.since t s.hist.length }
  /-- sliding_window_average_by_count.c:155 -/
  | gLock (s) (t) : s.pc t = .gLock → s.excl = none → Step s { s with shared := upd s.shared t true, pc := upd s.pc t .gRead }
  /-- sliding_window_average_by_count.c:158 -/
  | gRead (s) (t) : s.pc t = .gRead → Step s { s with pc := upd s.pc t (.gUnlock s.w.current_average) }
  /-- sliding_window_average_by_count.c:161 -/
  | gUnlock (s) (t v) : s.pc t = .gUnlock v → Step s { s with shared := upd s.shared t false, pc := upd s.pc t (.gRet v) }
  | gRet (s) (t v) : s.pc t = .gRet v → Step s { s with pc := upd s.pc t .out }

/-- What can happen with a window made with `width` places; nothing is said about what follows something undefined. -/
inductive Reach (width : Int) : Sys → Prop where
  | start {w} : width ≤ 2147483647 → create true true width = C.ok (some w) → Reach width (start w)
  | step {s s'} : Reach width s → s.bad = false → Step s s' → Reach width s'

end CUtil.SlidingConc
