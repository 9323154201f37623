import Verif.Base
/-
Model of /repo/src/sliding_window_average_by_count.c.

Signed integers are `Int`, every arithmetic operation checked against its type: leaving the range is undefined behaviour.
A `double` is not computed: `none` is 0.0 and `some (s, n)` is `(double)s / n`.
The lock makes every call of add and get one atomic step (the exclusive section of add is its whole body).
-/
namespace CUtil.Sliding

def i64 (x : Int) : C Int := if -9223372036854775808 ≤ x ∧ x ≤ 9223372036854775807 then C.ok x else C.ub
def i32 (x : Int) : C Int := if -2147483648 ≤ x ∧ x ≤ 2147483647 then C.ok x else C.ub

/-- sliding_window_average_by_count.c:14-23 `SLIDING_WINDOW_AVERAGE`. -/
structure Window where
  window_count : Int
  current_sum : Int
  current_count : Int
  next_available_slot : Int
  current_average : Option (Int × Int)
  counts : List (Option Int)

/-- sliding_window_average_by_count.c:78-81: the loop that clears `counts`. -/
def clear (window_count : Nat) (i : Nat) (m : List (Option Int)) : Nat → C (List (Option Int))
  | 0 => C.ok m
  | n + 1 => if i < window_count then do clear window_count (i + 1) (← wr m i 0) n else C.ok m

/-- sliding_window_average_by_count.c:41-88 `sliding_window_average_by_count_create`; `memory` and `lock`: whether the allocation and the
creation of the lock succeed. -/
def create (memory lock : Bool) (window_count : Int) : C (Option Window) :=
  if window_count < 1 then C.ok none
  else if !memory then C.ok none
  else if !lock then C.ok none
  else do
    let m ← clear window_count.toNat 0 (uninit window_count.toNat) (window_count.toNat + 1)
    pure (some ⟨window_count, 0, 0, 0, none, m⟩)

/-- `counts[i]`. -/
def count (m : List (Option Int)) (i : Int) : C Int :=
  if i < 0 then C.ub
  else match m[i.toNat]? with
    | some (some v) => C.ok v
    | _ => C.ub

/-- `counts[i] = v`. -/
def setCount (m : List (Option Int)) (i : Int) (v : Int) : C (List (Option Int)) :=
  if i < 0 then C.ub else wr m i.toNat v

/-- sliding_window_average_by_count.c:104-130: the exclusive section of add. -/
def body (w : Window) (next_count : Int) : C Window :=
  if w.window_count = 0 then C.ub
  else do
    let loc := Int.tmod w.next_available_slot w.window_count
    let w ←
      (if w.window_count ≤ w.next_available_slot then do
        let d ← i64 (next_count - (← count w.counts loc))
        let s ← i64 (w.current_sum + d)
        let m ← setCount w.counts loc next_count
        C.ok { w with current_sum := s, counts := m }
      else do
        let s ← i64 (w.current_sum + next_count)
        let m ← setCount w.counts loc next_count
        let n ← i64 (w.current_count + 1)
        C.ok { w with current_sum := s, counts := m, current_count := n })
    let slot ← i32 (w.next_available_slot + 1)
    pure { w with next_available_slot := slot, current_average := some (w.current_sum, w.current_count) }

/-- sliding_window_average_by_count.c:90-137 `sliding_window_average_by_count_add`; the second component is success. -/
def add (handle : Option Window) (next_count : Int) : C (Option Window × Bool) :=
  match handle with
  | none => C.ok (none, false)
  | some w => do pure (some (← body w next_count), true)

/-- sliding_window_average_by_count.c:139-167 `sliding_window_average_by_count_get`: what is stored in `*average`, `none` on failure. -/
def get (handle : Option Window) (average : Bool) : Option (Option (Int × Int)) :=
  match handle with
  | none => none
  | some w => if average then some w.current_average else none

/-- A history: all values added in turn. -/
def addAll (w : Window) : List Int → C Window
  | [] => C.ok w
  | x :: xs => do addAll (← body w x) xs

end CUtil.Sliding
