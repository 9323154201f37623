import Verif.Channel.Model
/-
What C43 and C44 say, in terms of the requests (accepted pushes and pulls, numbered in the order in which they were accepted), the pairs matched and the
calls of the users' callbacks.
-/
namespace CUtil.Channel
open CUtil.Conc

/-- Of the first `n` requests, those of kind `k` that were not cancelled, abandoned or lost while waiting, in order. -/
def liveOf (n : Nat) (kind : Nat → Kind) (removed : Nat → Bool) (k : Kind) : List Nat :=
  (List.range n).filter (fun r => decide (kind r = k) && !removed r)

def live (s : Sys) (k : Kind) : List Nat := liveOf s.nreq s.kind s.removed k

/-- The calls of a list are each of a different request. -/
def OnceEach (l : List Call) : Prop := (l.map (·.req)).Nodup

/-- The calls that delivered: result OK. -/
def delivered (l : List Call) : List Call := l.filter (fun c => decide (c.res = .ok))

/-- The callback of request `r` is going to be called by thread `t`, which is past ending the executions. -/
def aboutToCall (s : Sys) (t r : Nat) : Prop :=
  (∃ o x k, (s.pc t = .e3 o x k ∨ s.pc t = .e4 o x k) ∧ (s.avail o = some r ∨ s.cons o = some r)) ∨
  (∃ o x k, s.pc t = .e5 o x k ∧ s.cons o = some r)

/-- The callback of request `r` was called. -/
def called (s : Sys) (r : Nat) : Prop := ∃ c ∈ s.log, c.req = r

end CUtil.Channel
