import Verif.Conc
/-
critical_section.c: /repo/src/critical_section.c, as a transition system over any number of threads.

wait_on_address compares and falls asleep atomically, and may return for no reason; wake_by_address_single wakes one sleeping thread
if there is one (c_pal). NULL arguments (:14-19, :49-54) do nothing and are left out.
-/
namespace CUtil.CritSec
open CUtil.Conc

inductive Pc where
  /-- not using the section -/
  | out
  /-- critical_section.c:25, about to compare and exchange -/
  | trying
  /-- :35, about to wait, having seen `seen` -/
  | waiting (seen : Nat)
  /-- :35, asleep -/
  | asleep
  /-- critical_section_enter returned -/
  | inside
  /-- :60, about to wake -/
  | leaving
  deriving DecidableEq, Repr

structure Sys where
  access : Nat
  pc : Nat → Pc
  /-- ghost: how often critical_section_enter has returned -/
  entries : Nat

def init : Sys := ⟨0, fun _ => .out, 0⟩

inductive Step : Sys → Sys → Prop
  /-- critical_section_enter is called -/
  | enter (s : Sys) (t : Nat) (h : s.pc t = .out) : Step s { s with pc := upd s.pc t .trying }
  /-- :25-31 the exchange succeeds -/
  | take (s : Sys) (t : Nat) (h : s.pc t = .trying) (hv : s.access = 0) : Step s { access := 1, pc := upd s.pc t .inside, entries := s.entries + 1 }
  /-- :25-35 it does not -/
  | busy (s : Sys) (t : Nat) (h : s.pc t = .trying) (hv : s.access ≠ 0) : Step s { s with pc := upd s.pc t (.waiting s.access) }
  /-- :35 wait_on_address falls asleep -/
  | sleep (s : Sys) (t seen : Nat) (h : s.pc t = .waiting seen) (hv : s.access = seen) : Step s { s with pc := upd s.pc t .asleep }
  /-- :35-38 it returns at once -/
  | noSleep (s : Sys) (t seen : Nat) (h : s.pc t = .waiting seen) (hv : s.access ≠ seen) : Step s { s with pc := upd s.pc t .trying }
  /-- :35-38 it returns for no reason -/
  | spurious (s : Sys) (t : Nat) (h : s.pc t = .asleep) : Step s { s with pc := upd s.pc t .trying }
  /-- :58 critical_section_leave is called by a thread inside: the exchange -/
  | leave (s : Sys) (t : Nat) (h : s.pc t = .inside) : Step s { s with access := 0, pc := upd s.pc t .leaving }
  /-- :60 wake_by_address_single, somebody sleeps -/
  | wake (s : Sys) (t u : Nat) (h : s.pc t = .leaving) (hu : s.pc u = .asleep) : Step s { s with pc := upd (upd s.pc u .trying) t .out }
  /-- :60 wake_by_address_single, nobody sleeps -/
  | wakeNone (s : Sys) (t : Nat) (h : s.pc t = .leaving) (hu : ∀ u, s.pc u ≠ .asleep) : Step s { s with pc := upd s.pc t .out }

inductive Reach : Sys → Prop
  | init : Reach init
  | step {s s' : Sys} (h : Reach s) (st : Step s s') : Reach s'

end CUtil.CritSec
