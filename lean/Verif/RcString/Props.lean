import Verif.RcString.Lemmas
set_option linter.unusedSimpArgs false
set_option linter.unusedVariables false
/-
C35: lifetime of RC_STRING and RC_PTR, over every interleaving of client operations
(`Reachable`).
-/
namespace CUtil.RcString
open CUtil Spec

/-- Nothing a client is allowed to do touches released memory, frees anything twice or drives a
count below zero. -/
theorem lifetime_safe {s : Sys} (h : Reachable s) (op : Op) (ha : Allowed s op) : C.Defined (exec s op) := by
  obtain ⟨s', h1, _⟩ := inv_step (Inv.reachable h) op ha
  exact ⟨s', h1⟩

/-- While a reference to a string is owned, its text can be read and is what it was created with. -/
theorem owned_content {s : Sys} (h : Reachable s) {p : Nat} (hp : 0 < s.held p) (hs : IsString s p) :
    content s.heap p = C.ok (s.view p) := by
  obtain ⟨o, e1, e2, e3⟩ := (Inv.reachable h).content hp hs
  unfold content
  rw [e1, C.ok_bind, e2, C.ok_bind, cstr_zt e3]

/-- While a reference to an RC_PTR is owned, the pointer it was created with can be read. -/
theorem owned_pointer {s : Sys} (h : Reachable s) {p x c : Nat} {f : Option Nat} (hp : 0 < s.held p)
    (hm : s.made p = some (.ptr x f c)) : pointer s.heap p = C.ok x := by
  obtain ⟨k, hm', hc, _⟩ := (Inv.reachable h).held hp
  rw [hm] at hm'; cases hm'
  unfold pointer getObj
  rw [hc]; rfl

/-- An owned reference belongs to a handle that was created. -/
theorem owned_made {s : Sys} (h : Reachable s) {p : Nat} (hp : 0 < s.held p) : ∃ k, s.made p = some k := by
  obtain ⟨k, hm, _⟩ := (Inv.reachable h).held hp
  exact ⟨k, hm⟩

/-- Never before: while a reference is owned, none of what was handed over at creation has been
released: not the moved memory, not the custom free function called, not the object freed. -/
theorem not_released_while_owned {s : Sys} (h : Reachable s) {p : Nat} {k : Kind} (hm : s.made p = some k)
    (hp : 0 < s.held p) : ∀ e ∈ duties p k, e ∉ s.heap.log := by
  obtain ⟨k', hm', _, _, hd⟩ := (Inv.reachable h).held hp
  rw [hm] at hm'; cases hm'; exact hd

/-- Never twice, in any state. -/
theorem released_at_most_once {s : Sys} (h : Reachable s) {p : Nat} {k : Kind} (hm : s.made p = some k) :
    ∀ e ∈ duties p k, s.heap.log.count e ≤ 1 := by
  have hi := Inv.reachable h
  intro e he
  by_cases hc : s.heap.cell p = none
  · have := (hi.dead p k hm hc).2.1 e he; omega
  · have := List.count_eq_zero_of_not_mem ((hi.live p k hm hc).2.1 e he); omega

/-- Exactly once: when no reference is left and no release is under way, everything handed over
at creation has been released exactly once. -/
theorem released_when_unowned {s : Sys} (h : Reachable s) (hq : Quiet s) {p : Nat} {k : Kind} (hm : s.made p = some k)
    (hp : s.held p = 0) : ∀ e ∈ duties p k, s.heap.log.count e = 1 := by
  have hi := Inv.reachable h
  by_cases hc : s.heap.cell p = none
  · exact (hi.dead p k hm hc).2.1
  · have h1 := (hi.live p k hm hc).1
    have := hq p _ h1
    simp [isZero, hp] at this

/-- A string created with a custom free function never has its memory passed to `free`, and the
function is only called with the context it was created with. -/
theorem only_duties {s : Sys} (h : Reachable s) {p f c : Nat} (he : .strFree p f c ∈ s.heap.log) :
    ∃ t, s.made p = some (.custom t f c) := by
  induction h with
  | init => cases he
  | @step s s' op hr ha hx ih =>
    have hi := Inv.reachable hr
    -- a handle made before keeps its kind
    have keep : ∀ (r : Option Nat × Heap) (v : List UInt8), (∀ q, r.1 = some q → q = s.heap.next) →
        (∃ t, s.made p = some (.custom t f c)) → ∃ t, (gain s r v).made p = some (.custom t f c) := by
      intro r v hq ⟨t, ht⟩
      refine ⟨t, ?_⟩
      obtain ⟨o, hp⟩ := r
      cases o with
      | none => exact ht
      | some q =>
        have hne : p ≠ q := by
          rw [hq q rfl]
          have := hi.lt (p := p) (Or.inr (Or.inr (Or.inl (by rw [ht]; simp))))
          omega
        simp only [gain]
        rw [upd_ne _ _ hne]; exact ht
    cases op with
    | newText t => cases hx; exact ih he
    | freeText b =>
      simp only [exec, C.bind_eq_ok] at hx
      obtain ⟨hp, h1, h2⟩ := hx
      cases h2
      unfold free at h1
      cases hb : s.heap.cell b with
      | none => rw [hb] at h1; cases h1
      | some x =>
        rw [hb] at h1; cases h1
        simp only [List.mem_cons, reduceCtorEq, false_or] at he
        exact ih he
    | create t alloc =>
      simp only [exec, create] at hx
      have := createImpl_zt s.heap ha.1 ha.2 alloc
      unfold zt at this
      rw [this, C.ok_bind] at hx
      cases hx
      cases alloc with
      | false => exact ih he
      | true => exact keep _ t (by intro q hq; cases hq; rfl) (ih he)
    | createVformat t ok1 ok2 alloc =>
      simp only [exec, C.bind_eq_ok] at hx
      obtain ⟨r, h1, h2⟩ := hx
      cases h2
      unfold createVformat at h1
      rw [if_neg (by simp)] at h1
      cases ok1 with
      | false => cases h1; exact ih he
      | true =>
        simp only [if_true] at h1
        rw [if_neg (by have := ha.2; omega)] at h1
        cases alloc with
        | false => cases h1; exact ih he
        | true =>
          rw [if_neg (by simp)] at h1
          cases ok2 with
          | true =>
            simp only [malloc, if_true] at h1
            rw [snprintf_zt, C.ok_bind] at h1
            cases h1
            exact keep _ t (by intro q hq; cases hq; rfl) (ih he)
          | false =>
            simp only [malloc, Bool.false_eq_true, if_false] at h1
            unfold free at h1
            simp only [setCell_self, C.ok_bind] at h1
            cases h1
            refine keep _ t (by intro q hq; cases hq) (ih ?_)
            simpa [gain] using he
    | createMove b alloc =>
      cases alloc with
      | false => cases hx; exact ih he
      | true =>
        cases hx
        have := keep (newObj s.heap (.moved b)) ((s.mine b).getD []) (by intro q hq; cases hq; rfl) (ih he)
        exact this
    | createCustom t g ctx alloc =>
      cases alloc with
      | false => cases hx; exact ih he
      | true => cases hx; exact keep _ t (by intro q hq; cases hq; rfl) (ih he)
    | recreate q alloc =>
      obtain ⟨h1, h2, h3⟩ := ha
      obtain ⟨o, e1, e2, e3⟩ := hi.content h1 h2
      simp only [exec, recreate] at hx
      rw [e1, C.ok_bind, e2, C.ok_bind, createImpl_zt s.heap e3 h3 alloc, C.ok_bind] at hx
      cases hx
      cases alloc with
      | false => exact ih he
      | true => exact keep _ _ (by intro q hq; cases hq; rfl) (ih he)
    | ptrCreate x g ctx alloc =>
      cases alloc with
      | false => cases hx; exact ih he
      | true => cases hx; exact keep _ [] (by intro q hq; cases hq; rfl) (ih he)
    | incRef q =>
      simp only [exec, C.bind_eq_ok, incRef] at hx
      obtain ⟨hp, ⟨o, _, h1⟩, h2⟩ := hx
      cases h1; cases h2; exact ih he
    | decRef q =>
      simp only [exec, C.bind_eq_ok, decRef] at hx
      obtain ⟨hp, ⟨o, _, h1⟩, h2⟩ := hx
      split at h1
      · cases h1
      · cases h1; cases h2; exact ih he
    | finish q =>
      obtain ⟨o, h1, h2⟩ := ha
      obtain ⟨k, hm, _, e, _⟩ := inv_finish hi h1 h2
      simp only [exec] at hx
      rw [e, C.ok_bind] at hx
      cases hx
      simp only [finished, List.mem_append] at he
      rcases he with he | he
      · cases k with
        | copied m => simp [duties] at he
        | moved b => simp [duties] at he
        | custom t g ctx =>
          simp [duties] at he
          obtain ⟨rfl, rfl, rfl⟩ := he
          exact ⟨t, hm⟩
        | ptr x g ctx => cases g <;> simp [duties] at he
      · exact ih he

/-- No leak: when no reference and no text block is owned by a client and no release is under way,
nothing is allocated any more. -/
theorem no_leak {s : Sys} (h : Reachable s) (hq : Quiet s) (hn : ∀ p, s.held p = 0) (hm : ∀ b, s.mine b = none) :
    ∀ p, s.heap.cell p = none := by
  have hi := Inv.reachable h
  have made : ∀ p k, s.made p = some k → s.heap.cell p = none := by
    intro p k hk
    by_cases hc : s.heap.cell p = none
    · exact hc
    · have h1 := (hi.live p k hk hc).1
      have := hq p _ h1
      simp [isZero, hn p] at this
  intro p
  cases hk : s.made p with
  | some k => exact made p k hk
  | none =>
    by_cases hc : s.heap.cell p = none
    · exact hc
    · rcases (hi.unmade p hk).2 hc with h1 | ⟨q, h1, h2⟩
      · exact absurd (hm p) h1
      · exact absurd (made q _ h1) h2

/-- A release that has started can always be carried to its end, and it ends in one step. -/
theorem finish_step {s : Sys} (h : Reachable s) {p : Nat} {o : Obj} (hc : s.heap.cell p = some (.obj o)) (hd : o.dying = true) :
    ∃ s', exec s (.finish p) = C.ok s' ∧ s'.heap.cell p = none ∧ s'.held = s.held := by
  obtain ⟨k, hm, hz, e, hi⟩ := inv_finish (Inv.reachable h) hc hd
  exact ⟨{ s with heap := finished s.heap p k }, by simp only [exec]; rw [e, C.ok_bind], by simp [finished], rfl⟩

/-- The creating calls: each gives a new handle owned once with the given text, or NULL leaving
everything (in particular memory to be moved) with the caller. -/
theorem create_spec {s : Sys} (h : Reachable s) :
    (∀ t alloc, 0 ∉ t → t.length + 1 ≤ sizeMax - extraSize →
      create s.heap (some ((t ++ [0]).map some)) alloc = C.ok (if alloc then newObj s.heap (.copied ((t ++ [0]).map some)) else (none, s.heap))) ∧
    (∀ b alloc, createMove s.heap (some b) alloc = C.ok (if alloc then newObj s.heap (.moved b) else (none, s.heap))) ∧
    (∀ t f c alloc, createCustom s.heap (some t) (some f) c alloc = C.ok (if alloc then newObj s.heap (.custom t f c) else (none, s.heap))) ∧
    (∀ x f c alloc, ptrCreate s.heap (some x) f c alloc = C.ok (if alloc then newObj s.heap (.ptr x f c) else (none, s.heap))) := by
  refine ⟨fun t alloc h0 hl => createImpl_zt s.heap h0 hl alloc, ?_, ?_, ?_⟩
  · intro b alloc; cases alloc <;> rfl
  · intro t f c alloc; cases alloc <;> rfl
  · intro x f c alloc; cases alloc <;> rfl

/-- NULL arguments are refused and nothing happens. -/
theorem refusals (h : Heap) (a : Bool) :
    create h none a = C.ok (none, h) ∧ createMove h none a = C.ok (none, h) ∧
    (∀ t c, createCustom h t none c a = C.ok (none, h)) ∧ (∀ f c, createCustom h none f c a = C.ok (none, h)) ∧
    (∀ n t, createVformat h true n t a = C.ok (none, h)) ∧ recreate h none a = C.ok (none, h) ∧
    (∀ f c, ptrCreate h none f c a = C.ok (none, h)) := by
  refine ⟨rfl, rfl, ?_, ?_, fun _ _ => rfl, rfl, fun _ _ => rfl⟩
  · intro t c; cases t <;> rfl
  · intro f c; cases f <;> rfl

/-- Finding: `rc_string_create_with_vformat` adds one to the measured length, an `int`, before it
tests for `INT_MAX`: a formatted text of exactly `INT_MAX` characters is undefined behaviour
instead of the promised refusal. -/
theorem vformat_overflow_ub (h : Heap) (t : Option (List UInt8)) (a : Bool) :
    createVformat h false (some intMax) t a = C.ub := by
  unfold createVformat
  rw [if_neg (by simp)]; dsimp only
  rw [if_pos (Nat.le_refl _)]

/-! ### Witnesses -/

/-- A moved string referenced twice, and a custom-free string, released in an interleaved way. -/
def sample : C Sys := do
  let s ← exec Sys.init (.newText [104, 105])                 -- block 0: "hi"
  let s ← exec s (.createMove 0 true)                          -- handle 1
  let s ← exec s (.incRef 1)
  let s ← exec s (.createCustom [97] 7 8 true)                 -- handle 2
  let s ← exec s (.ptrCreate 500 (some 9) 10 true)             -- handle 3
  let s ← exec s (.decRef 1)
  exec s (.decRef 2)

example : ∃ s, sample = C.ok s ∧ s.held 1 = 1 ∧ s.held 2 = 0 ∧ content s.heap 1 = C.ok [104, 105] ∧ s.heap.log = [] ∧
    ∃ s', (do let s ← exec s (.decRef 1)
              let s ← exec s (.finish 1)
              let s ← exec s (.finish 2)
              let s ← exec s (.decRef 3)
              exec s (.finish 3)) = C.ok s' ∧
      s'.heap.log = [.free 3, .ptrFree 3 9 10 500, .free 2, .strFree 2 7 8, .free 1, .free 0] :=
  ⟨_, rfl, rfl, rfl, by decide +kernel, rfl, _, rfl, rfl⟩

/-- The sample is a reachable state that owns a string. -/
example : ∃ s, Reachable s ∧ 0 < s.held 1 ∧ s.view 1 = [104, 105] ∧ IsString s 1 ∧ s.made 2 = some (.custom [97] 7 8) := by
  refine ⟨_, .step (.decRef 2) (.step (.decRef 1) (.step (.createCustom [97] 7 8 true) (.step (.incRef 1) (.step (.createMove 0 true)
    (.step (.newText [104, 105]) .init ?_ rfl) ?_ rfl) ?_ rfl) ?_ rfl) ?_ rfl) ?_ rfl, ?_, rfl, ⟨_, rfl, ?_⟩, rfl⟩
  · show (0 : UInt8) ∉ [104, 105]; decide
  · intro hc; cases hc
  · show 0 < _; decide
  · show (0 : UInt8) ∉ [97]; decide
  · show 0 < _; decide
  · show 0 < _; decide
  · decide
  · intro x f c hc; cases hc

end CUtil.RcString
