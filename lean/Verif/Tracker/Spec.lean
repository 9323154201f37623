import Verif.Tracker.Model
/-
Specification: the tracker as one list of registrations, the most recent first.
-/
namespace CUtil.Tracker

/-- A registration. -/
structure Reg where
  key : Nat
  obj : Obj
deriving DecidableEq

/-- When two keys, two objects, are the same: what the callbacks are meant to decide. -/
structure Same where
  keq : Nat → Nat → Bool
  oeq : Nat → Nat → Bool
  refl : ∀ a, keq a a = true
  symm : ∀ a b, keq a b = keq b a
  trans : ∀ a b c, keq a b = true → keq b c = true → keq a c = true

/-- A callback that decides it, or reports an error. -/
def Agrees (m : Nat → Nat → Match) (eq : Nat → Nat → Bool) : Prop :=
  ∀ a b, (m a b = .matching → eq a b = true) ∧ (m a b = .notMatching → eq a b = false)

/-- A callback that never reports an error. -/
def Reliable (m : Nat → Nat → Match) : Prop := ∀ a b, m a b ≠ .error

/-- The registration is for this key, and for this object. -/
def Same.isKey (S : Same) (key : Nat) (r : Reg) : Bool := S.keq r.key key
def Same.is (S : Same) (key object : Nat) (r : Reg) : Bool := S.keq r.key key && S.oeq r.obj.object object

/-- Registering. -/
def registered (S : Same) (regs : List Reg) (key : Nat) (o : Obj) : List Reg × Res :=
  if regs.any (S.is key o.object) then (regs, .exists)
  else (⟨key, o⟩ :: regs, if regs.any (S.isKey key) then .newObject else .newKey)

/-- Unregistering. -/
def unregistered (S : Same) (regs : List Reg) (key object : Nat) : List Reg × URes :=
  if regs.any (S.is key object) then (regs.eraseP (S.is key object), .ok)
  else (regs, if regs.any (S.isKey key) then .notFound else .keyNotFound)

/-- Destroying everything registered for a key: what remains, and the destroy functions called. -/
def destroyed (S : Same) (regs : List Reg) (key : Nat) : List Reg × List Obj :=
  (regs.filter (fun r => !S.isKey key r), (regs.filter (S.isKey key)).map (·.obj))

/-- Acting on an object. -/
def acted (S : Same) (regs : List Reg) (key object : Nat) (action : Nat → Bool) : ARes × Option Nat :=
  match regs.find? (S.is key object) with
  | some r => (if action r.obj.object then .ok else .error, some r.obj.object)
  | none => (if regs.any (S.isKey key) then .objectNotFound else .keyNotFound, none)

/-- The tracker holds exactly these registrations. -/
structure Rep (S : Same) (t : T) (regs : List Reg) : Prop where
  unlocked : t.locked = false
  /-- nothing is leaked: one structure per key and one per object -/
  blocks : t.blocks = t.keys.length + (t.keys.map (·.objs.length)).sum
  /-- no key without objects -/
  nonempty : ∀ k ∈ t.keys, k.objs ≠ []
  /-- no key twice -/
  distinct : t.keys.Pairwise (fun a b => S.keq a.key b.key = false)
  /-- the objects of a key are those registered for it, most recent first -/
  objs : ∀ k ∈ t.keys, k.objs = (regs.filter (S.isKey k.key)).map (·.obj)
  /-- every registration is there -/
  covers : ∀ r ∈ regs, ∃ k ∈ t.keys, S.keq k.key r.key = true

/-- A history of calls on one tracker, with the callbacks and allocation outcomes of each. -/
inductive Op
  | register (al1 al2 : Bool) (km om : Nat → Nat → Match) (key : Nat) (o : Obj)
  | unregister (km om : Nat → Nat → Match) (key object : Nat)
  | destroyAll (km : Nat → Nat → Match) (key : Nat)
  | act (km om : Nat → Nat → Match) (key object : Nat) (action : Nat → Bool)

inductive Ans
  | register (r : Res) | unregister (r : URes) | destroyed (calls : List Obj) | acted (r : ARes) (arg : Option Nat)
deriving DecidableEq

def exec (t : T) : Op → C (T × Ans)
  | .register al1 al2 km om key o => do
    match ← register al1 al2 km om (some t) key o with
    | (some t, r) => pure (t, .register r)
    | (none, _) => C.ub
  | .unregister km om key object => do
    match ← unregister km om (some t) key object with
    | (some t, r) => pure (t, .unregister r)
    | (none, _) => C.ub
  | .destroyAll km key => do
    match ← destroyAll km (some t) key with
    | (some t, calls) => pure (t, .destroyed calls)
    | (none, _) => C.ub
  | .act km om key object action => do
    match ← act km om (some t) key object (some action) with
    | (some t, r, a) => pure (t, .acted r a)
    | (none, _) => C.ub

/-- What a call is documented to do with the registrations. -/
inductive Means (S : Same) (regs : List Reg) : Op → List Reg → Ans → Prop
  | register (al1 al2 km om key o) : o.object ≠ 0 → o.destroy ≠ 0 → Agrees km S.keq → Agrees om S.oeq →
      Means S regs (.register al1 al2 km om key o) (registered S regs key o).1 (.register (registered S regs key o).2)
  | registerError (al1 al2 km om key o) : o.object ≠ 0 → o.destroy ≠ 0 → (al1 = false ∨ al2 = false ∨ ¬ Reliable km ∨ ¬ Reliable om) →
      Means S regs (.register al1 al2 km om key o) regs (.register .error)
  | unregister (km om key object) : object ≠ 0 → Agrees km S.keq → Agrees om S.oeq →
      Means S regs (.unregister km om key object) (unregistered S regs key object).1 (.unregister (unregistered S regs key object).2)
  | unregisterError (km om key object) : object ≠ 0 → (¬ Reliable km ∨ ¬ Reliable om) → Means S regs (.unregister km om key object) regs (.unregister .error)
  | destroyAll (km key) : Agrees km S.keq → Means S regs (.destroyAll km key) (destroyed S regs key).1 (.destroyed (destroyed S regs key).2)
  | destroyAllError (km key) : ¬ Reliable km → Means S regs (.destroyAll km key) regs (.destroyed [])
  | act (km om key object action) : key ≠ 0 → object ≠ 0 → Agrees km S.keq → Agrees om S.oeq →
      Means S regs (.act km om key object action) regs (.acted (acted S regs key object action).1 (acted S regs key object action).2)
  | actError (km om key object action) : key ≠ 0 → object ≠ 0 → (¬ Reliable km ∨ ¬ Reliable om) →
      Means S regs (.act km om key object action) regs (.acted .error none)

/-- A call with proper arguments, whose callbacks decide sameness or fail. -/
def Proper (S : Same) : Op → Prop
  | .register _ _ km om _ o => o.object ≠ 0 ∧ o.destroy ≠ 0 ∧ Agrees km S.keq ∧ Agrees om S.oeq
  | .unregister km om _ object => object ≠ 0 ∧ Agrees km S.keq ∧ Agrees om S.oeq
  | .destroyAll km _ => Agrees km S.keq
  | .act km om key object _ => key ≠ 0 ∧ object ≠ 0 ∧ Agrees km S.keq ∧ Agrees om S.oeq

/-- A documented run. -/
inductive Run (S : Same) : List Reg → List Op → List Reg → List Ans → Prop
  | nil (regs) : Run S regs [] regs []
  | cons (regs op regs' ans ops regs'' anss) : Means S regs op regs' ans → Run S regs' ops regs'' anss → Run S regs (op :: ops) regs'' (ans :: anss)

def run (t : T) : List Op → C (T × List Ans)
  | [] => C.ok (t, [])
  | op :: ops => do
    let (t, a) ← exec t op
    let (t, as) ← run t ops
    pure (t, a :: as)

end CUtil.Tracker
