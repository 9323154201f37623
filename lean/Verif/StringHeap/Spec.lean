import Verif.StringHeap.Model
/-
What it means that a heap holds exactly the strings and the blocks of a user.
-/
namespace CUtil.StringHeap
open CUtil CUtil.Conc
open CUtil.Strings (SIZE_MAX Fmt)

/-- The heap holds the strings `W` (by handle, each with the cells of its block), the blocks `U` of the user (by address) and nothing else: every string has
its structure and its block; no block belongs to two strings or to a string and the user; every structure and every block belongs to a string or to
the user; NULL and the addresses not yet handed out are free. -/
structure Rep (h : Heap) (W U : Nat → Option Mem) : Prop where
  live : ∀ p m, W p = some m → ∃ q, h.st p = some (some q) ∧ q ≠ 0 ∧ h.mem q = some m
  dead : ∀ p, W p = none → h.st p = none
  sep : ∀ p p' q, h.st p = some (some q) → h.st p' = some (some q) → p = p'
  user : ∀ q m, U q = some m → h.mem q = some m ∧ ∀ p, h.st p ≠ some (some q)
  owned : ∀ q m, h.mem q = some m → (∃ p, h.st p = some (some q)) ∨ U q = some m
  fresh : ∀ p, h.next ≤ p → h.st p = none ∧ h.mem p = none
  null : h.st 0 = none ∧ h.mem 0 = none ∧ 0 < h.next

/-- Nothing is allocated. -/
def Empty (h : Heap) : Prop := ∀ p, h.st p = none ∧ h.mem p = none

/-- The source points to the cells `m`, which are not in the storage of the string `p`. -/
def Gives (h : Heap) (p : Nat) (source : Src) (m : Mem) : Prop :=
  match source with
  | .null => False
  | .ext m' => m' = m
  | .blk q off => ∃ m', h.mem q = some m' ∧ off ≤ m'.length ∧ m'.drop off = m ∧ h.st p ≠ some (some q)

/-- The cells hold a zero-terminated text. -/
def Text (m : Mem) : Prop := ∃ s, cstr m = C.ok s

/-- A call of a function of strings.h that creates, changes or deletes; the user's own allocations. `m`: the cells the source points to. The Booleans
are the outcomes of the allocations. -/
inductive Call where
  | new (a1 a2 : Bool)
  | clone (p : Nat) (a1 a2 : Bool)
  | construct (source : Src) (m : Mem) (a1 a2 : Bool)
  | constructN (source : Src) (m : Mem) (n : Nat) (a1 a2 : Bool)
  | constructSprintf (f : Option Fmt) (a1 a2 : Bool)
  | newWithMemory (q : Nat) (a : Bool)
  | newQuoted (source : Src) (m : Mem) (a1 a2 : Bool)
  | newJSON (source : Src) (m : Mem) (a1 a2 : Bool)
  | fromByteArray (source : Src) (bytes : List UInt8) (n : Nat) (a1 a2 : Bool)
  | delete (p : Nat)
  | concat (p : Nat) (source : Src) (m : Mem) (a : Bool)
  | concatString (p1 p2 : Nat) (a : Bool)
  | copy (p : Nat) (source : Src) (m : Mem) (a : Bool)
  | copyN (p : Nat) (source : Src) (m : Mem) (n : Nat) (a : Bool)
  | sprintf (p : Nat) (f : Option Fmt) (a : Bool)
  | quote (p : Nat) (a : Bool)
  | empty (p : Nat) (a : Bool)
  | replace (p : Nat) (c d : UInt8)
  | userMalloc (m : Mem) (a : Bool)
  | userFree (q : Nat)

/-- What a call answers. -/
inductive Ans where
  | handle (p : Nat)
  | ok (b : Bool)
  | nothing
deriving DecidableEq, Repr

def asHandle (x : C (Heap × Nat)) : C (Heap × Ans) := do
  let (h, p) ← x
  pure (h, .handle p)

def asOk (x : C (Heap × Bool)) : C (Heap × Ans) := do
  let (h, b) ← x
  pure (h, .ok b)

def asNothing (x : C Heap) : C (Heap × Ans) := do
  let h ← x
  pure (h, .nothing)

def exec (h : Heap) : Call → C (Heap × Ans)
  | .new a1 a2 => asHandle (StringHeap.new h a1 a2)
  | .clone p a1 a2 => asHandle (StringHeap.clone h p a1 a2)
  | .construct s _ a1 a2 => asHandle (StringHeap.construct h s a1 a2)
  | .constructN s _ n a1 a2 => asHandle (StringHeap.construct_n h s n a1 a2)
  | .constructSprintf f a1 a2 => asHandle (StringHeap.construct_sprintf h f a1 a2)
  | .newWithMemory q a => asHandle (StringHeap.new_with_memory h q a)
  | .newQuoted s _ a1 a2 => asHandle (StringHeap.new_quoted h s a1 a2)
  | .newJSON s _ a1 a2 => asHandle (StringHeap.new_JSON h s a1 a2)
  | .fromByteArray s _ n a1 a2 => asHandle (StringHeap.from_byte_array h s n a1 a2)
  | .delete p => asNothing (StringHeap.delete h p)
  | .concat p s _ a => asOk (StringHeap.concat h p s a)
  | .concatString p1 p2 a => asOk (StringHeap.concat_with_STRING h p1 p2 a)
  | .copy p s _ a => asOk (StringHeap.copy h p s a)
  | .copyN p s _ n a => asOk (StringHeap.copy_n h p s n a)
  | .sprintf p f a => asOk (StringHeap.sprintf h p f a)
  | .quote p a => asOk (StringHeap.quote h p a)
  | .empty p a => asOk (StringHeap.empty h p a)
  | .replace p c d => asOk (StringHeap.replace h p c d)
  | .userMalloc m a => asHandle (C.ok (userMalloc h m a))
  | .userFree q => asNothing (freeB h q)

/-- A source is NULL or points to a zero-terminated text that is not in the string `p`. -/
def TextSrc (h : Heap) (p : Nat) (source : Src) (m : Mem) : Prop := source = .null ∨ (Gives h p source m ∧ Text m)

/-- The formatting writes what fits. -/
def FmtOk (f : Option Fmt) : Prop := ∀ x, f = some x → x.junk.length = x.text.length + 1

/-- The user's side of the contract: a handle is NULL or that of a string not yet deleted; a source is NULL or points to a text that is not in the string being
changed; the memory given to STRING_new_with_memory is NULL or a block of the user's that holds a text; a string is not concatenated with itself. -/
def Valid (h : Heap) (W U : Nat → Option Mem) : Call → Prop
  | .new _ _ => True
  | .clone p _ _ => p = 0 ∨ W p ≠ none
  | .construct s m _ _ => TextSrc h 0 s m
  | .constructN s m _ _ _ => TextSrc h 0 s m
  | .constructSprintf _ _ _ => True
  | .newWithMemory q _ => q = 0 ∨ ∃ m, U q = some m ∧ Text m
  | .newQuoted s m _ _ => TextSrc h 0 s m
  | .newJSON s m _ _ => TextSrc h 0 s m
  | .fromByteArray s bytes n _ _ => s = .null ∨ (Gives h 0 s (bytes.map some) ∧ n ≤ bytes.length)
  | .delete p => p = 0 ∨ W p ≠ none
  | .concat p s m _ => (p = 0 ∨ W p ≠ none) ∧ TextSrc h p s m
  | .concatString p1 p2 _ => (p1 = 0 ∨ W p1 ≠ none) ∧ (p2 = 0 ∨ W p2 ≠ none) ∧ (p1 = 0 ∨ p1 ≠ p2)
  | .copy p s m _ => (p = 0 ∨ W p ≠ none) ∧ (TextSrc h p s m ∨ ∃ q, s = .blk q 0 ∧ h.st p = some (some q))
  | .copyN p s m _ _ => (p = 0 ∨ W p ≠ none) ∧ TextSrc h p s m
  | .sprintf p f _ => (p = 0 ∨ W p ≠ none) ∧ FmtOk f
  | .quote p _ => p = 0 ∨ W p ≠ none
  | .empty p _ => p = 0 ∨ W p ≠ none
  | .replace p _ _ => p = 0 ∨ W p ≠ none
  | .userMalloc _ _ => True
  | .userFree q => q = 0 ∨ U q ≠ none

/-- The strings and the blocks of the user. -/
structure World where
  str : Nat → Option Mem
  blk : Nat → Option Mem

/-- The result of a constructor that returns the string `b` at the address `p` (NULL and no string when it fails). -/
def made (W U : Nat → Option Mem) (p : Nat) : Option Mem → World × Ans
  | some b => (⟨upd W p (some b), U⟩, .handle p)
  | none => (⟨W, U⟩, .handle 0)

/-- The result of a function that changes the string at `p` (nothing changes when the handle is NULL). -/
def changed (W U : Nat → Option Mem) (p : Nat) : Option Mem × Bool → World × Ans
  | (some b, f) => (⟨upd W p (some b), U⟩, .ok f)
  | (none, f) => (⟨W, U⟩, .ok f)

/-- A source as the constructors of Verif/Strings have it. -/
def val (s : Src) (m : Mem) : Option Mem := if s = .null then none else some m

/-- A source as the changing functions of Verif/Strings have it. -/
def vsrc (s : Src) (m : Mem) : Strings.Src := if s = .null then .null else .ext m

/-- What each call does to the strings of the user, in terms of the functions of Verif/Strings (about which C21 is proved). `p'` is the address of a
new string or block. -/
def effect (h : Heap) (W U : Nat → Option Mem) (p' : Nat) : Call → C (World × Ans)
  | .new a1 a2 => do
    let b ← Strings.new a1 a2
    pure (made W U p' b)
  | .clone p a1 a2 => do
    let b ← Strings.clone (W p) a1 a2
    pure (made W U p' b)
  | .construct s m a1 a2 => do
    let b ← Strings.construct (val s m) a1 a2
    pure (made W U p' b)
  | .constructN s m n a1 a2 => do
    let b ← Strings.construct_n (val s m) n a1 a2
    pure (made W U p' b)
  | .constructSprintf f a1 a2 => do
    let b ← Strings.construct_sprintf f a1 a2
    pure (made W U p' b)
  | .newWithMemory q a =>
    match Strings.new_with_memory (U q) a with
    | some b => C.ok (⟨upd W p' (some b), upd U q none⟩, .handle p')
    | none => C.ok (⟨W, U⟩, .handle 0)
  | .newQuoted s m a1 a2 => do
    let b ← Strings.new_quoted (val s m) a1 a2
    pure (made W U p' b)
  | .newJSON s m a1 a2 => do
    let b ← Strings.new_JSON (val s m) a1 a2
    pure (made W U p' b)
  | .fromByteArray s bytes n a1 a2 => do
    let b ← Strings.from_byte_array (if s = .null then none else some bytes) n a1 a2
    pure (made W U p' b)
  | .delete p => C.ok (⟨upd W p none, U⟩, .nothing)
  | .concat p s m a => do
    let x ← Strings.concat (W p) (vsrc s m) a
    pure (changed W U p x)
  | .concatString p1 p2 a => do
    let x ← Strings.concat_with_STRING (W p1) (W p2) (decide (p1 = p2)) a
    pure (changed W U p1 x)
  | .copy p s m a => do
    let own := match s with
      | .blk q 0 => decide (h.st p = some (some q))
      | _ => false
    let x ← Strings.copy (W p) (if own then .own 0 else vsrc s m) a
    pure (changed W U p x)
  | .copyN p s m n a => do
    let x ← Strings.copy_n (W p) (vsrc s m) n a
    pure (changed W U p x)
  | .sprintf p f a => do
    let x ← Strings.sprintf (W p) f a
    pure (changed W U p x)
  | .quote p a => do
    let x ← Strings.quote (W p) a
    pure (changed W U p x)
  | .empty p a => do
    let x ← Strings.empty (W p) a
    pure (changed W U p x)
  | .replace p c d => do
    let x ← Strings.replace (W p) c d
    pure (changed W U p x)
  | .userMalloc m a => C.ok (if a then (⟨W, upd U p' (some m)⟩, .handle p') else (⟨W, U⟩, .handle 0))
  | .userFree q => C.ok (⟨W, upd U q none⟩, .nothing)

/-- Every string holds a zero-terminated text. -/
def Good (W : Nat → Option Mem) : Prop := ∀ p m, W p = some m → Text m

end CUtil.StringHeap
