import Verif.DList.Model
/-
A doubly linked list is a ring: the head, its elements in order, and the head again.
-/
namespace CUtil.DList

/-- Along the row of entries, `Flink` leads to the next one and `Blink` back. -/
def Adjs (h : Heap) : List Nat → Prop
  | [] => True
  | [_] => True
  | x :: y :: r => h.f x = y ∧ h.b y = x ∧ Adjs h (y :: r)

/-- The ring at `head` consists of the elements `es`, all different and accessible. -/
structure Rep (h : Heap) (head : Nat) (es : List Nat) : Prop where
  ring : Adjs h (head :: (es ++ [head]))
  nodup : (head :: es).Nodup
  alive : ∀ p ∈ head :: es, h.alive p = true

/-- Only links of the entries `ps` differ. -/
structure Frame (h h' : Heap) (ps : List Nat) : Prop where
  alive : h'.alive = h.alive
  f : ∀ p, p ∉ ps → h'.f p = h.f p
  b : ∀ p, p ∉ ps → h'.b p = h.b p

/-! ## Any number of lists at once -/

/-- The lists there are: for each head, its elements. -/
abbrev World := Nat → Option (List Nat)

/-- The heap holds exactly these lists, and no entry is in two of them. -/
structure Ok (h : Heap) (W : World) : Prop where
  rep : ∀ a es, W a = some es → Rep h a es
  apart : ∀ a es b fs, W a = some es → W b = some fs → a ≠ b → ∀ p ∈ a :: es, p ∉ b :: fs

/-- `p` is neither a head nor an element. -/
def Free (W : World) (p : Nat) : Prop := ∀ a es, W a = some es → p ∉ a :: es

/-- A call. -/
inductive Op
  | init (a : Nat)
  | isEmpty (a : Nat)
  | insertTail (a e : Nat)
  | insertHead (a e : Nat)
  | removeEntry (e : Nat)
  | removeHead (a : Nat)
  | removeTail (a : Nat)
  | append (a w : Nat)

/-- What a call may answer. -/
inductive Ans
  | nothing
  | bool (b : Bool)
  | entry (p : Nat)
deriving DecidableEq

/-- The call on the heap. -/
def exec (h : Heap) : Op → C (Heap × Ans)
  | .init a => do let h ← initializeListHead h a; pure (h, .nothing)
  | .isEmpty a => do let r ← isListEmpty h a; pure (h, .bool r)
  | .insertTail a e => do let h ← insertTailList h a e; pure (h, .nothing)
  | .insertHead a e => do let h ← insertHeadList h a e; pure (h, .nothing)
  | .removeEntry e => do let (h, r) ← removeEntryList h e; pure (h, .bool r)
  | .removeHead a => do let (h, r) ← removeHeadList h a; pure (h, .entry r)
  | .removeTail a => do let (h, r) ← removeTailList h a; pure (h, .entry r)
  | .append a w => do let h ← appendTailList h a w; pure (h, .nothing)

def World.set (W : World) (a : Nat) (v : Option (List Nat)) : World := fun b => if b = a then v else W b

/-- What the documentation says a call does: `Sees W op W' ans`, with `h` telling which entries exist. -/
inductive Means (h : Heap) (W : World) : Op → World → Ans → Prop
  | init (a) : h.alive a = true → Free W a → Means h W (.init a) (W.set a (some [])) .nothing
  | isEmpty (a es) : W a = some es → Means h W (.isEmpty a) W (.bool es.isEmpty)
  | insertTail (a e es) : W a = some es → h.alive e = true → Free W e → Means h W (.insertTail a e) (W.set a (some (es ++ [e]))) .nothing
  | insertHead (a e es) : W a = some es → h.alive e = true → Free W e → Means h W (.insertHead a e) (W.set a (some (e :: es))) .nothing
  | removeEntry (a e es) : W a = some es → e ∈ es → Means h W (.removeEntry e) (W.set a (some (es.erase e))) (.bool (es.erase e).isEmpty)
  | removeHead (a e es) : W a = some (e :: es) → Means h W (.removeHead a) (W.set a (some es)) (.entry e)
  | removeHeadEmpty (a) : W a = some [] → Means h W (.removeHead a) W (.entry a)
  | removeTail (a e es) : W a = some (es ++ [e]) → Means h W (.removeTail a) (W.set a (some es)) (.entry e)
  | removeTailEmpty (a) : W a = some [] → Means h W (.removeTail a) W (.entry a)
  | append (a w es ws) : W a = some es → W w = some ws → a ≠ w →
      Means h W (.append a w) ((W.set w none).set a (some (es ++ w :: ws))) .nothing

/-- A whole history of calls. -/
inductive History (h : Heap) : World → List Op → World → List Ans → Prop
  | nil (W) : History h W [] W []
  | cons (W op W' ans ops W'' anss) : Means h W op W' ans → History h W' ops W'' anss → History h W (op :: ops) W'' (ans :: anss)

/-- The program run on a history. -/
def run (h : Heap) : List Op → C (Heap × List Ans)
  | [] => C.ok (h, [])
  | op :: ops => do
    let (h, a) ← exec h op
    let (h, as) ← run h ops
    pure (h, a :: as)

/-! ## Traversal -/

/-- What an action may do when it is given `e`: it may remove `e` (or put it elsewhere, or free it), and change what was visited before,
but the elements not visited yet stay, in order, at the end of the list.  If it succeeds it says whether to go on. -/
def Polite (act : Action σ) (head : Nat) : Prop :=
  ∀ s h before e after, Rep h head (before ++ e :: after) →
    ∃ h' s' failed cont before', act s h e = C.ok (h', s', failed, cont) ∧ Rep h' head (before' ++ after) ∧ (failed = false → cont ≠ none)

/-- The calls an iteration may make on `es`: one per element, in order, up to the first that fails or says stop. -/
inductive Visits : List Nat → Bool → List (Nat × Bool × Option Bool) → Prop
  | done : Visits [] true []
  | failed (e es c) : Visits (e :: es) false [(e, true, c)]
  | stopped (e es) : Visits (e :: es) true [(e, false, some false)]
  | next (e es ok calls) : Visits es ok calls → Visits (e :: es) ok ((e, false, some true) :: calls)

end CUtil.DList
