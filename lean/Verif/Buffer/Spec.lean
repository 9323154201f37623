import Verif.Buffer.Model
/-
A BUFFER as the documentation describes it: either it holds nothing (no storage), or it holds a byte vector.  A byte whose
value was never set (`enlarge`, `pre_build`, `create_with_size` only reserve room) is `none`.
-/
namespace CUtil.Buffer

abbrev Vec := List (Option UInt8)

/-- What a user can observe of a buffer: whether it has storage and, if so, its bytes. -/
def view (b : BUF) : Option Vec := b.buffer.map (·.take b.size)

/-- Well formed structures: without storage the size is 0, with storage the block has `size` bytes (one byte, never set,
when the size is 0). -/
def Wf (b : BUF) : Prop :=
  match b.buffer with
  | none => b.size = 0
  | some m => if b.size = 0 then m = uninit 1 else m.length = b.size

/-- The operations that change one buffer; `w` in `append`/`prepend` is what the other buffer holds. -/
inductive Op where
  | build (bs : List UInt8)
  | append_build (bs : List UInt8)
  | pre_build (n : Nat)
  | unbuild
  | enlarge (n : Nat)
  | shrink (n : Nat) (fromEnd : Bool)
  | append (w : Option Vec)
  | prepend (w : Option Vec)
  | fill (c : UInt8)

/-- The documented effect; `none` when the call must be refused.  The content is `none` when there is no storage. -/
def effect : Op → Option Vec → Option (Option Vec)
  | .build bs, _ => if bs = [] then some none else some (some (bs.map some))
  | .append_build bs, v => if bs = [] then none else some (some (v.getD [] ++ bs.map some))
  | .pre_build n, none => if n = 0 then none else some (some (List.replicate n none))
  | .pre_build _, some _ => none
  | .unbuild, _ => some none
  | .enlarge n, v => if n = 0 then none else some (some (v.getD [] ++ List.replicate n none))
  | .shrink n fromEnd, v =>
    let l := v.getD []
    if n = 0 ∨ l.length < n then none
    else if n = l.length then some none
    else if fromEnd then some (some (l.take (l.length - n))) else some (some (l.drop n))
  | .append w, v =>
    match v, w with
    | some v, some w => some (some (v ++ w))
    | _, _ => none
  | .prepend w, v =>
    match v, w with
    | some v, some w => some (some (w ++ v))
    | _, _ => none
  | .fill c, v => some (v.map (·.map (fun _ => some c)))

/-- Whether the operation needs memory (and can therefore fail for lack of it) when it is not refused. -/
def needsMemory : Op → Option Vec → Bool
  | .build bs, _ => decide (bs ≠ [])
  | .append_build _, _ => true
  | .pre_build _, _ => true
  | .unbuild, _ => false
  | .enlarge _, _ => true
  | .shrink n _, v => decide (n ≠ (v.getD []).length)
  | .append w, _ => decide (w.getD [] ≠ [])
  | .prepend w, _ => decide (w.getD [] ≠ [])
  | .fill _, _ => false

/-- A call on a buffer handle that is not NULL, with valid arguments: the source memory `m` is not NULL, is the caller's and has at
least `n` bytes; the other buffer is a different, well formed one. -/
inductive Call where
  | build (m : List UInt8) (n : Nat)
  | append_build (m : List UInt8) (n : Nat)
  | pre_build (n : Nat)
  | unbuild
  | enlarge (n : Nat)
  | shrink (n : Nat) (fromEnd : Bool)
  | append (other : BUF)
  | prepend (other : BUF)
  | fill (c : UInt8)

def Call.valid : Call → Prop
  | .build m n => n ≤ m.length ∧ n ≤ SIZE_MAX
  | .append_build m n => n ≤ m.length ∧ n ≤ SIZE_MAX
  | .pre_build n => n ≤ SIZE_MAX
  | .enlarge n => n ≤ SIZE_MAX
  | .append o => Wf o
  | .prepend o => Wf o
  | _ => True

/-- The function of the model that is called. -/
def Call.exec (b : BUF) (a : Bool) : Call → C (Option BUF × Bool)
  | .build m n => Buffer.build (some b) (.ext m) n a
  | .append_build m n => Buffer.append_build (some b) (.ext m) n a
  | .pre_build n => C.ok (Buffer.pre_build (some b) n a)
  | .unbuild => C.ok (Buffer.unbuild (some b))
  | .enlarge n => C.ok (Buffer.enlarge (some b) n a)
  | .shrink n e => Buffer.shrink (some b) n e a
  | .append o => Buffer.append (some b) (some o) false a
  | .prepend o => Buffer.prepend (some b) (some o) false a
  | .fill c => Buffer.fill (some b) c

/-- The documented operation the call stands for. -/
def Call.op : Call → Op
  | .build m n => .build (m.take n)
  | .append_build m n => .append_build (m.take n)
  | .pre_build n => .pre_build n
  | .unbuild => .unbuild
  | .enlarge n => .enlarge n
  | .shrink n e => .shrink n e
  | .append o => .append (view o)
  | .prepend o => .prepend (view o)
  | .fill c => .fill c

/-- The documented outcome of a call: what the buffer holds afterwards and whether the call succeeds, given whether memory
is available.  A content can never exceed `SIZE_MAX` bytes. -/
def outcome (o : Op) (v : Option Vec) (memory : Bool) : Option Vec × Bool :=
  match effect o v with
  | none => (v, false)
  | some v' =>
    if needsMemory o v = true ∧ (memory = false ∨ SIZE_MAX < (v'.getD []).length) then (v, false) else (v', true)

/-- ... and of a sequence of calls, each with its own memory outcome. -/
def outcomes : List (Op × Bool) → Option Vec → Option Vec × List Bool
  | [], v => (v, [])
  | (o, a) :: rest, v =>
    let r := outcome o v a
    let rs := outcomes rest r.1
    (rs.1, r.2 :: rs.2)

/-- The same sequence executed by the model. -/
def execAll : List (Call × Bool) → BUF → C (BUF × List Bool)
  | [], b => C.ok (b, [])
  | (c, a) :: rest, b => do
    let (b', f) ← c.exec b a
    match b' with
    | none => C.ub
    | some b' => do
      let (b'', fs) ← execAll rest b'
      pure (b'', f :: fs)

end CUtil.Buffer
