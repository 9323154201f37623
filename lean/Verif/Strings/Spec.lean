import Verif.Strings.Model
/-
A STRING as the documentation describes it: a sequence of characters other than NUL.  The sequence a handle denotes is the
C string a user reads through `STRING_c_str`: `cstr block = C.ok s` (the block holds `s` and a NUL behind it).
-/
namespace CUtil.Strings

/-- Characters before the first NUL. -/
def upToNul (s : List UInt8) : List UInt8 := s.takeWhile (· ≠ 0)

/-- The operations that change a string, with the texts they are given. -/
inductive Op where
  | concat (t : List UInt8)
  | copy (t : List UInt8)
  | copy_n (t : List UInt8) (n : Nat)
  | sprintf (text : List UInt8)
  | quote
  | empty
  | replace (target repl : UInt8)

/-- The documented effect. -/
def effect : Op → List UInt8 → List UInt8
  | .concat t, s => s ++ t
  | .copy t, _ => t
  | .copy_n t n, _ => t.take n
  | .sprintf text, s => s ++ upToNul text
  | .quote, s => 34 :: (s ++ [34])
  | .empty, _ => []
  | .replace c d, s => upToNul (s.map fun x => if x = c then d else x)

/-- Bytes the operation needs to allocate, 0 if none. -/
def needs : Op → List UInt8 → Nat
  | .concat t, s => s.length + t.length + 1
  | .copy t, _ => t.length + 1
  | .copy_n t n, _ => (t.take n).length + 1
  | .sprintf [], _ => 0
  | .sprintf text, s => s.length + text.length + 1
  | .quote, s => s.length + 3
  | .empty, _ => 1
  | .replace _ _, _ => 0

/-- The documented outcome, `memory` saying whether the allocator has memory. -/
def outcome (o : Op) (s : List UInt8) (memory : Bool) : List UInt8 × Bool :=
  if needs o s ≠ 0 ∧ (memory = false ∨ SIZE_MAX < needs o s) then (s, false) else (effect o s, true)

/-- A call with valid arguments: handles and pointers are not NULL, and text arguments are blocks holding a C string that are
not the string's own block (`other` is the block of another STRING, `m` any memory of the caller). -/
inductive Call where
  | concat (m : Mem)
  | concat_with_STRING (other : Mem)
  | copy (m : Mem)
  | copy_n (m : Mem) (n : Nat)
  | sprintf (text : List UInt8)
  | quote
  | empty
  | replace (target repl : UInt8)

/-- The function of the model that is called. -/
def Call.exec (b : Mem) (a : Bool) : Call → C (Option Mem × Bool)
  | .concat m => Strings.concat (some b) (.ext m) a
  | .concat_with_STRING o => Strings.concat_with_STRING (some b) (some o) false a
  | .copy m => Strings.copy (some b) (.ext m) a
  | .copy_n m n => Strings.copy_n (some b) (.ext m) n a
  | .sprintf text => Strings.sprintf (some b) (some ⟨text, true, true, []⟩) a
  | .quote => Strings.quote (some b) a
  | .empty => Strings.empty (some b) a
  | .replace c d => Strings.replace (some b) c d

/-- The call stands for the operation. -/
def Call.Is : Call → Op → Prop
  | .concat m, .concat t => cstr m = C.ok t
  | .concat_with_STRING m, .concat t => cstr m = C.ok t
  | .copy m, .copy t => cstr m = C.ok t
  | .copy_n m n, .copy_n t n' => cstr m = C.ok t ∧ n' = n
  | .sprintf text, .sprintf text' => text' = text
  | .quote, .quote => True
  | .empty, .empty => True
  | .replace c d, .replace c' d' => c' = c ∧ d' = d
  | _, _ => False

/-- Sequences of calls. -/
def execAll : List (Call × Bool) → Mem → C (Mem × List Bool)
  | [], b => C.ok (b, [])
  | (c, a) :: rest, b => do
    let (b', f) ← c.exec b a
    match b' with
    | none => C.ub
    | some b' => do
      let (b'', fs) ← execAll rest b'
      pure (b'', f :: fs)

def outcomes : List (Op × Bool) → List UInt8 → List UInt8 × List Bool
  | [], s => (s, [])
  | (o, a) :: rest, s =>
    let r := outcome o s a
    let rs := outcomes rest r.1
    (rs.1, r.2 :: rs.2)

/-! ### JSON strings -/

/-- Value of a hexadecimal digit. -/
def hexVal (c : UInt8) : Option Nat :=
  let n := c.toNat
  if 48 ≤ n ∧ n ≤ 57 then some (n - 48)
  else if 65 ≤ n ∧ n ≤ 70 then some (n - 55)
  else if 97 ≤ n ∧ n ≤ 102 then some (n - 87)
  else none

/-- The one character escapes of JSON. -/
def simpleEscape (e : UInt8) : Option UInt8 :=
  if e = 34 then some 34 else if e = 92 then some 92 else if e = 47 then some 47
  else if e = 98 then some 8 else if e = 102 then some 12 else if e = 110 then some 10
  else if e = 114 then some 13 else if e = 116 then some 9 else none

/-- The body of a JSON string (RFC 8259 section 7), after the opening quote, up to and including the closing quote.  Decodes to the
text and what follows.  Only ASCII: an unescaped character or a `\u` escape of 128 or more is not accepted. -/
def jsonBody : List UInt8 → Option (List UInt8 × List UInt8)
  | [] => none
  | c :: rest =>
    if c = 34 then some ([], rest)
    else if c = 92 then
      match rest with
      | [] => none
      | e :: rest =>
        if e = 117 then
          match rest with
          | h1 :: h2 :: h3 :: h4 :: rest =>
            match hexVal h1, hexVal h2, hexVal h3, hexVal h4 with
            | some a, some b, some c, some d =>
              let n := ((a * 16 + b) * 16 + c) * 16 + d
              if n < 128 then (jsonBody rest).map fun r => (UInt8.ofNat n :: r.1, r.2) else none
            | _, _, _, _ => none
          | _ => none
        else
          match simpleEscape e with
          | some x => (jsonBody rest).map fun r => (x :: r.1, r.2)
          | none => none
    else if 32 ≤ c.toNat ∧ c.toNat < 128 then (jsonBody rest).map fun r => (c :: r.1, r.2)
    else none

/-- A JSON string literal at the start of the text: its value and what follows. -/
def jsonString : List UInt8 → Option (List UInt8 × List UInt8)
  | 34 :: rest => jsonBody rest
  | _ => none

/-- The documented form of one character (STRING_02_013 to 02_019). -/
def esc (c : UInt8) : List UInt8 :=
  if c.toNat ≤ 31 then [92, 117, 48, 48, if c.toNat < 16 then 48 else 49, if c.toNat % 16 < 10 then UInt8.ofNat (48 + c.toNat % 16) else UInt8.ofNat (55 + c.toNat % 16)]
  else if c = 34 ∨ c = 92 ∨ c = 47 then [92, c]
  else [c]

/-- The documented form of a text. -/
def jsonText (s : List UInt8) : List UInt8 := 34 :: (s.flatMap esc ++ [34])

end CUtil.Strings
