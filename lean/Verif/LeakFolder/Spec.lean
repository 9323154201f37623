import Verif.LeakFolder.Model
/-
How the Windows command interpreter takes a command apart, independent of the functions: at the separators; redirections are not arguments, and
words that begin with a slash are switches.  Only the part needed here: no quotes, no special characters other than these.
-/
namespace CUtil.LeakFolder.Spec

/-- The separators of arguments. -/
def isSep (c : Char) : Bool := c == ' ' || c == '\t' || c == ',' || c == ';' || c == '='

/-- The words of a command; `cur` is the word being read. -/
def wordsFrom (cur : List Char) : List Char → List (List Char)
  | [] => if cur = [] then [] else [cur]
  | c :: cs =>
    if isSep c then (if cur = [] then wordsFrom [] cs else cur :: wordsFrom [] cs)
    else wordsFrom (cur ++ [c]) cs

def words (cmd : List Char) : List (List Char) := wordsFrom [] cmd

/-- `1>nul` and the like. -/
def isRedirection (w : List Char) : Bool := w.contains '>'

/-- `/s` and the like. -/
def isSwitch (w : List Char) : Bool := w.head? == some '/'

/-- The name of the command and the folders it is told. -/
def folders (cmd : List Char) : Option (List Char × List (List Char)) :=
  match words cmd with
  | [] => none
  | name :: args => some (name, args.filter fun w => !isRedirection w && !isSwitch w)

/-- A name without anything the command interpreter treats in a special way. -/
def Plain (p : List Char) : Prop := ∀ c ∈ p, isSep c = false ∧ c ≠ '>'

/-- How often a block is allocated and freed. -/
def allocs (b : Block) (log : List Ev) : Nat := log.count (.alloc b)
def frees (b : Block) (log : List Ev) : Nat := log.count (.free b)

/-- The commands given to `system`. -/
def commands (log : List Ev) : List (List Char) := log.filterMap fun
  | .system c => some c
  | _ => none

end CUtil.LeakFolder.Spec
