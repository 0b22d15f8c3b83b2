import Verif.Model.Ir
import Verif.Model.ItemMap

/-!
# What the files written for bindings should contain
-/

namespace Cbindgen.OutSpec

/-! ## Symbol files -/

/-- The symbols of a linker version script of the form `{ a; b; };`, one per line. -/
inductive SymFile : Str → List Str → Prop
  | done : SymFile c!"};" []
  | entry (name rest : Str) (names : List Str) : SymFile rest names → '\n' ∉ name → ';' ∉ name →
    name ≠ [] → SymFile (name ++ ';' :: '\n' :: rest) (name :: names)

/-- A whole symbol file. -/
def IsSymFile (text : Str) (names : List Str) : Prop :=
  ∃ rest, text = '{' :: '\n' :: rest ∧ SymFile rest names

/-! ## Dep files

A reader for one makefile rule without recipe, after the GNU make manual (sections 3.1, 4.2, 4.3): a
backslash at the end of a line continues it, blanks separate names, `\ ` and `\#` stand for the
character, `$$` for a dollar sign, `#` starts a comment.  Anything else with a meaning of its own
(variables, wildcards, recipes, pattern rules, assignments) is outside of this reader: the answer is
`none`. -/

/-- Characters that make may treat as more than a part of a name. -/
def isMeta (c : Char) : Bool := c!"%*?[]~;|=&".contains c

/-- End the current word. -/
def flush (word : Str) (words : List Str) : List Str :=
  if word = [] then words else words ++ [word]

/-- The state of the reader: the target once the colon has been read, the words since, the characters
of the current word. -/
def readRule : Option Str → List Str → Str → Str → Option (Str × List Str)
  | target, words, word, '\\' :: '\n' :: rest => readRule target (flush word words) [] rest
  | target, words, word, '\\' :: ' ' :: rest => readRule target words (word ++ [' ']) rest
  | target, words, word, '\\' :: '#' :: rest => readRule target words (word ++ ['#']) rest
  | target, words, word, '$' :: '$' :: rest => readRule target words (word ++ ['$']) rest
  | _, _, _, '\\' :: '\\' :: _ => none
  | _, _, _, '$' :: _ => none
  | some t, words, word, ['\n'] => some (t, flush word words)
  | _, _, _, '\n' :: _ => none
  | some t, words, word, '#' :: rest =>
    -- a comment up to the end of the line, where a backslash continues the comment
    if rest.dropWhile (· ≠ '\n') = ['\n'] ∧ '\\' ∉ rest then some (t, flush word words) else none
  | none, _, _, '#' :: _ => none
  | none, words, word, ':' :: rest =>
    match flush word words with
    | [t] => readRule (some t) [] [] rest
    | _ => none
  | some _, _, _, ':' :: _ => none
  | target, words, word, c :: rest =>
    if c = ' ' ∨ c = '\t' then readRule target (flush word words) [] rest
    else if isMeta c then none
    else readRule target words (word ++ [c]) rest
  | _, _, _, [] => none

/-- The target and the prerequisites of a rule. -/
def makeRule (text : Str) : Option (Str × List Str) := readRule none [] [] text

/-! ## Aliases -/

/-- `p` is an alias of `q`: `q` is what the last of the aliases named `p` that stand for a named type
stands for. -/
def Alias (m : ItemMap TypedefItem) (p q : Str) : Prop :=
  ∃ items before after t e gs k, m.getItems p = some items ∧ items = before ++ t :: after ∧
    t.aliased = .path q e gs k ∧ ∀ u ∈ after, ∀ q e gs k, u.aliased ≠ .path q e gs k

/-- Following aliases. -/
inductive Follows (m : ItemMap TypedefItem) : Str → Str → Prop
  | refl (p : Str) : Follows m p p
  | step {p q r : Str} : Alias m p q → Follows m q r → Follows m p r

/-- No alias leads back to itself. -/
def Acyclic (m : ItemMap TypedefItem) : Prop := ∀ p q, Alias m p q → ¬Follows m q p

/-! ## Order of fields -/

/-- The names that occur in both lists occur in the same order. -/
def SameOrder (xs ys : List Str) : Prop :=
  xs.filter (fun x => decide (x ∈ ys)) = ys.filter (fun y => decide (y ∈ xs))

end Cbindgen.OutSpec
