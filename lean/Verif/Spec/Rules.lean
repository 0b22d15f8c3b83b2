import Verif.Spec.Docs
import Verif.Spec.Names
import Verif.Model.ItemOps

/-!
# Which option is in force for an item (C73)

docs.md, "Annotations": an annotation of an item overrides the option of the configuration.
-/

namespace Cbindgen.RuleSpec
open DocSpec NameSpec

/-- The words of which the name of a rule consists. -/
def words : RenameRule → List Str
  | .none => [c!"none"]
  | .geckoCase => [c!"gecko", c!"case"]
  | .lowerCase => [c!"lower", c!"case"]
  | .upperCase => [c!"upper", c!"case"]
  | .pascalCase => [c!"pascal", c!"case"]
  | .camelCase => [c!"camel", c!"case"]
  | .snakeCase => [c!"snake", c!"case"]
  | .screamingSnakeCase => [c!"screaming", c!"snake", c!"case"]
  | .qualifiedScreamingSnakeCase => [c!"qualified", c!"screaming", c!"snake", c!"case"]
  | .prefixWith _ => []

def capital : Str → Str
  | [] => []
  | c :: cs => c.toUpper :: cs

def snake : List Str → Str
  | [] => []
  | [w] => w
  | w :: ws => w ++ '_' :: snake ws

def pascal (ws : List Str) : Str := ws.flatMap capital

def camel : List Str → Str
  | [] => []
  | w :: ws => w ++ pascal ws

/-- The name of a rule, written as the rule itself writes names. -/
def own (r : RenameRule) : Str :=
  match r with
  | .geckoCase => 'm' :: pascal (words r)
  | .lowerCase => (words r).flatten
  | .upperCase => (words r).flatten.map Char.toUpper
  | .camelCase => camel (words r)
  | .screamingSnakeCase => (snake (words r)).map Char.toUpper
  | .qualifiedScreamingSnakeCase => (snake (words r)).map Char.toUpper
  | r => pascal (words r)

/-- A text that means a rule: the words of its name in lower case and with underscores, or with capitals, or written as
the rule does; or `prefix:` and a text. -/
inductive Spelled : Str → RenameRule → Prop
  | named {r} {s : Str} : words r ≠ [] → s = snake (words r) ∨ s = pascal (words r) ∨ s = own r → Spelled s r
  | pre (p : Str) : Spelled (c!"prefix:" ++ p) (.prefixWith p)

/-- A switch: the annotation if there is one with `true` or `false`, and otherwise the option. -/
def SwitchIs (nvs : List (Str × AnnValue)) (n : Str) (option b : Bool) : Prop :=
  lastValue nvs n = some (.bool b) ∨ ((∀ b', lastValue nvs n ≠ some (.bool b')) ∧ b = option)

/-- A text: the annotation if there is one (perhaps without a value), and otherwise the option. -/
def TextIs (nvs : List (Str × AnnValue)) (n : Str) (option o : Option Str) : Prop :=
  lastValue nvs n = some (.atom o) ∨ ((∀ o', lastValue nvs n ≠ some (.atom o')) ∧ o = option)

/-- A list: the annotation if there is one. -/
def ListIs (nvs : List (Str × AnnValue)) (n : Str) (o : Option (List Str)) : Prop :=
  (∃ xs, lastValue nvs n = some (.list xs) ∧ o = some xs) ∨ ((∀ xs, lastValue nvs n ≠ some (.list xs)) ∧ o = none)

/-- A rule: that of the annotation, none at all if the annotation has no value, and otherwise that of the option. -/
inductive RuleIs (nvs : List (Str × AnnValue)) (n : Str) (option : RenameRule) : RenameRule → Prop
  | given {s r} : lastValue nvs n = some (.atom (some s)) → Spelled s r → RuleIs nvs n option r
  | empty : lastValue nvs n = some (.atom none) → RuleIs nvs n option .none
  | option : (∀ o, lastValue nvs n ≠ some (.atom o)) → RuleIs nvs n option option

/-- Reserved words get an underscore. -/
def safe (n : Str) : Str := if n ∈ reservedKeywords then n ++ c!"_" else n

/-- The name documented for the field of a union: as for structs, but fields without a name always get an underscore,
and reserved words are not escaped. -/
def unionFieldName (f : CaseFns) (given : Option (List Str)) (rule : RenameRule) (tuple : Bool) (i : Nat) (name : Str) : Str :=
  match given with
  | some o => (o[i]?).getD name
  | none => if rule ≠ .none then ruled f c!"m" none rule name else if tuple then '_' :: name else name

end Cbindgen.RuleSpec
