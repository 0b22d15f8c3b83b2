import Verif.Model.Cfg

/-!
# Truth of `cfg` predicates and of preprocessor conditions; reading condition text
-/

namespace Cbindgen.CfgSpec

open Cbindgen

/-- A configuration option: `name` or `name = "value"`. -/
inductive Opt
  | flag (name : Str)
  | kv (name value : Str)
  deriving DecidableEq

mutual
/-- Truth of a `cfg` predicate when exactly the options in `on` are set (Rust reference,
"Conditional compilation"): `any()` is false, `all()` is true. -/
def holds (on : Opt → Bool) : Cfg → Bool
  | .boolean n => on (.flag n)
  | .named n v => on (.kv n v)
  | .any cs => holdsAny on cs
  | .all cs => holdsAll on cs
  | .not c => !(holds on c)
def holdsAny (on : Opt → Bool) : List Cfg → Bool
  | [] => false
  | c :: cs => holds on c || holdsAny on cs
def holdsAll (on : Opt → Bool) : List Cfg → Bool
  | [] => true
  | c :: cs => holds on c && holdsAll on cs
end

/-- A missing `cfg` is true. -/
def holdsOpt (on : Opt → Bool) : Option Cfg → Bool
  | none => true
  | some c => holds on c

/-- Boolean expressions of the preprocessor (or of Cython). -/
inductive BExpr
  | var (name : Str)
  | not (e : BExpr)
  | and (a b : BExpr)
  | or (a b : BExpr)
  deriving DecidableEq

def BExpr.eval (defined : Str → Bool) : BExpr → Bool
  | .var n => defined n
  | .not e => !(e.eval defined)
  | .and a b => a.eval defined && b.eval defined
  | .or a b => a.eval defined || b.eval defined

/-! ## A reader for condition text -/

inductive BTok
  | id (s : Str)
  | lp
  | rp
  | oror
  | andand
  | bang
  deriving DecidableEq

def isIdChar (c : Char) : Bool := c.isAlphanum || c == '_'

/-- A maximal run of identifier characters, as a token.  In Cython (Python) and in C++ the words
`and`, `or` and `not` are operators; in C they are ordinary identifiers. -/
def word (lang : Language) (w : Str) : List BTok :=
  if w = [] then []
  else if lang ≠ .c ∧ w = c!"and" then [.andand]
  else if lang ≠ .c ∧ w = c!"or" then [.oror]
  else if lang ≠ .c ∧ w = c!"not" then [.bang]
  else [.id w]

/-- Tokens of a condition; `cur` is the word being read. -/
def lex (lang : Language) (cur : Str) : List Char → Option (List BTok)
  | [] => some (word lang cur)
  | '(' :: cs => (lex lang [] cs).map fun ts => word lang cur ++ .lp :: ts
  | ')' :: cs => (lex lang [] cs).map fun ts => word lang cur ++ .rp :: ts
  | ' ' :: cs => (lex lang [] cs).map fun ts => word lang cur ++ ts
  | '|' :: '|' :: cs => (lex lang [] cs).map fun ts => word lang cur ++ .oror :: ts
  | '&' :: '&' :: cs => (lex lang [] cs).map fun ts => word lang cur ++ .andand :: ts
  | '!' :: cs => (lex lang [] cs).map fun ts => word lang cur ++ .bang :: ts
  | c :: cs => if isIdChar c then lex lang (cur ++ [c]) cs else none

mutual
/-- or-expression ::= and-expression { `||` and-expression }, left associative -/
def pOr : Nat → Language → List BTok → Option (BExpr × List BTok)
  | 0, _, _ => none
  | n + 1, lang, ts =>
    match pAnd n lang ts with
    | some (e, ts) => pOrRest n lang e ts
    | none => none
def pOrRest : Nat → Language → BExpr → List BTok → Option (BExpr × List BTok)
  | 0, _, _, _ => none
  | n + 1, lang, e, .oror :: ts =>
    match pAnd n lang ts with
    | some (e', ts) => pOrRest n lang (.or e e') ts
    | none => none
  | _ + 1, _, e, ts => some (e, ts)
/-- and-expression ::= unary { `&&` unary }, left associative -/
def pAnd : Nat → Language → List BTok → Option (BExpr × List BTok)
  | 0, _, _ => none
  | n + 1, lang, ts =>
    match pUn n lang ts with
    | some (e, ts) => pAndRest n lang e ts
    | none => none
def pAndRest : Nat → Language → BExpr → List BTok → Option (BExpr × List BTok)
  | 0, _, _, _ => none
  | n + 1, lang, e, .andand :: ts =>
    match pUn n lang ts with
    | some (e', ts) => pAndRest n lang (.and e e') ts
    | none => none
  | _ + 1, _, e, ts => some (e, ts)
/-- unary ::= `!` operand | `(` or-expression `)` | variable.  In C and C++ a variable is
`defined(X)`, in Cython it is `X`.  The operand of `!` is a unary expression in C; Python's `not`
takes everything that binds tighter than `and`, which is also a unary expression here. -/
def pUn : Nat → Language → List BTok → Option (BExpr × List BTok)
  | 0, _, _ => none
  | n + 1, lang, .bang :: ts =>
    match pUn n lang ts with
    | some (e, ts) => some (.not e, ts)
    | none => none
  | n + 1, lang, .lp :: ts =>
    match pOr n lang ts with
    | some (e, .rp :: ts) => some (e, ts)
    | _ => none
  | _ + 1, .cython, .id x :: ts => some (.var x, ts)
  | _ + 1, _, .id d :: .lp :: .id x :: .rp :: ts =>
    if d = c!"defined" then some (.var x, ts) else none
  | _ + 1, _, _ => none
end

/-- Read a whole text as a boolean expression. -/
def readCondition (lang : Language) (s : Str) : Option BExpr :=
  match lex lang [] s with
  | some ts =>
    match pOr (6 * ts.length + 6) lang ts with
    | some (e, []) => some e
    | _ => none
  | none => none

/-! ## Side conditions -/

/-- The option that a key of the `[defines]` table stands for: a key without `=` is a flag, a key
with one `=` is `name = value`, with optional white space around the two parts. -/
def KeyMeans (key : Str) : Opt → Prop
  | .flag n => '=' ∉ key ∧ n = key
  | .kv n v => ∃ x y, key = x ++ '=' :: y ∧ '=' ∉ x ∧ '=' ∉ y ∧ n = trim x ∧ v = trim y

/-- The header is compiled in a configuration that matches the Rust configuration `on`: each macro
of the `[defines]` table is defined exactly when the option it stands for is set. -/
def Matches (defines : List (Str × Str)) (on : Opt → Bool) (defined : Str → Bool) : Prop :=
  ∀ e ∈ defines, ∀ o, KeyMeans e.1 o → defined e.2 = on o

mutual
/-- Every option of the predicate has an entry in the `[defines]` table, and no `any`/`all` is
empty. -/
def Mapped (defines : List (Str × Str)) : Cfg → Prop
  | .boolean n => ∃ e ∈ defines, KeyMeans e.1 (.flag n)
  | .named n v => ∃ e ∈ defines, KeyMeans e.1 (.kv n v)
  | .any cs => cs ≠ [] ∧ MappedAll defines cs
  | .all cs => cs ≠ [] ∧ MappedAll defines cs
  | .not c => Mapped defines c
def MappedAll (defines : List (Str × Str)) : List Cfg → Prop
  | [] => True
  | c :: cs => Mapped defines c ∧ MappedAll defines cs
end

/-- A macro name: a non-empty identifier that is not an operator word. -/
def GoodName (d : Str) : Prop :=
  d ≠ [] ∧ (∀ c ∈ d, isIdChar c = true) ∧ d ≠ c!"and" ∧ d ≠ c!"or" ∧ d ≠ c!"not"

mutual
/-- Truth of a generated condition. -/
def condHolds (defined : Str → Bool) : Condition → Bool
  | .define d => defined d
  | .any cs => condHoldsAny defined cs
  | .all cs => condHoldsAll defined cs
  | .not c => !(condHolds defined c)
def condHoldsAny (defined : Str → Bool) : List Condition → Bool
  | [] => false
  | c :: cs => condHolds defined c || condHoldsAny defined cs
def condHoldsAll (defined : Str → Bool) : List Condition → Bool
  | [] => true
  | c :: cs => condHolds defined c && condHoldsAll defined cs
end

mutual
/-- The names in a condition are macro names and every `any`/`all` has at least two members (as
`to_condition` guarantees when the names in the table are macro names). -/
def WellFormed : Condition → Prop
  | .define d => GoodName d
  | .any cs => 2 ≤ cs.length ∧ WellFormedAll cs
  | .all cs => 2 ≤ cs.length ∧ WellFormedAll cs
  | .not c => WellFormed c
def WellFormedAll : List Condition → Prop
  | [] => True
  | c :: cs => WellFormed c ∧ WellFormedAll cs
end

mutual
/-- The boolean expression of a condition: n-ary operators associate to the left. -/
def exprOf : Condition → BExpr
  | .define d => .var d
  | .any [] => .var []
  | .any (c :: cs) => orFrom (exprOf c) cs
  | .all [] => .var []
  | .all (c :: cs) => andFrom (exprOf c) cs
  | .not c => .not (exprOf c)
def orFrom (e : BExpr) : List Condition → BExpr
  | [] => e
  | c :: cs => orFrom (.or e (exprOf c)) cs
def andFrom (e : BExpr) : List Condition → BExpr
  | [] => e
  | c :: cs => andFrom (.and e (exprOf c)) cs
end

end Cbindgen.CfgSpec
