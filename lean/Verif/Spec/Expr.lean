import Verif.Model.Syn
import Verif.Spec.IntLit

/-!
# Expressions of C and C++

Independent of the model: tokens (C11 6.4, the longest match), expressions with the precedence of the
operators (C11 6.5.1 to 6.5.14), and the tree that a Rust expression stands for.

Left out: what the generated expressions never contain (strings, calls, subscripts, the conditional
operator, assignments).  A qualified name of C++ is a single token.
-/

namespace Cbindgen.ExprSpec

/-! ## Tokens -/

inductive Token
  | name (s : Str)
  | number (s : Str)
  | char (s : Str)
  | punct (s : Str)
  deriving DecidableEq

/-- The token that is being read. -/
inductive Reading
  | nothing
  | name (s : Str)
  | number (s : Str)
  | char (s : Str) (escaped : Bool)
  | punct (s : Str)
  deriving DecidableEq

def nameStart (c : Char) : Bool := c.isAlpha || c == '_'
/-- With the colons of qualified names. -/
def nameChar (c : Char) : Bool := c.isAlphanum || c == '_' || c == ':'

/-- The punctuators of more than one character. -/
def longPuncts : List Str :=
  [c!"->", c!"++", c!"--", c!"<<", c!">>", c!"<=", c!">=", c!"==", c!"!=", c!"&&", c!"||", c!"*=", c!"/=",
   c!"%=", c!"+=", c!"-=", c!"<<=", c!">>=", c!"&=", c!"^=", c!"|=", c!"##"]

/-- The punctuators of one character. -/
def punctChars : List Char :=
  ['[', ']', '(', ')', '{', '}', '.', '&', '*', '+', '-', '~', '!', '/', '%', '<', '>', '^', '|', '?', ';', '=',
   ',', '#']

/-- The first character of a token, or white space. -/
def begin (c : Char) : Option Reading :=
  if nameStart c then some (.name [c])
  else if c.isDigit then some (.number [c])
  else if c = '\'' then some (.char [c] false)
  else if c = ' ' ∨ c = '\n' ∨ c = '\r' ∨ c = '\t' then some .nothing
  else if c ∈ punctChars then some (.punct [c])
  else none

/-- The end of a token. -/
def finish : Reading → Option (List Token)
  | .nothing => some []
  | .name s => some [.name s]
  | .number s => some [.number s]
  | .char _ _ => none
  | .punct s => some [.punct s]

/-- A token ends, and another one begins. -/
def next (r : Reading) (c : Char) : Option (List Token × Reading) :=
  match finish r, begin c with
  | some ts, some r' => some (ts, r')
  | _, _ => none

/-- One character. -/
def step (r : Reading) (c : Char) : Option (List Token × Reading) :=
  match r with
  | .nothing => next r c
  | .name s =>
    if nameChar c then some ([], .name (s ++ [c]))
    else if c = '\'' ∧ s = c!"U" then some ([], .char (s ++ [c]) false)
    else next r c
  | .number s =>
    if c.isAlphanum ∨ c = '.' ∨ c = '_' then some ([], .number (s ++ [c]))
    else if (c = '+' ∨ c = '-') ∧ (s.getLast? = some 'e' ∨ s.getLast? = some 'E') then
      some ([], .number (s ++ [c]))
    else next r c
  | .char s true => some ([], .char (s ++ [c]) false)
  | .char s false =>
    if c = '\\' then some ([], .char (s ++ [c]) true)
    else if c = '\'' then some ([.char (s ++ [c])], .nothing)
    else some ([], .char (s ++ [c]) false)
  | .punct s =>
    if s ++ [c] ∈ longPuncts then some ([], .punct (s ++ [c]))
    else if s = c!"/" ∧ (c = '/' ∨ c = '*') then none
    else next r c

/-- The characters of a text: the complete tokens, and the one that is being read. -/
def run : Reading → Str → Option (List Token × Reading)
  | r, [] => some ([], r)
  | r, c :: cs =>
    match step r c with
    | none => none
    | some (ts, r') => (run r' cs).map fun p => (ts ++ p.1, p.2)

/-- The tokens of a text. -/
def tokens (t : Str) : Option (List Token) :=
  match run .nothing t with
  | none => none
  | some (ts, r) => (finish r).map (ts ++ ·)

/-! ## Expressions -/

inductive Tree
  | leaf (t : Token)
  | unary (op : Str) (e : Tree)
  | binary (l : Tree) (op : Str) (r : Tree)
  | field (e : Tree) (name : Str)
  | cast (type : List Token) (e : Tree)

/-- The precedence of the binary operators. -/
def prec (o : Str) : Option Nat :=
  [ (c!"*", 10), (c!"/", 10), (c!"%", 10), (c!"+", 9), (c!"-", 9), (c!"<<", 8), (c!">>", 8), (c!"<", 7),
    (c!"<=", 7), (c!">", 7), (c!">=", 7), (c!"==", 6), (c!"!=", 6), (c!"&", 5), (c!"^", 4), (c!"|", 3),
    (c!"&&", 2), (c!"||", 1) ].lookup o

/-- The unary operators. -/
def unaryOps : List Str := [c!"-", c!"~", c!"!", c!"+", c!"*", c!"&", c!"--", c!"++"]

/-- The tokens of a type in parentheses, and what follows them. -/
def typeTokens : List Token → Option (List Token × List Token)
  | [] => none
  | .punct o :: rest =>
    if o = c!")" then some ([], rest)
    else if o = c!"(" then none
    else (typeTokens rest).map fun p => (.punct o :: p.1, p.2)
  | t :: rest => (typeTokens rest).map fun p => (t :: p.1, p.2)

/-- The tokens after an opening parenthesis are those of a type. -/
def isCast (isType : Str → Bool) : List Token → Bool
  | .name n :: _ => isType n
  | _ => false

/-- The fields after an expression. -/
def fields (e : Tree) : List Token → Tree × List Token
  | .punct o :: .name n :: rest =>
    if o = c!"." then fields (.field e n) rest else (e, .punct o :: .name n :: rest)
  | ts => (e, ts)

mutual
/-- An expression whose binary operators have at least the given precedence.  All operators associate to
the left.  The first argument bounds the depth. -/
def binary (isType : Str → Bool) : Nat → Nat → List Token → Option (Tree × List Token)
  | 0, _, _ => none
  | n + 1, m, ts =>
    match unary isType n ts with
    | none => none
    | some (l, rest) => operators isType n m l rest
/-- The operators and operands after a first operand. -/
def operators (isType : Str → Bool) : Nat → Nat → Tree → List Token → Option (Tree × List Token)
  | 0, _, _, _ => none
  | n + 1, m, l, .punct o :: rest =>
    match prec o with
    | none => some (l, .punct o :: rest)
    | some p =>
      if m ≤ p then
        match binary isType n (p + 1) rest with
        | none => none
        | some (r, rest') => operators isType n m (.binary l o r) rest'
      else some (l, .punct o :: rest)
  | _ + 1, _, l, ts => some (l, ts)
/-- Unary operators and casts. -/
def unary (isType : Str → Bool) : Nat → List Token → Option (Tree × List Token)
  | 0, _ => none
  | n + 1, .punct o :: rest =>
    if o ∈ unaryOps then (unary isType n rest).map fun p => (.unary o p.1, p.2)
    else if o = c!"(" then
      if isCast isType rest then
        match typeTokens rest with
        | none => none
        | some (ty, rest') => (unary isType n rest').map fun p => (.cast ty p.1, p.2)
      else
        match binary isType n 0 rest with
        | some (e, .punct o' :: rest') => if o' = c!")" then some (fields e rest') else none
        | _ => none
    else none
  | _ + 1, t :: rest => some (fields (.leaf t) rest)
  | _ + 1, [] => none
end

/-- The tokens are those of an expression. -/
def Parses (isType : Str → Bool) (ts : List Token) (e : Tree) : Prop :=
  ∃ n, binary isType n 0 ts = some (e, [])

/-! ## The tree of a Rust expression -/

/-- The operators of Rust in C. -/
def cOperator : BinOp → Option Str
  | .add => some c!"+" | .sub => some c!"-" | .mul => some c!"*" | .div => some c!"/" | .rem => some c!"%"
  | .and => some c!"&&" | .or => some c!"||" | .bitXor => some c!"^" | .bitAnd => some c!"&"
  | .bitOr => some c!"|" | .shl => some c!"<<" | .shr => some c!">>" | .eq => some c!"==" | .lt => some c!"<"
  | .le => some c!"<=" | .ne => some c!"!=" | .ge => some c!">=" | .gt => some c!">"
  | _ => none

/-- The token of a literal. -/
inductive LitToken : SynLit → Token → Prop
  | int (n : Nat) (suffix : Str) {s suffix' : Str} : IntSpec.IsConstant s n suffix' →
      LitToken (.int n suffix) (.number s)
  | byte (n : Nat) {s : Str} : IntSpec.IsConstant s n [] → LitToken (.byte n) (.number s)
  | float (ds : Str) : LitToken (.float ds) (.number ds)
  | bool (b : Bool) : LitToken (.bool b) (.name (if b then c!"true" else c!"false"))
  | char (c : Char) (s : Str) : LitToken (.char c) (.char s)

/-- The tree has the structure of the expression: the operators, members and casts at the same places.
Parentheses leave no trace in the tree. -/
inductive Same : SynExpr → Tree → Prop
  | lit {l : SynLit} {t : Token} : LitToken l t → Same (.lit l) (.leaf t)
  | path (last : Str) (args : SynArgs) : Same (.path [] last args) (.leaf (.name last))
  | assoc (ty last : Str) (args : SynArgs) (s : Str) : Same (.path [ty] last args) (.leaf (.name s))
  | paren {e : SynExpr} {t : Tree} : Same e t → Same (.paren e) t
  | binary {l r : SynExpr} {op : BinOp} {o : Str} {tl tr : Tree} : Same l tl → cOperator op = some o → Same r tr →
      Same (.binary l op r) (.binary tl o tr)
  | neg {e : SynExpr} {t : Tree} : Same e t → Same (.unary .neg e) (.unary c!"-" t)
  | not {e : SynExpr} {t : Tree} : Same e t → Same (.unary .not e) (.unary c!"~" t)
  | named {e : SynExpr} {t : Tree} {n m : Str} : Same e t → n = m ∨ n = c!"r#" ++ m →
      Same (.field e (.named n)) (.field t m)
  | unnamed {e : SynExpr} {t : Tree} {i : Nat} {n : Str} : Same e t →
      (∃ ds, n = '_' :: ds ∧ IntSpec.IsConstant ds i []) → Same (.field e (.unnamed i)) (.field t n)
  | cast {e : SynExpr} {ty : SynTy} {ts : List Token} {t : Tree} : Same e t → Same (.cast e ty) (.cast ts t)

end Cbindgen.ExprSpec
