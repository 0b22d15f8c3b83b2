import Verif.Spec.CDecl
import Verif.Spec.Writer

/-!
# Reading the text of a C header

The preprocessing tokens of a text (C11 5.1.1.2, 6.4): comments and white space disappear, a `#` that is the
first token of a line starts a directive, and the end of that line ends it.  Words are identifiers, keywords and
numbers.  Every other character is a token of its own, so that operators of several characters are several
tokens.  Lines are never continued: the reader gives up (`none`) at a backslash outside of literals, and at one at
the end of a line of a comment.  It also gives up at a literal that is not closed on its line.  Nothing here refers
to the writer.
-/

namespace Cbindgen.LexSpec
open TextSpec CSpec

/-- Tokens. -/
inductive Lx
  | word (s : Str)
  | punct (c : Char)
  | quoted (q : Char) (s : Str)
  /-- the `#` of a directive -/
  | hash
  /-- the end of the line of a directive -/
  | eol
  deriving DecidableEq, Repr

/-- What the last characters were. -/
inductive Mode
  | code
  | word (w : Str)
  | slash
  | line (backslash : Bool)
  | block
  | star
  | blockBackslash
  | quote (q : Char) (s : Str)
  | escape (q : Char) (s : Str)
  deriving DecidableEq

/-- `start`: no token on this line so far; `dir`: on the line of a directive. -/
structure State where
  mode : Mode := .code
  start : Bool := true
  dir : Bool := false
  deriving DecidableEq

/-- Letters, digits, `_` and everything outside of ASCII. -/
def wordChar (c : Char) : Bool := c.isAlphanum || c == '_' || decide (128 ≤ c.toNat)

/-- The token at the end of a line. -/
def ending (d : Bool) : List Lx := if d then [.eol] else []

/-- A character outside of words, comments and literals. -/
def stepCode (s : State) (c : Char) : Option (State × List Lx) :=
  if isBreak c then some ({}, ending s.dir)
  else if c = ' ' ∨ c = '\t' then some ({ s with mode := .code }, [])
  else if wordChar c then some (⟨.word [c], false, s.dir⟩, [])
  else if c = '/' then some ({ s with mode := .slash }, [])
  else if c = '\\' then none
  else if c = '"' ∨ c = '\'' then some (⟨.quote c [], false, s.dir⟩, [])
  else if c = '#' ∧ s.start = true then some (⟨.code, false, true⟩, [.hash])
  else some (⟨.code, false, s.dir⟩, [.punct c])

/-- Tokens before those of a step. -/
def emit (ls : List Lx) (r : Option (State × List Lx)) : Option (State × List Lx) :=
  r.map fun p => (p.1, ls ++ p.2)

/-- The next state in a block comment. -/
def blockMode (c : Char) : Mode := if c = '*' then .star else if c = '\\' then .blockBackslash else .block

/-- One character: the next state, and the tokens that are complete now. -/
def step (s : State) (c : Char) : Option (State × List Lx) :=
  match s.mode with
  | .code => stepCode s c
  | .word w =>
    if wordChar c then some ({ s with mode := .word (w ++ [c]) }, []) else emit [.word w] (stepCode s c)
  | .slash =>
    if c = '/' then some ({ s with mode := .line false }, [])
    else if c = '*' then some ({ s with mode := .block }, [])
    else emit [.punct '/'] (stepCode { s with start := false } c)
  | .line b =>
    if isBreak c then (if b then none else some ({}, ending s.dir))
    else some ({ s with mode := .line (c == '\\') }, [])
  | .block => some ({ s with mode := blockMode c }, [])
  | .star => some ({ s with mode := if c = '/' then .code else blockMode c }, [])
  | .blockBackslash => if isBreak c then none else some ({ s with mode := blockMode c }, [])
  | .quote q t =>
    if isBreak c then none
    else if c = q then some ({ s with mode := .code }, [.quoted q t])
    else if c = '\\' then some ({ s with mode := .escape q t }, [])
    else some ({ s with mode := .quote q (t ++ [c]) }, [])
  | .escape q t => if isBreak c then none else some ({ s with mode := .quote q (t ++ ['\\', c]) }, [])

/-- A text. -/
def scan : State → Str → Option (State × List Lx)
  | s, [] => some (s, [])
  | s, c :: cs => (step s c).bind fun p => emit p.2 (scan p.1 cs)

/-- The tokens of a text.  A comment or a literal that is left open is not a text. -/
def lex (t : Str) : Option (List Lx) :=
  (scan {} (t ++ ['\n'])).bind fun p => if p.1.mode = .code then some p.2 else none

/-! ## Tokens of declarations -/

/-- A word of a type of several words: C11 6.7.2. -/
def isArith (w : Str) : Bool :=
  w == c!"unsigned" || w == c!"signed" || w == c!"long" || w == c!"short" || w == c!"int" || w == c!"char"

def isDigitWord (w : Str) : Bool := w.headD 'a' |>.isDigit

/-- A word; `attrs` are the words that stand for attributes. -/
def wordTok (attrs : List Str) (w : Str) : Tok :=
  if w = c!"const" then .kwConst
  else if w = c!"struct" then .kwTag .struct
  else if w = c!"enum" then .kwTag .enum
  else if w = c!"union" then .kwTag .union
  else if w ∈ attrs then .attr w
  else if isDigitWord w then .lit w
  else .name w

/-- The first token of a type of several words. -/
def joinName (w : Str) : List Tok → List Tok
  | .name s :: ts => .name (w ++ ' ' :: s) :: ts
  | ts => .name w :: ts

/-- Is the next token a word of a type of several words? -/
def nextArith : List Lx → Bool
  | .word w :: _ => isArith w
  | _ => false

/-- The tokens `ts` after a character that is a token, where `ls` are the tokens of the text after it.  The length
of an array is one word; `...` is three characters. -/
def punctTok (c : Char) (ls : List Lx) (ts : List Tok) : Option (List Tok) :=
  if c = '[' then
    match ls with
    | .word w :: .punct ']' :: _ => some (.lbrack :: .lit w :: ts.tail)
    | _ => none
  else if c = ']' then some (.rbrack :: ts)
  else if c = '*' then some (.star :: ts)
  else if c = '&' then some (.amp :: ts)
  else if c = '(' then some (.lparen :: ts)
  else if c = ')' then some (.rparen :: ts)
  else if c = '<' then some (.lt :: ts)
  else if c = '>' then some (.gt :: ts)
  else if c = ',' then some (.comma :: ts)
  else if c = '.' then
    match ts with
    | .name s :: r => if s = c!"." ∨ s = c!".." then some (.name ('.' :: s) :: r) else some (.name c!"." :: ts)
    | _ => some (.name c!"." :: ts)
  else none

/-- The tokens of a declaration. -/
def declToks (attrs : List Str) : List Lx → Option (List Tok)
  | [] => some []
  | .word w :: ls =>
    (declToks attrs ls).map fun ts =>
      if isArith w && nextArith ls then joinName w ts else wordTok attrs w :: ts
  | .punct c :: ls => (declToks attrs ls).bind (punctTok c ls)
  | _ => none

/-- The identifier and the type that a declaration declares. -/
def readDeclared (attrs : List Str) (ls : List Lx) : Option (Str × CTy) := (declToks attrs ls).bind readNamed

/-- The type of a type name. -/
def readTyped (attrs : List Str) (ls : List Lx) : Option CTy := (declToks attrs ls).bind readTypeName

/-! ## Names -/

/-- A word that is no keyword of declarations, no attribute and no number. -/
def Ident (attrs : List Str) (s : Str) : Prop :=
  s ≠ [] ∧ s.all wordChar = true ∧ wordTok attrs s = .name s ∧ isArith s = false ∧ s ≠ c!"typedef" ∧ s ≠ c!"extern"

def Word (s : Str) : Prop := s ≠ [] ∧ s.all wordChar = true

/-- The length of an array: a number or a name. -/
def LengthWord (attrs : List Str) (s : Str) : Prop := Word s ∧ s ∉ attrs

/-- The attributes in the options. -/
def attrsOf (c : DeclConfig) : List Str := c.nonNullAttr.toList ++ c.nullableAttr.toList ++ c.noReturn.toList

/-- The attributes are words, and no words of the language. -/
def AttrsFine (attrs : List Str) : Prop :=
  ∀ a ∈ attrs, Word a ∧ wordTok attrs a = .attr a ∧ isArith a = false ∧
    ∀ p u, Prim.toReprC u p ≠ a

mutual
/-- The names in a type are words, the lengths of arrays are words, and constant arguments are numbers. -/
def TyFine (attrs : List Str) : Ty → Prop
  | .ptr t _ _ _ => TyFine attrs t
  | .path _ e g _ => Ident attrs e ∧ GArgsFine attrs g
  | .prim _ => True
  | .array t len => LengthWord attrs len.asStr ∧ TyFine attrs t
  | .fnptr ret args _ _ => TyFine attrs ret ∧ FArgsFine attrs args
def GArgsFine (attrs : List Str) : List GArg → Prop
  | [] => True
  | .type t :: gs => TyFine attrs t ∧ GArgsFine attrs gs
  | .const c :: gs => (Word c.asStr ∧ wordTok attrs c.asStr = .lit c.asStr ∧ isArith c.asStr = false) ∧
    GArgsFine attrs gs
def FArgsFine (attrs : List Str) : List FArg → Prop
  | [] => True
  | .mk n t :: as => (∀ s, n = some s → Ident attrs s) ∧ TyFine attrs t ∧ FArgsFine attrs as
end

end Cbindgen.LexSpec
