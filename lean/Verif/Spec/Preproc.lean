import Verif.Spec.Writer

/-!
# Directives, comments, literals and braces of C and C++

Independent of the model.  A reader of a whole header: it finds comments, string and character literals, the
lines that are directives (C11 6.10: the first character that is not white space is `#`; a comment counts as
white space), the nesting of conditionals and the nesting of braces.  It gives up (`none`) on an `#endif`,
`#else` or `#elif` without an open conditional, on a closing brace without an open one, on a literal that is
not closed at the end of its line, and on every backslash outside of literals that ends a line or stands in
code.  So what it accepts has no lines that are joined by a backslash.
-/

namespace Cbindgen.PreSpec
open TextSpec

inductive Lex
  | code
  | slash
  /-- in `//`, with a backslash as the last character or not -/
  | line (backslash : Bool)
  | block
  /-- in a block comment after a star -/
  | star
  /-- in a block comment after a backslash -/
  | blockBackslash
  | quote (q : Char)
  | escape (q : Char)
  deriving DecidableEq

/-- The line so far: white space, a `#` and the word after it, or anything else. -/
inductive Line
  | start
  | hash (word : Str)
  | rest
  deriving DecidableEq

structure Reader where
  lex : Lex
  line : Line
  /-- the open conditionals -/
  conds : Nat
  /-- the open braces -/
  braces : Nat
  deriving DecidableEq

/-- A directive with this name is complete. -/
def directive (w : Str) (d : Nat) : Option Nat :=
  if w = c!"if" ∨ w = c!"ifdef" ∨ w = c!"ifndef" then some (d + 1)
  else if w = c!"endif" then (if d = 0 then none else some (d - 1))
  else if w = c!"else" ∨ w = c!"elif" then (if d = 0 then none else some d)
  else some d

/-- Braces outside of comments and literals. -/
def brace (c : Char) (r : Reader) : Option Reader :=
  if c = '{' then some { r with braces := r.braces + 1 }
  else if c = '}' then (if r.braces = 0 then none else some { r with braces := r.braces - 1 })
  else some r

def wordChar (c : Char) : Bool := c.isAlphanum || c == '_'

/-- A character of the code that is not white space. -/
def ordinary (r : Reader) (c : Char) : Option Reader :=
  match r.line with
  | .start => if c = '#' then some { r with line := .hash [] } else brace c { r with line := .rest }
  | .hash w =>
    if wordChar c then some { r with line := .hash (w ++ [c]) }
    else (directive w r.conds).bind fun d => brace c { r with line := .rest, conds := d }
  | .rest => brace c r

/-- White space, or a comment. -/
def blank (r : Reader) : Option Reader :=
  match r.line with
  | .hash [] => some r
  | .hash w => (directive w r.conds).map fun d => { r with line := .rest, conds := d }
  | _ => some r

/-- The end of a line. -/
def newline (r : Reader) : Option Reader :=
  match r.line with
  | .hash w => (directive w r.conds).map fun d => { r with line := .start, conds := d }
  | _ => some { r with line := .start }

/-- A character outside of comments and literals. -/
def stepCode (r : Reader) (c : Char) : Option Reader :=
  if isBreak c then newline r
  else if c = ' ' ∨ c = '\t' then blank r
  else if c = '/' then some { r with lex := .slash }
  else if c = '\\' then none
  else if c = '"' ∨ c = '\'' then (ordinary r c).map fun r => { r with lex := .quote c }
  else ordinary r c

/-- One character. -/
def step (r : Reader) (c : Char) : Option Reader :=
  match r.lex with
  | .code => stepCode r c
  | .slash =>
    if c = '/' then some { r with lex := .line false }
    else if c = '*' then some { r with lex := .block }
    else (ordinary { r with lex := .code } '/').bind (stepCode · c)
  | .line b =>
    if isBreak c then (if b then none else newline { r with lex := .code })
    else some { r with lex := .line (c == '\\') }
  | .block =>
    some { r with lex := if c = '*' then .star else if c = '\\' then .blockBackslash else .block }
  | .star =>
    if c = '/' then blank { r with lex := .code }
    else some { r with lex := if c = '*' then .star else if c = '\\' then .blockBackslash else .block }
  | .blockBackslash =>
    if isBreak c then none
    else some { r with lex := if c = '*' then .star else if c = '\\' then .blockBackslash else .block }
  | .quote q =>
    if isBreak c then none
    else some { r with lex := if c = q then .code else if c = '\\' then .escape q else .quote q }
  | .escape q => if isBreak c then none else some { r with lex := .quote q }

/-- A text. -/
def scan : Reader → Str → Option Reader
  | r, [] => some r
  | r, c :: cs => (step r c).bind (scan · cs)

/-- The start of a line, with this many open conditionals and braces. -/
def lineStart (d b : Nat) : Reader := ⟨.code, .start, d, b⟩

/-- Every conditional and every brace of the text is closed, and no comment and no literal is left open. -/
def Balanced (t : Str) : Prop := scan (lineStart 0 0) (t ++ ['\n']) = some (lineStart 0 0)

/-! ## Texts that can stand in a header -/

/-- In the middle of a line of code. -/
def midLine (d b : Nat) : Reader := ⟨.code, .rest, d, b⟩

/-- In the code, and in no directive. -/
def Ok (d b : Nat) (r : Reader) : Prop := r = lineStart d b ∨ r = midLine d b

/-- The end of the line leads to the start of a line. -/
def Done (d b : Nat) (r : Reader) : Prop := ∀ c, isBreak c = true → step r c = some (lineStart d b)

/-- A character that is never more than itself: no quote, slash, backslash, brace, `#` or line end. -/
def plainChar (c : Char) : Bool :=
  !(isBreak c || c == '/' || c == '\\' || c == '"' || c == '\'' || c == '{' || c == '}' || c == '#')

/-- A text of such characters: names, types, operators. -/
def Plain (s : Str) : Prop := s.all plainChar = true

/-- A text that can stand anywhere in a line of code, and leaves nothing open. -/
def Inline (s : Str) : Prop := ∀ d b r, Ok d b r → ∃ r', scan r s = some r' ∧ Ok d b r'

/-- Lines that can stand on their own, and leave nothing open. -/
def Block (s : Str) : Prop := ∀ d b, ∃ r', scan (lineStart d b) s = some r' ∧ Done d b r'

/-! ## The lines that open and close namespaces and linkage blocks -/

/-- What a look at every line, without its indentation, finds. -/
def found {α : Type} (f : Str → Option α) (t : Str) : List α :=
  (linesOf t).filterMap fun l => f (l.dropWhile (· == ' '))

/-- `namespace name {` -/
def opensSpace (l : Str) : Option Str :=
  if l.take 10 = c!"namespace " ∧ l.drop (l.length - 2) = c!" {" then some ((l.drop 10).take (l.length - 12)) else none

/-- `}  // namespace name` -/
def closesSpace (l : Str) : Option Str :=
  if l.take 16 = c!"}  // namespace " then some (l.drop 16) else none

/-- A line with this text. -/
def isLine (s l : Str) : Option Unit := if l = s then some () else none

/-- A text that leaves the reader where it was. -/
def Neutral (t : Str) : Prop := ∀ d b, scan (lineStart d b) t = some (lineStart d b)

end Cbindgen.PreSpec
