import Verif.Spec.Writer

/-!
# Comments of C, C++ and Python

Independent of the model.  A line ends at a carriage return, a line feed or both.
-/

namespace Cbindgen.CommentSpec
open TextSpec

/-- Translation phase 2 of C and C++: a backslash at the end of a line joins it to the next one.
(Trigraphs are left out.) -/
def splice : Str → Str
  | '\\' :: '\r' :: '\n' :: cs => splice cs
  | '\\' :: '\r' :: cs => splice cs
  | '\\' :: '\n' :: cs => splice cs
  | c :: cs => c :: splice cs
  | [] => []

/-- Where a reader is: outside of comments, after a slash that may start one, in a comment that ends with the
line, in a comment that ends with `*/`, and there after a `*`. -/
inductive Mode
  | code
  | slash
  | line
  | block
  | star
  deriving DecidableEq

/-- One character in C or C++; `none` if something other than white space is outside of comments. -/
def step : Mode → Char → Option Mode
  | .code, c => if c = '/' then some .slash else if c = ' ' ∨ isBreak c then some .code else none
  | .slash, c => if c = '/' then some .line else if c = '*' then some .block else none
  | .line, c => some (if isBreak c then .code else .line)
  | .block, c => some (if c = '*' then .star else .block)
  | .star, c => some (if c = '/' then .code else if c = '*' then .star else .block)

/-- A text. -/
def scan : Mode → Str → Option Mode
  | m, [] => some m
  | m, c :: cs => (step m c).bind (scan · cs)

/-- The text consists of white space and complete comments of C or C++. -/
def OnlyComments (t : Str) : Prop := scan .code (splice t) = some .code

/-- One character in Python: `true` in a comment. -/
def pyStep : Bool → Char → Option Bool
  | true, c => some (!isBreak c)
  | false, c => if c = '#' then some true else if c = ' ' ∨ isBreak c then some false else none

/-- A text. -/
def pyScan : Bool → Str → Option Bool
  | m, [] => some m
  | m, c :: cs => (pyStep m c).bind (pyScan · cs)

/-- The text consists of white space and complete comments of Python. -/
def OnlyPyComments (t : Str) : Prop := pyScan false t = some false

/-- The text ends a block comment. -/
def Closes (s : Str) : Prop := ['*', '/'] <:+: s

end Cbindgen.CommentSpec
