import Verif.Model.Writer

/-!
# What a text looks like, line by line

Independent of the writer.  A line ends at a carriage return or at a line feed.
-/

namespace Cbindgen.TextSpec

/-- The characters that end a line. -/
def isBreak (c : Char) : Bool := c == '\n' || c == '\r'

/-- No line ends inside of this text. -/
def OneLine (s : Str) : Prop := ∀ c ∈ s, isBreak c = false

/-- The lines of a text. -/
def linesOf : Str → List Str
  | [] => [[]]
  | c :: cs =>
    if isBreak c then [] :: linesOf cs
    else
      match linesOf cs with
      | [] => [[c]]
      | l :: ls => (c :: l) :: ls

/-- The number of bytes of the last line after a text is appended to a line of `cur` bytes. -/
def endLen (cur : Nat) : Str → Nat
  | [] => cur
  | c :: cs => if isBreak c then endLen 0 cs else endLen (cur + c.utf8Size) cs

/-- When a text is appended to a line that has `cur` bytes, all the lines are within `max` bytes. -/
def Fits (max cur : Nat) : Str → Prop
  | [] => cur ≤ max
  | c :: cs => if isBreak c then cur ≤ max ∧ Fits max 0 cs else Fits max (cur + c.utf8Size) cs

end Cbindgen.TextSpec
