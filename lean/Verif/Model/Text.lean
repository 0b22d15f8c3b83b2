import Verif.Model.Basic

/-!
# Rust string primitives

The parts of `str` that the modelled code uses, on lists of characters.
-/

namespace Cbindgen

/-- `char::is_whitespace` (Unicode `White_Space`). -/
def isWs (c : Char) : Bool :=
  let n := c.toNat
  (9 ≤ n && n ≤ 13) || n == 0x20 || n == 0x85 || n == 0xA0 || n == 0x1680 ||
  (0x2000 ≤ n && n ≤ 0x200A) || n == 0x2028 || n == 0x2029 || n == 0x202F || n == 0x205F ||
  n == 0x3000

/-- `str::trim_start`. -/
def trimStart (s : Str) : Str := s.dropWhile isWs

/-- `str::trim_end`. -/
def trimEnd (s : Str) : Str := (s.reverse.dropWhile isWs).reverse

/-- `str::trim`. -/
def trim (s : Str) : Str := trimEnd (trimStart s)

/-- `str::split` on one character: always at least one piece. -/
def splitChar (sep : Char) : Str → List Str
  | [] => [[]]
  | c :: cs =>
    if c = sep then [] :: splitChar sep cs
    else
      match splitChar sep cs with
      | [] => [[c]]
      | p :: ps => (c :: p) :: ps

/-- Joining pieces with a separator character. -/
def joinChar (sep : Char) : List Str → Str
  | [] => []
  | [p] => p
  | p :: ps => p ++ sep :: joinChar sep ps

end Cbindgen
