import Verif.Spec.Prim

/-!
# Integer constants of C

C11 6.4.4.1, for decimal constants.
-/

namespace Cbindgen.IntSpec

open PrimSpec

/-- The minimal widths of C11 5.2.4.2.1, and the order of the ranks. -/
def Standard (p : Platform) : Prop :=
  16 ≤ p.int ∧ p.int ≤ p.long ∧ 32 ≤ p.long ∧ p.long ≤ p.longlong ∧ 64 ≤ p.longlong

/-- The types a decimal constant may have, by its suffix: width and signedness. -/
def candidates (p : Platform) (suffix : Str) : Option (List (Nat × Bool)) :=
  [ (c!"", [(p.int, true), (p.long, true), (p.longlong, true)]),
    (c!"u", [(p.int, false), (p.long, false), (p.longlong, false)]),
    (c!"l", [(p.long, true), (p.longlong, true)]),
    (c!"ul", [(p.long, false), (p.longlong, false)]),
    (c!"ll", [(p.longlong, true)]),
    (c!"ull", [(p.longlong, false)]) ].lookup suffix

/-- A type holds a number. -/
def Holds (t : Nat × Bool) (n : Nat) : Prop := if t.2 then n < 2 ^ (t.1 - 1) else n < 2 ^ t.1

instance (t : Nat × Bool) (n : Nat) : Decidable (Holds t n) := by unfold Holds; infer_instance

/-- The type of a decimal constant: the first that can hold it. -/
def constType (p : Platform) (n : Nat) (suffix : Str) : Option (Nat × Bool) :=
  (candidates p suffix).bind fun ts => ts.find? fun t => decide (Holds t n)

/-- A text is the decimal constant of a number with a suffix.  A constant that begins with 0 would be
octal, but for 0 itself. -/
def IsConstant (t : Str) (n : Nat) (suffix : Str) : Prop :=
  ∃ ds : Str, t = ds ++ suffix ∧ ds ≠ [] ∧ (∀ c ∈ ds, c.isDigit = true) ∧
    (ds.head? = some '0' → ds = c!"0") ∧
    ds.foldl (fun a c => 10 * a + (c.toNat - '0'.toNat)) 0 = n

/-- The value of `-x` for a constant `x`, C11 6.5.3.3: without sign it is taken modulo the width. -/
def negValue (t : Nat × Bool) (n : Nat) : Int :=
  if t.2 then -(n : Int) else ((2 ^ t.1 - n) % 2 ^ t.1 : Nat)

/-- The value of `~x`, C11 6.5.3.3: without sign, the bits of the type are turned around. -/
def complement (t : Nat × Bool) (n : Nat) : Int :=
  if t.2 then -(n : Int) - 1 else ((2 ^ t.1 - 1 - n : Nat) : Int)

end Cbindgen.IntSpec
