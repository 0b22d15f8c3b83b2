import Verif.Model.LibConfig

/-!
# Generic arguments whose mangled names can be told apart (for C08)

Arguments built from names, primitives and numbers only, with any nesting and any number of
arguments.  The names are in the usual style of Rust types: no underscores.
-/

namespace Cbindgen.MangleSpec

/-- A primitive written without underscores, other than a `NonZero` integer. -/
def PlainPrim : Prim → Prop
  | .bool | .char32 | .float | .double => True
  | .integer zeroable _ k => zeroable = true ∧
    (k = .size ∨ k = .b8 ∨ k = .b16 ∨ k = .b32 ∨ k = .b64)
  | _ => False

/-- The names of the primitives of Rust. -/
def primNames : List Str :=
  [c!"bool", c!"char", c!"f32", c!"f64", c!"isize", c!"usize", c!"i8", c!"u8", c!"i16", c!"u16",
   c!"i32", c!"u32", c!"i64", c!"u64"]

/-- A name of a type in the usual style. -/
def TypeName (n : Str) : Prop :=
  n ≠ [] ∧ '_' ∉ n ∧ (∀ c ∈ n.head?, c.isDigit = false) ∧ n ∉ primNames

/-- A number. -/
def Number (s : Str) : Prop :=
  (∃ c ∈ s.head?, c.isDigit = true) ∧ '_' ∉ s

mutual
/-- Types built from names and primitives. -/
def SimpleTy : Ty → Prop
  | .path n e gs k => e = n ∧ k = none ∧ TypeName n ∧ SimpleArgs gs
  | .prim p => PlainPrim p
  | _ => False
def SimpleArg : GArg → Prop
  | .type t => SimpleTy t
  | .const (.value s) => Number s
  | .const (.path _ _) => False
def SimpleArgs : List GArg → Prop
  | [] => True
  | g :: gs => SimpleArg g ∧ SimpleArgs gs
end

end Cbindgen.MangleSpec
