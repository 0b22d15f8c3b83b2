import Verif.Spec.Constants

/-!
# The initialisers of a struct literal
-/

namespace Cbindgen.StructLitSpec
open ConstSpec

/-- The literal has a value for the field. -/
def Given (fs : List LitField) (k : Str) : Prop := ∃ v c, LitField.mk k v c ∈ fs

/-- The label of a field: designators in C, comments in C++, nothing in Cython. -/
def label : Language → Str → Str
  | .c, k => c!"." ++ k ++ c!" = "
  | .cxx, k => c!"/* ." ++ k ++ c!" = */ "
  | .cython, _ => []

/-- `s` is the text of the initialiser for the field `k`: the label, and a text of a value that the
literal has for the field. -/
def Initialiser (e : Env) (fs : List LitField) (k s : Str) : Prop :=
  ∃ v c, LitField.mk k v c ∈ fs ∧ label e.cfg.language k <:+: s ∧
    ∃ u, Writes e.cfg.writer (v.ops e) u ∧ u <:+: s

/-- Lists one after the other with something between them. -/
def between {α : Type} (sep : List α) : List (List α) → List α
  | [] => []
  | [x] => x
  | x :: y :: xs => x ++ sep ++ between sep (y :: xs)

/-- Any two variants of the struct have the same fields in common, in the same order. -/
def CommonCore (core : List Str) (vs : List (List Str)) : Prop :=
  vs.Pairwise fun u v => u.filter (fun x => decide (x ∈ v)) = core ∧ v.filter (fun x => decide (x ∈ u)) = core

end Cbindgen.StructLitSpec
