/-!
# Basic data of the model

Rust strings are modelled as lists of characters.  `c!"abc"` is the literal notation.
-/

namespace Cbindgen

/-- A Rust `String`/`&str`, as the list of its characters. -/
abbrev Str := List Char

/-- `c!"abc"` is `['a', 'b', 'c']`. -/
syntax:max (name := charsLit) "c!" str : term

open Lean in
macro_rules
  | `(c! $s:str) => do
    let cs := s.getString.toList
    let xs : Array (TSyntax `term) :=
      (cs.map fun c => (⟨Syntax.mkCharLit c⟩ : TSyntax `term)).toArray
    `(([ $xs,* ] : List Char))

/-- `DeclarationType`, src/bindgen/declarationtyperesolver.rs:19-24. -/
inductive DeclKind
  | struct
  | enum
  | union
  deriving DecidableEq, Repr

/-- `IntKind`, src/bindgen/ir/ty.rs:36-48. -/
inductive IntKind
  | short
  | int
  | long
  | longlong
  | sizeT
  | size
  | b8
  | b16
  | b32
  | b64
  deriving DecidableEq, Repr

/-- `PrimitiveType`, src/bindgen/ir/ty.rs:17-34. -/
inductive Prim
  | void
  | bool
  | char
  | schar
  | uchar
  | char32
  | float
  | double
  | vaList
  | ptrDiffT
  | integer (zeroable signed : Bool) (kind : IntKind)
  deriving DecidableEq, Repr

/-- `ConstExpr`, src/bindgen/ir/ty.rs:238-242.
Simplified: the path of a constant carries no generic arguments and no declaration keyword
(only its name and its exported name), since `as_str` (244-249) only ever looks at the latter. -/
inductive CExpr
  | path (name exportName : Str)
  | value (s : Str)
  deriving DecidableEq, Repr

/-- `ConstExpr::as_str`, src/bindgen/ir/ty.rs:245-250. -/
def CExpr.asStr : CExpr → Str
  | .path _ e => e
  | .value s => s

mutual
/-- `Type`, src/bindgen/ir/ty.rs:303-323.  The fields of `GenericPath`
(src/bindgen/ir/generic_path.rs:237-243) are the arguments of the constructor `path`. -/
inductive Ty
  | ptr (ty : Ty) (isConst isNullable isRef : Bool)
  | path (name exportName : Str) (generics : List GArg) (ctype : Option DeclKind)
  | prim (p : Prim)
  | array (ty : Ty) (len : CExpr)
  | fnptr (ret : Ty) (args : List FArg) (isNullable neverReturn : Bool)
/-- `GenericArgument`, src/bindgen/ir/generic_path.rs:202-206. -/
inductive GArg
  | type (t : Ty)
  | const (c : CExpr)
/-- One `(Option<String>, Type)` of `FuncPtr::args`, src/bindgen/ir/ty.rs:319. -/
inductive FArg
  | mk (name : Option Str) (ty : Ty)
end

namespace FArg
def name : FArg → Option Str
  | .mk n _ => n
def ty : FArg → Ty
  | .mk _ t => t
end FArg

/-- `GenericPath::new`, src/bindgen/ir/generic_path.rs:246-254: the export name starts out as the
name and there is no declaration keyword yet. -/
def Ty.newPath (name : Str) (generics : List GArg) : Ty := .path name name generics none

instance : Inhabited Ty := ⟨.prim .void⟩

/-! Decidable equality of types (the derived `PartialEq` of the Rust code). -/

mutual
def Ty.beq : Ty → Ty → Bool
  | .ptr t a b c, .ptr t' a' b' c' => t.beq t' && a == a' && b == b' && c == c'
  | .path n e g k, .path n' e' g' k' => n == n' && e == e' && GArg.beqList g g' && k == k'
  | .prim p, .prim p' => p == p'
  | .array t l, .array t' l' => t.beq t' && l == l'
  | .fnptr r as a b, .fnptr r' as' a' b' =>
    r.beq r' && FArg.beqList as as' && a == a' && b == b'
  | _, _ => false
termination_by structural x => x
def GArg.beq : GArg → GArg → Bool
  | .type t, .type t' => t.beq t'
  | .const c, .const c' => c == c'
  | _, _ => false
termination_by structural x => x
def FArg.beq : FArg → FArg → Bool
  | .mk n t, .mk n' t' => n == n' && t.beq t'
termination_by structural x => x
def GArg.beqList : List GArg → List GArg → Bool
  | [], [] => true
  | g :: gs, g' :: gs' => g.beq g' && GArg.beqList gs gs'
  | _, _ => false
termination_by structural x => x
def FArg.beqList : List FArg → List FArg → Bool
  | [], [] => true
  | g :: gs, g' :: gs' => g.beq g' && FArg.beqList gs gs'
  | _, _ => false
termination_by structural x => x
end

mutual
theorem Ty.beq_iff : ∀ a b : Ty, a.beq b = true ↔ a = b
  | .ptr t a b c, u => by
    cases u <;> simp [Ty.beq, Ty.beq_iff t, and_assoc]
  | .path n e g k, u => by
    cases u <;> simp [Ty.beq, GArg.beqList_iff g, and_assoc]
  | .prim p, u => by cases u <;> simp [Ty.beq]
  | .array t l, u => by cases u <;> simp [Ty.beq, Ty.beq_iff t]
  | .fnptr r as a b, u => by
    cases u <;> simp [Ty.beq, Ty.beq_iff r, FArg.beqList_iff as, and_assoc]
theorem GArg.beq_iff : ∀ a b : GArg, a.beq b = true ↔ a = b
  | .type t, u => by cases u <;> simp [GArg.beq, Ty.beq_iff t]
  | .const c, u => by cases u <;> simp [GArg.beq]
theorem FArg.beq_iff : ∀ a b : FArg, a.beq b = true ↔ a = b
  | .mk n t, .mk n' t' => by simp [FArg.beq, Ty.beq_iff t]
theorem GArg.beqList_iff : ∀ a b : List GArg, GArg.beqList a b = true ↔ a = b
  | [], u => by cases u <;> simp [GArg.beqList]
  | g :: gs, u => by cases u <;> simp [GArg.beqList, GArg.beq_iff g, GArg.beqList_iff gs]
theorem FArg.beqList_iff : ∀ a b : List FArg, FArg.beqList a b = true ↔ a = b
  | [], u => by cases u <;> simp [FArg.beqList]
  | g :: gs, u => by cases u <;> simp [FArg.beqList, FArg.beq_iff g, FArg.beqList_iff gs]
end

instance : DecidableEq Ty := fun a b => decidable_of_iff _ (Ty.beq_iff a b)
instance : DecidableEq GArg := fun a b => decidable_of_iff _ (GArg.beq_iff a b)
instance : DecidableEq FArg := fun a b => decidable_of_iff _ (FArg.beq_iff a b)

end Cbindgen
