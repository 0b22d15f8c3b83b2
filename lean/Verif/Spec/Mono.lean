import Verif.Spec.Refs
import Verif.Spec.Subst

/-!
# Generic uses
-/

namespace Cbindgen.MonoSpec

/-- The type, as a declaration in C, contains the generic definition `n` applied to `gs`.  What is inside
of generic arguments is not part of the declaration. -/
inductive Uses : Ty → Str → List GArg → Prop
  | here {n e : Str} {gs : List GArg} {k : Option DeclKind} : gs ≠ [] → Uses (.path n e gs k) n gs
  | ptr {t : Ty} {c nl r : Bool} {n : Str} {gs : List GArg} : Uses t n gs → Uses (.ptr t c nl r) n gs
  | array {t : Ty} {l : CExpr} {n : Str} {gs : List GArg} : Uses t n gs → Uses (.array t l) n gs
  | ret {t : Ty} {as : List FArg} {nl nr : Bool} {n : Str} {gs : List GArg} :
    Uses t n gs → Uses (.fnptr t as nl nr) n gs
  | arg {r t : Ty} {as : List FArg} {nl nr : Bool} {a : Option Str} {n : Str} {gs : List GArg} :
    FArg.mk a t ∈ as → Uses t n gs → Uses (.fnptr r as nl nr) n gs

/-- The generic uses in an item.  A variant of an enum that is not `repr(C)` starts with the tag, which is
not generic. -/
def ItemUses : Container → Str → List GArg → Prop
  | .struct x, n, gs => ∃ f ∈ x.fields, Uses f.ty n gs
  | .union x, n, gs => ∃ f ∈ x.fields, Uses f.ty n gs
  | .enum x, n, gs => ∃ v ∈ x.variants, ∃ m b i ic, v.body = .body m b i ic ∧
      ∃ f ∈ b.fields.drop (if x.repr.style = .c then 0 else 1), Uses f.ty n gs
  | .typedef x, n, gs => Uses x.aliased n gs
  | .opaque _, _, _ => False

/-- The generic uses in a function. -/
def FuncUses (x : FuncItem) (n : Str) (gs : List GArg) : Prop :=
  Uses x.ret n gs ∨ ∃ a ∈ x.args, Uses a.ty n gs

mutual
/-- The type with the generic uses replaced that have a name. -/
def replaced (name : Str → List GArg → Option Str) : Ty → Ty
  | .ptr t c n r => .ptr (replaced name t) c n r
  | .path n e [] k => .path n e [] k
  | .path n e (g :: gs) k =>
    match name n (g :: gs) with
    | some p => .path p p [] none
    | none => .path n e (g :: gs) k
  | .prim p => .prim p
  | .array t l => .array (replaced name t) l
  | .fnptr r as n nr => .fnptr (replaced name r) (replacedArgs name as) n nr
def replacedArgs (name : Str → List GArg → Option Str) : List FArg → List FArg
  | [] => []
  | .mk a t :: as => .mk a (replaced name t) :: replacedArgs name as
end

/-- The definitions of the types of variants of enums. -/
def BodyOf (x : EnumItem) (b : StructItem) : Prop :=
  ∃ v ∈ x.variants, ∃ m i ic, v.body = .body m b i ic

/-- A generic argument in a definition that is one of its parameters, or contains none of them. -/
def PassedOn (params : List Str) (g : GArg) : Prop :=
  (∃ p e k, p ∈ params ∧ g = .type (.path p e [] k)) ∨ ∀ n, SubstSpec.ArgOccurs g n → n ∉ params

end Cbindgen.MonoSpec
