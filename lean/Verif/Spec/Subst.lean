import Verif.Model.Ir

/-!
# What a generic type means for given parameters

Types are read in an arbitrary domain, for arbitrary values of the generic parameters.  Nothing here
substitutes anything in a type.
-/

namespace Cbindgen.SubstSpec

/-- A domain of types `D` and of constants `K`, with a meaning for each type constructor. -/
structure Domain (D K : Type) where
  ptr : D → (isConst isNullable isRef : Bool) → D
  named : Str → List (D ⊕ K) → D
  prim : Prim → D
  array : D → K → D
  fnptr : D → List (Option Str × D) → (isNullable neverReturn : Bool) → D
  constant : Str → K
  value : Str → K

/-- The value of a parameter: as a type, as a constant, and as a generic argument.  (An argument that
is a mere name may be a type or a constant, and is both here.) -/
structure Value (D K : Type) where
  asType : Option D
  asConst : Option K
  asArg : D ⊕ K

/-- Values for some of the names. -/
abbrev Env (D K : Type) := Str → Option (Value D K)

variable {D K : Type} (A : Domain D K) (env : Env D K)

/-- A name where a type is expected. -/
def typeNamed (n : Str) (args : List (D ⊕ K)) : D :=
  match (env n).bind Value.asType with
  | some d => d
  | none => A.named n args

/-- A name where a constant is expected. -/
def constNamed (n : Str) : K :=
  match (env n).bind Value.asConst with
  | some k => k
  | none => A.constant n

/-- A constant expression. -/
def evalConst : CExpr → K
  | .path n _ => constNamed A env n
  | .value s => A.value s

/-- A name where a generic argument is expected; `d` is its meaning as a type. -/
def argNamed (n : Str) (args : List GArg) (d : D) : D ⊕ K :=
  if args.isEmpty then
    match env n with
    | some v => v.asArg
    | none => .inl d
  else .inl d

/-- A type where a generic argument is expected; `d` is its meaning as a type. -/
def typeArg (t : Ty) (d : D) : D ⊕ K :=
  match t with
  | .path n _ gs _ => argNamed env n gs d
  | _ => .inl d

mutual
/-- The meaning of a type. -/
def eval : Ty → D
  | .ptr t c n r => A.ptr (eval t) c n r
  | .path n _ gs _ => typeNamed A env n (evalArgs gs)
  | .prim p => A.prim p
  | .array t l => A.array (eval t) (evalConst A env l)
  | .fnptr r as n nr => A.fnptr (eval r) (evalParams as) n nr
/-- The meaning of a generic argument. -/
def evalArg : GArg → D ⊕ K
  | .type t => typeArg env t (eval t)
  | .const c => .inr (evalConst A env c)
def evalArgs : List GArg → List (D ⊕ K)
  | [] => []
  | g :: gs => evalArg g :: evalArgs gs
/-- The meaning of the parameters of a function pointer. -/
def evalParams : List FArg → List (Option Str × D)
  | [] => []
  | .mk n t :: as => (n, eval t) :: evalParams as
end

/-- No parameters: all names are names of definitions. -/
def noParams : Env D K := fun _ => none

/-- A generic argument as the value of a parameter. -/
def argValue : GArg → Value D K
  | .type t =>
    { asType := some (eval A noParams t)
      asConst := match t with
        | .path n _ [] _ => some (A.constant n)
        | _ => none
      asArg := .inl (eval A noParams t) }
  | .const c =>
    { asType := none
      asConst := some (evalConst A noParams c)
      asArg := .inr (evalConst A noParams c) }

/-- All the parameters get their values at once; the values are read outside, where there are no
parameters. -/
def values (m : List (Str × GArg)) : Env D K := fun n => (m.lookup n).map (argValue A)

/-! ## Types as they come from the source -/

mutual
/-- A type as it is loaded: parameters have no generic arguments, and a constant argument that is not
a mere name is not a parameter. -/
def Loaded (params : List Str) : Ty → Prop
  | .ptr t _ _ _ => Loaded params t
  | .path n _ gs _ => (n ∈ params → gs = []) ∧ LoadedArgs params gs
  | .prim _ => True
  | .array t _ => Loaded params t
  | .fnptr r as _ _ => Loaded params r ∧ LoadedFArgs params as
def LoadedArg (params : List Str) : GArg → Prop
  | .type t => Loaded params t
  | .const (.path n _) => n ∉ params
  | .const (.value _) => True
def LoadedArgs (params : List Str) : List GArg → Prop
  | [] => True
  | g :: gs => LoadedArg params g ∧ LoadedArgs params gs
def LoadedFArgs (params : List Str) : List FArg → Prop
  | [] => True
  | .mk _ t :: as => Loaded params t ∧ LoadedFArgs params as
end

mutual
/-- No exported name was changed and no declaration keyword was set yet. -/
def Fresh : Ty → Prop
  | .ptr t _ _ _ => Fresh t
  | .path n e gs k => e = n ∧ k = none ∧ FreshArgs gs
  | .prim _ => True
  | .array t _ => Fresh t
  | .fnptr r as _ _ => Fresh r ∧ FreshFArgs as
def FreshArg : GArg → Prop
  | .type t => Fresh t
  | .const _ => True
def FreshArgs : List GArg → Prop
  | [] => True
  | g :: gs => FreshArg g ∧ FreshArgs gs
def FreshFArgs : List FArg → Prop
  | [] => True
  | .mk _ t :: as => Fresh t ∧ FreshFArgs as
end

/-- The names that occur in a type as types, as arguments or as array lengths. -/
inductive Occurs : Ty → Str → Prop
  | here (n e : Str) (gs : List GArg) (k : Option DeclKind) : Occurs (.path n e gs k) n
  | generic {m e : Str} {gs : List GArg} {k : Option DeclKind} {t : Ty} {n : Str} :
    GArg.type t ∈ gs → Occurs t n → Occurs (.path m e gs k) n
  | constant {m e : Str} {gs : List GArg} {k : Option DeclKind} {n x : Str} :
    GArg.const (.path n x) ∈ gs → Occurs (.path m e gs k) n
  | ptr {t : Ty} {c nl r : Bool} {n : Str} : Occurs t n → Occurs (.ptr t c nl r) n
  | array {t : Ty} {l : CExpr} {n : Str} : Occurs t n → Occurs (.array t l) n
  | len {t : Ty} {n x : Str} : Occurs (.array t (.path n x)) n
  | ret {t : Ty} {as : List FArg} {nl nr : Bool} {n : Str} : Occurs t n → Occurs (.fnptr t as nl nr) n
  | arg {r t : Ty} {as : List FArg} {nl nr : Bool} {a : Option Str} {n : Str} :
    FArg.mk a t ∈ as → Occurs t n → Occurs (.fnptr r as nl nr) n

/-- The names that occur in a generic argument. -/
inductive ArgOccurs : GArg → Str → Prop
  | type {t : Ty} {n : Str} : Occurs t n → ArgOccurs (.type t) n
  | const (n x : Str) : ArgOccurs (.const (.path n x)) n

/-- The names that are used as array lengths. -/
inductive LenOccurs : Ty → Str → Prop
  | here {t : Ty} {n x : Str} : LenOccurs (.array t (.path n x)) n
  | array {t : Ty} {l : CExpr} {n : Str} : LenOccurs t n → LenOccurs (.array t l) n
  | generic {m e : Str} {gs : List GArg} {k : Option DeclKind} {t : Ty} {n : Str} :
    GArg.type t ∈ gs → LenOccurs t n → LenOccurs (.path m e gs k) n
  | ptr {t : Ty} {c nl r : Bool} {n : Str} : LenOccurs t n → LenOccurs (.ptr t c nl r) n
  | ret {t : Ty} {as : List FArg} {nl nr : Bool} {n : Str} :
    LenOccurs t n → LenOccurs (.fnptr t as nl nr) n
  | arg {r t : Ty} {as : List FArg} {nl nr : Bool} {a : Option Str} {n : Str} :
    FArg.mk a t ∈ as → LenOccurs t n → LenOccurs (.fnptr r as nl nr) n

/-- A generic argument that can stand for an array length: a constant or a mere name. -/
def CanBeLen : GArg → Prop
  | .const _ => True
  | .type (.path _ _ [] _) => True
  | .type _ => False

/-- All the arguments are types. -/
def AllTypes (m : List (Str × GArg)) : Prop := ∀ p ∈ m, ∃ t, p.2 = .type t

end Cbindgen.SubstSpec
