import Verif.Spec.Header
import Verif.Model.Ir

/-!
# Names of types in a C header

C reads a header from top to bottom.  A name of a type must be declared before it is used (C11 6.2.1p4, 6.7.8), and a
`struct`, `union` or `enum` must be complete where an object of it is a member (C11 6.7.2.1p3); a pointer to a tagged
type needs nothing.  Here the names that a declaration needs and gives are read off the declaration as the reader
finds it (C62).
-/

namespace Cbindgen.ScopeSpec
open LexSpec CSpec HeadSpec

/-- A name of a type as it is written: the keyword of a tag, or none for the name of a `typedef`. -/
abbrev Name := Option DeclKind × Str

mutual
/-- All names of types in a type. -/
def mentions : CTy → List Name
  | .base _ k n _ => [(k, n)]
  | .ptr _ _ _ t => mentions t
  | .arr _ t => mentions t
  | .fn ps _ t => mentionsParams ps ++ mentions t
def mentionsParams : List CParam → List Name
  | [] => []
  | .mk _ t :: ps => mentions t ++ mentionsParams ps
end

/-- The named types of which an object of the type consists. -/
def values : CTy → List Name
  | .base _ k n _ => [(k, n)]
  | .arr _ t => values t
  | _ => []

/-- What must be declared before the type is written. -/
def needs (t : CTy) : List Name := (mentions t).filter (fun u => u.1.isNone) ++ values t

/-- What must be declared before a `typedef`.  A `typedef` that makes a name of a tag, like `typedef struct T T`, needs
nothing: it also declares the tag if it is new.  Other names are to stand for complete types. -/
def aliasNeeds (n : Str) : CTy → List Name
  | .base _ (some k) m _ => if n = m then [] else [(some k, m)]
  | t => needs t

mutual
/-- What must be declared before a declaration. -/
def itemNeeds : CItem → List Name
  | .object _ _ _ t _ => needs t
  | .alias n t => aliasNeeds n t
  | .forward _ _ => []
  | .record _ _ _ _ ms => itemsNeed ms
  | .enumeration _ _ t _ _ => (t.map needs).getD []
  | .enumClass _ _ t _ => (t.map needs).getD []
  | .constant _ _ t _ => needs t
  | .usingSpace _ => []
  | .linkage _ ms => itemsNeed ms
  | .space _ ms => itemsNeed ms
  | .template _ d => itemNeeds d
def itemsNeed : List CItem → List Name
  | [] => []
  | d :: ds => itemNeeds d ++ itemsNeed ds
end

/-- What a declaration declares (and defines, for tags).  The blocks of C++ are not looked into: the order is only
stated for C. -/
def gives : CItem → List Name
  | .object .. => []
  | .alias n _ => [(none, n)]
  | .forward _ _ => []
  | .record k _ tag name _ => tag.toList.map (fun n => (some k, n)) ++ name.toList.map (fun n => (none, n))
  | .enumeration _ tag _ name _ =>
    tag.toList.map (fun n => (some .enum, n)) ++ name.toList.map (fun n => (none, n))
  | .enumClass _ n _ _ => [(none, n)]
  | .constant .. => []
  | .usingSpace _ => []
  | .linkage _ _ => []
  | .space _ _ => []
  | .template _ _ => []

def Given (ds : List CItem) (u : Name) : Prop := ∃ d ∈ ds, u ∈ gives d

/-- Nothing is needed before it is declared: what a declaration needs, if the header declares it at all, is declared
before. -/
def InOrder (ds : List CItem) : Prop :=
  ∀ before d after, ds = before ++ d :: after → ∀ u ∈ itemNeeds d, Given (d :: after) u → Given before u

/-! ## References in Rust -/

/-- The type refers to `p`, and writes it as the name `n` with the keyword `k`. -/
inductive Refers : Ty → Str → Str → Option DeclKind → Prop
  | here (p n : Str) (gs : List GArg) (k : Option DeclKind) : Refers (.path p n gs k) p n k
  | ptr {t : Ty} {c nl r : Bool} {p n : Str} {k : Option DeclKind} : Refers t p n k → Refers (.ptr t c nl r) p n k
  | array {t : Ty} {l : CExpr} {p n : Str} {k : Option DeclKind} : Refers t p n k → Refers (.array t l) p n k
  | ret {t : Ty} {as : List FArg} {nl nr : Bool} {p n : Str} {k : Option DeclKind} :
    Refers t p n k → Refers (.fnptr t as nl nr) p n k
  | arg {r t : Ty} {as : List FArg} {nl nr : Bool} {a : Option Str} {p n : Str} {k : Option DeclKind} :
    FArg.mk a t ∈ as → Refers t p n k → Refers (.fnptr r as nl nr) p n k

/-- A value of the type contains one of `p`. -/
inductive Holds : Ty → Str → Str → Option DeclKind → Prop
  | here (p n : Str) (gs : List GArg) (k : Option DeclKind) : Holds (.path p n gs k) p n k
  | array {t : Ty} {l : CExpr} {p n : Str} {k : Option DeclKind} : Holds t p n k → Holds (.array t l) p n k

/-- The type needs the definition of `p` before it is written. -/
def TyNeeds (t : Ty) (p n : Str) (k : Option DeclKind) : Prop := (Refers t p n k ∧ k = none) ∨ Holds t p n k

/-- The item needs the definition of `p`.  The tag of a variant is defined together with the enum. -/
def ItemNeeds : Container → Str → Str → Option DeclKind → Prop
  | .struct x, p, n, k => ∃ f ∈ x.fields.drop (if x.hasTagField then 1 else 0), TyNeeds f.ty p n k
  | .union x, p, n, k => ∃ f ∈ x.fields, TyNeeds f.ty p n k
  | .enum x, p, n, k => x.tag.isSome = true ∧ ∃ v ∈ x.variants, ∃ m b i ic, v.body = .body m b i ic ∧
      ∃ f ∈ b.fields.drop (if b.hasTagField then 1 else 0), TyNeeds f.ty p n k
  | .typedef x, p, n, k => TyNeeds x.aliased p n k
  | .opaque _, _, _, _ => False

/-- The condition of an item. -/
def itemCfg : Container → Option Cfg
  | .enum x => x.cfg
  | .struct x => x.cfg
  | .union x => x.cfg
  | .opaque x => x.cfg
  | .typedef x => x.cfg

/-- The function needs the definition of `p`. -/
def FuncNeeds (f : FuncItem) (p n : Str) (k : Option DeclKind) : Prop :=
  TyNeeds f.ret p n k ∨ ∃ a ∈ f.args, TyNeeds a.ty p n k

end Cbindgen.ScopeSpec
