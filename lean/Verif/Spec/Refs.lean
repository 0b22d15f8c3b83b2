import Verif.Spec.Library

/-!
# References and the names they are written with
-/

namespace Cbindgen.RefSpec

open LibSpec

/-- The type mentions a definition `n`, at any depth, and writes it as `e`.  Constants as array lengths
and as generic arguments count too. -/
inductive Mentions : Ty → Str → Str → Prop
  | here (n e : Str) (gs : List GArg) (k : Option DeclKind) : Mentions (.path n e gs k) n e
  | generic {m f : Str} {gs : List GArg} {k : Option DeclKind} {t : Ty} {n e : Str} :
    GArg.type t ∈ gs → Mentions t n e → Mentions (.path m f gs k) n e
  | constant {m f : Str} {gs : List GArg} {k : Option DeclKind} {n e : Str} :
    GArg.const (.path n e) ∈ gs → Mentions (.path m f gs k) n e
  | ptr {t : Ty} {c nl r : Bool} {n e : Str} : Mentions t n e → Mentions (.ptr t c nl r) n e
  | array {t : Ty} {l : CExpr} {n e : Str} : Mentions t n e → Mentions (.array t l) n e
  | len {t : Ty} {n e : Str} : Mentions (.array t (.path n e)) n e
  | ret {t : Ty} {as : List FArg} {nl nr : Bool} {n e : Str} :
    Mentions t n e → Mentions (.fnptr t as nl nr) n e
  | arg {r t : Ty} {as : List FArg} {nl nr : Bool} {a : Option Str} {n e : Str} :
    FArg.mk a t ∈ as → Mentions t n e → Mentions (.fnptr r as nl nr) n e

/-- The literal mentions the type `n` and writes it as `e`. -/
inductive LitMentions : Lit → Str → Str → Prop
  | assoc (p e n : Str) : LitMentions (.path (some (p, e)) n) p e
  | struct (p e : Str) (fs : List LitField) : LitMentions (.struct p e fs) p e
  | castTo {t : Ty} {v : Lit} {n e : Str} : Mentions t n e → LitMentions (.cast t v) n e
  | field {p f : Str} {fs : List LitField} {g : Str} {v : Lit} {c : Option Cfg} {n e : Str} :
    LitField.mk g v c ∈ fs → LitMentions v n e → LitMentions (.struct p f fs) n e
  | unary {op : Str} {v : Lit} {n e : Str} : LitMentions v n e → LitMentions (.unary op v) n e
  | left {op : Str} {l r : Lit} {n e : Str} : LitMentions l n e → LitMentions (.binop l op r) n e
  | right {op : Str} {l r : Lit} {n e : Str} : LitMentions r n e → LitMentions (.binop l op r) n e
  | base {b : Lit} {f n e : Str} : LitMentions b n e → LitMentions (.field b f) n e
  | cast {t : Ty} {v : Lit} {n e : Str} : LitMentions v n e → LitMentions (.cast t v) n e
  | item {is : List Lit} {i : Lit} {n e : Str} : i ∈ is → LitMentions i n e → LitMentions (.array is) n e

mutual
/-- The constants that a literal mentions by name, from left to right. -/
def constNames : Lit → List Str
  | .expr _ => []
  | .path none n => [n]
  | .path (some _) _ => []
  | .unary _ v => constNames v
  | .binop l _ r => constNames l ++ constNames r
  | .field b _ => constNames b
  | .struct _ _ fs => constNamesFields fs
  | .cast _ v => constNames v
  | .array is => constNamesList is
def constNamesFields : List LitField → List Str
  | [] => []
  | .mk _ v _ :: fs => constNames v ++ constNamesFields fs
def constNamesList : List Lit → List Str
  | [] => []
  | i :: is => constNames i ++ constNamesList is
end

/-- The references of a constant. -/
def ConstMentions (x : ConstItem) (n e : Str) : Prop := Mentions x.ty n e ∨ LitMentions x.value n e

/-- The references in the fields after the first `skip` ones, parameters aside. -/
def FieldMentions (skip : Nat) (params : List GParam) (fs : List Field) (n e : Str) : Prop :=
  ∃ f ∈ fs.drop skip, Mentions f.ty n e ∧ ¬ IsParam params n

/-- The references of an item, parameters aside.  A variant of an enum that is not `repr(C)` starts with
the tag, which is defined together with the enum. -/
def ItemMentions : Container → Str → Str → Prop
  | .struct x, n, e =>
    FieldMentions (if x.hasTagField then 1 else 0) x.genericParams x.fields n e ∨
      ∃ k ∈ x.assocConsts, ConstMentions k n e
  | .union x, n, e => FieldMentions 0 x.genericParams x.fields n e
  | .enum x, n, e =>
    ∃ v ∈ x.variants,
      (∃ m b i ic, v.body = .body m b i ic ∧
        (FieldMentions (if x.repr.style = .c then 0 else 1) b.genericParams b.fields n e ∨
          ∃ k ∈ b.assocConsts, ConstMentions k n e)) ∨
      ∃ d, v.disc = some d ∧ LitMentions d n e
  | .typedef x, n, e => Mentions x.aliased n e ∧ ¬ IsParam x.genericParams n
  | .opaque _, _, _ => False

/-- The references of a function. -/
def FuncMentions (x : FuncItem) (n e : Str) : Prop :=
  Mentions x.ret n e ∨ ∃ a ∈ x.args, Mentions a.ty n e

/-! ## Names given by the configuration -/

/-- The prefix of the configuration. -/
def prefixed (pre : Option Str) (n : Str) : Str := pre.getD [] ++ n

/-- The exported name of a definition: the name it is renamed to, if any, else its own name, after the
prefix; a renamed definition has no prefix if renaming overrides prefixing. -/
def exported (table : List (Str × Str)) (pre : Option Str) (overrides : Bool) (n : Str) : Str :=
  if (table.lookup n).isSome ∧ overrides then (table.lookup n).getD n
  else prefixed pre ((table.lookup n).getD n)

/-! ## Types as they come from the source -/

/-- A constant expression whose name was not changed. -/
def PlainConst : CExpr → Prop
  | .path n e => e = n
  | .value _ => True

mutual
/-- No exported name was changed and no declaration keyword was set yet. -/
def Plain : Ty → Prop
  | .ptr t _ _ _ => Plain t
  | .path n e gs k => e = n ∧ k = none ∧ PlainArgs gs
  | .prim _ => True
  | .array t l => Plain t ∧ PlainConst l
  | .fnptr r as _ _ => Plain r ∧ PlainFArgs as
def PlainArg : GArg → Prop
  | .type t => Plain t
  | .const c => PlainConst c
def PlainArgs : List GArg → Prop
  | [] => True
  | g :: gs => PlainArg g ∧ PlainArgs gs
def PlainFArgs : List FArg → Prop
  | [] => True
  | .mk _ t :: as => Plain t ∧ PlainFArgs as
end

/-- The names of a constant were not changed.  An associated constant is written with the name of its
type. -/
def PlainConstItem (x : ConstItem) : Prop :=
  (x.associatedTo = none → x.exportName = x.path) ∧ Plain x.ty ∧ ∀ n e, LitMentions x.value n e → e = n

/-- The defaults of parameters. -/
def PlainParams (ps : List GParam) : Prop := ∀ p ∈ ps, ∀ d, p.default = some d → PlainArg d

/-- The names of a struct were not changed. -/
def PlainStruct (x : StructItem) : Prop :=
  x.exportName = x.path ∧ PlainParams x.genericParams ∧ (∀ f ∈ x.fields, Plain f.ty) ∧
    ∀ k ∈ x.assocConsts, PlainConstItem k

/-- The names of a variant were not changed. -/
def PlainVariant (v : EnumVariant) : Prop :=
  (∀ m b i ic, v.body = .body m b i ic → PlainStruct b) ∧
    ∀ d, v.disc = some d → ∀ n e, LitMentions d n e → e = n

/-- A library as it is loaded, before any name is changed.  Only bodies of variants have
a tag field: those in enums that are not `repr(C)`. -/
structure PlainLibrary (constants : List ConstItem) (globals : List StaticItem) (enums : List EnumItem)
    (structs : List StructItem) (unions : List UnionItem) (opaqueItems : List OpaqueItem)
    (typedefs : List TypedefItem) (functions : List FuncItem) : Prop where
  constants : ∀ x ∈ constants, PlainConstItem x
  globals : ∀ x ∈ globals, Plain x.ty
  enums : ∀ x ∈ enums, x.exportName = x.path ∧ PlainParams x.genericParams ∧
    ∀ v ∈ x.variants, PlainVariant v ∧
      ∀ m b i ic, v.body = .body m b i ic → (b.hasTagField = true ↔ x.repr.style ≠ .c)
  structs : ∀ x ∈ structs, x.hasTagField = false ∧ PlainStruct x
  unions : ∀ x ∈ unions, x.exportName = x.path ∧ PlainParams x.genericParams ∧
    ∀ f ∈ x.fields, Plain f.ty
  opaqueItems : ∀ x ∈ opaqueItems, x.exportName = x.path
  typedefs : ∀ x ∈ typedefs, x.exportName = x.path ∧ PlainParams x.genericParams ∧ Plain x.aliased
  functions : ∀ x ∈ functions, Plain x.ret ∧ ∀ a ∈ x.args, Plain a.ty

/-! ## Declaration keywords -/

/-- The type is written with a reference to `n` with the keyword `k`.  Generic arguments are not part of
C. -/
inductive Writes : Ty → Str → Option DeclKind → Prop
  | here (n e : Str) (gs : List GArg) (k : Option DeclKind) : Writes (.path n e gs k) n k
  | ptr {t : Ty} {c nl r : Bool} {n : Str} {k : Option DeclKind} :
    Writes t n k → Writes (.ptr t c nl r) n k
  | array {t : Ty} {l : CExpr} {n : Str} {k : Option DeclKind} : Writes t n k → Writes (.array t l) n k
  | ret {t : Ty} {as : List FArg} {nl nr : Bool} {n : Str} {k : Option DeclKind} :
    Writes t n k → Writes (.fnptr t as nl nr) n k
  | arg {r t : Ty} {as : List FArg} {nl nr : Bool} {a : Option Str} {n : Str} {k : Option DeclKind} :
    FArg.mk a t ∈ as → Writes t n k → Writes (.fnptr r as nl nr) n k

/-- How the C writer defines an item (src/bindgen/language_backend/clike.rs:468-745 and
src/bindgen/ir/enumeration.rs:655-835): the keyword of its tag, or none if it is a typedef.  A transparent
struct is a typedef of its field; an enum with data is a struct around a union if it is `repr(C)` and a
union otherwise; an enum of fixed size is a typedef of an integer type. -/
def definedAs : Container → Option DeclKind
  | .struct x => if x.isTransparent && !x.fields.isEmpty then none else some .struct
  | .union _ => some .union
  | .opaque _ => some .struct
  | .typedef _ => none
  | .enum x =>
    if x.tag.isSome then (if x.repr.style = .c then some .struct else some .union)
    else if x.repr.ty.isSome then none
    else some .enum

/-- All definitions of a name are of one kind. -/
def Uniform (xs : List Container) : Prop :=
  ∀ x ∈ xs, ∀ y ∈ xs, x.path = y.path → definedAs x = definedAs y

/-- An enum without data is `repr(C)` exactly if it has no integer type, and a transparent struct has a
field. -/
def Ordinary : Container → Prop
  | .enum x => x.tag = none → (x.repr.style = .c ↔ x.repr.ty = none)
  | .struct x => x.isTransparent = true → x.fields ≠ []
  | _ => True

/-- The fields after the first `skip` ones write a reference. -/
def FieldWrites (skip : Nat) (fs : List Field) (n : Str) (k : Option DeclKind) : Prop :=
  ∃ f ∈ fs.drop skip, Writes f.ty n k

/-- The references that an item writes, the tag of a variant aside. -/
def ItemWrites : Container → Str → Option DeclKind → Prop
  | .struct x, n, k => FieldWrites (if x.hasTagField then 1 else 0) x.fields n k
  | .union x, n, k => FieldWrites 0 x.fields n k
  | .enum x, n, k =>
    ∃ v ∈ x.variants, ∃ m b i ic, v.body = .body m b i ic ∧
      FieldWrites (if x.repr.style = .c then 0 else 1) b.fields n k
  | .typedef x, n, k => Writes x.aliased n k
  | .opaque _, _, _ => False

/-- The references that a function writes. -/
def FuncWrites (x : FuncItem) (n : Str) (k : Option DeclKind) : Prop :=
  Writes x.ret n k ∨ ∃ a ∈ x.args, Writes a.ty n k

end Cbindgen.RefSpec
