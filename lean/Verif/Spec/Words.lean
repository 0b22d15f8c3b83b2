import Verif.Spec.Preproc
import Verif.Spec.Comments
import Verif.Model.Emission

/-!
# What has to hold of the input of a header for C27

Names are plain words.  The texts that users write (attributes, prefixes, expressions) can stand in a line of
code and leave nothing open.  The lines of documentation stay in their comments (see C23).
-/

namespace Cbindgen.PreSpec
open TextSpec CommentSpec

mutual
/-- The names in a type. -/
def tyWords : Ty → List Str
  | .ptr t _ _ _ => tyWords t
  | .path _ e g _ => e :: gargsWords g
  | .prim _ => []
  | .array t len => len.asStr :: tyWords t
  | .fnptr ret args _ _ => tyWords ret ++ fargsWords args
def gargsWords : List GArg → List Str
  | [] => []
  | .type t :: gs => tyWords t ++ gargsWords gs
  | .const c :: gs => c.asStr :: gargsWords gs
def fargsWords : List FArg → List Str
  | [] => []
  | .mk n t :: as => n.toList ++ tyWords t ++ fargsWords as
end

mutual
/-- The names in a literal. -/
def litWords : Lit → List Str
  | .expr _ => []
  | .path none n => [n]
  | .path (some (_, x)) n => [x, n]
  | .unary _ v => litWords v
  | .binop l _ r => litWords l ++ litWords r
  | .field b n => n :: litWords b
  | .struct _ x fs => x :: litFieldsWords fs
  | .cast t v => tyWords t ++ litWords v
  | .array items => litsWords items
def litFieldsWords : List LitField → List Str
  | [] => []
  | .mk n v _ :: fs => n :: (litWords v ++ litFieldsWords fs)
def litsWords : List Lit → List Str
  | [] => []
  | v :: vs => litWords v ++ litsWords vs
end

mutual
/-- The other texts in a literal: numbers, quoted text and operators. -/
def litTexts : Lit → List Str
  | .expr s => [s]
  | .path _ _ => []
  | .unary o v => o :: litTexts v
  | .binop l o r => (c!" " ++ o ++ c!" ") :: (litTexts l ++ litTexts r)
  | .field b _ => litTexts b
  | .struct _ _ fs => litFieldsTexts fs
  | .cast _ v => litTexts v
  | .array items => litsTexts items
def litFieldsTexts : List LitField → List Str
  | [] => []
  | .mk _ v _ :: fs => litTexts v ++ litFieldsTexts fs
def litsTexts : List Lit → List Str
  | [] => []
  | v :: vs => litTexts v ++ litsTexts vs
end

/-- Every one of the texts is plain. -/
def Words (ws : List Str) : Prop := ∀ s ∈ ws, Plain s

/-- A value that is plain, if there is one. -/
def OptPlain (o : Option Str) : Prop := ∀ s, o = some s → Plain s

/-- A value that can stand in a line, if there is one. -/
def OptInline (o : Option Str) : Prop := ∀ s, o = some s → Inline s

/-- Lines that can stand on their own, if there are any. -/
def OptBlock (o : Option Str) : Prop := ∀ s, o = some s → Block s

/-- Every line stays in its comment. -/
def DocFine (c : OutConfig) (doc : List Str) : Prop :=
  ∀ l ∈ doc, OneLine l ∧ l.getLast? ≠ some '\\' ∧ ¬ Closes (c.docStyle.linePrefix ++ l)

/-- The texts of annotations can stand in a line. -/
def NotesFine (c : OutConfig) (a : Annotations) : Prop :=
  (∀ name s, a.atom name = some (some s) → Inline s) ∧ ∀ k, OptInline (a.deprecatedNote c k)

def LitFine (l : Lit) : Prop := Words (litWords l) ∧ ∀ s ∈ litTexts l, Inline s

def FieldFine (c : OutConfig) (f : Field) : Prop :=
  Plain f.name ∧ Words (tyWords f.ty) ∧ DocFine c f.doc ∧ NotesFine c f.annotations

/-- The texts of a type parameter. -/
def gparamWords (p : GParam) : List Str :=
  p.name :: ((p.constTy.map tyWords).getD [] ++ gargsWords p.default.toList)

def ParamsFine (ps : List GParam) : Prop := ∀ p ∈ ps, Words (gparamWords p)

/-- `s` is the struct that the constant belongs to. -/
def ConstFine (c : OutConfig) (s : Option StructItem) (k : ConstItem) : Prop :=
  Plain k.exportName ∧ OptPlain (k.writtenName c s) ∧ Words (tyWords k.ty) ∧ LitFine k.value ∧ DocFine c k.doc

def StructFine (c : OutConfig) (s : StructItem) : Prop :=
  Plain s.exportName ∧ ParamsFine s.genericParams ∧ (∀ f ∈ s.fields, FieldFine c f) ∧
  NotesFine c s.annotations ∧ DocFine c s.doc ∧ ∀ k ∈ s.assocConsts, ConstFine c (some s) k

def UnionFine (c : OutConfig) (u : UnionItem) : Prop :=
  Plain u.exportName ∧ ParamsFine u.genericParams ∧ (∀ f ∈ u.fields, FieldFine c f) ∧ DocFine c u.doc

def OpaqueFine (c : OutConfig) (o : OpaqueItem) : Prop :=
  Plain o.exportName ∧ ParamsFine o.genericParams ∧ DocFine c o.doc

def TypedefFine (c : OutConfig) (t : TypedefItem) : Prop :=
  Plain t.exportName ∧ ParamsFine t.genericParams ∧ Words (tyWords t.aliased) ∧ DocFine c t.doc

def BodyFine (c : OutConfig) : VBody → Prop
  | .empty a => NotesFine c a
  | .body n s _ _ => Plain n ∧ StructFine c s

def VariantFine (c : OutConfig) (v : EnumVariant) : Prop :=
  Plain v.exportName ∧ (∀ d, v.disc = some d → LitFine d) ∧ BodyFine c v.body ∧ DocFine c v.doc

def EnumFine (c : OutConfig) (x : EnumItem) : Prop :=
  Plain x.exportName ∧ OptPlain x.tag ∧ ParamsFine x.genericParams ∧ (∀ v ∈ x.variants, VariantFine c v) ∧
  NotesFine c x.annotations ∧ DocFine c x.doc

def ItemFine (c : OutConfig) : Container → Prop
  | .enum x => EnumFine c x
  | .struct x => StructFine c x
  | .union x => UnionFine c x
  | .opaque x => OpaqueFine c x
  | .typedef x => TypedefFine c x

def StaticFine (c : OutConfig) (s : StaticItem) : Prop :=
  Plain s.exportName ∧ Words (tyWords s.ty) ∧ DocFine c s.doc

/-- The names in an argument of a function. -/
def argWords (a : FnArg) : List Str := a.name.toList ++ tyWords a.ty ++ a.arrayLength.toList

def FuncFine (c : OutConfig) (f : FuncItem) : Prop :=
  Plain f.path ∧ OptPlain f.selfTypePath ∧ Words (tyWords f.ret) ∧ (∀ a ∈ f.args, Words (argWords a)) ∧
  NotesFine c f.annotations ∧ DocFine c f.doc

/-- The texts of the options. -/
structure ConfigFine (c : OutConfig) : Prop where
  lang : c.language ≠ .cython
  header : OptBlock c.header
  autogenWarning : OptBlock c.autogenWarning
  afterIncludes : OptBlock c.afterIncludes
  trailer : OptBlock c.trailer
  preBody : ∀ p, OptBlock (c.preBodyOf p)
  body : ∀ p, OptBlock (c.postBodyOf p)
  guard : OptPlain c.includeGuard
  version : Plain c.version
  includes : ∀ i ∈ c.includes, ∀ x ∈ i, isBreak x = false ∧ x ≠ '"' ∧ x ≠ '\\'
  sysIncludes : ∀ i ∈ c.sysIncludes, Inline i
  spaces : Words (c.namespace_.toList ++ c.namespaces.getD [] ++ c.usingNamespaces.getD [])
  defines : ∀ d ∈ c.defines, Plain d.2
  argNames : ∀ n, Plain n → Plain (c.argName n)
  layout : OptInline c.layout.packed ∧ OptInline c.layout.alignedN
  pointers : OptInline c.nonNullAttr ∧ OptInline c.nullableAttr
  noReturn : OptInline c.noReturn
  mustUse : OptInline c.function.mustUse ∧ OptInline c.structure_.mustUse ∧ OptInline c.enumeration.mustUse
  around : OptInline c.function.pre ∧ OptInline c.function.post
  swift : OptPlain c.function.swiftNameMacro
  castAssert : OptPlain c.enumeration.castAssertName

/-- The input of a header. -/
structure Fine (e : Env) (b : Bindings) : Prop where
  cfg : ConfigFine e.cfg
  package : Plain e.packageVersion
  /-- the enums to which the paths in literals refer -/
  enums : ∀ p, ∀ x ∈ (e.enums.getItems p).getD [], Plain x.exportName ∧ ∀ v ∈ x.variants, Plain v.exportName
  constants : ∀ k ∈ b.constants, ConstFine e.cfg none k
  items : ∀ i ∈ b.items, ItemFine e.cfg i
  globals : ∀ s ∈ b.globals, StaticFine e.cfg s
  functions : ∀ f ∈ b.functions, FuncFine e.cfg f

end Cbindgen.PreSpec
