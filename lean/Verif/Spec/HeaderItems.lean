import Verif.Lemmas.HeadDecl
import Verif.Lemmas.HeadCond
import Verif.Model.Emission

/-!
# What a C header is to declare

For every item, what a reader of the header has to find (C59, C60, C61), and the conditions on names and on the
texts that users give: names are words, attributes are words that the reader knows to be attributes (possibly with
arguments), and blocks of code are declarations that the reader can read by themselves.
-/

namespace Cbindgen.HeadSpec
open LexSpec CSpec PreSpec

/-- What the options must be like, for C and C++. -/
structure ReadFine (c : OutConfig) (R : Dialect) (D : List Str) : Prop extends CondsFine c D where
  dialect : DialectFine R c.toDeclConfig
  cxx : R.cxx = (c.language == .cxx) := by rfl

/-- What the options must be like, for C. -/
structure OptsFine (c : OutConfig) (R : Dialect) (D : List Str) : Prop extends ReadFine c R D where
  lang : c.language = .c

/-! ## Texts that users give -/

/-- The tokens of a text. -/
def toks (s : Str) : List Lx := (lex s).getD []

/-- The text consists of attributes. -/
def AttrText (R : Dialect) (s : Str) : Prop :=
  ∃ ls, Scans (.gap false) s ls (.any false) ∧ isAttrs R.macros .out ls = true ∧ ls.all isPlainTok = true

def OptAttr (R : Dialect) (o : Option Str) : Prop := ∀ s, o = some s → AttrText R s

/-- The tokens of attributes. -/
def attrToks (os : List (Option Str)) : List Lx := os.flatMap fun o => (o.map toks).getD []

/-- What a block of code declares. -/
def blockOut (R : Dialect) (on : Str → Bool) (o : Option Str) : Out := ((o.map (readHeader R on)).getD none).getD {}

/-- A block of code can be read by itself: it leaves nothing open, and defines no macro that conditions ask for. -/
def BlockText (R : Dialect) (on : Str → Bool) (D : List Str) (s : Str) : Prop :=
  ∃ ls o, Scans .at s ls .done ∧ Adds R on D ls o

/-- A block of declarations only. -/
def BodyText (R : Dialect) (on : Str → Bool) (D : List Str) (s : Str) : Prop :=
  ∃ ls xs, Scans .at s ls .done ∧ Adds R on D ls ⟨xs, [], []⟩

/-! ## Members -/

/-- The width of a bit-field. -/
def bitsOf (f : Field) : List Lx :=
  match f.annotations.atom c!"bitfield" with
  | some (some w) => [.word w]
  | _ => []

def memberOf (c : OutConfig) (f : Field) : CItem :=
  .object false [] f.name (meaning c.toDeclConfig false f.ty).forgetFnPtr (bitsOf f)

/-- The members whose condition holds. -/
def membersOf (c : OutConfig) (on : Str → Bool) (fs : List Field) : List CItem :=
  (fs.filter fun f => shown c on f.cfg).map (memberOf c)

structure MemberFine (R : Dialect) (c : OutConfig) (f : Field) : Prop where
  name : Ident R.attrs f.name
  ty : TyFine R.attrs f.ty
  params : NoVoidParam c.toDeclConfig f.ty
  doc : DocFine c f.doc
  bits : ∀ b, f.annotations.atom c!"bitfield" = some b → ∃ w, b = some w ∧ Word w ∧ w ∉ R.macros

/-! ## Structs and unions -/

/-- The attribute for an alignment. -/
def alignText (c : OutConfig) : Option ReprAlign → Option Str
  | none => none
  | some .packed => c.layout.packed
  | some (.align n) => c.layout.alignedN.map fun a => a ++ c!"(" ++ natStr n ++ c!")"

def mustUseText (a : Annotations) (o : Option Str) : Option Str := if a.mustUse then o else none

/-- Whether types have tags, and whether they have names without a keyword, in C. -/
def hasTag : Style → Bool
  | .type => false
  | .tag => true
  | .both => true
def hasName : Style → Bool
  | .type => true
  | .tag => false
  | .both => true

/-- In C++ every type has a tag, which is a name, and no definition of a type is in a `typedef`. -/
def tagOf (c : OutConfig) (name : Str) : Option Str := if c.language == .cxx || hasTag c.style then some name else none
def nameOf (c : OutConfig) (name : Str) : Option Str := if c.language == .c && hasName c.style then some name else none

def structAttrs (c : OutConfig) (s : StructItem) : List (Option Str) :=
  [alignText c s.alignment, mustUseText s.annotations c.structure_.mustUse, s.annotations.deprecatedNote c .struct]

/-- The definition of a `struct` or `union` with the blocks of code that users give for it. -/
def recordOf (R : Dialect) (c : OutConfig) (on : Str → Bool) (kind : DeclKind) (attrs : List (Option Str))
    (path name : Str) (members : List CItem) : CItem :=
  .record kind (attrToks attrs) (tagOf c name) (nameOf c name)
    ((blockOut R on (c.preBodyOf path)).items ++ members ++ (blockOut R on (c.postBodyOf path)).items)

structure BodiesFine (R : Dialect) (on : Str → Bool) (D : List Str) (c : OutConfig) (path : Str) : Prop where
  pre : ∀ s, c.preBodyOf path = some s → BodyText R on D s
  post : ∀ s, c.postBodyOf path = some s → BodyText R on D s

/-! ## Values -/

/-- A text of an expression on one line. -/
def ExprText (s : Str) : Prop := ∃ ls, Lx.eol ∉ ls ∧ ∀ d, Scans (.gap d) s ls (.any d)
/-- An operator before an expression. -/
def UnaryText (s : Str) : Prop := ∃ ls, Lx.eol ∉ ls ∧ ∀ d, Scans (.gap d) s ls (.gap d)
/-- An operator between spaces. -/
def BinaryText (s : Str) : Prop := ∃ ls, Lx.eol ∉ ls ∧ ∀ d, Scans (.any d) (c!" " ++ s ++ c!" ") ls (.gap d)

/-- No functions in the type. -/
def flatTy : Ty → Bool
  | .ptr t _ _ _ => flatTy t
  | .path _ _ g _ => g.isEmpty
  | .prim _ => true
  | .array t _ => flatTy t
  | .fnptr .. => false

/-- The tokens of a field in a struct literal. -/
def initToks (first : Bool) (key : Str) : Option (List Lx) → List Lx
  | none => []
  | some v => (if first then [] else [.punct ',']) ++ [.punct '.', .word key, .punct '='] ++ v

def initsToks (fields : List (Str × List Lx)) (first : Bool) : List Str → List Lx
  | [] => []
  | key :: keys => initToks first key (fields.lookup key) ++ initsToks fields false keys

mutual
/-- The tokens of a value. -/
def litToks (e : Env) : Lit → List Lx
  | .expr s => toks s
  | .path a n => [.word (pathText e a n)]
  | .field b n => [.punct '('] ++ litToks e b ++ [.punct ')', .punct '.', .word n]
  | .unary o v => toks o ++ litToks e v
  | .binop l o r => [.punct '('] ++ litToks e l ++ toks (c!" " ++ o ++ c!" ") ++ litToks e r ++ [.punct ')']
  | .cast t v => [.punct '('] ++ spells (writeType e.cfg.toDeclConfig t) ++ [.punct ')'] ++ litToks e v
  | .array items => [.punct '{'] ++ litsToks e items ++ [.punct '}']
  | .struct p x fs => [.punct '(', .word x, .punct ')', .punct '{'] ++
      initsToks (litFieldsToks e fs) true (e.fieldNames p) ++ [.punct '}']
def litsToks (e : Env) : List Lit → List Lx
  | [] => []
  | v :: vs => litToks e v ++ [.punct ','] ++ litsToks e vs
def litFieldsToks (e : Env) : List LitField → List (Str × List Lx)
  | [] => []
  | .mk n v _ :: fs => (n, litToks e v) :: litFieldsToks e fs
end

mutual
/-- The texts in a value are as they have to be.  Struct literals only in C. -/
def LitText (R : Dialect) (e : Env) : Lit → Prop
  | .expr s => ExprText s
  | .path a n => Word (pathText e a n)
  | .field b n => LitText R e b ∧ Word n
  | .unary o v => UnaryText o ∧ LitText R e v
  | .binop l o r => LitText R e l ∧ BinaryText o ∧ LitText R e r
  | .cast t v => (TyFine R.attrs t ∧ flatTy t = true) ∧ LitText R e v
  | .array items => LitTexts R e items
  | .struct _ x fs => (e.cfg.language = .c ∧ Word x) ∧ LitFieldTexts R e fs
def LitTexts (R : Dialect) (e : Env) : List Lit → Prop
  | [] => True
  | v :: vs => LitText R e v ∧ LitTexts R e vs
def LitFieldTexts (R : Dialect) (e : Env) : List LitField → Prop
  | [] => True
  | .mk n v _ :: fs => (Word n ∧ LitText R e v) ∧ LitFieldTexts R e fs
end

/-! ## Constants -/

/-- Tokens that can be a value after `=`: the braces match, and there is no end of a declaration. -/
inductive Braced : List Lx → Prop
  | nil : Braced []
  | tok {l : Lx} {ls : List Lx} (hl : (isPlainTok l && l != .word c!"namespace" && l != .word c!"extern") = true) (h : Braced ls) :
      Braced (l :: ls)
  | braces {a b : List Lx} (ha : Braced a) (hb : Braced b) : Braced (.punct '{' :: a ++ .punct '}' :: b)

/-- Whether a constant is a variable: only in C++. -/
def isVariable (c : OutConfig) (k : ConstItem) : Bool :=
  c.language == .cxx && (c.allowStaticConst || (c.allowConstexpr && k.value.canBeConstexpr))

/-- The words before the type of a constant. -/
def wordsOf (c : OutConfig) (s : Option StructItem) (k : ConstItem) : List Str :=
  (if c.allowConstexpr && k.value.canBeConstexpr then [c!"constexpr"] else []) ++
  (if c.allowStaticConst then [if inBody c s then c!"inline" else c!"static"] else [])

/-- The type of a constant: a pointer to something constant is not itself `const`. -/
def constTy (c : OutConfig) (k : ConstItem) : CTy := meaning c.toDeclConfig (!k.ty.isConstPtr) k.ty

/-- A type whose `const` stands before the name of the type. -/
def constBase : Ty → Bool
  | .prim _ => true
  | .path .. => true
  | .array t _ => constBase t
  | _ => false

/-- What a constant gives: a macro, or in C++ a variable.  Constants of generic structs and constants whose value is
not valid give nothing. -/
def constOut (e : Env) (on : Str → Bool) (s : Option StructItem) (k : ConstItem) : Out :=
  if (s.any fun s => !s.genericParams.isEmpty) || !k.value.isValid e then {}
  else
    match k.writtenName e.cfg s, k.value.peel e.transparent with
    | some name, some value =>
      whenOut (shown e.cfg on k.cfg)
        (if isVariable e.cfg k then
          ⟨[.constant (wordsOf e.cfg s k) name (constTy e.cfg k).forgetFnPtr (litToks e value)], [], []⟩
         else ⟨[], [(name, litToks e value)], []⟩)
    | _, _ => {}

structure VariableGood (R : Dialect) (e : Env) (s : Option StructItem) (k : ConstItem) : Prop where
  name : ∀ n, k.writtenName e.cfg s = some n → Ident R.attrs n
  ty : TyFine R.attrs k.ty
  params : NoVoidParam e.cfg.toDeclConfig k.ty
  const : k.ty.isConstPtr = true ∨ constBase k.ty = true
  value : ∀ v, k.value.peel e.transparent = some v → Braced (litToks e v)

structure ConstGood (R : Dialect) (D : List Str) (e : Env) (s : Option StructItem) (k : ConstItem) : Prop where
  name : ∀ n, k.writtenName e.cfg s = some n → Word n ∧ n ∉ D
  value : ∀ v, k.value.peel e.transparent = some v → LitText R e v
  doc : DocFine e.cfg k.doc
  variable_ : isVariable e.cfg k = true → VariableGood R e s k := by intro h; exact absurd h (by decide)

def outs (os : List Out) : Out := os.foldr (· ++ ·) {}

/-- The constants of a struct. -/
def assocOut (e : Env) (on : Str → Bool) (s : StructItem) : Out := outs (s.assocConsts.map (constOut e on (some s)))

/-! ## Items -/

def decls (xs : List CItem) : Out := ⟨xs, [], []⟩

/-- A parameter of a template.  `withDefault`: types that are not defined have defaults, so that all parameters may be left
out. -/
def tparamOf (c : OutConfig) (withDefault : Bool) (p : GParam) : TParam :=
  match p.constTy with
  | none => .type p.name (if withDefault then some (meaning c.toDeclConfig false (.prim .void)).forgetFnPtr else none)
  | some t => .value p.name (meaning c.toDeclConfig false t).forgetFnPtr (if withDefault then some [.word c!"0"] else none)

/-- A type with parameters is a template in C++. -/
def templated (c : OutConfig) (withDefault : Bool) (ps : List GParam) (d : CItem) : CItem :=
  if c.language == .cxx && !ps.isEmpty then .template (ps.map (tparamOf c withDefault)) d else d

theorem templated_c {c : OutConfig} (hl : c.language = .c) (b : Bool) (ps : List GParam) (d : CItem) : templated c b ps d = d := by
  simp [templated, hl]

theorem templated_nil {c : OutConfig} (b : Bool) (d : CItem) : templated c b [] d = d := by
  simp [templated]

/-- A parameter without a default: a type, or a value of a simple type. -/
structure ParamGood (R : Dialect) (p : GParam) : Prop where
  name : Ident R.attrs p.name
  ty : ∀ t, p.constTy = some t → ∃ q, t = .prim q ∧ q ≠ .vaList
  default : p.default = none

def structItemOf (R : Dialect) (c : OutConfig) (on : Str → Bool) (s : StructItem) : CItem :=
  recordOf R c on .struct (structAttrs c s) s.path s.exportName (membersOf c on s.fields)

/-- A struct as it is declared.  The bodies of variants are inside a template. -/
def structDecl (R : Dialect) (c : OutConfig) (on : Str → Bool) (s : StructItem) : CItem :=
  if s.isEnumVariantBody then structItemOf R c on s else templated c false s.genericParams (structItemOf R c on s)

theorem structDecl_c {R : Dialect} {c : OutConfig} {on : Str → Bool} (hl : c.language = .c) (s : StructItem) : structDecl R c on s = structItemOf R c on s := by
  simp [structDecl, templated_c hl]

/-- A struct with its constants. -/
def structOut (R : Dialect) (e : Env) (on : Str → Bool) (s : StructItem) : Out :=
  whenOut (shown e.cfg on s.cfg) (decls [structDecl R e.cfg on s] ++ assocOut e on s)

structure StructGood (R : Dialect) (on : Str → Bool) (D : List Str) (e : Env) (s : StructItem) : Prop where
  name : Ident R.attrs s.exportName
  attrs : ∀ o ∈ structAttrs e.cfg s, OptAttr R o
  fields : ∀ f ∈ s.fields, MemberFine R e.cfg f
  bodies : BodiesFine R on D e.cfg s.path
  doc : DocFine e.cfg s.doc
  consts : ∀ k ∈ s.assocConsts, ConstGood R D e (some s) k
  /-- in C++, parameters without defaults, no member functions, and no constants in the body -/
  plain : e.cfg.language = .cxx → (∀ p ∈ s.genericParams, ParamGood R p) ∧ derivedBlocks e.cfg s = [] ∧
    (e.cfg.structure_.associatedConstantsInBody && e.cfg.allowStaticConst && !s.assocConsts.isEmpty) = false := by intro h; exact absurd h (by decide)

def unionOut (R : Dialect) (c : OutConfig) (on : Str → Bool) (u : UnionItem) : Out :=
  whenOut (shown c on u.cfg)
    (decls [templated c false u.genericParams
      (recordOf R c on .union [alignText c u.alignment] u.path u.exportName (membersOf c on u.fields))])

structure UnionGood (R : Dialect) (on : Str → Bool) (D : List Str) (c : OutConfig) (u : UnionItem) : Prop where
  name : Ident R.attrs u.exportName
  attrs : OptAttr R (alignText c u.alignment)
  fields : ∀ f ∈ u.fields, MemberFine R c f
  bodies : BodiesFine R on D c u.path
  doc : DocFine c u.doc
  plain : c.language = .cxx → ∀ p ∈ u.genericParams, ParamGood R p := by intro h; exact absurd h (by decide)

/-- A type that is not defined: a tag, and a name for it where the style has names.  C++ needs no name. -/
def opaqueOut (c : OutConfig) (on : Str → Bool) (o : OpaqueItem) : Out :=
  whenOut (shown c on o.cfg)
    (decls [templated c true o.genericParams
      (if c.language == .c && hasName c.style then .alias o.exportName (.base false (some .struct) o.exportName [])
       else .forward .struct o.exportName)])

structure OpaqueGood (R : Dialect) (c : OutConfig) (o : OpaqueItem) : Prop where
  name : Ident R.attrs o.exportName
  doc : DocFine c o.doc
  plain : c.language = .cxx → ∀ p ∈ o.genericParams, ParamGood R p := by intro h; exact absurd h (by decide)

def aliasOf (c : OutConfig) (t : TypedefItem) : CItem :=
  .alias t.exportName (meaning c.toDeclConfig false t.aliased).forgetFnPtr

def typedefOut (c : OutConfig) (on : Str → Bool) (t : TypedefItem) : Out :=
  whenOut (shown c on t.cfg) (decls [templated c false t.genericParams (aliasOf c t)])

structure TypedefGood (R : Dialect) (c : OutConfig) (t : TypedefItem) : Prop where
  name : Ident R.attrs t.exportName
  ty : TyFine R.attrs t.aliased
  params : NoVoidParam c.toDeclConfig t.aliased
  doc : DocFine c t.doc
  plain : c.language = .cxx → ∀ p ∈ t.genericParams, ParamGood R p := by intro h; exact absurd h (by decide)

/-- The type of a variable: an immutable one is `const`.  A pointer to something constant is not itself `const`. -/
def staticTy (c : OutConfig) (s : StaticItem) : CTy := meaning c.toDeclConfig (!s.mutable && !s.ty.isConstPtr) s.ty

def staticOut (c : OutConfig) (on : Str → Bool) (s : StaticItem) : Out :=
  whenOut (shown c on s.cfg) (decls [.object true [] s.exportName (staticTy c s).forgetFnPtr []])

structure StaticGood (R : Dialect) (c : OutConfig) (s : StaticItem) : Prop where
  name : Ident R.attrs s.exportName
  ty : TyFine R.attrs s.ty
  params : NoVoidParam c.toDeclConfig s.ty
  doc : DocFine c s.doc
  /-- no immutable variable of a pointer type other than a pointer to something constant -/
  const : s.mutable = true ∨ s.ty.isConstPtr = true ∨ constBase s.ty = true

/-! ## Functions -/

/-- The attributes before a function. -/
def funcAttrs (c : OutConfig) (f : FuncItem) : List (Option Str) :=
  if f.externDecl then []
  else [f.annotations.atomOr c!"prefix" c.function.pre, mustUseText f.annotations c.function.mustUse,
    f.annotations.deprecatedNote c .function]

def swiftText (c : OutConfig) (f : FuncItem) : Option Str :=
  match c.function.swiftNameMacro, f.swiftName c with
  | some m, some n => some (m ++ c!"(" ++ n ++ c!")")
  | _, _ => none

/-- The attributes after a function. -/
def funcPost (c : OutConfig) (f : FuncItem) : List (Option Str) :=
  [if f.externDecl then none else f.annotations.atomOr c!"postfix" c.function.post, swiftText c f]

def funcTy (c : OutConfig) (f : FuncItem) : CTy := meaningFn c.toDeclConfig ⟨f.path, f.ret, f.args, f.neverReturn⟩

def funcOut (c : OutConfig) (on : Str → Bool) (f : FuncItem) : Out :=
  whenOut (shown c on f.cfg)
    (decls [.object f.externDecl (attrToks (funcAttrs c f) ++ attrToks (funcPost c f)) f.path (funcTy c f).forgetFnPtr []])

structure FuncGood (R : Dialect) (c : OutConfig) (f : FuncItem) : Prop where
  name : Ident R.attrs f.path
  ret : TyFine R.attrs f.ret
  args : ∀ a ∈ f.args, FnArgFine R.attrs a
  lengths : ArrayLengthsOnPtrs ⟨f.path, f.ret, f.args, f.neverReturn⟩
  params : FnNoVoidParam c.toDeclConfig ⟨f.path, f.ret, f.args, f.neverReturn⟩
  attrs : ∀ o ∈ funcAttrs c f ++ funcPost c f, OptAttr R o
  doc : DocFine c f.doc

/-! ## Enums -/

/-- What headers ask for: the version of C whose enums have types, and C++. -/
def c23 : Str := c!"__STDC_VERSION__ >= 202311L"
def cplusplus : Str := c!"__cplusplus"

/-- Whether the type of an enum is compiled. -/
def typedEnum (c : OutConfig) (on : Str → Bool) : Bool := (c.cppCompatibleC && on cplusplus) || on c23

def variantAttrs (c : OutConfig) (v : EnumVariant) : List (Option Str) := [v.body.annotations.deprecatedNote c .enumVariant]

def enumeratorOf (e : Env) (v : EnumVariant) : Enumerator :=
  ⟨v.exportName, attrToks (variantAttrs e.cfg v), v.disc.map (litToks e)⟩

/-- The enumerators whose condition holds. -/
def enumeratorsOf (e : Env) (on : Str → Bool) (vs : List EnumVariant) : List Enumerator :=
  (vs.filter fun v => shown e.cfg on v.cfg).map (enumeratorOf e)

/-- The enum of the tags in C++, with its type. -/
def cxxTagEnum (e : Env) (on : Str → Bool) (x : EnumItem) : CItem :=
  let attrs := attrToks [mustUseText x.annotations e.cfg.enumeration.mustUse, x.annotations.deprecatedNote e.cfg .enum]
  let ty := (x.size e.cfg).map fun p => CTy.base false none p []
  if e.cfg.enumClass x.annotations then .enumClass attrs x.tagName ty (enumeratorsOf e on x.variants)
  else .enumeration attrs (some x.tagName) ty none (enumeratorsOf e on x.variants)

/-- The enum of the tags.  With a size, the name of the type is an alias of the enum in C23, and of an integer type
before. -/
def tagEnumOut (e : Env) (on : Str → Bool) (x : EnumItem) : Out :=
  if e.cfg.language = .cxx then decls [cxxTagEnum e on x] else
  let attrs := attrToks [x.annotations.deprecatedNote e.cfg .enum]
  let values := enumeratorsOf e on x.variants
  match x.size e.cfg with
  | none => decls [.enumeration attrs (tagOf e.cfg x.tagName) none (nameOf e.cfg x.tagName) values]
  | some p =>
    decls [.enumeration attrs (some x.tagName) (if typedEnum e.cfg on then some (.base false none p []) else none) none values] ++
    whenOut (!(e.cfg.cppCompatibleC && on cplusplus))
      (decls [.alias x.tagName (if on c23 then .base false (some .enum) x.tagName [] else .base false none p [])])

/-- The struct of a variant with data. -/
def bodyOut (R : Dialect) (e : Env) (on : Str → Bool) (v : EnumVariant) : Out :=
  match v.body with
  | .body _ b false _ => whenOut (shown e.cfg on v.cfg) (structOut R e on b)
  | _ => {}

/-- The member for the data of a variant. -/
def payloadOf (c : OutConfig) (on : Str → Bool) (v : EnumVariant) : List CItem :=
  match v.body with
  | .empty _ => []
  | .body name b inl _ =>
    if shown c on v.cfg then
      [if inl then .record .struct [] none none (membersOf c on b.fields)
       else .object false [] name (.base false (if hasName c.style then none else some .struct) b.exportName []) []]
    else []

def tagMember (c : OutConfig) (x : EnumItem) : CItem :=
  .object false [] c!"tag"
    (.base false (if c.language == .c && (x.size c).isNone && !hasName c.style then some .enum else none) x.tagName []) []

def dataAttrs (c : OutConfig) (x : EnumItem) : List (Option Str) :=
  [mustUseText x.annotations c.structure_.mustUse, x.annotations.deprecatedNote c .struct]

/-- Whether the data is a union of structs that start with the tag. -/
def tagInside (x : EnumItem) : Bool :=
  match x.repr.style with
  | .c => false
  | _ => true

/-- The tag.  It has a struct of its own in a union of C++. -/
def tagPart (c : OutConfig) (x : EnumItem) : CItem :=
  if c.language = .cxx ∧ tagInside x = true then .record .struct [] none none [tagMember c x] else tagMember c x

/-- The members of the data: the tag, and a union of the data of the variants; every variant has the tag as its first
field if the data is a union itself. -/
def dataMembers (c : OutConfig) (on : Str → Bool) (x : EnumItem) : List CItem :=
  tagPart c x ::
    (if tagInside x then x.variants.flatMap (payloadOf c on)
     else [.record .union [] none none (x.variants.flatMap (payloadOf c on))])

def dataOf (R : Dialect) (c : OutConfig) (on : Str → Bool) (x : EnumItem) : CItem :=
  recordOf R c on (if tagInside x then .union else .struct) (dataAttrs c x) x.path x.exportName (dataMembers c on x)

/-- In C++, the definitions of the tags and of the data of the variants are in the definition. -/
def cxxDataOf (R : Dialect) (e : Env) (on : Str → Bool) (x : EnumItem) : CItem :=
  recordOf R e.cfg on (if tagInside x then .union else .struct) (dataAttrs e.cfg x) x.path x.exportName
    (cxxTagEnum e on x :: ((outs (x.variants.map (bodyOut R e on))).items ++ dataMembers e.cfg on x))

def enumOut (R : Dialect) (e : Env) (on : Str → Bool) (x : EnumItem) : Out :=
  whenOut (shown e.cfg on x.cfg)
    (if e.cfg.language = .cxx ∧ x.tag.isSome = true then decls [cxxDataOf R e on x] else
     tagEnumOut e on x ++
     if x.tag.isSome then outs (x.variants.map (bodyOut R e on)) ++ decls [dataOf R e.cfg on x] else {})

structure VariantGood (R : Dialect) (e : Env) (v : EnumVariant) : Prop where
  name : Word v.exportName
  attrs : ∀ o ∈ variantAttrs e.cfg v, OptAttr R o
  /-- the reader cuts at commas -/
  commas : Lx.punct ',' ∉ attrToks (variantAttrs e.cfg v)
  value : ∀ d, v.disc = some d → LitText R e d ∧ (litToks e d).all isPlainTok = true ∧ Lx.punct ',' ∉ litToks e d
  doc : DocFine e.cfg v.doc
  /-- no word that starts a block of C++ -/
  block : R.cxx = true → v.exportName ≠ c!"namespace" ∧ v.exportName ≠ c!"extern" := by intro h; exact absurd h (by decide)

/-- The body has no constants of its own. -/
def VBody.bare : VBody → Bool
  | .empty _ => true
  | .body _ b _ _ => b.assocConsts.isEmpty

/-- The data of a variant. -/
def PayloadGood (R : Dialect) (on : Str → Bool) (D : List Str) (e : Env) (v : EnumVariant) : Prop :=
  match v.body with
  | .empty _ => True
  | .body name b inl _ =>
    if inl then ∀ f ∈ b.fields, MemberFine R e.cfg f else Ident R.attrs name ∧ StructGood R on D e b

structure EnumGood (R : Dialect) (on : Str → Bool) (D : List Str) (e : Env) (x : EnumItem) : Prop where
  name : Ident R.attrs x.tagName
  attrs : OptAttr R (x.annotations.deprecatedNote e.cfg .enum)
  variants : ∀ v ∈ x.variants, VariantGood R e v
  doc : DocFine e.cfg x.doc
  size : ∀ p, x.size e.cfg = some p → Ident R.attrs p ∧ c23 ∈ D ∧ cplusplus ∈ D
  data : x.tag.isSome = true → Ident R.attrs x.exportName ∧ (∀ o ∈ dataAttrs e.cfg x, OptAttr R o) ∧
    BodiesFine R on D e.cfg x.path ∧ (∀ v ∈ x.variants, PayloadGood R on D e v) ∧ Ident R.attrs c!"tag"
  /-- in C++, no template, no functions for streams, and no member functions -/
  plain : e.cfg.language = .cxx → x.genericParams = [] ∧ enumStreamOps e.cfg x = [] ∧
    OptAttr R (mustUseText x.annotations e.cfg.enumeration.mustUse) ∧
    (x.tag.isSome = true → enumDataFunctions e.cfg x = [] ∧ ∀ v ∈ x.variants, VBody.bare v.body = true) := by intro h; exact absurd h (by decide)

end Cbindgen.HeadSpec
