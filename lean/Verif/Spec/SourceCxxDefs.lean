import Verif.Spec.SourceDefs
import Verif.Spec.SourceCxx

/-!
# The definitions of source files in C++ (C76, C77, C79)

As for C, but a definition with parameters is a template.
-/

namespace Cbindgen.SrcSpec
open CSpec CfgSpec LexSpec HeadSpec

/-! ## Parameters -/

/-- `CxxGenerics E gs ps`: the parameters `gs` of a definition are those of the template with the parameters `ps`.
Lifetimes are none. -/
inductive CxxGenerics (E : TyEnv) : List SynGenericParam → List TParam → Prop
  | nil : CxxGenerics E [] []
  | lifetime {gs ps} : CxxGenerics E gs ps → CxxGenerics E (.lifetime :: gs) ps
  | type {i gs ps} : CxxGenerics E gs ps → CxxGenerics E (.type i none :: gs) (.type (unraw i) none :: ps)
  | value {i n as u gs ps} : (unraw n, u) ∈ intTypes E.usizeIsSizeT ++ otherTypes → NoArgs as → CxxGenerics E gs ps →
      CxxGenerics E (.const i (.path n as) none :: gs) (.value (unraw i) (cname false u) none :: ps)

/-- The names of parameters that are types or values. -/
def genericNames : List SynGenericParam → List Str
  | [] => []
  | .lifetime :: gs => genericNames gs
  | .type i _ :: gs => unraw i :: genericNames gs
  | .const i _ _ :: gs => unraw i :: genericNames gs

/-- A declaration with the parameters of a template, if there are any. -/
def withParams : List TParam → CItem → CItem
  | [], d => d
  | p :: ps, d => .template (p :: ps) d

/-! ## Members -/

/-- The fields `fs` are the members `ms` in C++; see `Members`. -/
inductive CxxMembers (E : TyEnv) (name : Str → Str) (rust : Opt → Bool) : Option Nat → List SynField → List CItem → Prop
  | nil {k} : CxxMembers E name rust k [] []
  | skip {k f fs ms} : Nothing f.ty → CxxMembers E name rust k fs ms → CxxMembers E name rust k (f :: fs) ms
  | shown {k k' f fs ms n u bs} : FieldName k f.ident n k' → CxxType E false f.ty u → FieldBits f.attrs bs →
      (∀ x ∈ conds f.attrs, holds rust x = true) → CxxMembers E name rust k' fs ms →
      CxxMembers E name rust k (f :: fs) (.object false [] (name n) u.forgetFnPtr bs :: ms)
  | hidden {k k' f fs ms n u bs} : FieldName k f.ident n k' → CxxType E false f.ty u → FieldBits f.attrs bs →
      (∃ x ∈ conds f.attrs, holds rust x = false) → CxxMembers E name rust k' fs ms → CxxMembers E name rust k (f :: fs) ms

/-- The type of the first field that C++ sees. -/
inductive CxxFirstType (E : TyEnv) : List SynField → CTy → Prop
  | skip {f fs u} : Nothing f.ty → CxxFirstType E fs u → CxxFirstType E (f :: fs) u
  | here {f fs u} : CxxType E false f.ty u → CxxFirstType E (f :: fs) u

/-! ## Variants -/

/-- The fields of a variant as members, like `CxxMembers`; tuples are numbered by position, also single ones. -/
inductive CxxPayload (E : TyEnv) (name : Str → Str) (rust : Opt → Bool) : Nat → List SynField → List CItem → Prop
  | nil {k} : CxxPayload E name rust k [] []
  | skip {k f fs ms} : Nothing f.ty → CxxPayload E name rust (k + 1) fs ms → CxxPayload E name rust k (f :: fs) ms
  | shown {k f fs ms n u bs} : PayloadName none k f.ident n → CxxType E false f.ty u → FieldBits f.attrs bs →
      (∀ x ∈ conds f.attrs, holds rust x = true) → CxxPayload E name rust (k + 1) fs ms →
      CxxPayload E name rust k (f :: fs) (.object false [] (name n) u.forgetFnPtr bs :: ms)
  | hidden {k f fs ms n u bs} : PayloadName none k f.ident n → CxxType E false f.ty u → FieldBits f.attrs bs →
      (∃ x ∈ conds f.attrs, holds rust x = false) → CxxPayload E name rust (k + 1) fs ms →
      CxxPayload E name rust k (f :: fs) ms

/-- `CxxVariantIs V rust v arm body`: `arm` is what stands for the data of the variant `v` in the union of all data, and
`body` is the struct that this refers to, with its annotations and members. -/
inductive CxxVariantIs (V : EnumEnv) (rust : Opt → Bool) (v : SynVariant) : List CItem → Option (Annotations × List CItem) → Prop
  | unit {a} : v.fields = .unit → Annotations.load v.attrs = .ok a → CxxVariantIs V rust v [] none
  | body {fs a rule ps} : v.fields = .named fs ∨ v.fields = .unnamed fs → Annotations.load v.attrs = .ok a →
      a.ruleOr V.fieldRule = some rule → a.list c!"field-names" = none →
      CxxPayload (V.types rule) (V.member rule) rust 0 fs ps →
      CxxVariantIs V rust v
        [.object false [] (V.armMember (V.arm (unraw v.ident))) (.base false V.keyword (V.body v.ident) []) []]
        (some (a, V.tagMembers rule c!"tag" ++ ps))

/-- `CxxArms V rust decl vs bs ms`: `ms` are the members of the union of all data, and `bs` the structs that they refer
to, as `decl` declares them. -/
inductive CxxArms (V : EnumEnv) (rust : Opt → Bool) (decl : Str → Annotations → List CItem → CItem) :
    List SynVariant → List CItem → List CItem → Prop
  | nil : CxxArms V rust decl [] [] []
  | shown {v vs arm body bs ms} : CxxVariantIs V rust v arm body → (∀ x ∈ conds v.attrs, holds rust x = true) →
      CxxArms V rust decl vs bs ms →
      CxxArms V rust decl (v :: vs) ((body.map fun x => decl (V.body v.ident) x.1 x.2).toList ++ bs) (arm ++ ms)
  | hidden {v vs arm body bs ms} : CxxVariantIs V rust v arm body → (∃ x ∈ conds v.attrs, holds rust x = false) →
      CxxArms V rust decl vs bs ms → CxxArms V rust decl (v :: vs) bs ms

/-! ## Definitions that C++ can have -/

/-- A definition with a counterpart in C++: parameters without defaults, a fixed layout, and all types have C++ types.
Enums have no parameters. -/
inductive CxxDeclarable (lc : LoadConfig) : Taken → Prop
  | struct {t s style al a E ps name rust ms} : structOf t = some s → CxxGenerics E s.generics ps → LayoutIs lc s.attrs style al →
      style = .c ∨ style = .transparent → Annotations.load s.attrs = .ok a → E.owner = some (unraw s.ident) →
      CxxMembers E name rust (countOf s.fields) (listOf s.fields) ms → CxxDeclarable lc t
  | union {s al a E ps name rust ms} : CxxGenerics E s.generics ps → LayoutIs lc s.attrs .c al →
      Annotations.load s.attrs = .ok a → E.owner = some (unraw s.ident) →
      CxxMembers E name rust none s.fields ms → CxxDeclarable lc (.union s)
  | alias {s a E ps u} : CxxGenerics E s.generics ps → Annotations.load s.attrs = .ok a → E.owner = none →
      CxxType E false s.ty u → CxxDeclarable lc (.alias s)
  | enum {s r a rule V rust} : OnlyLifetimes s.generics → EnumRepr s.attrs r → Annotations.load s.attrs = .ok a →
      lc.language = .cxx → ArmRule lc a rule → (∀ r, (V.types r).owner = some (unraw s.ident)) →
      (∀ n, V.arm n = rule.apply lc.caseFns n .structMember) →
      (∀ v ∈ s.variants, (∀ e, v.disc = some e → ∃ K lim x, RustValue K lim e x) ∧ ∃ arm body, CxxVariantIs V rust v arm body) →
      CxxDeclarable lc (.enum s)

/-! ## What a definition needs -/

/-- `CxxMentions o t n`: the type `t` is built from the type named `n`; `o` is what `Self` stands for. -/
inductive CxxMentions (o : Option Str) : SynTy → Str → Prop
  | named {n as} : unraw n ∉ builtin → NoArgs as → CxxMentions o (.path n as) (unraw n)
  | self {n as p} : unraw n = c!"Self" → NoArgs as → o = some p → CxxMentions o (.path n as) p
  | template {n as} : unraw n ∉ builtin → unraw n ∉ cxxWrappers → CxxMentions o (.path n (.angle as)) (unraw n)
  | argument {n t as x} : unraw n ∉ builtin → .type t ∈ as → CxxMentions o t x → CxxMentions o (.path n (.angle as)) x
  | raw {m t x} : CxxMentions o t x → CxxMentions o (.ptr m t) x
  | reference {m t x} : CxxMentions o t x → CxxMentions o (.reference m t) x
  | array {t e x} : CxxMentions o t x → CxxMentions o (.array t e) x
  | param {ins v out a t x} : .mk a t ∈ ins → CxxMentions o t x → CxxMentions o (.fnptr ins v out) x
  | output {ins v t x} : CxxMentions o t x → CxxMentions o (.fnptr ins v (.type t)) x

/-- The signature of a function mentions the type named `x`. -/
inductive CxxSigMentions (o : Option Str) (s : SynSig) (x : Str) : Prop
  | value : .receiver .value ∈ s.inputs → o = some x → CxxSigMentions o s x
  | reference {m} : .receiver (.reference m) ∈ s.inputs → o = some x → CxxSigMentions o s x
  | wild {t} : .wild t ∈ s.inputs → CxxMentions o t x → CxxSigMentions o s x
  | ident {n t} : .ident n t ∈ s.inputs → CxxMentions o t x → CxxSigMentions o s x
  | output {t} : s.output = .type t → CxxMentions o t x → CxxSigMentions o s x

/-- A definition mentions the type named `x`, which is not one of its parameters. -/
inductive CxxDefMentions : Taken → Str → Prop
  | struct {s f x} : f ∈ listOf s.fields → CxxMentions (some (unraw s.ident)) f.ty x → x ∉ genericNames s.generics →
      CxxDefMentions (.struct s) x
  | union {s f x} : f ∈ s.fields → CxxMentions (some (unraw s.ident)) f.ty x → x ∉ genericNames s.generics →
      CxxDefMentions (.union s) x
  | alias {s x} : CxxMentions none s.ty x → x ∉ genericNames s.generics → CxxDefMentions (.alias s) x
  | enum {s v f x} : v ∈ s.variants → f ∈ listOf v.fields → CxxMentions (some (unraw s.ident)) f.ty x → CxxDefMentions (.enum s) x

/-- `t` is given under `cs`, C++ can have it, and nothing else takes its place; see `Sole`. -/
structure CxxSole (pc : ParseConfig) (lc : LoadConfig) (i : Inputs) (c : LibConfig) (t : Taken) (cs : List Cfg) (n : Str) : Prop where
  given : Given pc i t cs
  declarable : CxxDeclarable lc t
  name : typeName t = some n
  others : ∀ t' cs', Given pc i t' cs' → typeName t' = some n →
    t' = t ∧ cs' = cs ∨ (CxxDeclarable lc t' ∧ kindOf t' = kindOf t ∧ CanFail cs' ∧ CanFail cs)
  std : n ∉ stdNames
  kept : n ∉ c.export_.exclude
  wanted : ∀ k, kindOf t = some k → c.export_.shouldGenerate k = true

/-- The type named `n` is needed; see `Needed`. -/
inductive CxxNeeded (pc : ParseConfig) (lc : LoadConfig) (i : Inputs) (c : LibConfig) : Str → Prop
  | asked {n} : n ∈ c.export_.inc → CxxNeeded pc lc i c n
  | function {path owner ext sf cs a E T n} : Given pc i (.fn path owner ext sf) cs → path ∉ c.export_.exclude →
      Annotations.load sf.attrs = .ok a → a.list c!"ptrs-as-arrays" = none → E.owner = owner → CxxFn E sf.sig T →
      CxxSigMentions owner sf.sig n → CxxNeeded pc lc i c n
  | variable_ {path s cs a E u n} : SoleStatic pc i path s cs → path ∉ c.export_.exclude → Annotations.load s.attrs = .ok a →
      E.owner = none → CxxType E false s.ty u → CxxMentions none s.ty n → CxxNeeded pc lc i c n
  | definition {t cs m n} : CxxSole pc lc i c t cs m → CxxNeeded pc lc i c m → CxxDefMentions t n → CxxNeeded pc lc i c n

/-! ## Constants -/

/-- The numbers of the integer types: from the first on, and less than the second.  For `usize` and `isize`, those that they
have on all platforms here. -/
def intRanges : List (Str × Int × Int) :=
  [ (c!"u8", 0, 2 ^ 8), (c!"u16", 0, 2 ^ 16), (c!"u32", 0, 2 ^ 32), (c!"u64", 0, 2 ^ 64), (c!"usize", 0, 2 ^ 32),
    (c!"i8", -2 ^ 7, 2 ^ 7), (c!"i16", -2 ^ 15, 2 ^ 15), (c!"i32", -2 ^ 31, 2 ^ 31), (c!"i64", -2 ^ 63, 2 ^ 63),
    (c!"isize", -2 ^ 31, 2 ^ 31) ]

/-- `ScalarIs t e lim v`: the number `v` is one of the integer type `t`, or `t` is `bool` and `e` is `false` or `true`.  All
numbers of the type are less than `lim`. -/
inductive ScalarIs : SynTy → SynExpr → Nat → Int → Prop
  | int {n e lim v lo hi} : limitOf (.path n .none) = some lim → (n, lo, hi) ∈ intRanges → lo ≤ v → v < hi →
      ScalarIs (.path n .none) e lim v
  | bool {b v} : ScalarIs (.path c!"bool" .none) (.lit (.bool b)) 2 v

/-- As `ConstVal`, but the value of a constant is a number of its type. -/
def CxxConstVal (pc : ParseConfig) (i : Inputs) (out : List Str) (rust : Opt → Bool) (lim : Nat) (n : Str) (v : Int) : Prop :=
  ∀ P : Nat → Str → Int → Prop,
    (∀ k cs n lim v, SoleConst pc i k cs n → (∀ x ∈ cs, holds rust x = true) → n ∉ out → ScalarIs k.ty k.expr lim v →
      (∃ a, Annotations.load k.attrs = .ok a) → RustValue P lim k.expr v → P lim n v) → P lim n v

/-- The words before a constant of a namespace: C++17 10.1.1 and 10.1.5. -/
def constantWords : List Str := [c!"constexpr", c!"static"]

/-- `Standing mac obj m`: the name `m.1` stands for the text `m.2`.  It is a macro, or a constant object: one of an
integer type has the value of its initialiser, converted to the type (C++17 11.6), and `false` and `true` are of type `bool`.
`obj ws n t ts` says that there is an object `n` of the type named `t`, `const`, with the words `ws` and the initialiser `ts`. -/
inductive Standing (mac : Str × List Lx → Prop) (obj : List Str → Str → Str → List Lx → Prop) : Str × List Lx → Prop
  | macro {m} : mac m → Standing mac obj m
  | object {ws n t ts} : obj ws n t ts → (∀ w ∈ ws, w ∈ constantWords) →
      Standing mac obj (n, [.punct '(', .word t, .punct ')'] ++ ts)
  | bool {ws n w} : obj ws n c!"bool" [.word w] → (∀ w ∈ ws, w ∈ constantWords) → w = c!"false" ∨ w = c!"true" →
      Standing mac obj (n, [.word w])

end Cbindgen.SrcSpec
