import Verif.Spec.Source
import Verif.Spec.SourceTypes
import Verif.Spec.Header
import Verif.Model.LibConfig
import Verif.Model.Names
import Verif.Spec.IntLit

/-!
# The structs, unions, enums and aliases of source files (C64, C66)

Which members C sees in a definition of a Rust source, and which types a definition needs.
-/

namespace Cbindgen.SrcSpec
open CSpec CfgSpec LexSpec HeadSpec

/-! ## Members -/

/-- The name of a field, before renaming: fields of tuples are numbered, and only those that C sees are counted. -/
inductive FieldName : Option Nat → Option Str → Str → Option Nat → Prop
  | named {i} : FieldName none (some i) (unraw i) none
  | tuple {k i} : FieldName (some k) i (Nat.toDigits 10 k) (some (k + 1))

/-- The name of a member of a struct in C, by the rule for names: a name may not start with a digit or be a keyword. -/
def memberName (f : CaseFns) (rule : RenameRule) (n : Str) : Str :=
  escape (match rule.notNone with
    | some r => r.apply f n .structMember
    | none => underscoreDigit n)

/-- The name of a member of a union in C. -/
def armName (f : CaseFns) (rule : RenameRule) (n : Str) : Str :=
  match rule.notNone with
  | some r => r.apply f n .structMember
  | none => n

/-- The width of a bit-field. -/
inductive FieldBits (as : List SAttr) : List Lx → Prop
  | none {a} : Annotations.load as = .ok a → a.atom c!"bitfield" = none → FieldBits as []
  | some {a w} : Annotations.load as = .ok a → a.atom c!"bitfield" = some (some w) → FieldBits as [.word w]

/-- `Members E name rust k fs ms`: the fields `fs` are the members `ms` in C, where `rust` says which options are set and
`name` gives the names in C.  `k` counts the fields of a tuple. -/
inductive Members (E : TyEnv) (name : Str → Str) (rust : Opt → Bool) : Option Nat → List SynField → List CItem → Prop
  | nil {k} : Members E name rust k [] []
  | skip {k f fs ms} : Nothing f.ty → Members E name rust k fs ms → Members E name rust k (f :: fs) ms
  | shown {k k' f fs ms n u bs} : FieldName k f.ident n k' → CType E false f.ty u → FieldBits f.attrs bs →
      (∀ x ∈ conds f.attrs, holds rust x = true) → Members E name rust k' fs ms →
      Members E name rust k (f :: fs) (.object false [] (name n) u.forgetFnPtr bs :: ms)
  | hidden {k k' f fs ms n u bs} : FieldName k f.ident n k' → CType E false f.ty u → FieldBits f.attrs bs →
      (∃ x ∈ conds f.attrs, holds rust x = false) → Members E name rust k' fs ms → Members E name rust k (f :: fs) ms

/-- The fields of a struct, with the count for tuples. -/
def countOf : SynFields → Option Nat
  | .unit => some 0
  | .named _ => none
  | .unnamed _ => some 0
def listOf : SynFields → List SynField
  | .unit => []
  | .named fs => fs
  | .unnamed fs => fs

/-- The type of the first field that C sees. -/
inductive FirstType (E : TyEnv) : List SynField → CTy → Prop
  | skip {f fs u} : Nothing f.ty → FirstType E fs u → FirstType E (f :: fs) u
  | here {f fs u} : CType E false f.ty u → FirstType E (f :: fs) u

/-! ## Enums -/

/-- The integer types of Rust with a bound of their numbers.  `usize` and `isize` have at least 32 bits. -/
def intLimits : List (Str × Nat) :=
  [ (c!"u8", 2 ^ 8), (c!"u16", 2 ^ 16), (c!"u32", 2 ^ 32), (c!"u64", 2 ^ 64), (c!"usize", 2 ^ 32),
    (c!"i8", 2 ^ 7), (c!"i16", 2 ^ 15), (c!"i32", 2 ^ 31), (c!"i64", 2 ^ 63), (c!"isize", 2 ^ 31) ]

def limitOf : SynTy → Option Nat
  | .path n .none => intLimits.lookup n
  | _ => none

/-- Operators of Rust on numbers that are not negative, where the result is not negative. -/
def rustOp (x y : Nat) : BinOp → Option Nat
  | .add => some (x + y)
  | .sub => if y ≤ x then some (x - y) else none
  | .mul => some (x * y)
  | .div => if y ≠ 0 then some (x / y) else none
  | .rem => if y ≠ 0 then some (x % y) else none
  | .bitAnd => some (x &&& y)
  | .bitOr => some (x ||| y)
  | .bitXor => some (x ^^^ y)
  | _ => none

def rustShift (x k : Nat) : BinOp → Option Nat
  | .shl => if k < 31 then some (x * 2 ^ k) else none
  | .shr => if k < 31 then some (x / 2 ^ k) else none
  | _ => none

/-- A literal or the name of a constant, of any integer type.  `K lim n v`: the constant `n` has the value `v`, and a type
whose numbers are less than `lim`. -/
inductive Atom (K : Nat → Str → Int → Prop) : SynExpr → Nat → Prop
  | int {n s} : n < 2 ^ 31 → Atom K (.lit (.int n s)) n
  | name {lim n} {x : Nat} : K lim n x → x < 2 ^ 31 → Atom K (.path [] n .none) x
  | paren {e n} : Atom K e n → Atom K (.paren e) n

/-- Small numbers in Rust, in a type whose numbers are less than `lim`: no intermediate result is cut off, negative, or
`2 ^ 31` or more. -/
inductive SmallInt (K : Nat → Str → Int → Prop) (lim : Nat) : SynExpr → Nat → Prop
  | int {n s} : n < 2 ^ 31 → SmallInt K lim (.lit (.int n s)) n
  | name {n} {x : Nat} : K lim n x → x < 2 ^ 31 → SmallInt K lim (.path [] n .none) x
  | paren {e n} : SmallInt K lim e n → SmallInt K lim (.paren e) n
  | cast {e t x} : Atom K e x → limitOf t = some lim → x < lim → SmallInt K lim (.cast e t) x
  | op {a o b x y z} : SmallInt K lim a x → SmallInt K lim b y → rustOp x y o = some z → z < lim → z < 2 ^ 31 →
      SmallInt K lim (.binary a o b) z
  | shift {a o b x k z} : SmallInt K lim a x → Atom K b k → rustShift x k o = some z → z < lim → z < 2 ^ 31 →
      SmallInt K lim (.binary a o b) z

/-- The limits of the integer types of Rust. -/
def rustLimits : List ((Str × Str) × Int) :=
  [ ((c!"u8", c!"MAX"), 255), ((c!"u16", c!"MAX"), 65535), ((c!"u32", c!"MAX"), 4294967295),
    ((c!"u64", c!"MAX"), 18446744073709551615),
    ((c!"i8", c!"MAX"), 127), ((c!"i16", c!"MAX"), 32767), ((c!"i32", c!"MAX"), 2147483647),
    ((c!"i64", c!"MAX"), 9223372036854775807),
    ((c!"i8", c!"MIN"), -128), ((c!"i16", c!"MIN"), -32768), ((c!"i32", c!"MIN"), -2147483648),
    ((c!"i64", c!"MIN"), -9223372036854775808) ]

/-- The bounds of the types with a sign. -/
def signedLimits : List Nat := [2 ^ 7, 2 ^ 15, 2 ^ 31, 2 ^ 63]

/-- The value of an expression in Rust: a literal, a negated literal, the complement of a literal in a type with a sign, a constant, a limit of a type, or small numbers with
operators.  `true` counts as 1. -/
inductive RustValue (K : Nat → Str → Int → Prop) (lim : Nat) : SynExpr → Int → Prop
  | int {n s} : n < 2 ^ 64 → (s = c!"i64" → n < 2 ^ 63) → RustValue K lim (.lit (.int n s)) n
  | byte {n} : n < 256 → RustValue K lim (.lit (.byte n)) n
  | bool {b} : RustValue K lim (.lit (.bool b)) (if b then 1 else 0)
  | neg {n s} : n < 2 ^ 63 → s ∉ [c!"u64", c!"u32"] → RustValue K lim (.unary .neg (.lit (.int n s))) (-n)
  | not {n s} : lim ∈ signedLimits → n < lim → s ∉ [c!"u64", c!"u32"] → RustValue K lim (.unary .not (.lit (.int n s))) (-n - 1)
  | name {lim' n v} : K lim' n v → RustValue K lim (.path [] n .none) v
  | limit {t n v} : ((t, n), v) ∈ rustLimits → RustValue K lim (.path [t] n .none) v
  | paren {e v} : RustValue K lim e v → RustValue K lim (.paren e) v
  | small {e n} : SmallInt K lim e n → RustValue K lim e n

/-- No constants. -/
def noConsts : Nat → Str → Int → Prop := fun _ _ _ => False

/-- Operators of C on numbers that are not negative. -/
def cOp (x y : Nat) (o : Str) : Option Nat :=
  if o = c!"+" then some (x + y)
  else if o = c!"-" then (if y ≤ x then some (x - y) else none)
  else if o = c!"*" then some (x * y)
  else if o = c!"/" then (if y ≠ 0 then some (x / y) else none)
  else if o = c!"%" then (if y ≠ 0 then some (x % y) else none)
  else if o = c!"&" then some (x &&& y)
  else if o = c!"|" then some (x ||| y)
  else if o = c!"^" then some (x ^^^ y)
  else none

def cShift (x k : Nat) (o : Str) : Option Nat :=
  if o = c!"<<" then some (x * 2 ^ k) else if o = c!">>" then some (x / 2 ^ k) else none

/-- Integer promotion, C11 6.3.1.1. -/
def promote (p : PrimSpec.Platform) (t : Nat × Bool) : Nat × Bool := if t.1 < p.int then (p.int, true) else t

/-- The type of both operands after promotion, C11 6.3.1.8. -/
def common (t u : Nat × Bool) : Nat × Bool :=
  if t.1 = u.1 then (t.1, t.2 && u.2) else if t.1 < u.1 then u else t

/-- A type of C has the value. -/
def HasValue (t : Nat × Bool) (v : Int) : Prop :=
  if t.2 then -2 ^ (t.1 - 1) ≤ v ∧ v < 2 ^ (t.1 - 1) else 0 ≤ v ∧ v < 2 ^ t.1

/-- The limits of integer types in `<stdint.h>`, C11 7.20.2.1. -/
def cLimits : List (Str × (Nat × Bool) × Int) :=
  [ (c!"UINT8_MAX", (8, false), 255), (c!"UINT16_MAX", (16, false), 65535), (c!"UINT32_MAX", (32, false), 4294967295),
    (c!"UINT64_MAX", (64, false), 18446744073709551615),
    (c!"INT8_MAX", (8, true), 127), (c!"INT16_MAX", (16, true), 32767), (c!"INT32_MAX", (32, true), 2147483647),
    (c!"INT64_MAX", (64, true), 9223372036854775807),
    (c!"INT8_MIN", (8, true), -128), (c!"INT16_MIN", (16, true), -32768), (c!"INT32_MIN", (32, true), -2147483648),
    (c!"INT64_MIN", (64, true), -9223372036854775808) ]

/-- The value of a constant expression in C with its type after promotion, C11 6.5, where `M` are the macros: decimal
constants, negation, complement, casts that keep the value, and operators whose result is in the type.  The text of a macro is to be
one operand, as it is for all macros here: then it can be replaced by its value. -/
inductive CValue (p : PrimSpec.Platform) (M : List (Str × List Lx)) : List Lx → Nat × Bool → Int → Prop
  | const {w n s ty} : IntSpec.IsConstant w n s → IntSpec.constType p n s = some ty → CValue p M [.word w] ty n
  | yes : CValue p M [.word c!"true"] (p.int, true) 1
  | no : CValue p M [.word c!"false"] (p.int, true) 0
  | limit {w ty v} : (w, ty, v) ∈ cLimits → CValue p M [.word w] (promote p ty) v
  | macro {w ts ty v} : (w, ts) ∈ M → CValue p M ts ty v → CValue p M [.word w] ty v
  | neg {ts ty} {n : Nat} : CValue p M ts ty n → CValue p M (.punct '-' :: ts) ty (IntSpec.negValue ty n)
  | not {ts ty} {n : Nat} : CValue p M ts ty n → CValue p M (.punct '~' :: ts) ty (IntSpec.complement ty n)
  | cast {ts ty w bits sg v} : CValue p M ts ty v → PrimSpec.cScalar p w = some (.int bits sg) → HasValue (bits, sg) v →
      CValue p M ([.punct '(', .word w, .punct ')'] ++ ts) (promote p (bits, sg)) v
  | op {ts us t u o} {x y z : Nat} : CValue p M ts t x → CValue p M us u y → cOp x y o = some z → IntSpec.Holds (common t u) z →
      CValue p M ([.punct '('] ++ ts ++ o.map .punct ++ us ++ [.punct ')']) (common t u) z
  | shift {ts us t u o} {x k z : Nat} : CValue p M ts t x → CValue p M us u k → k < t.1 → cShift x k o = some z → IntSpec.Holds t z →
      CValue p M ([.punct '('] ++ ts ++ o.map .punct ++ us ++ [.punct ')']) t z

/-- A platform with at least 32 bits in an `int` and in a pointer. -/
structure Usual (p : PrimSpec.Platform) : Prop where
  standard : IntSpec.Standard p
  int : 32 ≤ p.int
  ptr : 32 ≤ p.ptr
  size : 32 ≤ p.size
  ptrdiff : 32 ≤ p.ptrdiff

/-- The constants of `K` are macros with their values; `name` gives their names in C. -/
def Macros (K : Nat → Str → Int → Prop) (name : Str → Str) (p : PrimSpec.Platform) (M : List (Str × List Lx)) : Prop :=
  ∀ lim n v, K lim n v → ∃ ts ty, (name n, ts) ∈ M ∧ CValue p M ts ty v

/-- The values of the enumerators of an enum in C, C11 6.7.2.2: without an expression it is one more than the one before.
The number is the value of the next. -/
inductive EnumValues (p : PrimSpec.Platform) (M : List (Str × List Lx)) : Int → List HeadSpec.Enumerator → List (Str × Int) → Prop
  | nil {k} : EnumValues p M k [] []
  | next {k n as es vs} : EnumValues p M (k + 1) es vs → EnumValues p M k (⟨n, as, none⟩ :: es) ((n, k) :: vs)
  | set {k n as ts ty x es vs} : CValue p M ts ty x → EnumValues p M (x + 1) es vs →
      EnumValues p M k (⟨n, as, some ts⟩ :: es) ((n, x) :: vs)

/-- A bound of the discriminants of an enum, by its representation: `isize` if there is none. -/
def reprLimit : Option (IntKind × Bool) → Nat
  | none => 2 ^ 31
  | some (.b8, s) => if s then 2 ^ 7 else 2 ^ 8
  | some (.b16, s) => if s then 2 ^ 15 else 2 ^ 16
  | some (.b64, s) => if s then 2 ^ 63 else 2 ^ 64
  | some (_, s) => if s then 2 ^ 31 else 2 ^ 32

/-- `Discriminants K lim rust k vs ds k'`: the variants and their discriminants in Rust, where `rust` says which options are set.
`K` are constants, and `lim` bounds the numbers of the type of the discriminants.
`k` is the value of the next, `k'` the value after the last. -/
inductive Discriminants (K : Nat → Str → Int → Prop) (lim : Nat) (rust : Opt → Bool) : Int → List SynVariant → List (Str × Int) → Int → Prop
  | nil {k} : Discriminants K lim rust k [] [] k
  | hidden {k v vs ds k'} : (∃ x ∈ conds v.attrs, holds rust x = false) → Discriminants K lim rust k vs ds k' →
      Discriminants K lim rust k (v :: vs) ds k'
  | next {k v vs ds k'} : (∀ x ∈ conds v.attrs, holds rust x = true) → v.disc = none →
      Discriminants K lim rust (k + 1) vs ds k' → Discriminants K lim rust k (v :: vs) ((unraw v.ident, k) :: ds) k'
  | set {k v e x vs ds k'} : (∀ x ∈ conds v.attrs, holds rust x = true) → v.disc = some e → RustValue K lim e x →
      Discriminants K lim rust (x + 1) vs ds k' → Discriminants K lim rust k (v :: vs) ((unraw v.ident, x) :: ds) k'

/-- Names with the numbers from `k` on. -/
def numbered : Int → List Str → List (Str × Int)
  | _, [] => []
  | k, n :: ns => (n, k) :: numbered (k + 1) ns

/-- The name of a variant in C: keywords get an underscore, then the prefix, then the rule. -/
def variantName (f : CaseFns) (lead : Str) (rule : RenameRule) (enumName n : Str) : Str :=
  match rule.notNone with
  | some r => r.apply f (lead ++ escape n) (.enumVariant enumName)
  | none => lead ++ escape n

/-- The name of the member for the data of a variant. -/
def dataName (f : CaseFns) (rule : RenameRule) (n : Str) : Str :=
  match rule.notNone with
  | some r => r.apply f (escape n) .structMember
  | none => escape n

/-- What the definitions of enums in C depend on, beside the sources. -/
structure EnumEnv where
  /-- the names of types, by the rule for fields -/
  types : RenameRule → TyEnv
  /-- the names of members, by the rule for fields -/
  member : RenameRule → Str → Str
  /-- the rule for fields of variants without an own one -/
  fieldRule : RenameRule
  /-- the name of the data of a variant -/
  arm : Str → Str
  /-- the same as a member -/
  armMember : Str → Str
  /-- the name of the struct for the data of a variant -/
  body : Str → Str
  /-- the keyword before that name -/
  keyword : Option DeclKind
  /-- the type of the tag that the data of a variant starts with -/
  tag : Option Str

/-- The name of a field of a variant, before renaming; a single one is named like the data. -/
inductive PayloadName : Option Str → Nat → Option Str → Str → Prop
  | one {n k i} : PayloadName (some n) k i n
  | named {k i} : PayloadName none k (some i) (unraw i)
  | tuple {k} : PayloadName none k none (Nat.toDigits 10 k)

/-- The fields of a variant as members, like `Members`; tuples are numbered by position. -/
inductive Payload (E : TyEnv) (name : Str → Str) (rust : Opt → Bool) (one : Option Str) : Nat → List SynField → List CItem → Prop
  | nil {k} : Payload E name rust one k [] []
  | skip {k f fs ms} : Nothing f.ty → Payload E name rust one (k + 1) fs ms → Payload E name rust one k (f :: fs) ms
  | shown {k f fs ms n u bs} : PayloadName one k f.ident n → CType E false f.ty u → FieldBits f.attrs bs →
      (∀ x ∈ conds f.attrs, holds rust x = true) → Payload E name rust one (k + 1) fs ms →
      Payload E name rust one k (f :: fs) (.object false [] (name n) u.forgetFnPtr bs :: ms)
  | hidden {k f fs ms n u bs} : PayloadName one k f.ident n → CType E false f.ty u → FieldBits f.attrs bs →
      (∃ x ∈ conds f.attrs, holds rust x = false) → Payload E name rust one (k + 1) fs ms →
      Payload E name rust one k (f :: fs) ms

/-- The tag as the first member of the data of a variant. -/
def EnumEnv.tagMembers (V : EnumEnv) (rule : RenameRule) (n : Str) : List CItem :=
  match V.tag with
  | some t => [.object false [] (V.member rule n) (.base false none t []) []]
  | none => []

/-- `VariantIs V rust v arm body`: `arm` is what stands for the data of the variant `v` in the union of all data, and
`body` is the struct that this refers to, with its annotations and members. -/
inductive VariantIs (V : EnumEnv) (rust : Opt → Bool) (v : SynVariant) : List CItem → Option (Annotations × List CItem) → Prop
  | unit {a} : v.fields = .unit → Annotations.load v.attrs = .ok a → VariantIs V rust v [] none
  | single {f a rule ps} : v.fields = .unnamed [f] → Annotations.load v.attrs = .ok a → a.ruleOr V.fieldRule = some rule →
      a.list c!"field-names" = none →
      Payload (V.types rule) (V.member rule) rust (some (V.arm (unraw v.ident))) 0 [f] ps →
      VariantIs V rust v
        [.record .struct [] none none (V.tagMembers rule (V.arm (unraw v.ident) ++ c!"_tag") ++ ps)] none
  | body {fs a rule ps} : v.fields = .named fs ∨ v.fields = .unnamed fs ∧ fs.length ≠ 1 → Annotations.load v.attrs = .ok a →
      a.ruleOr V.fieldRule = some rule → a.list c!"field-names" = none →
      Payload (V.types rule) (V.member rule) rust none 0 fs ps →
      VariantIs V rust v
        [.object false [] (V.armMember (V.arm (unraw v.ident))) (.base false V.keyword (V.body v.ident) []) []]
        (some (a, V.tagMembers rule c!"tag" ++ ps))

/-- The members of the union of all data. -/
inductive Arms (V : EnumEnv) (rust : Opt → Bool) : List SynVariant → List CItem → Prop
  | nil : Arms V rust [] []
  | shown {v vs arm body ms} : VariantIs V rust v arm body → (∀ x ∈ conds v.attrs, holds rust x = true) →
      Arms V rust vs ms → Arms V rust (v :: vs) (arm ++ ms)
  | hidden {v vs arm body ms} : VariantIs V rust v arm body → (∃ x ∈ conds v.attrs, holds rust x = false) →
      Arms V rust vs ms → Arms V rust (v :: vs) ms

/-- A variant has data. -/
def hasFields : SynFields → Bool
  | .unit => false
  | _ => true

/-- An enum has data. -/
def withData (s : SynEnum) : Bool := s.variants.any fun v => hasFields v.fields

/-- The enumerators that are not variants: what the annotation of the enum lists, and a sentinel if one is asked for. -/
def moreNames (lc : LoadConfig) (a : Annotations) : List Str :=
  (a.list c!"enum-trailing-values").getD [] ++ if (a.bool c!"add-sentinel").getD lc.addSentinel then [c!"Sentinel"] else []

/-- The C types of the integers that enums may be represented by. -/
def sizeTexts (usizeIsSizeT : Bool) : List ((IntKind × Bool) × Str) :=
  [ ((.b8, false), c!"uint8_t"), ((.b8, true), c!"int8_t"), ((.b16, false), c!"uint16_t"), ((.b16, true), c!"int16_t"),
    ((.b32, false), c!"uint32_t"), ((.b32, true), c!"int32_t"), ((.b64, false), c!"uint64_t"), ((.b64, true), c!"int64_t"),
    ((.size, false), if usizeIsSizeT then c!"size_t" else c!"uintptr_t"),
    ((.size, true), if usizeIsSizeT then c!"ptrdiff_t" else c!"intptr_t") ]

/-! ## Definitions that C can have -/

/-- No parameters but lifetimes. -/
def OnlyLifetimes (gs : List SynGenericParam) : Prop := ∀ g ∈ gs, g = .lifetime

/-- The layout of a struct or union, which C can express. -/
structure LayoutIs (lc : LoadConfig) (as : List SAttr) (style : ReprStyle) (al : Option ReprAlign) : Prop where
  repr : ∃ r, Repr.load as = .ok r ∧ r.style = style ∧ r.align = al
  safe : lc.layout.ensureSafeOpt al = .ok ()

/-- The struct that an item defines. -/
def structOf : Taken → Option SynStruct
  | .struct s => some s
  | .bitflags b => b.structItem
  | _ => none

/-- The representation of an enum that C can express: like one of C, or an integer. -/
structure EnumRepr (as : List SAttr) (r : Repr) : Prop where
  load : Repr.load as = .ok r
  style : r.style = .c ∨ r.style = .rust ∧ r.ty ≠ none
  align : r.align = none

/-- The rule for the names of the data of variants. -/
def ArmRule (lc : LoadConfig) (a : Annotations) (rule : RenameRule) : Prop :=
  a.ruleFor c!"rename-variant-name-fields" lc.renameVariantNameFields = .ok rule

/-- A definition with a counterpart in C: no parameters, a fixed layout, and all types have C types. -/
inductive Declarable (lc : LoadConfig) : Taken → Prop
  | struct {t s style al a E name rust ms} : structOf t = some s → OnlyLifetimes s.generics → LayoutIs lc s.attrs style al →
      style = .c ∨ style = .transparent → Annotations.load s.attrs = .ok a → E.owner = some (unraw s.ident) →
      Members E name rust (countOf s.fields) (listOf s.fields) ms → Declarable lc t
  | union {s al a E name rust ms} : OnlyLifetimes s.generics → LayoutIs lc s.attrs .c al →
      Annotations.load s.attrs = .ok a → E.owner = some (unraw s.ident) →
      Members E name rust none s.fields ms → Declarable lc (.union s)
  | alias {s a E u} : OnlyLifetimes s.generics → Annotations.load s.attrs = .ok a → E.owner = none →
      CType E false s.ty u → Declarable lc (.alias s)
  | enum {s r a rule V rust} : OnlyLifetimes s.generics → EnumRepr s.attrs r → Annotations.load s.attrs = .ok a →
      lc.language = .c → ArmRule lc a rule → (∀ r, (V.types r).owner = some (unraw s.ident)) →
      (∀ n, V.arm n = rule.apply lc.caseFns n .structMember) →
      (∀ v ∈ s.variants, (∀ e, v.disc = some e → ∃ K lim x, RustValue K lim e x) ∧ ∃ arm body, VariantIs V rust v arm body) →
      Declarable lc (.enum s)

/-- The kind of a definition. -/
def kindOf : Taken → Option ItemType
  | .struct _ => some .structs
  | .bitflags _ => some .structs
  | .union _ => some .unions
  | .enum _ => some .enums
  | .alias _ => some .typedefs
  | _ => none

/-- The name of the type that an item defines. -/
def typeName : Taken → Option Str
  | .struct s => some (unraw s.ident)
  | .union s => some (unraw s.ident)
  | .enum s => some (unraw s.ident)
  | .alias s => some (unraw s.ident)
  | .bitflags b => b.structItem.map fun s => unraw s.ident
  | _ => none

/-! ## What a definition needs -/

/-- `Mentions o t n`: the type `t` is built from the type named `n`; `o` is what `Self` stands for. -/
inductive Mentions (o : Option Str) : SynTy → Str → Prop
  | named {n as} : unraw n ∉ builtin → NoArgs as → Mentions o (.path n as) (unraw n)
  | self {n as p} : unraw n = c!"Self" → NoArgs as → o = some p → Mentions o (.path n as) p
  | wrapped {n t x} : unraw n ∉ builtin → Mentions o t x → Mentions o (.path n (.angle [.type t])) x
  | raw {m t x} : Mentions o t x → Mentions o (.ptr m t) x
  | reference {m t x} : Mentions o t x → Mentions o (.reference m t) x
  | array {t e x} : Mentions o t x → Mentions o (.array t e) x
  | param {ins v out a t x} : .mk a t ∈ ins → Mentions o t x → Mentions o (.fnptr ins v out) x
  | output {ins v t x} : Mentions o t x → Mentions o (.fnptr ins v (.type t)) x

/-- The signature of a function mentions the type named `x`. -/
inductive SigMentions (o : Option Str) (s : SynSig) (x : Str) : Prop
  | value : .receiver .value ∈ s.inputs → o = some x → SigMentions o s x
  | reference {m} : .receiver (.reference m) ∈ s.inputs → o = some x → SigMentions o s x
  | wild {t} : .wild t ∈ s.inputs → Mentions o t x → SigMentions o s x
  | ident {n t} : .ident n t ∈ s.inputs → Mentions o t x → SigMentions o s x
  | output {t} : s.output = .type t → Mentions o t x → SigMentions o s x

/-- A definition mentions the type named `x`. -/
inductive DefMentions : Taken → Str → Prop
  | struct {s f x} : f ∈ listOf s.fields → Mentions (some (unraw s.ident)) f.ty x → DefMentions (.struct s) x
  | union {s f x} : f ∈ s.fields → Mentions (some (unraw s.ident)) f.ty x → DefMentions (.union s) x
  | alias {s x} : Mentions none s.ty x → DefMentions (.alias s) x
  | enum {s v f x} : v ∈ s.variants → f ∈ listOf v.fields → Mentions (some (unraw s.ident)) f.ty x → DefMentions (.enum s) x

/-- The conjunction of the predicates does not hold under all options. -/
def CanFail (cs : List Cfg) : Prop := ∃ rust, ∃ x ∈ cs, holds rust x = false

/-- The generic types of the standard library that are replaced by what they stand for, and those that are known. -/
def stdNames : List Str :=
  [ c!"Option", c!"NonNull", c!"NonZero", c!"Box", c!"SyncUnsafeCell", c!"UnsafeCell", c!"Cell", c!"ManuallyDrop",
    c!"MaybeUninit", c!"Pin", c!"String", c!"RefCell", c!"Rc", c!"Arc", c!"Result", c!"Vec", c!"HashMap", c!"BTreeMap",
    c!"HashSet", c!"BTreeSet", c!"LinkedList", c!"VecDeque" ]

/-- `t` is given under `cs`, C can have it, and nothing else takes its place: other definitions of the same name are of the
same kind, and all have conditions.  Instances of generic types have other names. -/
structure Sole (pc : ParseConfig) (lc : LoadConfig) (i : Inputs) (c : LibConfig) (t : Taken) (cs : List Cfg) (n : Str) : Prop where
  given : Given pc i t cs
  declarable : Declarable lc t
  name : typeName t = some n
  others : ∀ t' cs', Given pc i t' cs' → typeName t' = some n →
    t' = t ∧ cs' = cs ∨ (Declarable lc t' ∧ kindOf t' = kindOf t ∧ CanFail cs' ∧ CanFail cs)
  std : n ∉ stdNames
  instances : ∀ q vs, vs ≠ [] → c.manglePath q vs ≠ n
  kept : n ∉ c.export_.exclude
  wanted : ∀ k, kindOf t = some k → c.export_.shouldGenerate k = true

/-- The variable `path` is given under `cs`, and nothing else takes its place: other variables of the same name have
conditions. -/
structure SoleStatic (pc : ParseConfig) (i : Inputs) (path : Str) (s : SynStatic) (cs : List Cfg) : Prop where
  given : Given pc i (.static path s) cs
  others : ∀ s' cs', Given pc i (.static path s') cs' → s' = s ∧ cs' = cs ∨ (CanFail cs' ∧ CanFail cs)

/-- The type named `n` is needed: it is asked for, or a function or variable mentions it, or a definition that is needed
mentions it. -/
inductive Needed (pc : ParseConfig) (lc : LoadConfig) (i : Inputs) (c : LibConfig) : Str → Prop
  | asked {n} : n ∈ c.export_.inc → Needed pc lc i c n
  | function {path owner ext sf cs a E T n} : Given pc i (.fn path owner ext sf) cs → path ∉ c.export_.exclude →
      Annotations.load sf.attrs = .ok a → a.list c!"ptrs-as-arrays" = none → E.owner = owner → CFn E sf.sig T →
      SigMentions owner sf.sig n → Needed pc lc i c n
  | variable_ {path s cs a E u n} : SoleStatic pc i path s cs → path ∉ c.export_.exclude → Annotations.load s.attrs = .ok a →
      E.owner = none → CType E false s.ty u → Mentions none s.ty n → Needed pc lc i c n
  | definition {t cs m n} : Sole pc lc i c t cs m → Needed pc lc i c m → DefMentions t n → Needed pc lc i c n

/-! ## Constants -/

/-- The constant `n` is given under `cs`, and nothing else takes its place: other constants of the same name have
conditions.  Constants of types count with the name of the type behind their own. -/
structure SoleConst (pc : ParseConfig) (i : Inputs) (k : SynConst) (cs : List Cfg) (n : Str) : Prop where
  given : Given pc i (.const k) cs
  name : unraw k.ident = n
  others : ∀ k' cs', Given pc i (.const k') cs' → unraw k'.ident = n → k' = k ∧ cs' = cs ∨ (CanFail cs' ∧ CanFail cs)
  assoc : ∀ r k' cs', Given pc i (.assoc r k') cs' → unraw k'.ident ++ r ≠ n
  flags : ∀ b cs', Given pc i (.bitflags b) cs' → ∀ f ∈ b.flags, unraw f.name ++ unraw b.name ≠ n

/-- A bound of the numbers of a type; `false` and `true` count as 0 and 1. -/
def ScalarLimit (t : SynTy) (lim : Nat) : Prop := limitOf t = some lim ∨ t = .path c!"bool" .none ∧ lim = 2

/-- `ConstVal pc i out rust lim n v`: the constant `n` of the sources has the value `v`, in a type whose numbers are less than
`lim`, where `rust` says which options are set.  Names in its expression are those of such constants; constants named in
`out` do not count.  This is the least relation that is closed under the rule for one constant. -/
def ConstVal (pc : ParseConfig) (i : Inputs) (out : List Str) (rust : Opt → Bool) (lim : Nat) (n : Str) (v : Int) : Prop :=
  ∀ P : Nat → Str → Int → Prop,
    (∀ k cs n lim v, SoleConst pc i k cs n → (∀ x ∈ cs, holds rust x = true) → n ∉ out → ScalarLimit k.ty lim →
      (∃ a, Annotations.load k.attrs = .ok a) → RustValue P lim k.expr v → P lim n v) → P lim n v

end Cbindgen.SrcSpec
