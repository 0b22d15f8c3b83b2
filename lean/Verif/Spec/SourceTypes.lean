import Verif.Model.Syn
import Verif.Spec.CDecl

/-!
# The C type of a Rust type, by its syntax (C63)

Which C type a type in a Rust source stands for.  Nothing here refers to the intermediate representation of cbindgen.
-/

namespace Cbindgen.SrcSpec
open CSpec

/-- What the types of an item depend on. -/
structure TyEnv where
  /-- the name in C of a named type or constant -/
  name : Str → Str
  /-- the keyword before the name of a type -/
  tag : Str → Option DeclKind
  /-- the name in C of an argument -/
  arg : Str → Str
  /-- the type whose `impl` surrounds the item -/
  owner : Option Str
  nullable : Option Str
  nonNull : Option Str
  noReturn : Option Str
  usizeIsSizeT : Bool

/-- The integers of Rust and of `libc`, and the C types with the same representation. -/
def intTypes (usizeIsSizeT : Bool) : List (Str × Str) :=
  [ (c!"u8", c!"uint8_t"), (c!"u16", c!"uint16_t"), (c!"u32", c!"uint32_t"), (c!"u64", c!"uint64_t"),
    (c!"i8", c!"int8_t"), (c!"i16", c!"int16_t"), (c!"i32", c!"int32_t"), (c!"i64", c!"int64_t"),
    (c!"uint8_t", c!"uint8_t"), (c!"uint16_t", c!"uint16_t"), (c!"uint32_t", c!"uint32_t"),
    (c!"uint64_t", c!"uint64_t"), (c!"int8_t", c!"int8_t"), (c!"int16_t", c!"int16_t"), (c!"int32_t", c!"int32_t"),
    (c!"int64_t", c!"int64_t"),
    (c!"usize", if usizeIsSizeT then c!"size_t" else c!"uintptr_t"),
    (c!"uintptr_t", if usizeIsSizeT then c!"size_t" else c!"uintptr_t"),
    (c!"isize", if usizeIsSizeT then c!"ptrdiff_t" else c!"intptr_t"),
    (c!"intptr_t", if usizeIsSizeT then c!"ptrdiff_t" else c!"intptr_t"),
    (c!"size_t", c!"size_t"), (c!"ssize_t", c!"ssize_t"),
    (c!"c_short", c!"short"), (c!"c_int", c!"int"), (c!"c_long", c!"long"), (c!"c_longlong", c!"long long"),
    (c!"c_ushort", c!"unsigned short"), (c!"c_uint", c!"unsigned int"), (c!"c_ulong", c!"unsigned long"),
    (c!"c_ulonglong", c!"unsigned long long"), (c!"RawFd", c!"int") ]

/-- The other primitive types. -/
def otherTypes : List (Str × Str) :=
  [ (c!"c_void", c!"void"), (c!"bool", c!"bool"), (c!"char", c!"uint32_t"), (c!"c_char", c!"char"),
    (c!"c_schar", c!"signed char"), (c!"c_uchar", c!"unsigned char"), (c!"f32", c!"float"), (c!"f64", c!"double"),
    (c!"c_float", c!"float"), (c!"c_double", c!"double"), (c!"ptrdiff_t", c!"ptrdiff_t") ]

/-- The integers that are not zero. -/
def nonZeroTypes : List (Str × Str) :=
  [ (c!"NonZeroU8", c!"uint8_t"), (c!"NonZeroU16", c!"uint16_t"), (c!"NonZeroU32", c!"uint32_t"),
    (c!"NonZeroU64", c!"uint64_t"), (c!"NonZeroI8", c!"int8_t"), (c!"NonZeroI16", c!"int16_t"),
    (c!"NonZeroI32", c!"int32_t"), (c!"NonZeroI64", c!"int64_t") ]

/-- The names that do not stand for an item of the same name. -/
def builtin : List Str :=
  (intTypes false ++ otherTypes ++ nonZeroTypes).map (·.1) ++
    [c!"NonZeroUSize", c!"NonZeroISize", c!"VaList", c!"PhantomData", c!"PhantomPinned", c!"Self"]

/-- No generic arguments but lifetimes. -/
inductive NoArgs : SynArgs → Prop
  | none : NoArgs .none
  | lifetimes {as} : (∀ a ∈ as, a = .lifetime) → NoArgs (.angle as)

/-- Types without values that C could see. -/
inductive Nothing : SynTy → Prop
  | unit : Nothing (.tuple [])
  | phantomData {n as} : unraw n = c!"PhantomData" → Nothing (.path n as)
  | phantomPinned {n as} : unraw n = c!"PhantomPinned" → NoArgs as → Nothing (.path n as)

/-- `Wrap w t u`: `u` is `w<t>`. -/
inductive Wrap (w : Str) (t : SynTy) : SynTy → Prop
  | mk {n} : unraw n = w → Wrap w t (.path n (.angle [.type t]))

/-- A C type name. -/
def cname (c : Bool) (n : Str) : CTy := .base c none n []

/-- The length of an array. -/
inductive Length (E : TyEnv) : SynExpr → Str → Prop
  | int {n s} : Length E (.lit (.int n s)) (Nat.toDigits 10 n)
  | path {i n} : Length E (.path i n .none) (E.name (unraw n))
  | cast {e t l} : Length E e l → Length E (.cast e t) l

/-- The name of a parameter of a function pointer; `k` counts the wildcards before, and after. -/
inductive ArgName : Nat → Option Str → Option Str → Nat → Prop
  | none {k} : ArgName k none none k
  | first : ArgName 0 (some c!"_") (some c!"_") 1
  | wild {k} : k ≠ 0 → ArgName k (some c!"_") (some ('_' :: Nat.toDigits 10 k)) (k + 1)
  | ident {k n} : n ≠ c!"_" → ArgName k (some n) (some (unraw n)) k

/-- A nonzero integer. -/
inductive NonZeroInt (E : TyEnv) : SynTy → Str → Prop
  | named {n as u} : (unraw n, u) ∈ nonZeroTypes → NoArgs as → NonZeroInt E (.path n as) u
  | wrapped {n as u t} : (unraw n, u) ∈ intTypes E.usizeIsSizeT → NoArgs as → Wrap c!"NonZero" (.path n as) t →
      NonZeroInt E t u

/-- What follows the parameters. -/
def dots (variadic : Bool) : List CParam := if variadic then [.mk none (cname false c!"...")] else []

/-- Functions of C neither take nor return arrays. -/
def IsArray : CTy → Prop
  | .arr _ _ => True
  | _ => False

mutual
/-- `CType E c t u`: an object of the Rust type `t`, which is `const` if `c`, has the C type `u`. -/
inductive CType (E : TyEnv) : Bool → SynTy → CTy → Prop
  | prim {c n as u} : (unraw n, u) ∈ intTypes E.usizeIsSizeT ++ otherTypes → NoArgs as → CType E c (.path n as) (cname c u)
  | named {c n as} : unraw n ∉ builtin → NoArgs as →
      CType E c (.path n as) (.base c (E.tag (unraw n)) (E.name (unraw n)) [])
  | self {c n as o} : unraw n = c!"Self" → NoArgs as → E.owner = some o →
      CType E c (.path n as) (.base c (E.tag o) (E.name o) [])
  | raw {c m e u} : Pointee E m e u → CType E c (.ptr m e) (.ptr c false E.nullable u)
  | nonNull {c t u} : NonNull E t u → CType E c t (.ptr c false E.nonNull u)
  /-- the null pointer is `None` -/
  | optNonNull {c t u o} : NonNull E t u → Wrap c!"Option" t o → CType E c o (.ptr c false E.nullable u)
  | nonZero {c t u} : NonZeroInt E t u → CType E c t (cname c u)
  /-- zero is `None` -/
  | optNonZero {c t u o} : NonZeroInt E t u → Wrap c!"Option" t o → CType E c o (cname c u)
  | array {c t u e l} : CType E c t u → Length E e l → CType E c (.array t e) (.arr l u)
  | wrapped {c w t u o} : w ∈ [c!"Cell", c!"UnsafeCell", c!"SyncUnsafeCell", c!"ManuallyDrop", c!"MaybeUninit", c!"Pin"] →
      CType E c t u → Wrap w t o → CType E c o u
/-- What a pointer points to. -/
inductive Pointee (E : TyEnv) : Bool → SynTy → CTy → Prop
  | some {c t u} : CType E c t u → Pointee E c t u
  | void {c t} : Nothing t → Pointee E c t (cname c c!"void")
/-- The pointers that are not null, with the type of what they point to. -/
inductive NonNull (E : TyEnv) : SynTy → CTy → Prop
  | reference {m e u} : Pointee E (!m) e u → NonNull E (.reference m e) u
  | owned {w e u t} : w ∈ [c!"Box", c!"NonNull"] → CType E false e u → Wrap w e t → NonNull E t u
  | wrapped {w t u o} : w ∈ [c!"Pin", c!"ManuallyDrop"] → NonNull E t u → Wrap w t o → NonNull E o u
  | function {ins v out ps a r} : FnArgs E 0 ins ps → Returns E out a r →
      NonNull E (.fnptr ins v out) (.fn (ps ++ dots v) a r)
/-- The parameters of a function pointer. -/
inductive FnArgs (E : TyEnv) : Nat → List SynFnArg → List CParam → Prop
  | nil {k} : FnArgs E k [] []
  | skip {k n t as ps} : Nothing t → FnArgs E k as ps → FnArgs E k (.mk n t :: as) ps
  | cons {k k' n n' t u as ps} : ArgName k n n' k' → CType E false t u → ¬ IsArray u → FnArgs E k' as ps →
      FnArgs E k (.mk n t :: as) (.mk n' u :: ps)
/-- What a function returns, with the attribute of functions that do not return. -/
inductive Returns (E : TyEnv) : SynRet → Option Str → CTy → Prop
  | default : Returns E .default none (cname false c!"void")
  | never : Returns E (.type .never) E.noReturn (cname false c!"void")
  | nothing {t} : Nothing t → Returns E (.type t) none (cname false c!"void")
  | type {t u} : CType E false t u → ¬ IsArray u → Returns E (.type t) none u
end

/-- The type of the receiver. -/
inductive Receiver (E : TyEnv) : SynReceiver → CTy → Prop
  | value {o} : E.owner = some o → Receiver E .value (.base false (E.tag o) (E.name o) [])
  | reference {o m} : E.owner = some o → Receiver E (.reference m) (.ptr false false E.nonNull (.base (!m) (E.tag o) (E.name o) []))

/-- The parameters of a function. -/
inductive Params (E : TyEnv) : List SynParam → List CParam → Prop
  | nil : Params E [] []
  | receiver {r u ins ps} : Receiver E r u → Params E ins ps → Params E (.receiver r :: ins) (.mk (some (E.arg c!"self")) u :: ps)
  | wild {t u ins ps} : CType E false t u → ¬ IsArray u → Params E ins ps → Params E (.wild t :: ins) (.mk none u :: ps)
  | ident {n t u ins ps} : CType E false t u → ¬ IsArray u → Params E ins ps →
      Params E (.ident n t :: ins) (.mk (some (E.arg (unraw n))) u :: ps)
  | wildNothing {t ins ps} : Nothing t → Params E ins ps → Params E (.wild t :: ins) ps
  | identNothing {n t ins ps} : Nothing t → Params E ins ps → Params E (.ident n t :: ins) ps
  | patternNothing {t ins ps} : Nothing t → Params E ins ps → Params E (.pattern t :: ins) ps

/-- The C type of a function. -/
inductive CFn (E : TyEnv) : SynSig → CTy → Prop
  | mk {s ps a r} : Params E s.inputs ps → Returns E s.output a r → CFn E s (.fn (ps ++ dots s.variadic) a r)

/-- Pointers, also to functions. -/
def IsPtr : CTy → Prop
  | .ptr .. => True
  | _ => False

/-- The C type of a variable: an immutable one is `const` unless it is a pointer. -/
inductive CStatic (E : TyEnv) : Bool → SynTy → CTy → Prop
  | mutable {t u} : CType E false t u → CStatic E true t u
  | pointer {t u} : CType E false t u → IsPtr u → CStatic E false t u
  | value {t u} : CType E true t u → ¬ IsPtr u → CStatic E false t u

end Cbindgen.SrcSpec
