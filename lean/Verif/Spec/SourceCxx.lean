import Verif.Spec.SourceTypes

/-!
# The C++ type of a Rust type, by its syntax (C75)

As for C, but a type with generic arguments is the instance of a template, and only the wrappers that no C++ header
defines as a template are looked through.
-/

namespace Cbindgen.SrcSpec
open CSpec

/-- The wrappers that are not written in C++ as long as they are around the right types. -/
def cxxWrappers : List Str := [c!"Option", c!"NonNull", c!"NonZero", c!"Cell", c!"UnsafeCell", c!"SyncUnsafeCell"]

mutual
/-- `CxxType E c t u`: an object of the Rust type `t`, which is `const` if `c`, has the C++ type `u`. -/
inductive CxxType (E : TyEnv) : Bool → SynTy → CTy → Prop
  | prim {c n as u} : (unraw n, u) ∈ intTypes E.usizeIsSizeT ++ otherTypes → NoArgs as → CxxType E c (.path n as) (cname c u)
  | named {c n as} : unraw n ∉ builtin → NoArgs as → CxxType E c (.path n as) (.base c none (E.name (unraw n)) [])
  /-- the instance of a template, also of `Box`, `ManuallyDrop`, `MaybeUninit` and `Pin` -/
  | template {c n as us} : unraw n ∉ builtin → unraw n ∉ cxxWrappers → CxxArgs E as us →
      CxxType E c (.path n (.angle as)) (.base c none (E.name (unraw n)) us)
  | self {c n as o} : unraw n = c!"Self" → NoArgs as → E.owner = some o →
      CxxType E c (.path n as) (.base c none (E.name o) [])
  | raw {c m e u} : CxxPointee E m e u → CxxType E c (.ptr m e) (.ptr c false E.nullable u)
  | nonNull {c t u} : CxxNonNull E t u → CxxType E c t (.ptr c false E.nonNull u)
  /-- the null pointer is `None` -/
  | optNonNull {c t u o} : CxxNonNull E t u → Wrap c!"Option" t o → CxxType E c o (.ptr c false E.nullable u)
  | nonZero {c t u} : NonZeroInt E t u → CxxType E c t (cname c u)
  /-- zero is `None` -/
  | optNonZero {c t u o} : NonZeroInt E t u → Wrap c!"Option" t o → CxxType E c o (cname c u)
  | array {c t u e l} : CxxType E c t u → Length E e l → CxxType E c (.array t e) (.arr l u)
  | wrapped {c w t u o} : w ∈ [c!"Cell", c!"UnsafeCell", c!"SyncUnsafeCell"] → CxxType E c t u → Wrap w t o → CxxType E c o u
/-- The arguments of a template: lifetimes and types without values are not among them. -/
inductive CxxArgs (E : TyEnv) : List SynGArg → List CTyArg → Prop
  | nil : CxxArgs E [] []
  | lifetime {as us} : CxxArgs E as us → CxxArgs E (.lifetime :: as) us
  | nothing {t as us} : Nothing t → CxxArgs E as us → CxxArgs E (.type t :: as) us
  | type {t u as us} : CxxType E false t u → CxxArgs E as us → CxxArgs E (.type t :: as) (.type u :: us)
  | const {e l as us} : Length E e l → CxxArgs E as us → CxxArgs E (.const e :: as) (.const l :: us)
/-- What a pointer points to. -/
inductive CxxPointee (E : TyEnv) : Bool → SynTy → CTy → Prop
  | some {c t u} : CxxType E c t u → CxxPointee E c t u
  | void {c t} : Nothing t → CxxPointee E c t (cname c c!"void")
/-- The pointers that are not null, with the type of what they point to. -/
inductive CxxNonNull (E : TyEnv) : SynTy → CTy → Prop
  | reference {m e u} : CxxPointee E (!m) e u → CxxNonNull E (.reference m e) u
  | pointer {e u t} : CxxType E false e u → Wrap c!"NonNull" e t → CxxNonNull E t u
  | function {ins v out ps a r} : CxxFnArgs E 0 ins ps → CxxReturns E out a r →
      CxxNonNull E (.fnptr ins v out) (.fn (ps ++ dots v) a r)
/-- The parameters of a function pointer. -/
inductive CxxFnArgs (E : TyEnv) : Nat → List SynFnArg → List CParam → Prop
  | nil {k} : CxxFnArgs E k [] []
  | skip {k n t as ps} : Nothing t → CxxFnArgs E k as ps → CxxFnArgs E k (.mk n t :: as) ps
  | cons {k k' n n' t u as ps} : ArgName k n n' k' → CxxType E false t u → ¬ IsArray u → CxxFnArgs E k' as ps →
      CxxFnArgs E k (.mk n t :: as) (.mk n' u :: ps)
/-- What a function returns, with the attribute of functions that do not return. -/
inductive CxxReturns (E : TyEnv) : SynRet → Option Str → CTy → Prop
  | default : CxxReturns E .default none (cname false c!"void")
  | never : CxxReturns E (.type .never) E.noReturn (cname false c!"void")
  | nothing {t} : Nothing t → CxxReturns E (.type t) none (cname false c!"void")
  | type {t u} : CxxType E false t u → ¬ IsArray u → CxxReturns E (.type t) none u
end

/-- The type of the receiver. -/
inductive CxxReceiver (E : TyEnv) : SynReceiver → CTy → Prop
  | value {o} : E.owner = some o → CxxReceiver E .value (.base false none (E.name o) [])
  | reference {o m} : E.owner = some o →
      CxxReceiver E (.reference m) (.ptr false false E.nonNull (.base (!m) none (E.name o) []))

/-- The parameters of a function. -/
inductive CxxParams (E : TyEnv) : List SynParam → List CParam → Prop
  | nil : CxxParams E [] []
  | receiver {r u ins ps} : CxxReceiver E r u → CxxParams E ins ps →
      CxxParams E (.receiver r :: ins) (.mk (some (E.arg c!"self")) u :: ps)
  | wild {t u ins ps} : CxxType E false t u → ¬ IsArray u → CxxParams E ins ps → CxxParams E (.wild t :: ins) (.mk none u :: ps)
  | ident {n t u ins ps} : CxxType E false t u → ¬ IsArray u → CxxParams E ins ps →
      CxxParams E (.ident n t :: ins) (.mk (some (E.arg (unraw n))) u :: ps)
  | wildNothing {t ins ps} : Nothing t → CxxParams E ins ps → CxxParams E (.wild t :: ins) ps
  | identNothing {n t ins ps} : Nothing t → CxxParams E ins ps → CxxParams E (.ident n t :: ins) ps
  | patternNothing {t ins ps} : Nothing t → CxxParams E ins ps → CxxParams E (.pattern t :: ins) ps

/-- The C++ type of a function. -/
inductive CxxFn (E : TyEnv) : SynSig → CTy → Prop
  | mk {s ps a r} : CxxParams E s.inputs ps → CxxReturns E s.output a r → CxxFn E s (.fn (ps ++ dots s.variadic) a r)

/-- The C++ type of a variable: an immutable one is `const` unless it is a pointer. -/
inductive CxxStatic (E : TyEnv) : Bool → SynTy → CTy → Prop
  | mutable {t u} : CxxType E false t u → CxxStatic E true t u
  | pointer {t u} : CxxType E false t u → IsPtr u → CxxStatic E false t u
  | value {t u} : CxxType E true t u → ¬ IsPtr u → CxxStatic E false t u

end Cbindgen.SrcSpec
