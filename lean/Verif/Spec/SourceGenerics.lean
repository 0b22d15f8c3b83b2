import Verif.Spec.SourceDefs

/-!
# Sources with generic definitions, and the same without (C71)

A use of a generic definition stands for a type with a name of its own, the instance.  Here both are Rust: what is
related are types, signatures and definitions with generic arguments to ones without.
-/

namespace Cbindgen.SrcSpec

/-- The generic types of the standard library that are replaced by what they stand for. -/
def wrapperNames : List Str :=
  [ c!"Option", c!"NonNull", c!"NonZero", c!"Box", c!"SyncUnsafeCell", c!"UnsafeCell", c!"Cell", c!"ManuallyDrop",
    c!"MaybeUninit", c!"Pin" ]

/-- Those for which it does not matter what they are applied to. -/
def freeWrappers : List Str :=
  [ c!"NonNull", c!"Box", c!"SyncUnsafeCell", c!"UnsafeCell", c!"Cell", c!"ManuallyDrop", c!"MaybeUninit", c!"Pin" ]

/-- Those that stand for what they are applied to. -/
def cellWrappers : List Str :=
  [ c!"SyncUnsafeCell", c!"UnsafeCell", c!"Cell", c!"ManuallyDrop", c!"MaybeUninit", c!"Pin" ]

/-! ## Names for uses -/

mutual
/-- `WrittenOut I t t'`: the type `t` is `t'` after its uses of generic definitions are replaced by names; `I n as m` says
that `m` is the name of `n<as>`. -/
inductive WrittenOut (I : Str → SynArgs → Str → Prop) : SynTy → SynTy → Prop
  | nothing {t} : Nothing t → WrittenOut I t t
  | plain {n as} : NoArgs as → WrittenOut I (.path n as) (.path n as)
  | inst {n as m} : I (unraw n) as m → unraw n ∉ builtin → unraw n ∉ wrapperNames → unraw m = m → m ∉ builtin →
      WrittenOut I (.path n as) (.path m .none)
  | wrapped {w t t' o o'} : w ∈ wrapperNames → Wrap w t o → WrittenOut I t t' → Wrap w t' o' → WrittenOut I o o'
  | raw {m t t'} : WrittenOut I t t' → WrittenOut I (.ptr m t) (.ptr m t')
  | reference {m t t'} : WrittenOut I t t' → WrittenOut I (.reference m t) (.reference m t')
  | array {t t' e} : WrittenOut I t t' → WrittenOut I (.array t e) (.array t' e)
  | function {ins ins' v out out'} : ArgsOut I ins ins' → RetOut I out out' →
      WrittenOut I (.fnptr ins v out) (.fnptr ins' v out')
/-- The parameters of a function pointer. -/
inductive ArgsOut (I : Str → SynArgs → Str → Prop) : List SynFnArg → List SynFnArg → Prop
  | nil : ArgsOut I [] []
  | cons {n t t' as as'} : WrittenOut I t t' → ArgsOut I as as' → ArgsOut I (.mk n t :: as) (.mk n t' :: as')
/-- What a function returns. -/
inductive RetOut (I : Str → SynArgs → Str → Prop) : SynRet → SynRet → Prop
  | default : RetOut I .default .default
  | never : RetOut I (.type .never) (.type .never)
  | type {t t'} : WrittenOut I t t' → RetOut I (.type t) (.type t')
end

/-- The parameters of a function. -/
inductive ParamsOut (I : Str → SynArgs → Str → Prop) : List SynParam → List SynParam → Prop
  | nil : ParamsOut I [] []
  | receiver {r ps ps'} : ParamsOut I ps ps' → ParamsOut I (.receiver r :: ps) (.receiver r :: ps')
  | wild {t t' ps ps'} : WrittenOut I t t' → ParamsOut I ps ps' → ParamsOut I (.wild t :: ps) (.wild t' :: ps')
  | ident {n t t' ps ps'} : WrittenOut I t t' → ParamsOut I ps ps' → ParamsOut I (.ident n t :: ps) (.ident n t' :: ps')
  | pattern {t t' ps ps'} : WrittenOut I t t' → ParamsOut I ps ps' → ParamsOut I (.pattern t :: ps) (.pattern t' :: ps')

/-- The signature of a function. -/
structure SigOut (I : Str → SynArgs → Str → Prop) (s s' : SynSig) : Prop where
  inputs : ParamsOut I s.inputs s'.inputs
  output : RetOut I s.output s'.output
  variadic : s'.variadic = s.variadic

/-- Fields with related types. -/
inductive FieldsOut (R : SynTy → SynTy → Prop) : List SynField → List SynField → Prop
  | nil : FieldsOut R [] []
  | cons {f fs fs' t'} : R f.ty t' → FieldsOut R fs fs' → FieldsOut R (f :: fs) ({ f with ty := t' } :: fs')

/-! ## Parameters -/

/-- What the parameters of a definition stand for. -/
structure Binding where
  type : Str → Option SynTy
  const : Str → Option SynExpr

/-- The name is no parameter. -/
def Binding.Free (B : Binding) (n : Str) : Prop := B.type n = none ∧ B.const n = none

/-- A parameter, inside of types that stand for what is in them. -/
inductive Bare (B : Binding) : SynTy → Prop
  | param {n as} : B.type (unraw n) ≠ none → Bare B (.path n as)
  | wrapped {w t o} : w ∈ cellWrappers → Wrap w t o → Bare B t → Bare B o

/-- The length of an array. -/
inductive LengthInst (B : Binding) : SynExpr → SynExpr → Prop
  | lit {l} : LengthInst B (.lit l) (.lit l)
  | path {i n} : B.Free (unraw n) → LengthInst B (.path i n .none) (.path i n .none)
  | param {i n e} : unraw n ≠ c!"PhantomData" → B.const (unraw n) = some e → LengthInst B (.path i n .none) e
  | cast {e e' t} : LengthInst B e e' → LengthInst B (.cast e t) (.cast e' t)

mutual
/-- `Inst B t t'`: the type `t` of a definition is `t'` where its parameters stand for what `B` says.  Not related are
types with `Self`, and with parameters right inside of an `Option` or `NonZero`. -/
inductive Inst (B : Binding) : SynTy → SynTy → Prop
  | nothing {t} : Nothing t → Inst B t t
  | param {n as t} : NoArgs as → B.type (unraw n) = some t → unraw n ∉ builtin → Inst B (.path n as) t
  | plain {n as} : NoArgs as → B.Free (unraw n) → unraw n ≠ c!"Self" → Inst B (.path n as) (.path n as)
  | generic {n as as'} : B.Free (unraw n) → unraw n ∉ builtin → unraw n ∉ wrapperNames → GArgsInst B as as' →
      Inst B (.path n (.angle as)) (.path n (.angle as'))
  | wrapped {w t t' o o'} : w ∈ freeWrappers → B.Free w → Wrap w t o → Inst B t t' → Wrap w t' o' → Inst B o o'
  | option {w t t' o o'} : w ∈ [c!"Option", c!"NonZero"] → B.Free w → Wrap w t o → ¬ Bare B t → Inst B t t' → Wrap w t' o' →
      Inst B o o'
  | raw {m t t'} : Inst B t t' → Inst B (.ptr m t) (.ptr m t')
  | reference {m t t'} : Inst B t t' → Inst B (.reference m t) (.reference m t')
  | array {t t' e e'} : Inst B t t' → LengthInst B e e' → Inst B (.array t e) (.array t' e')
  | function {ins ins' v out out'} : FnArgsInst B ins ins' → RetInst B out out' →
      Inst B (.fnptr ins v out) (.fnptr ins' v out')
/-- Generic arguments. -/
inductive GArgsInst (B : Binding) : List SynGArg → List SynGArg → Prop
  | nil : GArgsInst B [] []
  | lifetime {as as'} : GArgsInst B as as' → GArgsInst B (.lifetime :: as) (.lifetime :: as')
  | type {t t' as as'} : Inst B t t' → GArgsInst B as as' → GArgsInst B (.type t :: as) (.type t' :: as')
  | lit {l as as'} : GArgsInst B as as' → GArgsInst B (.const (.lit l) :: as) (.const (.lit l) :: as')
  /-- a constant parameter looks like a type -/
  | const {n no e as as'} : NoArgs no → B.const (unraw n) = some e → unraw n ∉ builtin → GArgsInst B as as' →
      GArgsInst B (.type (.path n no) :: as) (.const e :: as')
inductive FnArgsInst (B : Binding) : List SynFnArg → List SynFnArg → Prop
  | nil : FnArgsInst B [] []
  | cons {n t t' as as'} : Inst B t t' → FnArgsInst B as as' → FnArgsInst B (.mk n t :: as) (.mk n t' :: as')
inductive RetInst (B : Binding) : SynRet → SynRet → Prop
  | default : RetInst B .default .default
  | never : RetInst B (.type .never) (.type .never)
  | type {t t'} : Inst B t t' → RetInst B (.type t) (.type t')
end

/-- One more parameter. -/
def Binding.withType (B : Binding) (n : Str) (t : SynTy) : Binding :=
  ⟨fun m => if m = n then some t else B.type m, B.const⟩
def Binding.withConst (B : Binding) (n : Str) (e : SynExpr) : Binding :=
  ⟨B.type, fun m => if m = n then some e else B.const m⟩

/-- Types with values that C could see. -/
def Solid : SynTy → Prop
  | .path n _ => unraw n ≠ c!"PhantomData" ∧ unraw n ≠ c!"PhantomPinned"
  | .tuple _ => False
  | _ => True

/-- `Binds ps as B`: the parameters `ps` stand for the arguments `as`, and those without argument for their defaults.
Lifetimes do not count, no two parameters have the same name, and defaults are only names. -/
inductive Binds : List SynGenericParam → List SynGArg → Binding → Prop
  | nil : Binds [] [] ⟨fun _ => none, fun _ => none⟩
  | skipParam {ps as B} : Binds ps as B → Binds (.lifetime :: ps) as B
  | skipArg {ps as B} : Binds ps as B → Binds ps (.lifetime :: as) B
  | type {n d t ps as B} : Binds ps as B → B.Free (unraw n) → Solid t →
      Binds (.type n d :: ps) (.type t :: as) (B.withType (unraw n) t)
  | default {n d no ps B} : Binds ps [] B → B.Free (unraw n) → NoArgs no → unraw d ≠ c!"Self" → Solid (.path d no) →
      Binds (.type n (some (.path d no)) :: ps) [] (B.withType (unraw n) (.path d no))
  | const {n t d e ps as B} : Binds ps as B → B.Free (unraw n) →
      Binds (.const n t d :: ps) (.const e :: as) (B.withConst (unraw n) e)

end Cbindgen.SrcSpec
