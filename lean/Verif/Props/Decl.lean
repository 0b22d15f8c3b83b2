import Verif.Lemmas.CDeclMeaning

/-!
# C01, C02, C03, C41: declarations read back as the Rust type
-/

namespace Cbindgen

open CSpec

theorem readDecl_build (cfg : DeclConfig) (t : Ty) (c ni : Bool) (i : Option Str)
    (h : NoVoidParam cfg t) (hi : ni = true → i.isSome) :
    readDecl (fuelFor ((CDecl.buildType cfg t c).write cfg i)) ni
        ((CDecl.buildType cfg t c).write cfg i) =
      some ((i, (CDecl.buildType cfg t c).den cfg), []) := by
  have := declReads cfg (CDecl.buildType cfg t c) ni (build_ok cfg t c ni h) i
    (fuelFor ((CDecl.buildType cfg t c).write cfg i)) [] hi (by simp [Stop]) (by unfold fuelFor; omega)
  simpa using this

/-- **C01.** The declaration written for a field, static or typedef of any Rust type, read by the C
declarator rules, declares exactly the given identifier, with the C type of the Rust type
(`meaning`), `const` included everywhere except directly on a pointer to a function. -/
theorem C01_field_reads_back (cfg : DeclConfig) (t : Ty) (ident : Str) (h : NoVoidParam cfg t) :
    ∃ ty, readNamed (writeField cfg t ident) = some (ident, ty) ∧
      ty.forgetFnPtr = (meaning cfg false t).forgetFnPtr := by
  refine ⟨(CDecl.buildType cfg t false).den cfg, ?_, den_forget cfg t false⟩
  unfold readNamed writeField CDecl.fromType
  rw [readDecl_build cfg t false true (some ident) h (by simp)]

/-- **C41 (partial).** If no function pointer sits behind a `*const`/`&` and the nullability
attributes do not distinguish function pointers, the declared type is the C type of the Rust type
exactly, with no exception for function pointers.
Missing: the two excluded situations, for which the claim is false, see
`C41_const_fnptr_loses_const` and `C41_nonnull_fnptr_marked_nullable`. -/
theorem C41_field_reads_back_exactly_partial (cfg : DeclConfig) (t : Ty) (ident : Str)
    (h : NoVoidParam cfg t) (hp : FnPtrPlain cfg false t) :
    readNamed (writeField cfg t ident) = some (ident, meaning cfg false t) := by
  unfold readNamed writeField CDecl.fromType
  rw [readDecl_build cfg t false true (some ident) h (by simp), den_plain cfg t false hp]

/-- `*const extern "C" fn()`: a pointer to a constant function pointer. -/
def ptrToConstFn : Ty := .ptr (.fnptr (.prim .void) [] false false) true true false

/-- **C41 (refuted).** A pointer to a constant function pointer is written without the `const`. -/
theorem C41_const_fnptr_loses_const :
    ∃ (cfg : DeclConfig) (t : Ty) (ident : Str), NoVoidParam cfg t ∧
      ∃ ty, readNamed (writeField cfg t ident) = some (ident, ty) ∧ ty ≠ meaning cfg false t := by
  refine ⟨{}, ptrToConstFn, c!"f", ?_, .ptr false false none (.ptr false false none
    (.fn [] none (.base false none c!"void" []))), ?_, ?_⟩
  · simp [ptrToConstFn, NoVoidParam, NoVoidParamArgs, meaningArgs, isVoidList]
  · rfl
  · simp [ptrToConstFn, meaning]

/-- **C41 (refuted).** With distinct nullability attributes, a function pointer that can never be
null is declared with the attribute for pointers that may be null. -/
theorem C41_nonnull_fnptr_marked_nullable :
    ∃ (cfg : DeclConfig) (t : Ty) (ident : Str), NoVoidParam cfg t ∧
      meaning cfg false t = .ptr false false (some c!"_Nonnull")
        (.fn [] none (.base false none c!"void" [])) ∧
      readNamed (writeField cfg t ident) = some (ident, .ptr false false (some c!"_Nullable")
        (.fn [] none (.base false none c!"void" []))) := by
  refine ⟨{ nonNullAttr := some c!"_Nonnull", nullableAttr := some c!"_Nullable" },
    .fnptr (.prim .void) [] false false, c!"f", ?_, ?_, ?_⟩
  · simp [NoVoidParam, NoVoidParamArgs, meaningArgs, isVoidList]
  · rfl
  · rfl

/-! ### C02 -/

/-- Every argument with an array length is a pointer. -/
def ArrayLengthsOnPtrs (f : Fn) : Prop :=
  ∀ a ∈ f.args, a.arrayLength.isSome → ∃ t c n r, a.ty = .ptr t c n r

/-- The side condition of C02: no bare `void` parameter, at any depth. -/
def FnNoVoidParam (cfg : DeclConfig) (f : Fn) : Prop :=
  ¬ isVoidList (f.args.map (meaningFnArg cfg)) ∧ NoVoidParam cfg f.ret ∧
    ∀ a ∈ f.args, NoVoidParam cfg a.ty

theorem fromFuncArg_spec (cfg : DeclConfig) (a : FnArg)
    (h : a.arrayLength.isSome → ∃ t c n r, a.ty = .ptr t c n r) (hv : NoVoidParam cfg a.ty) :
    ∃ d, CDecl.fromFuncArg cfg a.ty a.arrayLength = some d ∧ CDecl.ok cfg false d ∧
      CTy.forgetParams [.mk a.name (d.den cfg)] = CTy.forgetParams [meaningFnArg cfg a] := by
  obtain ⟨n, ty, al⟩ := a
  cases al with
  | none =>
    refine ⟨_, rfl, build_ok cfg ty false false hv, ?_⟩
    simp [CTy.forgetParams, meaningFnArg, CDecl.fromType, den_forget]
  | some l =>
    obtain ⟨t, c, n', r, rfl⟩ := h rfl
    refine ⟨_, rfl, build_ok cfg _ c false (by simpa [NoVoidParam] using hv), ?_⟩
    simp [CTy.forgetParams, meaningFnArg, CDecl.buildType, den_push_array, CTy.forgetFnPtr,
      den_forget, CExpr.asStr]

theorem buildArgs_spec (cfg : DeclConfig) : ∀ (as : List FnArg),
    (∀ a ∈ as, a.arrayLength.isSome → ∃ t c n r, a.ty = .ptr t c n r) →
    (∀ a ∈ as, NoVoidParam cfg a.ty) →
    ∃ ds, CDecl.buildArgs cfg as = some ds ∧ CDecl.okArgs cfg ds ∧
      CTy.forgetParams (CDecl.denArgs cfg ds) = CTy.forgetParams (as.map (meaningFnArg cfg))
  | [], _, _ => ⟨[], rfl, by simp [CDecl.okArgs], by simp [CDecl.denArgs]⟩
  | a :: as, h1, h2 => by
    obtain ⟨d, hd1, hd2, hd3⟩ := fromFuncArg_spec cfg a (h1 a (by simp)) (h2 a (by simp))
    obtain ⟨ds, hds1, hds2, hds3⟩ := buildArgs_spec cfg as (fun b hb => h1 b (by simp [hb]))
      (fun b hb => h2 b (by simp [hb]))
    refine ⟨.mk a.name d :: ds, by simp [CDecl.buildArgs, hd1, hds1], ⟨hd2, hds2⟩, ?_⟩
    have hc : ∀ x xs, CTy.forgetParams (x :: xs) = CTy.forgetParams [x] ++ CTy.forgetParams xs := by
      intro x xs; obtain ⟨⟩ := x; simp [CTy.forgetParams]
    rw [CDecl.denArgs, List.map_cons, hc, hc (meaningFnArg cfg a), hd3, hds3]

/-- **C02.** The prototype written for a function, read by the C declarator rules, declares a
function with that name, the same parameters in the same order (names and C types) and the same
return type; qualifiers on pointers to functions excepted as in C01. -/
theorem C02_function_reads_back (cfg : DeclConfig) (f : Fn) (ha : ArrayLengthsOnPtrs f)
    (hv : FnNoVoidParam cfg f) :
    ∃ ts ty, writeFunc cfg f = some ts ∧ readNamed ts = some (f.name, ty) ∧
      ty.forgetFnPtr = (meaningFn cfg f).forgetFnPtr := by
  obtain ⟨ds, h1, h2, h3⟩ := buildArgs_spec cfg f.args ha hv.2.2
  have hne : CDecl.denArgs cfg ds ≠ voidParams := by
    intro he
    apply hv.1
    apply forgetParams_eq_void
    rw [← h3, he]
    simp [voidParams, CTy.forgetParams, CTy.forgetFnPtr, CTy.forgetTyArgs]
  have hok := ok_push_func cfg _ ds f.neverReturn (build_ok cfg f.ret false false hv.2.1) hne h2
  refine ⟨_, ((CDecl.buildType cfg f.ret false).push (.func ds f.neverReturn)).den cfg,
    by simp [writeFunc, CDecl.fromFunc, h1]; rfl, ?_, ?_⟩
  · unfold readNamed
    have := declReads cfg _ true hok (some f.name)
      (fuelFor (((CDecl.buildType cfg f.ret false).push (.func ds f.neverReturn)).write cfg
        (some f.name))) [] (by simp) (by simp [Stop]) (by unfold fuelFor; omega)
    rw [List.append_nil] at this
    rw [this]
  · rw [den_push_func, meaningFn, CTy.forgetFnPtr, CTy.forgetFnPtr, h3, den_forget]

/-- **C02.** A function without parameters is written with `(void)` directly after its name in C. -/
theorem C02_no_params_void (cfg : DeclConfig) (f : Fn) (hf : f.args = []) (hc : cfg.language = .c) :
    ∃ before after, writeFunc cfg f =
      some (before ++ [.name f.name, .lparen, .name c!"void", .rparen] ++ after) := by
  obtain ⟨name, ret, args, never⟩ := f
  simp only at hf
  subst hf
  rcases hb : CDecl.buildType cfg ret false with ⟨q, k, n, g, ds⟩
  refine ⟨constToks q ++ ctypeToks cfg k ++ [Tok.name n] ++ CDecl.writeGArgList cfg g ++
    leftPart cfg (ds.reverse ++ [.func [] never]), noReturnAttr cfg never ++
    CDecl.rightPart cfg true ds, ?_⟩
  simp [writeFunc, CDecl.fromFunc, CDecl.buildArgs, hb, CDecl.push, CDecl.write,
    CDecl.rightPart, CDecl.writeArgList, closeParen, identToks, hc]

/-! ### C03 -/

/-- **C03.** A type written without identifier, read as a C type name, is the C type of the Rust
type (qualifiers on pointers to functions excepted as in C01). -/
theorem C03_type_name_reads_back (cfg : DeclConfig) (t : Ty) (h : NoVoidParam cfg t) :
    ∃ ty, readTypeName (writeType cfg t) = some ty ∧
      ty.forgetFnPtr = (meaning cfg false t).forgetFnPtr := by
  refine ⟨(CDecl.buildType cfg t false).den cfg, ?_, den_forget cfg t false⟩
  unfold readTypeName writeType CDecl.fromType
  rw [readDecl_build cfg t false false none h (by simp)]

/-- **C03.** Types with different C meanings are never written identically. -/
theorem C03_injective (cfg : DeclConfig) (t u : Ty) (ht : NoVoidParam cfg t)
    (hu : NoVoidParam cfg u) (h : writeType cfg t = writeType cfg u) :
    (meaning cfg false t).forgetFnPtr = (meaning cfg false u).forgetFnPtr := by
  obtain ⟨a, ha1, ha2⟩ := C03_type_name_reads_back cfg t ht
  obtain ⟨b, hb1, hb2⟩ := C03_type_name_reads_back cfg u hu
  rw [h, hb1] at ha1
  cases ha1
  exact ha2.symm.trans hb2

/-! ### The hypotheses are met by non-trivial cases -/

/-- `*const [Option<extern "C" fn(x: i32, *mut Foo<u8>) -> *const i32>; 3]` -/
def exampleTy : Ty :=
  .ptr (.array (.fnptr (.ptr (.prim (.integer true true .b32)) true true false)
    [.mk (some c!"x") (.prim (.integer true true .b32)),
     .mk none (.ptr (.path c!"Foo" c!"Foo" [.type (.prim (.integer true false .b8))] (some .struct))
       false true false)] true false) (.value c!"3")) false true false

example : NoVoidParam {} exampleTy := by
  simp [exampleTy, NoVoidParam, NoVoidParamArgs, NoVoidParamGArgs, meaningArgs, isVoidList]
example : FnPtrPlain {} false exampleTy := by
  simp [exampleTy, FnPtrPlain, FnPtrPlainArgs, FnPtrPlainGArgs]
/-- `const int32_t *(*(*x)[3])(int32_t x, struct Foo<uint8_t> *)` -/
example : writeField {} exampleTy c!"v" =
    [.kwConst, .name c!"int32_t", .star, .lparen, .star, .lparen, .star, .name c!"v", .rparen,
     .lbrack, .lit c!"3", .rbrack, .rparen, .lparen, .name c!"int32_t", .name c!"x", .comma,
     .kwTag .struct, .name c!"Foo", .lt, .name c!"uint8_t", .gt, .star, .rparen] := by rfl

/-- `fn f(a: *const u8 /* [4] */, ...) -> i32` -/
def exampleFn : Fn :=
  { name := c!"f", ret := .prim (.integer true true .b32)
    args := [{ name := some c!"a", ty := .ptr (.prim (.integer true false .b8)) true true false,
               arrayLength := some c!"4" }, { name := none, ty := .prim .vaList }] }

example : ArrayLengthsOnPtrs exampleFn ∧ FnNoVoidParam {} exampleFn := by
  constructor
  · simp [ArrayLengthsOnPtrs, exampleFn]
  · simp [FnNoVoidParam, exampleFn, NoVoidParam, isVoidList]

end Cbindgen
