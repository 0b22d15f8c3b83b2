import Verif.Props.SourceGenerics
import Verif.Props.SourceStaticCases
import Verif.Props.Loaded
import Verif.Spec.Mangle

/-! # The names of instances, cases for C71, and programs for which it is false -/

namespace Cbindgen
open CSpec HeadSpec ScopeSpec LexSpec MonoSpec
open SrcSpec hiding Reaches Given Plain

/-! ## Names -/

/-- `NamedArgs as ns`: the generic arguments are the types named `ns`, which are primitive types of Rust or definitions. -/
inductive SrcSpec.NamedArgs : List SynGArg → List Str → Prop
  | nil : NamedArgs [] []
  | lifetime {as ns} : NamedArgs as ns → NamedArgs (.lifetime :: as) ns
  | type {n no as ns} : NoArgs no → (unraw n ∈ MangleSpec.primNames ∨ unraw n ∉ builtin) → NamedArgs as ns →
      NamedArgs (.type (.path n no) :: as) (unraw n :: ns)

/-- The name of the first argument after one underscore, and the others after two. -/
def SrcSpec.joined : List Str → Str
  | [] => []
  | n :: ns => c!"_" ++ n ++ (ns.map fun x => c!"__" ++ x).flatten

theorem primNames_load : ∀ n ∈ MangleSpec.primNames, ∃ p, Prim.maybe n = some p ∧ p.toReprRust = n := by
  intro n hn
  simp only [MangleSpec.primNames, List.mem_cons, List.not_mem_nil, or_false] at hn
  rcases hn with h | h | h | h | h | h | h | h | h | h | h | h | h | h <;> (subst h; exact ⟨_, rfl, rfl⟩)

theorem namedArg_load {n : Str} {no : SynArgs} (ha : NoArgs no) (h : unraw n ∈ MangleSpec.primNames ∨ unraw n ∉ builtin)
    (o : Option Str) {f : CaseFns} {mc : MangleConfig} (hr : mc.renameTypes = .none) :
    ∃ ty, (SynTy.path n no).load = .ok (some ty) ∧ ∀ a b, (ty.shape o).mangle f mc a b = unraw n := by
  rcases h with h | h
  · obtain ⟨p, h1, h2⟩ := primNames_load _ h
    refine ⟨_, load_maybe ha h1, fun a b => ?_⟩
    rw [shape_prim, Ty.mangle, hr, h2]
    simp only [RenameRule.apply]
    split
    · rename_i h; exact h.symm
    · rfl
  · have hm : Prim.maybe (unraw n) = none := by
      cases hm : Prim.maybe (unraw n) with
      | none => rfl
      | some p => exact absurd (known_prim _ (by simp [hm])) h
    refine ⟨_, load_named ha (fun he => h (he ▸ builtin_phantom.1)) (fun he => h (he ▸ builtin_phantom.2.1)) hm, fun a b => ?_⟩
    rw [shape_named (n := unraw n) (fun he => h (he ▸ builtin_phantom.2.2)), Ty.newPath, Ty.mangle, hr, GArg.mangleTail, List.append_nil]
    simp only [RenameRule.apply]
    split
    · rename_i h; exact h.symm
    · rfl

theorem namedArgs_load {as : List SynGArg} {ns : List Str} (h : NamedArgs as ns) (o : Option Str) {f : CaseFns}
    {mc : MangleConfig} (hr : mc.renameTypes = .none) (hu : mc.removeUnderscores = false) :
    ∃ gs, SynGArg.loadList as = .ok gs ∧ GArg.mangleRest f mc true (gs.map (GArg.shape o)) = (ns.map fun x => c!"__" ++ x).flatten ∧
      GArg.mangleTail f mc true (gs.map (GArg.shape o)) = SrcSpec.joined ns ∧ (ns ≠ [] → gs ≠ []) := by
  induction h with
  | nil => exact ⟨[], rfl, rfl, rfl, fun h => absurd rfl h⟩
  | lifetime _ ih =>
    obtain ⟨gs, h1, h2⟩ := ih
    exact ⟨gs, by simp only [SynGArg.loadList, SynGArg.load, h1, bind, Except.bind, consOpt], h2⟩
  | type ha hn _ ih =>
    obtain ⟨gs, h1, h2, -⟩ := ih
    obtain ⟨ty, h3, h4⟩ := namedArg_load ha hn o (f := f) hr
    refine ⟨.type ty :: gs, ?_, ?_, ?_, fun _ => List.cons_ne_nil _ _⟩
    · simp only [SynGArg.loadList, SynGArg.load, h1, h3, bind, Except.bind, consOpt, Option.map]
    · simp only [List.map_cons, GArg.mangleRest, GArg.shape, GArg.mangle, h4, h2, MangleConfig.sep, hu, List.flatten_cons]
      rfl
    · simp only [List.map_cons, GArg.mangleTail, GArg.shape, GArg.mangle, h4, h2, MangleConfig.sep, MangleConfig.sepUnless, hu,
        SrcSpec.joined]
      simp only [if_true, List.append_nil]
      rfl

/-- **C71.** With the default mangling, the instance of a generic definition `n` of the tables for types with names is
called `n`, an underscore, and the names with two underscores between them. -/
theorem C71_name {c : LibConfig} {l : Library} {o : Option Str} {n m : Str} {as : List SynGArg} {ns : List Str}
    (hr : c.export_.mangle.renameTypes = .none) (hu : c.export_.mangle.removeUnderscores = false) (h : NamedArgs as ns)
    (hne : ns ≠ []) (hk : (l.getItems c n).isSome = true) :
    InstanceName c l o n (.angle as) m ↔ m = n ++ SrcSpec.joined ns := by
  obtain ⟨gs, h1, -, h2, h3⟩ := namedArgs_load h o (f := c.caseFns) hr hu
  have key : c.manglePath n (gs.map (GArg.shape o)) = n ++ SrcSpec.joined ns := by
    rw [LibConfig.manglePath, mangleName, h2]
  constructor
  · rintro ⟨gs', j1, _, rfl, _⟩
    have : gs' = gs := by
      rw [SynArgs.load, h1] at j1
      exact (Except.ok.inj j1).symm
    rw [this, key]
  · rintro rfl
    exact ⟨gs, h1, h3 hne, key.symm, hk⟩

/-! ## Cases -/

namespace GenericCases

open LoadedCases (fields fn inputs config g u32 takes lib gu bindings built generated)
open SourceCases (R pc)
open ScopeCases (ident)

def env : Env := { cfg := { language := .c } }
def on : Str → Bool := fun _ => false
def rust : CfgSpec.Opt → Bool := fun _ => false

/-- The tables with the instance. -/
def lib₁ : Library :=
  { structs := [(c!"G_u32", .single (gu c!"G_u32" none))], functions := [takes (.newPath c!"G_u32" [])] }

theorem expanded (f : CaseFns) : (((lib.transferAnnotations id).simplify (config f)).sortFunctions (config f)).expand (config f) 2 =
    .ok lib₁ := rfl

theorem opts : OptsFine env.cfg R [] where
  lang := rfl
  names := nofun
  asked := nofun
  dialect :=
    { known := ⟨nofun, by decide, by decide, by decide⟩
      macros := nofun
      apart := by decide
      noTypedef := by decide
      noExtern := by decide }

theorem fits : CfgSpec.Matches env.cfg.defines rust on := nofun

theorem bindings_good : HeaderGood R on [] env bindings where
  options := opts
  cpp := nofun
  spaces := nofun
  version := ⟨nofun, nofun⟩
  guard := nofun
  header := nofun
  autogen := nofun
  after := nofun
  trailer := nofun
  sys := nofun
  quoted := nofun
  constants := nofun
  globals := nofun
  items := by
    intro x hx _
    simp only [bindings, List.mem_singleton] at hx
    subst hx
    exact {
      name := ident (n := c!"PG_u32") (by decide)
      attrs := by
        intro o ho
        simp only [structAttrs, List.mem_cons, List.not_mem_nil, or_false] at ho
        rcases ho with rfl | rfl | rfl <;> exact nofun
      fields := by
        intro x hx
        simp only [gu, List.mem_cons, List.not_mem_nil, or_false] at hx
        rcases hx with rfl | rfl
        · exact ⟨ident (n := c!"x") (by decide), trivial, trivial, nofun, nofun⟩
        · exact ⟨ident (n := c!"next") (by decide), ⟨ident (n := c!"PG_u32") (by decide), trivial⟩, trivial, nofun, nofun⟩
      bodies := ⟨nofun, nofun⟩
      doc := nofun
      consts := nofun }
  functions := by
    intro f hf _
    simp only [bindings, List.mem_singleton] at hf
    subst hf
    exact {
      name := ident (n := c!"f") (by decide)
      ret := trivial
      args := by
        intro a ha
        simp only [takes, ScopeCases.takes, List.mem_singleton] at ha
        subst ha
        exact ⟨fun n hn => by cases hn; exact ident (by decide), ⟨ident (n := c!"PG_u32") (by decide), trivial⟩, nofun⟩
      lengths := by
        intro a ha hl
        simp only [takes, ScopeCases.takes, List.mem_singleton] at ha
        subst ha
        simp at hl
      params := by
        refine ⟨by simp [takes, ScopeCases.takes, isVoidList, meaningFnArg, ScopeCases.ptr], trivial, ?_⟩
        intro a ha
        simp only [takes, ScopeCases.takes, List.mem_singleton] at ha
        subst ha
        trivial
      attrs := by
        intro o ho
        simp only [funcAttrs, funcPost, takes, ScopeCases.takes, Bool.false_eq_true, if_false, List.cons_append,
          List.nil_append, List.mem_cons, List.not_mem_nil, or_false] at ho
        rcases ho with rfl | rfl | rfl | rfl | rfl <;> exact nofun
      doc := nofun }

theorem plain : InputsPlain inputs where
  srcs := by
    intro name is h
    simp only [inputs, List.mem_singleton, Prod.mk.injEq, Option.some.injEq] at h
    obtain ⟨_, rfl⟩ := h
    refine ⟨⟨trivial, trivial, trivial⟩, ⟨trivial, ?_, trivial⟩⟩
    show ParserSpec.UnsafeOne _
    intro args h
    simp [fn, noMangle] at h
  lib := by
    intro ws root p is h
    simp [inputs] at h

theorem onePath : OnePath pc inputs where
  names := by
    intro ws root p q cs cs' h
    simp [inputs] at h
  paths := by
    intro ws root p cs cs' h
    simp [inputs] at h

theorem given : SrcSpec.Given pc inputs (.fn c!"f" none false fn) [] := by
  refine .src (name := c!"lib") (is := [.struct LoadedCases.struct, .fn fn]) (by simp [inputs]) ?_
  refine Occurs.here (i := .fn fn) (by simp) ?_ ?_
  · simp [Hidden, ParserSpec.Ignored, FItem.attrs, fn, noMangle]
  · exact Declares.fn (Or.inl rfl) (Or.inr (Or.inl rfl)) (Or.inr ⟨by decide, Or.inl (by simp [fn, noMangle]), rfl⟩)

/-- `fn f(x: *mut G_u32)` -/
def sig' : SynSig := { fn.sig with inputs := [.ident c!"x" (.ptr false (.path c!"G_u32" .none))] }

theorem instance_name (f : CaseFns) : InstanceName (config f) lib none c!"G" (.angle [.type (.path c!"u32" .none)]) c!"G_u32" :=
  (C71_name (ns := [c!"u32"]) rfl rfl (.type (n := c!"u32") .none (.inl (by decide)) .nil) (by simp) rfl).2 rfl

theorem out (f : CaseFns) : SigOut (InstanceName (config f) lib none) fn.sig sig' where
  inputs := .ident (.raw (.inst (instance_name f) (by decide) (by decide) (by decide) (by decide))) .nil
  output := .default
  variadic := rfl

/-- The type in C: `void f(struct PG_u32 *x)`. -/
def cty : CTy := .fn [.mk (some c!"x") (.ptr false false none (.base false (some .struct) c!"PG_u32" []))] none (cname false c!"void")

theorem typed (f : CaseFns) : CFn (envOf (config f) env.cfg (tagFor (config f) lib₁) .none none) sig' cty := by
  have h : Params (envOf (config f) env.cfg (tagFor (config f) lib₁) .none none) sig'.inputs
      [.mk (some c!"x") (.ptr false false none (.base false (some .struct) c!"PG_u32" []))] :=
    .ident (n := c!"x") (.raw (.some (.named (n := c!"G_u32") (by decide) .none))) (fun h => h) .nil
  exact .mk h .default

end GenericCases

open GenericCases LoadedCases in
/-- A case for C71: a generic struct, and a function with a pointer to an instance.  All hypotheses hold. -/
example (f : CaseFns) : ∃ t, headerText GenericCases.env bindings = some t ∧
    ∃ o attrs, readHeader SourceCases.R on t = some o ∧ .object false attrs c!"f" cty.forgetFnPtr [] ∈ o.items := by
  obtain ⟨t, ht⟩ := Option.isSome_iff_exists.1 (show (headerText GenericCases.env bindings).isSome = true by decide +kernel)
  refine ⟨t, ht, C71_function_partial (LoadedCases.built f) (fun fs => List.Perm.refl fs) GenericCases.plain GenericCases.onePath rfl
    (LoadedCases.generated f) (GenericCases.expanded f) rfl GenericCases.bindings_good ht nofun GenericCases.fits GenericCases.given
    nofun nofun ?_ (a := {}) rfl rfl rfl (rule := .none) rfl (GenericCases.out f) (GenericCases.typed f)⟩
  exact List.not_mem_nil

/-! ## Programs for which the claim is false -/

namespace GenericCases

/-- Tables are compared one by one. -/
theorem library_ext {a b : Library} (h1 : a.constants = b.constants) (h2 : a.globals = b.globals) (h3 : a.enums = b.enums)
    (h4 : a.structs = b.structs) (h5 : a.unions = b.unions) (h6 : a.opaqueItems = b.opaqueItems) (h7 : a.typedefs = b.typedefs)
    (h8 : a.functions = b.functions) : a = b := by
  cases a; cases b; simp_all

/-- The tables, if there are some. -/
def tables : MonoM Library → Library
  | .ok l => l
  | .error _ => {}

/-- `#[repr(C)] pub struct S<T> { x: T, next: *mut Self }` -/
def withSelf : SynStruct :=
  ⟨c!"S", [.type c!"T" none], .named [⟨some c!"x", .path c!"T" .none, []⟩, ⟨some c!"next", .ptr false (.path c!"Self" .none), []⟩],
    [DefCases.reprC]⟩

/-- `#[no_mangle] pub extern "C" fn f(x: *mut t) {}` -/
def takesTy (t : SynTy) : SynFn :=
  ⟨{ ident := c!"f", abi := .named c!"C", inputs := [.ident c!"x" (.ptr false t)] }, [{ attr := noMangle }]⟩

def ofS : SynFn := takesTy (.path c!"S" (.angle [.type (.path c!"u32" .none)]))

/-- `S<T>` as it is loaded, and the instance. -/
def selfG : StructItem :=
  { path := c!"S", exportName := c!"S", genericParams := [{ name := c!"T" }],
    fields := [{ name := c!"x", ty := .newPath c!"T" [] }, { name := c!"next", ty := .ptr (.newPath c!"S" []) false true false }] }
def selfI : StructItem :=
  { path := c!"S_u32", exportName := c!"S_u32",
    fields := [{ name := c!"x", ty := LoadedCases.u32 }, { name := c!"next", ty := .ptr (.newPath c!"S" []) false true false }] }

def selfB : Bindings := ⟨[], [], [.struct selfI], [LoadedCases.takes (ScopeCases.tagged c!"S_u32")]⟩

/-- `#[repr(C)] pub struct O<T> { x: Option<T> }` -/
def withOption : SynStruct :=
  ⟨c!"O", [.type c!"T" none], .named [⟨some c!"x", .path c!"Option" (.angle [.type (.path c!"T" .none)]), []⟩], [DefCases.reprC]⟩

/-- `O<&u8>` -/
def ofO : SynFn := takesTy (.path c!"O" (.angle [.type (.reference false (.path c!"u8" .none))]))

def u8 : Ty := .prim (.integer true false .b8)
def refU8 : Ty := .ptr u8 true false false
def optionG : StructItem :=
  { path := c!"O", exportName := c!"O", genericParams := [{ name := c!"T" }],
    fields := [{ name := c!"x", ty := .newPath c!"Option" [.type (.newPath c!"T" [])] }] }
def optionI : StructItem :=
  { path := c!"O______u8", exportName := c!"O______u8", fields := [{ name := c!"x", ty := .newPath c!"Option" [.type refU8] }] }

def optionB : Bindings := ⟨[], [], [.struct optionI], [LoadedCases.takes (ScopeCases.tagged c!"O______u8")]⟩

def selfL : Library := { structs := [(c!"S", .single selfG)], functions := [LoadedCases.takes (.newPath c!"S" [.type LoadedCases.u32])] }
def selfL' : Library :=
  { structs := [(c!"S_u32", .single selfI)], functions := [LoadedCases.takes (ScopeCases.tagged c!"S_u32")] }

set_option maxHeartbeats 1000000 in
theorem self_prepared (f : CaseFns) : selfL.prepare (plainConfig .c f) id 2 = .ok selfL' := by
  have h : selfL.prepare (plainConfig .c f) id 2 = .ok (tables (selfL.prepare (plainConfig .c f) id 2)) := rfl
  rw [h]
  exact congrArg _ (library_ext rfl rfl rfl rfl rfl rfl rfl rfl)

theorem self_generated (f : CaseFns) : selfL.generate (plainConfig .c f) id 2 = .ok selfB := by
  refine Library.generate_of (l' := selfL') (self_prepared f) ?_
  rw [DetSpec.collect_of (d := ⟨[.struct selfI], [c!"S_u32"]⟩) rfl]
  simp only [DetSpec.bindingsOf]
  rw [sortItems_rest (by decide)]
  rfl

def optionL : Library := { structs := [(c!"O", .single optionG)], functions := [LoadedCases.takes (.newPath c!"O" [.type refU8])] }
def optionL' : Library :=
  { structs := [(c!"O______u8", .single optionI)], functions := [LoadedCases.takes (ScopeCases.tagged c!"O______u8")] }

set_option maxHeartbeats 1000000 in
theorem option_prepared (f : CaseFns) : optionL.prepare (plainConfig .c f) id 2 = .ok optionL' := by
  have h : optionL.prepare (plainConfig .c f) id 2 = .ok (tables (optionL.prepare (plainConfig .c f) id 2)) := rfl
  rw [h]
  exact congrArg _ (library_ext rfl rfl rfl rfl rfl rfl rfl rfl)

theorem option_generated (f : CaseFns) : optionL.generate (plainConfig .c f) id 2 = .ok optionB := by
  refine Library.generate_of (l' := optionL') (option_prepared f) ?_
  rw [DetSpec.collect_of (d := ⟨[.struct optionI], [c!"O______u8"]⟩) rfl]
  simp only [DetSpec.bindingsOf]
  rw [sortItems_rest (by decide)]
  rfl

end GenericCases

open GenericCases StaticCases in
/-- `Self` in a generic struct is not the instance: the field that points to the struct itself points to a type that the
header does not declare. -/
theorem C71_self_refuted (f : CaseFns) : ∃ l b t,
    buildLibrary SourceCases.pc { caseFns := f } 1 { srcs := [(c!"lib", some [.struct withSelf, .fn ofS])] } = .ok l ∧
    l.generate (plainConfig .c f) id 2 = .ok b ∧ headerText GenericCases.env b = some t ∧
    contains c!"typedef struct S_u32 {\n  uint32_t x;\n  S *next;\n} S_u32;" t = true ∧ ∀ x ∈ b.items, x.path ≠ c!"S" := by
  exact ⟨selfL, selfB, _, rfl, self_generated f,
    (Option.some_get (show (headerText GenericCases.env selfB).isSome = true by decide +kernel)).symm, by decide +kernel, by decide +kernel⟩

open GenericCases StaticCases in
/-- A parameter in an `Option` that stands for a reference: the field is not a pointer, but has a type that is not C. -/
theorem C71_option_refuted (f : CaseFns) : ∃ l b t,
    buildLibrary SourceCases.pc { caseFns := f } 1 { srcs := [(c!"lib", some [.struct withOption, .fn ofO])] } = .ok l ∧
    l.generate (plainConfig .c f) id 2 = .ok b ∧ headerText GenericCases.env b = some t ∧
    contains c!"typedef struct O______u8 {\n  Option<const uint8_t*> x;\n} O______u8;" t = true := by
  exact ⟨optionL, optionB, _, rfl, option_generated f,
    (Option.some_get (show (headerText GenericCases.env optionB).isSome = true by decide +kernel)).symm, by decide +kernel⟩

end Cbindgen
