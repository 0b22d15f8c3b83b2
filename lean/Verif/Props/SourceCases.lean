import Verif.Props.Source
import Verif.Props.ScopeCases
import Verif.Props.Parser

/-! # A case for C63 -/

namespace Cbindgen
open CSpec HeadSpec ScopeSpec LexSpec
open SrcSpec hiding Reaches Given Plain

namespace SourceCases

/-- `#[no_mangle] pub extern "C" fn f(x: *mut A) {}` -/
def fn : SynFn :=
  ⟨{ ident := c!"f", abi := .named c!"C", inputs := [.ident c!"x" (.ptr false (.path c!"A" .none))] }, [{ attr := noMangle }]⟩

/-- `#[repr(C)] struct A { x: i32, y: i32 }` -/
def struct : SynStruct :=
  ⟨c!"A", [], .named [⟨some c!"x", .path c!"i32" .none, []⟩, ⟨some c!"y", .path c!"i32" .none, []⟩],
    [{ attr := .repr (some [.path c!"C"]) }]⟩

/-- A file with the struct, and with `#[cfg(unix)] mod m { .. }` around the function. -/
def items : List FItem := [.struct struct, .mod [{ attr := cfgUnix }] .found [.fn fn]]

def inputs : Inputs := { stdTypes := true, srcs := [(c!"lib", some items)] }
def pc : ParseConfig := { bindingCrate := [] }

def unix : Option Cfg := some (.all [.boolean c!"unix"])

open ScopeCases in
/-- The function as it is loaded, and as it is written. -/
def takesA (t : Ty) : FuncItem := { takes t with cfg := unix }

def i32 : Ty := .prim (.integer true true .b32)
def a : StructItem := ScopeCases.struct2 c!"A" c!"x" c!"y" i32 i32

def lib : Library := { Library.addStdTypes {} with structs := [(c!"A", .single a)], functions := [takesA (ScopeCases.ref c!"A")] }
/-- The library after the instances are made: of the types of the standard library, those without parameters are left. -/
def lib₁ : Library := { lib with opaqueItems := lib.opaqueItems.take 1 }
def lib' : Library := { lib₁ with functions := [takesA (ScopeCases.tagged c!"A")] }
def bindings : Bindings := ⟨[], [], [.struct a], [takesA (ScopeCases.tagged c!"A")]⟩

theorem built (f : CaseFns) : buildLibrary pc { caseFns := f } 1 inputs = .ok lib := rfl

theorem expanded (f : CaseFns) : (((lib.transferAnnotations id).simplify (plainConfig .c f)).sortFunctions (plainConfig .c f)).expand
    (plainConfig .c f) 1 = .ok lib₁ := rfl

theorem generated (f : CaseFns) : lib.generate (plainConfig .c f) id 1 = .ok bindings := by
  refine Library.generate_of (l' := lib') rfl ?_
  rw [DetSpec.collect_of (d := ⟨[.struct a], [c!"A"]⟩) rfl]
  simp only [DetSpec.bindingsOf]
  rw [sortItems_rest (by decide)]
  rfl

/-- Options with a macro for `unix`. -/
def env : Env := { cfg := { language := .c, defines := [(c!"unix", c!"UNIX")] } }
def R : Dialect := {}
def on : Str → Bool := fun n => n == c!"UNIX"
/-- A configuration in which `unix` is set. -/
def rust : CfgSpec.Opt → Bool
  | .flag n => n == c!"unix"
  | _ => false

theorem fits : CfgSpec.Matches env.cfg.defines rust on := by
  intro e he o ho
  simp only [env, List.mem_singleton] at he
  subst he
  cases o with
  | flag n => obtain ⟨_, rfl⟩ := ho; rfl
  | kv n v =>
    obtain ⟨x, y, h, _⟩ := ho
    have : '=' ∈ c!"unix" := by
      simp only at h
      rw [h]; simp
    exact absurd this (by decide)

theorem opts : OptsFine env.cfg R [c!"UNIX"] where
  lang := rfl
  names := by simp only [env, List.mem_singleton]; rintro _ rfl; unfold CfgSpec.GoodName; decide
  asked := by simp only [env, List.mem_singleton]; rintro _ rfl; rfl
  dialect :=
    { known := ⟨nofun, by decide, by decide, by decide⟩
      macros := nofun
      apart := by decide
      noTypedef := by decide
      noExtern := by decide }

open ScopeCases (ident)

/-- The same with the tables of a run. -/
def envWith (ss : ItemMap StructItem) (es : ItemMap EnumItem) (ts : ItemMap TypedefItem) : Env :=
  { env with structs := ss, enums := es, typedefs := ts }

theorem good_with (ss : ItemMap StructItem) (es : ItemMap EnumItem) (ts : ItemMap TypedefItem) :
    HeaderGood R on [c!"UNIX"] (envWith ss es ts) bindings where
  options := opts
  cpp := nofun
  spaces := nofun
  version := ⟨nofun, nofun⟩
  guard := nofun
  header := nofun
  autogen := nofun
  after := nofun
  trailer := nofun
  sys := nofun
  quoted := nofun
  constants := nofun
  globals := nofun
  items := by
    intro x hx _
    simp only [bindings, List.mem_singleton] at hx
    subst hx
    exact {
      name := ident (n := c!"A") (by decide)
      attrs := by
        intro o ho
        simp only [structAttrs, List.mem_cons, List.not_mem_nil, or_false] at ho
        rcases ho with rfl | rfl | rfl <;> exact nofun
      fields := by
        intro x hx
        simp only [a, ScopeCases.struct2, List.mem_cons, List.not_mem_nil, or_false] at hx
        rcases hx with rfl | rfl
        · exact ⟨ident (n := c!"x") (by decide), trivial, trivial, nofun, nofun⟩
        · exact ⟨ident (n := c!"y") (by decide), trivial, trivial, nofun, nofun⟩
      bodies := ⟨nofun, nofun⟩
      doc := nofun
      consts := nofun
      plain := nofun }
  functions := by
    intro f hf _
    simp only [bindings, List.mem_singleton] at hf
    subst hf
    exact {
      name := ident (n := c!"f") (by decide)
      ret := trivial
      args := by
        intro a ha
        simp only [takesA, ScopeCases.takes, List.mem_singleton] at ha
        subst ha
        exact ⟨fun n hn => by cases hn; exact ident (by decide), ⟨ident (n := c!"A") (by decide), trivial⟩, nofun⟩
      lengths := by
        intro a ha hl
        simp only [takesA, ScopeCases.takes, List.mem_singleton] at ha
        subst ha
        simp at hl
      params := by
        refine ⟨by simp [takesA, ScopeCases.takes, isVoidList, meaningFnArg, ScopeCases.ptr], trivial, ?_⟩
        intro a ha
        simp only [takesA, ScopeCases.takes, List.mem_singleton] at ha
        subst ha
        trivial
      attrs := by
        intro o ho
        simp only [funcAttrs, funcPost, takesA, ScopeCases.takes, Bool.false_eq_true, if_false, List.cons_append,
          List.nil_append, List.mem_cons, List.not_mem_nil, or_false] at ho
        rcases ho with rfl | rfl | rfl | rfl | rfl <;> exact nofun
      doc := nofun }

theorem bindings_good : HeaderGood R on [c!"UNIX"] env bindings := good_with [] [] []

theorem plain : InputsPlain inputs where
  srcs := by
    intro name is h
    simp only [inputs, List.mem_singleton, Prod.mk.injEq, Option.some.injEq] at h
    obtain ⟨_, rfl⟩ := h
    refine ⟨⟨trivial, ⟨trivial, trivial⟩, trivial⟩, ⟨trivial, ⟨?_, trivial⟩, trivial⟩⟩
    show ParserSpec.UnsafeOne _
    intro args h
    simp [fn, noMangle] at h
  lib := by
    intro ws root p is h
    simp [inputs] at h

theorem onePath : OnePath pc inputs where
  names := by
    intro ws root p q cs cs' h
    simp [inputs] at h
  paths := by
    intro ws root p cs cs' h
    simp [inputs] at h

theorem given : SrcSpec.Given pc inputs (.fn c!"f" none false fn) [.boolean c!"unix"] := by
  refine .src (name := c!"lib") (is := items) (by simp [inputs]) ?_
  refine Occurs.nested (attrs := [{ attr := cfgUnix }]) (sub := [.fn fn]) (cs := []) (by simp [items]) ?_ ?_
  · simp [Hidden, ParserSpec.Ignored, cfgUnix]
  · refine Occurs.here (i := .fn fn) (by simp) ?_ ?_
    · simp [Hidden, ParserSpec.Ignored, FItem.attrs, fn, noMangle]
    · exact Declares.fn (Or.inl rfl) (Or.inr (Or.inl rfl)) (Or.inr ⟨by decide, Or.inl (by simp [fn, noMangle]), rfl⟩)

/-- The type in C: `void f(struct A *x)`. -/
def cty : CTy := .fn [.mk (some c!"x") (.ptr false false none (.base false (some .struct) c!"A" []))] none (cname false c!"void")

theorem typed (f : CaseFns) : CFn (envOf (plainConfig .c f) env.cfg (tagFor (plainConfig .c f) lib₁) .none none) fn.sig cty := by
  have h : Params (envOf (plainConfig .c f) env.cfg (tagFor (plainConfig .c f) lib₁) .none none) fn.sig.inputs
      [.mk (some c!"x") (.ptr false false none (.base false (some .struct) c!"A" []))] :=
    .ident (n := c!"x") (.raw (.some (.named (n := c!"A") (by decide) .none))) (fun h => h) .nil
  exact .mk h .default

end SourceCases

open SourceCases in
/-- A case for C63: a struct, and a function in a module that is only there on Unix.  All hypotheses hold. -/
example (f : CaseFns) : ∃ t, headerText env bindings = some t ∧
    ∃ o attrs, readHeader R on t = some o ∧ .object false attrs c!"f" cty.forgetFnPtr [] ∈ o.items := by
  obtain ⟨t, ht⟩ := Option.isSome_iff_exists.1 (show (headerText env bindings).isSome = true by decide +kernel)
  refine ⟨t, ht, C63_declared_partial (built f) plain onePath rfl (generated f) (expanded f) rfl bindings_good ht nofun fits given
    ?_ ?_ ?_ (a := {}) rfl rfl rfl (rule := .none) rfl (typed f)⟩
  · intro x hx
    obtain rfl := List.mem_singleton.1 hx
    exact ⟨(c!"unix", c!"UNIX"), by simp [env], by decide, rfl⟩
  · intro x hx
    obtain rfl := List.mem_singleton.1 hx
    rfl
  · exact List.not_mem_nil

open SourceCases in
/-- The same header has no other function, and its parameter has the keyword of the struct. -/
example (f : CaseFns) : ∃ t o, headerText env bindings = some t ∧ readHeader R on t = some o ∧
    (∀ ext attrs bits path ps at' ret, .object ext attrs path (.fn ps at' ret) bits ∈ o.items →
      ∃ owner sf cs, SrcSpec.Given pc inputs (.fn path owner ext sf) cs) ∧
    tagFor (plainConfig .c f) lib₁ c!"A" = some .struct := by
  obtain ⟨t, ht⟩ := Option.isSome_iff_exists.1 (show (headerText env bindings).isSome = true by decide +kernel)
  have hn : NoBlocks R on env.cfg := ⟨rfl, rfl, rfl, rfl, fun _ => rfl, fun _ => rfl⟩
  obtain ⟨o, ho⟩ : ∃ o, readHeader R on t = some o := ⟨_, C61_header_reads_back bindings_good ht⟩
  refine ⟨t, o, ht, ho, ?_, ?_⟩
  · intro ext attrs bits path ps at' ret h
    obtain ⟨owner, sf, cs, _, hg, _⟩ := C63_only_partial (built f) plain rfl (generated f) (expanded f) rfl bindings_good ht hn
      fits ho h
    exact ⟨owner, sf, cs, hg⟩
  · have ht : lib₁.types = [.struct a, .opaque { path := c!"String", exportName := c!"String" }] := rfl
    refine C63_tag_known (x := .struct a) (.head _) ?_ ?_ rfl
    · rw [ht]
      intro x hx y hy h
      simp only [List.mem_cons, List.not_mem_nil, or_false] at hx hy
      rcases hx with rfl | rfl <;> rcases hy with rfl | rfl
      · rfl
      · exact absurd h (by decide)
      · exact absurd h (by decide)
      · rfl
    · rw [ht]
      intro x hx
      simp only [List.mem_cons, List.not_mem_nil, or_false] at hx
      rcases hx with rfl | rfl
      · exact fun h => by cases h
      · trivial

end Cbindgen
