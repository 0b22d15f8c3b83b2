import Verif.Props.SourceCxxDefs
import Verif.Props.SourceCxxCases
import Verif.Props.SourceDefCases

/-! # Cases for C76 -/

namespace Cbindgen
open CSpec HeadSpec LexSpec
open SrcSpec hiding Reaches Given Plain Declares

namespace CxxDefCases
open SourceCases (pc on rust unix i32)
open CxxSourceCases (env R D opts ident fits named)
open DefCases (fn reprC u8 no_bits layout)

/-- `#[repr(C)] struct Pair<'a, T, const N: usize> { x: *mut T, #[cfg(unix)] int: i32, ys: [T; N], #[cfg(not(unix))] z: u8 }` -/
def pair : SynStruct :=
  ⟨c!"Pair", [.lifetime, .type c!"T" none, .const c!"N" (named c!"usize") none],
    .named [⟨some c!"x", .ptr false (named c!"T"), []⟩, ⟨some c!"int", named c!"i32", [{ attr := cfgUnix }]⟩,
      ⟨some c!"ys", .array (named c!"T") (.path [] c!"N" .none), []⟩,
      ⟨some c!"z", named c!"u8", [{ attr := .cfg (some (.not (.boolean c!"unix"))) }]⟩], [reprC]⟩
/-- `type Three<T> = Pair<T, 3>;` -/
def alias : SynAlias :=
  ⟨c!"Three", [.type c!"T" none], .path c!"Pair" (.angle [.type (named c!"T"), .const (.lit (.int 3 []))]), []⟩
/-- `#[repr(transparent)] struct W(Three<u8>);` -/
def wrapper : SynStruct :=
  ⟨c!"W", [], .unnamed [⟨none, .path c!"Three" (.angle [.type (named c!"u8")]), []⟩], [{ attr := .repr (some [.path c!"transparent"]) }]⟩
/-- `#[repr(C)] union U { w: W, p: *mut Self }` -/
def union : SynUnion := ⟨c!"U", [], [⟨some c!"w", named c!"W", []⟩, ⟨some c!"p", .ptr false (named c!"Self"), []⟩], [reprC]⟩
/-- The union and `fn f(x: *mut U)` are in a module with `#[cfg(unix)]`. -/
def items : List FItem :=
  [.alias alias, .struct wrapper, .struct pair, .mod [{ attr := cfgUnix }] .found [.union union, .fn fn]]
def inputs : Inputs := { srcs := [(c!"lib", some items)] }

def T : Ty := ScopeCases.ref c!"T"
def usize : Ty := .prim (.integer true false .size)

def p (n : Str) : StructItem :=
  { path := c!"Pair", exportName := c!"Pair", genericParams := [{ name := c!"T" }, { name := c!"N", constTy := some usize }],
    fields := [{ name := c!"x", ty := ScopeCases.ptr T }, { name := n, ty := i32, cfg := some (.boolean c!"unix") },
      { name := c!"ys", ty := .array T (.path c!"N" c!"N") }, { name := c!"z", ty := u8, cfg := some (.not (.boolean c!"unix")) }] }
def t : TypedefItem :=
  { path := c!"Three", exportName := c!"Three", genericParams := [{ name := c!"T" }],
    aliased := .path c!"Pair" c!"Pair" [.type T, .const (.value c!"3")] none }
def w (n : Str) : StructItem :=
  { path := c!"W", exportName := c!"W", fields := [{ name := n, ty := .path c!"Three" c!"Three" [.type u8] none }], isTransparent := true }
def u : UnionItem :=
  { path := c!"U", exportName := c!"U",
    fields := [{ name := c!"w", ty := ScopeCases.ref c!"W" }, { name := c!"p", ty := ScopeCases.ptr (ScopeCases.ref c!"U") }], cfg := unix }
def f : FuncItem := SourceCases.takesA (ScopeCases.ref c!"U")

def lib : Library :=
  { structs := [(c!"W", .single (w c!"0")), (c!"Pair", .single (p c!"int"))], unions := [(c!"U", .cfg [u])],
    typedefs := [(c!"Three", .single t)], functions := [f] }
def lib' : Library :=
  { structs := [(c!"W", .single (w c!"_0")), (c!"Pair", .single (p c!"int_"))], unions := [(c!"U", .cfg [u])],
    typedefs := [(c!"Three", .single t)], functions := [f] }
def bindings : Bindings := ⟨[], [], [.struct (p c!"int_"), .typedef t, .struct (w c!"_0"), .union u], [f]⟩

theorem built (f : CaseFns) : buildLibrary pc { caseFns := f } 1 inputs = .ok lib := rfl

theorem generated (f : CaseFns) : lib.generate (plainConfig .cxx f) id 1 = .ok bindings := by
  refine Library.generate_of (l' := lib') rfl ?_
  rw [DetSpec.collect_of (d := ⟨[.struct (p c!"int_"), .typedef t, .struct (w c!"_0"), .union u], [c!"Pair", c!"Three", c!"W", c!"U"]⟩) rfl]
  simp only [DetSpec.bindingsOf]
  rw [sortItems_rest (by decide)]
  rfl

theorem param_T : ParamGood R { name := c!"T" } := ⟨by ident_x, nofun, rfl⟩
theorem param_N : ParamGood R { name := c!"N", constTy := some usize } :=
  ⟨by ident_x, fun t ht => by cases ht; exact ⟨_, rfl, by decide⟩, rfl⟩

theorem bindings_good : CxxHeaderGood R on D env bindings where
  options := opts
  lang := rfl
  spaces := by unfold Word; decide
  uses := nofun
  version := by unfold CommentSafe; decide
  guard := nofun
  header := nofun
  autogen := nofun
  after := nofun
  trailer := nofun
  sys := nofun
  quoted := nofun
  constants := nofun
  globals := nofun
  items := by
    intro x hx _
    simp only [bindings, List.mem_cons, List.not_mem_nil, or_false] at hx
    rcases hx with rfl | rfl | rfl | rfl
    · exact {
        name := by ident_x
        attrs := by
          intro o ho
          simp only [structAttrs, List.mem_cons, List.not_mem_nil, or_false] at ho
          rcases ho with rfl | rfl | rfl <;> exact nofun
        fields := by
          intro x hx
          simp only [p, List.mem_cons, List.not_mem_nil, or_false] at hx
          rcases hx with rfl | rfl | rfl | rfl
          · exact ⟨by ident_x, ⟨by ident_x, trivial⟩, trivial, nofun, nofun⟩
          · exact ⟨by ident_x, trivial, trivial, nofun, nofun⟩
          · exact ⟨by ident_x, ⟨by unfold LengthWord Word; decide, by ident_x, trivial⟩, trivial, nofun, nofun⟩
          · exact ⟨by ident_x, trivial, trivial, nofun, nofun⟩
        bodies := ⟨nofun, nofun⟩
        doc := nofun
        consts := nofun
        plain := fun _ => ⟨by
          intro q hq
          simp only [p, List.mem_cons, List.not_mem_nil, or_false] at hq
          rcases hq with rfl | rfl
          · exact param_T
          · exact param_N, rfl, rfl⟩ }
    · exact {
        name := by ident_x
        ty := ⟨by ident_x, ⟨by ident_x, trivial⟩, by unfold Word; decide, trivial⟩
        params := ⟨trivial, trivial⟩
        doc := nofun
        plain := fun _ => by
          intro q hq
          simp only [t, List.mem_singleton] at hq
          subst hq
          exact param_T }
    · exact ⟨{
        name := by ident_x
        ty := ⟨by ident_x, trivial, trivial⟩
        params := ⟨trivial, trivial⟩
        doc := nofun
        plain := fun _ => nofun }, nofun⟩
    · exact {
        name := by ident_x
        attrs := nofun
        fields := by
          intro x hx
          simp only [u, List.mem_cons, List.not_mem_nil, or_false] at hx
          rcases hx with rfl | rfl
          · exact ⟨by ident_x, ⟨by ident_x, trivial⟩, trivial, nofun, nofun⟩
          · exact ⟨by ident_x, ⟨by ident_x, trivial⟩, trivial, nofun, nofun⟩
        bodies := ⟨nofun, nofun⟩
        doc := nofun
        plain := fun _ => nofun }
  functions := by
    intro g hg _
    simp only [bindings, List.mem_singleton] at hg
    subst hg
    exact {
      name := by ident_x
      ret := trivial
      args := by
        intro a ha
        simp only [f, SourceCases.takesA, ScopeCases.takes, List.mem_singleton] at ha
        subst ha
        exact ⟨fun n hn => by cases hn; ident_x, ⟨by ident_x, trivial⟩, nofun⟩
      lengths := by
        intro a ha hl
        simp only [f, SourceCases.takesA, ScopeCases.takes, List.mem_singleton] at ha
        subst ha
        simp at hl
      params := by
        refine ⟨by simp [f, SourceCases.takesA, ScopeCases.takes, isVoidList, meaningFnArg, ScopeCases.ptr], trivial, ?_⟩
        intro a ha
        simp only [f, SourceCases.takesA, ScopeCases.takes, List.mem_singleton] at ha
        subst ha
        trivial
      attrs := by
        intro o ho
        simp only [f, funcAttrs, funcPost, SourceCases.takesA, ScopeCases.takes, Bool.false_eq_true, if_false, List.cons_append,
          List.nil_append, List.mem_cons, List.not_mem_nil, or_false] at ho
        rcases ho with rfl | rfl | rfl | rfl | rfl <;> exact nofun
      doc := nofun }

theorem plain : InputsPlain inputs where
  srcs := by
    intro name is h
    simp only [inputs, List.mem_singleton, Prod.mk.injEq, Option.some.injEq] at h
    obtain ⟨_, rfl⟩ := h
    refine ⟨⟨trivial, trivial, trivial, ⟨trivial, trivial, trivial⟩, trivial⟩, ⟨trivial, trivial, trivial, ⟨trivial, ?_, trivial⟩, trivial⟩⟩
    show ParserSpec.UnsafeOne _
    intro args h
    simp [fn, noMangle] at h
  lib := by
    intro ws root p is h
    simp [inputs] at h

theorem onePath : OnePath pc inputs where
  names := by
    intro ws root p q cs cs' h
    simp [inputs] at h
  paths := by
    intro ws root p cs cs' h
    simp [inputs] at h

/-- All types of the sources, with their conditions. -/
def types : List (Taken × List Cfg) :=
  [(.alias alias, []), (.struct wrapper, []), (.struct pair, []), (.union union, [.boolean c!"unix"])]

theorem given_types {t : Taken} {cs : List Cfg} {n : Str} (h : SrcSpec.Given pc inputs t cs) (hn : typeName t = some n) :
    (t, cs) ∈ types := by
  have h' : ∃ cfg crate, Occurs cfg crate items t cs := by
    cases h with
    | src hs ho =>
      simp only [inputs, List.mem_singleton, Prod.mk.injEq, Option.some.injEq] at hs
      obtain ⟨_, rfl⟩ := hs
      exact ⟨_, _, ho⟩
    | lib hl => simp [inputs] at hl
  obtain ⟨_, _, ho⟩ := h'
  exact occurs_types ho hn

theorem stages (f : CaseFns) : StagesX pc { caseFns := f } 1 1 inputs (plainConfig .cxx f) id lib bindings where
  built := built f
  plain := plain
  onePath := onePath
  language := rfl
  ordered := rfl
  bare := by
    intro s cs a h ha
    have := given_types h rfl
    simp only [types, List.mem_cons, List.not_mem_nil, or_false, Prod.mk.injEq, Taken.alias.injEq, reduceCtorEq, false_and] at this
    obtain ⟨rfl, _⟩ := this
    cases ha
    rfl
  generated := generated f

theorem top {i : FItem} {t : Taken} {cs : List Cfg} (hi : i ∈ items) (hv : ¬ Hidden i.attrs)
    (hd : SrcSpec.Declares (fileConfig pc c!"lib") c!"lib" i t cs) : SrcSpec.Given pc inputs t cs :=
  .src (name := c!"lib") (is := items) (by simp [inputs]) (.here hi hv hd)

theorem inner {i : FItem} {t : Taken} {cs : List Cfg} (hi : i ∈ [FItem.union union, .fn fn]) (hv : ¬ Hidden i.attrs)
    (hd : SrcSpec.Declares (fileConfig pc c!"lib") c!"lib" i t cs) : SrcSpec.Given pc inputs t (.boolean c!"unix" :: cs) := by
  refine .src (name := c!"lib") (is := items) (by simp [inputs]) ?_
  refine Occurs.nested (attrs := [{ attr := cfgUnix }]) (sub := [.union union, .fn fn]) (cs := cs) (by simp [items]) ?_ (.here hi hv hd)
  simp [Hidden, ParserSpec.Ignored, cfgUnix]

def E (f : CaseFns) (ns : List Str) (owner : Option Str) : TyEnv := cxxEnvIn ns (plainConfig .cxx f) env.cfg .none owner

theorem named_type {f : CaseFns} {ns : List Str} {o : Option Str} {c : Bool} {n : Str} (hn : unraw n ∉ builtin)
    (he : (E f ns o).name (unraw n) = n) : CxxType (E f ns o) c (.path n .none) (.base c none n []) := by
  have := CxxType.named (E := E f ns o) (c := c) hn .none
  rw [he] at this
  exact this

theorem prim_type {f : CaseFns} {ns : List Str} {o : Option Str} {c : Bool} {n u : Str} (hn : (unraw n, u) ∈ intTypes false ++ otherTypes) :
    CxxType (E f ns o) c (.path n .none) (cname c u) := .prim hn .none

/-! ### Parameters -/

def pairParams : List TParam := [.type c!"T" none, .value c!"N" (cname false c!"uintptr_t") none]
def aliasParams : List TParam := [.type c!"T" none]

theorem pair_generics {E : TyEnv} (h : E.usizeIsSizeT = false) : CxxGenerics E pair.generics pairParams :=
  .lifetime (.type (.value (n := c!"usize") (by rw [h]; decide) .none .nil))

theorem alias_generics {E : TyEnv} : CxxGenerics E alias.generics aliasParams := .type .nil

/-! ### Members -/

/-- The members of `Pair`: `z` is not there on Unix, and `int` is a keyword of C++. -/
def pairMembers : List CItem :=
  [.object false [] c!"x" (.ptr false false (some c!"_Nullable") (.base false none c!"T" [])) [],
   .object false [] c!"int_" (cname false c!"int32_t") [],
   .object false [] c!"ys" (.arr c!"N" (.base false none c!"T" [])) []]

theorem pair_members (f : CaseFns) : CxxMembers (E f (genericNames pair.generics) (some c!"Pair")) (memberName f .none) rust
    (countOf pair.fields) (listOf pair.fields) pairMembers := by
  refine .shown (n := c!"x") (u := .ptr false false (some c!"_Nullable") (.base false none c!"T" [])) .named
    (.raw (.some (named_type (by decide) rfl))) (no_bits rfl) nofun ?_
  refine .shown (n := c!"int") (u := cname false c!"int32_t") .named (prim_type (by decide)) (no_bits rfl) ?_ ?_
  · intro x hx
    obtain rfl := List.mem_singleton.1 hx
    rfl
  refine .shown (n := c!"ys") (u := .arr c!"N" (.base false none c!"T" [])) .named
    (.array (named_type (by decide) rfl) .path) (no_bits rfl) nofun ?_
  refine .hidden (n := c!"z") (u := cname false c!"uint8_t") .named (prim_type (by decide)) (no_bits rfl) ?_ .nil
  exact ⟨_, List.mem_singleton.2 rfl, rfl⟩

/-- `Pair<T, 3>` -/
def aliased : CTy := .base false none c!"Pair" [.type (.base false none c!"T" []), .const c!"3"]
/-- `Three<uint8_t>` -/
def inside : CTy := .base false none c!"Three" [.type (cname false c!"uint8_t")]

theorem alias_type (f : CaseFns) : CxxType (E f (genericNames alias.generics) none) false alias.ty aliased :=
  .template (n := c!"Pair") (by decide) (by decide) (.type (named_type (by decide) rfl) (.const .int .nil))

theorem wrapper_type (f : CaseFns) : CxxType (E f (genericNames wrapper.generics) (some c!"W")) false
    (.path c!"Three" (.angle [.type (named c!"u8")])) inside :=
  .template (n := c!"Three") (by decide) (by decide) (.type (prim_type (by decide)) .nil)

theorem wrapper_members (f : CaseFns) : CxxMembers (E f (genericNames wrapper.generics) (some c!"W")) (memberName f .none) rust
    (countOf wrapper.fields) (listOf wrapper.fields) [.object false [] c!"_0" inside []] :=
  .shown (n := c!"0") (u := inside) .tuple (wrapper_type f) (no_bits rfl) nofun .nil

def unionMembers : List CItem :=
  [.object false [] c!"w" (.base false none c!"W" []) [],
   .object false [] c!"p" (.ptr false false (some c!"_Nullable") (.base false none c!"U" [])) []]

theorem union_members (f : CaseFns) : CxxMembers (E f (genericNames union.generics) (some c!"U")) (armName f .none) rust
    none union.fields unionMembers := by
  refine .shown (n := c!"w") (u := .base false none c!"W" []) .named (named_type (by decide) rfl) (no_bits rfl) nofun ?_
  refine .shown (n := c!"p") (u := .ptr false false (some c!"_Nullable") (.base false none c!"U" [])) .named ?_ (no_bits rfl) nofun .nil
  exact CxxType.raw (.some (CxxType.self (c := false) (n := c!"Self") (as := .none) (o := c!"U") (by decide) .none rfl))

/-! ### The definitions -/

theorem sole (f : CaseFns) {t : Taken} {cs : List Cfg} {n : Str} (hg : SrcSpec.Given pc inputs t cs) (hd : CxxDeclarable { caseFns := f } t)
    (hn : typeName t = some n) (h₁ : n ∉ stdNames) (h₃ : ∀ x ∈ types, typeName x.1 = some n → x = (t, cs)) :
    CxxSole pc { caseFns := f } inputs (plainConfig .cxx f) t cs n where
  given := hg
  declarable := hd
  name := hn
  others := fun t' cs' h h' => Or.inl (by
    have := h₃ _ (given_types h h') h'
    cases this
    exact ⟨rfl, rfl⟩)
  std := h₁
  kept := List.not_mem_nil
  wanted := by intro k _; cases k <;> rfl

theorem sole_alias (f : CaseFns) : CxxSole pc { caseFns := f } inputs (plainConfig .cxx f) (.alias alias) [] c!"Three" :=
  sole f (top (i := .alias alias) (by simp [items]) (by simp [Hidden, ParserSpec.Ignored, FItem.attrs, alias]) .alias)
    (.alias alias_generics rfl rfl (alias_type f)) rfl (by decide) (by
      intro x hx hn
      simp only [types, List.mem_cons, List.not_mem_nil, or_false] at hx
      rcases hx with rfl | rfl | rfl | rfl <;> first | rfl | exact absurd hn (by decide))

theorem sole_wrapper (f : CaseFns) : CxxSole pc { caseFns := f } inputs (plainConfig .cxx f) (.struct wrapper) [] c!"W" :=
  sole f (top (i := .struct wrapper) (by simp [items]) (by simp [Hidden, ParserSpec.Ignored, FItem.attrs, wrapper]) .struct)
    (.struct (s := wrapper) rfl .nil (⟨⟨_, rfl, rfl, rfl⟩, rfl⟩ : LayoutIs _ _ .transparent none) (.inr rfl) (a := {}) rfl rfl (wrapper_members f))
    rfl (by decide) (by
      intro x hx hn
      simp only [types, List.mem_cons, List.not_mem_nil, or_false] at hx
      rcases hx with rfl | rfl | rfl | rfl <;> first | rfl | exact absurd hn (by decide))

theorem sole_pair (f : CaseFns) : CxxSole pc { caseFns := f } inputs (plainConfig .cxx f) (.struct pair) [] c!"Pair" :=
  sole f (top (i := .struct pair) (by simp [items]) (by simp [Hidden, ParserSpec.Ignored, FItem.attrs, pair, reprC]) .struct)
    (.struct (s := pair) rfl (pair_generics rfl) (layout f rfl) (.inl rfl) (a := {}) rfl rfl (pair_members f))
    rfl (by decide) (by
      intro x hx hn
      simp only [types, List.mem_cons, List.not_mem_nil, or_false] at hx
      rcases hx with rfl | rfl | rfl | rfl <;> first | rfl | exact absurd hn (by decide))

theorem sole_union (f : CaseFns) :
    CxxSole pc { caseFns := f } inputs (plainConfig .cxx f) (.union union) [.boolean c!"unix"] c!"U" :=
  sole f (inner (i := .union union) (by simp) (by simp [Hidden, ParserSpec.Ignored, FItem.attrs, union, reprC]) .union)
    (.union .nil (layout f rfl) (a := {}) rfl rfl (union_members f)) rfl (by decide) (by
      intro x hx hn
      simp only [types, List.mem_cons, List.not_mem_nil, or_false] at hx
      rcases hx with rfl | rfl | rfl | rfl <;> first | rfl | exact absurd hn (by decide))

/-- The function needs `U`, which needs `W`, which needs `Three`, which needs `Pair`. -/
theorem needed_union (f : CaseFns) : CxxNeeded pc { caseFns := f } inputs (plainConfig .cxx f) c!"U" := by
  have h : CxxParams (E f [] none) fn.sig.inputs [.mk (some c!"x") (.ptr false false (some c!"_Nullable") (.base false none c!"U" []))] :=
    .ident (n := c!"x") (.raw (.some (named_type (n := c!"U") (by decide) rfl))) (fun h => h) .nil
  have hg : SrcSpec.Given pc inputs (.fn c!"f" none false fn) [.boolean c!"unix"] := by
    refine inner (i := .fn fn) (by simp) (by simp [Hidden, ParserSpec.Ignored, FItem.attrs, fn, noMangle]) ?_
    exact SrcSpec.Declares.fn (Or.inl rfl) (Or.inr (Or.inl rfl)) (Or.inr ⟨by decide, Or.inl (by simp [fn, noMangle]), rfl⟩)
  exact .function hg List.not_mem_nil (a := {}) rfl rfl (rfl : (E f [] none).owner = none) (.mk h .default)
    (.ident (List.mem_singleton.2 rfl) (.raw (.named (by decide) .none)))

theorem needed_wrapper (f : CaseFns) : CxxNeeded pc { caseFns := f } inputs (plainConfig .cxx f) c!"W" :=
  .definition (sole_union f) (needed_union f)
    (.union (f := ⟨some c!"w", named c!"W", []⟩) (by simp [union]) (.named (by decide) .none) (by decide))

theorem needed_alias (f : CaseFns) : CxxNeeded pc { caseFns := f } inputs (plainConfig .cxx f) c!"Three" :=
  .definition (sole_wrapper f) (needed_wrapper f)
    (.struct (f := ⟨none, .path c!"Three" (.angle [.type (named c!"u8")]), []⟩) (by simp [wrapper, listOf])
      (.template (by decide) (by decide)) (by decide))

theorem needed_pair (f : CaseFns) : CxxNeeded pc { caseFns := f } inputs (plainConfig .cxx f) c!"Pair" :=
  .definition (sole_alias f) (needed_alias f) (.alias (.template (by decide) (by decide)) (by decide))

theorem read {t : Str} {cs : List Cfg} (ht : headerText env bindings = some t) (hcs : ∀ x ∈ cs, x = .boolean c!"unix") :
    CxxReadWhere R on D env bindings t rust cs where
  good := bindings_good
  text := ht
  first := nofun
  same := fits
  mapped := by
    intro x hx
    obtain rfl := hcs x hx
    exact ⟨(c!"unix", c!"UNIX"), by simp [env], by decide, rfl⟩
  holds := by
    intro x hx
    obtain rfl := hcs x hx
    rfl

end CxxDefCases

open CxxDefCases in
open CxxSourceCases (env R D) in
open SourceCases (on) in
/-- Cases for C76: a union, a transparent wrapper, an alias template and a template, all needed through one function. -/
theorem C76_case (f : CaseFns) : ∃ t o, headerText env CxxDefCases.bindings = some t ∧ readHeader R on t = some o ∧
    Declares o.items [c!"ns"] false (.record .union [] (tagOf env.cfg c!"U") (nameOf env.cfg c!"U") unionMembers) ∧
    Declares o.items [c!"ns"] false (.template [.type c!"T" none, .value c!"N" (cname false c!"uintptr_t") none]
      (.record .struct [] (tagOf env.cfg c!"Pair") (nameOf env.cfg c!"Pair") pairMembers)) ∧
    Declares o.items [c!"ns"] false (.alias c!"W" inside) ∧
    Declares o.items [c!"ns"] false (.template [.type c!"T" none] (.alias c!"Three" aliased)) := by
  obtain ⟨t, ht⟩ := Option.isSome_iff_exists.1 (show (headerText env CxxDefCases.bindings).isSome = true by decide +kernel)
  obtain ⟨o₁, h₁, k₁⟩ := C76_union_partial (stages f) (read ht (by simp)) (sole_union f) (needed_union f) ⟨rfl, rfl⟩ (DefCases.layout f rfl)
    (a := {}) rfl rfl rfl (rule := .none) rfl
    (by
      intro x hx y hy
      simp only [CxxDefCases.union, List.mem_cons, List.not_mem_nil, or_false] at hx
      rcases hx with rfl | rfl <;> cases hy) .nil (union_members f)
  obtain ⟨o₂, h₂, k₂⟩ := C76_struct_partial (stages f) (read ht (cs := []) (by simp)) (sole_pair f) (needed_pair f) (s := pair) rfl ⟨rfl, rfl⟩
    (DefCases.layout f rfl) (a := {}) rfl rfl rfl (rule := .none) rfl
    (by
      intro x hx y hy
      simp only [pair, listOf, List.mem_cons, List.not_mem_nil, or_false] at hx
      rcases hx with rfl | rfl | rfl | rfl
      · cases hy
      · obtain rfl := List.mem_singleton.1 hy
        exact ⟨(c!"unix", c!"UNIX"), by simp [env], by decide, rfl⟩
      · cases hy
      · obtain rfl := List.mem_singleton.1 hy
        exact ⟨(c!"unix", c!"UNIX"), by simp [env], by decide, rfl⟩) (pair_generics rfl) (pair_members f)
  obtain ⟨o₃, h₃, k₃⟩ := C76_transparent_partial (stages f) (read ht (cs := []) (by simp)) (sole_wrapper f) (needed_wrapper f) (s := wrapper) rfl
    (al := none) ⟨⟨_, rfl, rfl, rfl⟩, rfl⟩ (a := {}) rfl rfl (rule := .none) .nil (wrapper_members f) (.here (wrapper_type f))
  obtain ⟨o₄, h₄, k₄⟩ := C76_alias_partial (stages f) (read ht (cs := []) (by simp)) (sole_alias f) (needed_alias f) (rule := .none)
    alias_generics (alias_type f)
  obtain rfl := Option.some.inj (h₁.symm.trans h₂)
  obtain rfl := Option.some.inj (h₁.symm.trans h₃)
  obtain rfl := Option.some.inj (h₁.symm.trans h₄)
  exact ⟨t, o₁, ht, h₁, k₁, k₂, k₃, k₄⟩

open CxxDefCases in
/-- Every item of these bindings is from the sources. -/
theorem C76_origin_case (f : CaseFns) : ∀ x ∈ CxxDefCases.bindings.items,
    ∃ t cs, SrcSpec.Given SourceCases.pc CxxDefCases.inputs t cs ∧ typeName t = some x.path := by
  intro x hx
  rcases C76_origin_partial (stages f) hx with ⟨t, cs, hg, hn, _⟩ | ⟨h, _⟩
  · exact ⟨t, cs, hg, hn⟩
  · cases h

end Cbindgen
