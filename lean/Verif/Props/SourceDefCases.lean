import Verif.Props.SourceDefs
import Verif.Props.SourceCases

/-! # Cases for C64 -/

namespace Cbindgen
open CSpec HeadSpec ScopeSpec LexSpec
open SrcSpec hiding Reaches Given Plain

/-- Names with underscores are left for instances. -/
theorem no_instance {c : LibConfig} (h : c.export_.mangle.removeUnderscores = false) {n : Str} (hn : '_' ∉ n) :
    ∀ q vs, vs ≠ [] → c.manglePath q vs ≠ n := by
  rintro q vs hv rfl
  apply hn
  cases vs with
  | nil => exact absurd rfl hv
  | cons g gs => simp [LibConfig.manglePath, mangleName, GArg.mangleTail, MangleConfig.sep, h, Separator.count]

mutual
/-- The types that an item defines. -/
def FItem.types : FItem → List (Taken × List Cfg)
  | .struct s => [(.struct s, conds s.attrs)]
  | .union s => [(.union s, conds s.attrs)]
  | .enum s => [(.enum s, conds s.attrs)]
  | .alias s => [(.alias s, conds s.attrs)]
  | .bitflags as b => [(.bitflags b, conds as ++ conds (b.struct.getD []))]
  | .mod as _ sub => (FItem.typesAll sub).map fun x => (x.1, conds as ++ x.2)
  | _ => []
def FItem.typesAll : List FItem → List (Taken × List Cfg)
  | [] => []
  | i :: is => i.types ++ FItem.typesAll is
end

theorem mem_typesAll {x : Taken × List Cfg} {i : FItem} : ∀ {is : List FItem}, i ∈ is → x ∈ i.types → x ∈ FItem.typesAll is
  | j :: is, hi, hx => by
    rw [FItem.typesAll, List.mem_append]
    rcases List.mem_cons.1 hi with rfl | hi
    · exact Or.inl hx
    · exact Or.inr (mem_typesAll hi hx)

theorem occurs_types {cfg : ParseConfig} {crate : Str} {is : List FItem} {t : Taken} {cs : List Cfg} {n : Str}
    (h : Occurs cfg crate is t cs) (hn : typeName t = some n) : (t, cs) ∈ FItem.typesAll is := by
  induction h with
  | here hi _ hd =>
    refine mem_typesAll hi ?_
    cases hd <;> first | (cases hn; done) | (simp [FItem.types]; done)
  | nested hi _ _ ih =>
    refine mem_typesAll hi ?_
    rw [FItem.types]
    exact List.mem_map.2 ⟨_, ih hn, rfl⟩

namespace DefCases
open SourceCases (pc env R on rust fits opts unix)
open ScopeCases (ident)

/-- `#[no_mangle] pub extern "C" fn f(x: *mut U) {}` -/
def fn : SynFn :=
  ⟨{ ident := c!"f", abi := .named c!"C", inputs := [.ident c!"x" (.ptr false (.path c!"U" .none))] }, [{ attr := noMangle }]⟩
def reprC : SAttr := { attr := .repr (some [.path c!"C"]) }
/-- `type T = u8;` -/
def alias : SynAlias := ⟨c!"T", [], .path c!"u8" .none, []⟩
/-- `#[repr(transparent)] struct W(T);` -/
def wrapper : SynStruct :=
  ⟨c!"W", [], .unnamed [⟨none, .path c!"T" .none, []⟩], [{ attr := .repr (some [.path c!"transparent"]) }]⟩
/-- `#[repr(C)] struct A { x: W, #[cfg(unix)] int: i32, #[cfg(not(unix))] z: u8 }` -/
def struct : SynStruct :=
  ⟨c!"A", [], .named [⟨some c!"x", .path c!"W" .none, []⟩, ⟨some c!"int", .path c!"i32" .none, [{ attr := cfgUnix }]⟩,
     ⟨some c!"z", .path c!"u8" .none, [{ attr := .cfg (some (.not (.boolean c!"unix"))) }]⟩], [reprC]⟩
/-- `#[repr(C)] union U { a: A, p: *mut Self }` -/
def union : SynUnion :=
  ⟨c!"U", [], [⟨some c!"a", .path c!"A" .none, []⟩, ⟨some c!"p", .ptr false (.path c!"Self" .none), []⟩], [reprC]⟩
/-- The union and the function are in a module with `#[cfg(unix)]`. -/
def items : List FItem :=
  [.alias alias, .struct wrapper, .struct struct, .mod [{ attr := cfgUnix }] .found [.union union, .fn fn]]
def inputs : Inputs := { srcs := [(c!"lib", some items)] }

def u8 : Ty := .prim (.integer true false .b8)
def t : TypedefItem := { path := c!"T", exportName := c!"T", aliased := u8 }
def w (n : Str) : StructItem :=
  { path := c!"W", exportName := c!"W", fields := [{ name := n, ty := ScopeCases.ref c!"T" }], isTransparent := true }
def a (n : Str) : StructItem :=
  { path := c!"A", exportName := c!"A",
    fields := [{ name := c!"x", ty := ScopeCases.ref c!"W" }, { name := n, ty := SourceCases.i32, cfg := some (.boolean c!"unix") },
      { name := c!"z", ty := u8, cfg := some (.not (.boolean c!"unix")) }] }
def named (n : Str) (k : Option DeclKind) : Ty := .path n n [] k
def u (k k' : Option DeclKind) : UnionItem :=
  { path := c!"U", exportName := c!"U",
    fields := [{ name := c!"a", ty := named c!"A" k }, { name := c!"p", ty := ScopeCases.ptr (named c!"U" k') }], cfg := unix }
def f (k : Option DeclKind) : FuncItem := SourceCases.takesA (named c!"U" k)

def lib : Library :=
  { structs := [(c!"W", .single (w c!"0")), (c!"A", .single (a c!"int"))], unions := [(c!"U", .cfg [u none none])],
    typedefs := [(c!"T", .single t)], functions := [f none] }
def lib' : Library :=
  { structs := [(c!"W", .single (w c!"_0")), (c!"A", .single (a c!"int_"))], unions := [(c!"U", .cfg [u (some .struct) (some .union)])],
    typedefs := [(c!"T", .single t)], functions := [f (some .union)] }
def bindings : Bindings :=
  ⟨[], [], [.typedef t, .struct (w c!"_0"), .struct (a c!"int_"), .union (u (some .struct) (some .union))], [f (some .union)]⟩

theorem built (f : CaseFns) : buildLibrary pc { caseFns := f } 1 inputs = .ok lib := rfl

theorem expanded (f : CaseFns) : (((lib.transferAnnotations id).simplify (plainConfig .c f)).sortFunctions (plainConfig .c f)).expand
    (plainConfig .c f) 1 = .ok lib := rfl

theorem generated (f : CaseFns) : lib.generate (plainConfig .c f) id 1 = .ok bindings := by
  refine Library.generate_of (l' := lib') rfl ?_
  rw [DetSpec.collect_of (d := ⟨[.typedef t, .struct (w c!"_0"), .struct (a c!"int_"), .union (u (some .struct) (some .union))], [c!"T", c!"W", c!"A", c!"U"]⟩) rfl]
  simp only [DetSpec.bindingsOf]
  rw [sortItems_rest (by decide)]
  rfl

theorem bindings_good : HeaderGood R on [c!"UNIX"] env bindings where
  options := opts
  cpp := nofun
  spaces := nofun
  version := by unfold CommentSafe; decide
  guard := nofun
  header := nofun
  autogen := nofun
  after := nofun
  trailer := nofun
  sys := nofun
  quoted := nofun
  constants := nofun
  globals := nofun
  items := by
    intro x hx _
    simp only [bindings, List.mem_cons, List.not_mem_nil, or_false] at hx
    rcases hx with rfl | rfl | rfl | rfl
    · exact {
        name := ident (n := c!"T") (by decide)
        ty := trivial
        params := trivial
        doc := nofun }
    · exact ⟨{
        name := ident (n := c!"W") (by decide)
        ty := ⟨ident (n := c!"T") (by decide), trivial⟩
        params := trivial
        doc := nofun }, nofun⟩
    · exact {
        name := ident (n := c!"A") (by decide)
        attrs := by
          intro o ho
          simp only [structAttrs, List.mem_cons, List.not_mem_nil, or_false] at ho
          rcases ho with rfl | rfl | rfl <;> exact nofun
        fields := by
          intro x hx
          simp only [a, List.mem_cons, List.not_mem_nil, or_false] at hx
          rcases hx with rfl | rfl | rfl
          · exact ⟨ident (n := c!"x") (by decide), ⟨ident (n := c!"W") (by decide), trivial⟩, trivial, nofun, nofun⟩
          · exact ⟨ident (n := c!"int_") (by decide), trivial, trivial, nofun, nofun⟩
          · exact ⟨ident (n := c!"z") (by decide), trivial, trivial, nofun, nofun⟩
        bodies := ⟨nofun, nofun⟩
        doc := nofun
        consts := nofun }
    · exact {
        name := ident (n := c!"U") (by decide)
        attrs := nofun
        fields := by
          intro x hx
          simp only [u, List.mem_cons, List.not_mem_nil, or_false] at hx
          rcases hx with rfl | rfl
          · exact ⟨ident (n := c!"a") (by decide), ⟨ident (n := c!"A") (by decide), trivial⟩, trivial, nofun, nofun⟩
          · exact ⟨ident (n := c!"p") (by decide), ⟨ident (n := c!"U") (by decide), trivial⟩, trivial, nofun, nofun⟩
        bodies := ⟨nofun, nofun⟩
        doc := nofun }
  functions := by
    intro f hf _
    simp only [bindings, List.mem_singleton] at hf
    subst hf
    exact {
      name := ident (n := c!"f") (by decide)
      ret := trivial
      args := by
        intro a ha
        simp only [f, SourceCases.takesA, ScopeCases.takes, List.mem_singleton] at ha
        subst ha
        exact ⟨fun n hn => by cases hn; exact ident (by decide), ⟨ident (n := c!"U") (by decide), trivial⟩, nofun⟩
      lengths := by
        intro a ha hl
        simp only [f, SourceCases.takesA, ScopeCases.takes, List.mem_singleton] at ha
        subst ha
        simp at hl
      params := by
        refine ⟨by simp [f, SourceCases.takesA, ScopeCases.takes, isVoidList, meaningFnArg, ScopeCases.ptr], trivial, ?_⟩
        intro a ha
        simp only [f, SourceCases.takesA, ScopeCases.takes, List.mem_singleton] at ha
        subst ha
        trivial
      attrs := by
        intro o ho
        simp only [f, funcAttrs, funcPost, SourceCases.takesA, ScopeCases.takes, Bool.false_eq_true, if_false, List.cons_append,
          List.nil_append, List.mem_cons, List.not_mem_nil, or_false] at ho
        rcases ho with rfl | rfl | rfl | rfl | rfl <;> exact nofun
      doc := nofun }

theorem plain : InputsPlain inputs where
  srcs := by
    intro name is h
    simp only [inputs, List.mem_singleton, Prod.mk.injEq, Option.some.injEq] at h
    obtain ⟨_, rfl⟩ := h
    refine ⟨⟨trivial, trivial, trivial, ⟨trivial, trivial, trivial⟩, trivial⟩, ⟨trivial, trivial, trivial, ⟨trivial, ?_, trivial⟩, trivial⟩⟩
    show ParserSpec.UnsafeOne _
    intro args h
    simp [fn, noMangle] at h
  lib := by
    intro ws root p is h
    simp [inputs] at h

theorem onePath : OnePath pc inputs where
  names := by
    intro ws root p q cs cs' h
    simp [inputs] at h
  paths := by
    intro ws root p cs cs' h
    simp [inputs] at h

/-- All types of the sources, with their conditions. -/
def types : List (Taken × List Cfg) :=
  [(.alias alias, []), (.struct wrapper, []), (.struct struct, []), (.union union, [.boolean c!"unix"])]

theorem given_types {t : Taken} {cs : List Cfg} {n : Str} (h : SrcSpec.Given pc inputs t cs) (hn : typeName t = some n) :
    (t, cs) ∈ types := by
  have h' : ∃ cfg crate, Occurs cfg crate items t cs := by
    cases h with
    | src hs ho =>
      simp only [inputs, List.mem_singleton, Prod.mk.injEq, Option.some.injEq] at hs
      obtain ⟨_, rfl⟩ := hs
      exact ⟨_, _, ho⟩
    | lib hl => simp [inputs] at hl
  obtain ⟨_, _, ho⟩ := h'
  exact occurs_types ho hn

theorem stages (f : CaseFns) : Stages pc { caseFns := f } 1 1 inputs (plainConfig .c f) id lib lib bindings where
  built := built f
  plain := plain
  onePath := onePath
  language := rfl
  ordered := rfl
  bare := by
    intro s cs a h ha
    have := given_types h rfl
    simp only [types, List.mem_cons, List.not_mem_nil, or_false, Prod.mk.injEq, Taken.alias.injEq, reduceCtorEq, false_and] at this
    obtain ⟨rfl, _⟩ := this
    cases ha
    rfl
  generated := generated f
  expanded := expanded f

theorem top {i : FItem} {t : Taken} {cs : List Cfg} (hi : i ∈ items) (hv : ¬ Hidden i.attrs)
    (hd : Declares (fileConfig pc c!"lib") c!"lib" i t cs) : SrcSpec.Given pc inputs t cs :=
  .src (name := c!"lib") (is := items) (by simp [inputs]) (.here hi hv hd)

theorem inner {i : FItem} {t : Taken} {cs : List Cfg} (hi : i ∈ [FItem.union union, .fn fn]) (hv : ¬ Hidden i.attrs)
    (hd : Declares (fileConfig pc c!"lib") c!"lib" i t cs) : SrcSpec.Given pc inputs t (.boolean c!"unix" :: cs) := by
  refine .src (name := c!"lib") (is := items) (by simp [inputs]) ?_
  refine Occurs.nested (attrs := [{ attr := cfgUnix }]) (sub := [.union union, .fn fn]) (cs := cs) (by simp [items]) ?_ (.here hi hv hd)
  simp [Hidden, ParserSpec.Ignored, cfgUnix]

def E (f : CaseFns) (owner : Option Str) : TyEnv := envOf (plainConfig .c f) env.cfg (tagFor (plainConfig .c f) lib) .none owner

theorem E_tag_A (f : CaseFns) (o : Option Str) : (E f o).tag c!"A" = some .struct := rfl
theorem E_tag_U (f : CaseFns) (o : Option Str) : (E f o).tag c!"U" = some .union := rfl
theorem E_tag_W (f : CaseFns) (o : Option Str) : (E f o).tag c!"W" = none := rfl
theorem E_tag_T (f : CaseFns) (o : Option Str) : (E f o).tag c!"T" = none := rfl

theorem named_type {f : CaseFns} {o : Option Str} {c : Bool} {n : Str} {k : Option DeclKind} (hn : unraw n ∉ builtin)
    (hk : (E f o).tag (unraw n) = k) (he : (E f o).name (unraw n) = n) :
    CType (E f o) c (.path n .none) (.base c k n []) := by
  have := CType.named (E := E f o) (c := c) hn .none
  rw [hk, he] at this
  exact this

theorem typed_alias (f : CaseFns) (o : Option Str) : CType (E f o) false alias.ty (cname false c!"uint8_t") :=
  .prim (by show _ ∈ intTypes false ++ otherTypes; decide) .none

theorem typed_wrapper (f : CaseFns) : CType (E f (some c!"W")) false (.path c!"T" .none) (cname false c!"T") :=
  named_type (by decide) (E_tag_T f _) rfl

theorem no_bits {as : List SAttr} (h : Annotations.load as = .ok {}) : FieldBits as [] := .none h rfl

theorem wrapper_members (f : CaseFns) : Members (E f (some c!"W")) (memberName f .none) rust (countOf wrapper.fields)
    (listOf wrapper.fields) [.object false [] c!"_0" (cname false c!"T") []] :=
  .shown (n := c!"0") (u := cname false c!"T") .tuple (typed_wrapper f) (no_bits rfl) nofun .nil

/-- The members of `A`: `z` is not there on Unix, and `int` is a keyword of C. -/
def aMembers : List CItem := [.object false [] c!"x" (cname false c!"W") [], .object false [] c!"int_" (cname false c!"int32_t") []]

theorem struct_members (f : CaseFns) : Members (E f (some c!"A")) (memberName f .none) rust (countOf struct.fields)
    (listOf struct.fields) aMembers := by
  refine .shown (n := c!"x") (u := cname false c!"W") .named (named_type (by decide) (E_tag_W f _) rfl) (no_bits rfl) nofun ?_
  refine .shown (n := c!"int") (u := cname false c!"int32_t") .named (.prim (by show _ ∈ intTypes false ++ otherTypes; decide) .none) (no_bits rfl) ?_ ?_
  · intro x hx
    obtain rfl := List.mem_singleton.1 hx
    rfl
  · refine .hidden (n := c!"z") (u := cname false c!"uint8_t") .named (.prim (by show _ ∈ intTypes false ++ otherTypes; decide) .none) (no_bits rfl) ?_ .nil
    exact ⟨_, List.mem_singleton.2 rfl, rfl⟩

def uMembers : List CItem :=
  [.object false [] c!"a" (.base false (some .struct) c!"A" []) [],
   .object false [] c!"p" (.ptr false false none (.base false (some .union) c!"U" [])) []]

theorem union_members (f : CaseFns) : Members (E f (some c!"U")) (armName f .none) rust none union.fields uMembers := by
  refine .shown (n := c!"a") (u := .base false (some .struct) c!"A" []) .named (named_type (by decide) (E_tag_A f _) rfl) (no_bits rfl) nofun ?_
  refine .shown (n := c!"p") (u := .ptr false false none (.base false (some .union) c!"U" [])) .named ?_ (no_bits rfl) nofun .nil
  exact CType.raw (.some (CType.self (c := false) (n := c!"Self") (as := .none) (o := c!"U") (by decide) .none rfl))

theorem alias_declarable (f : CaseFns) : Declarable { caseFns := f } (.alias alias) :=
  .alias nofun rfl (rfl : (E f none).owner = none) (typed_alias f none)

theorem layout (f : CaseFns) {as : List SAttr} (h : as = [reprC]) : LayoutIs { caseFns := f } as .c none := by
  subst h
  exact ⟨⟨_, rfl, rfl, rfl⟩, rfl⟩

theorem wrapper_declarable (f : CaseFns) : Declarable { caseFns := f } (.struct wrapper) :=
  .struct (s := wrapper) rfl nofun (⟨⟨_, rfl, rfl, rfl⟩, rfl⟩ : LayoutIs _ _ .transparent none) (.inr rfl) (a := {}) rfl rfl (wrapper_members f)

theorem struct_declarable (f : CaseFns) : Declarable { caseFns := f } (.struct struct) :=
  .struct (s := struct) rfl nofun (layout f rfl) (.inl rfl) (a := {}) rfl rfl (struct_members f)

theorem union_declarable (f : CaseFns) : Declarable { caseFns := f } (.union union) :=
  .union nofun (layout f rfl) (a := {}) rfl rfl (union_members f)

theorem sole (f : CaseFns) {t : Taken} {cs : List Cfg} {n : Str} (hg : SrcSpec.Given pc inputs t cs) (hd : Declarable { caseFns := f } t)
    (hn : typeName t = some n) (h₁ : n ∉ stdNames) (h₂ : '_' ∉ n) (h₃ : ∀ x ∈ types, typeName x.1 = some n → x = (t, cs)) :
    Sole pc { caseFns := f } inputs (plainConfig .c f) t cs n where
  given := hg
  declarable := hd
  name := hn
  others := fun t' cs' h h' => Or.inl (by
    have := h₃ _ (given_types h h') h'
    cases this
    exact ⟨rfl, rfl⟩)
  std := h₁
  instances := no_instance rfl h₂
  kept := List.not_mem_nil
  wanted := by intro k _; cases k <;> rfl

theorem sole_alias (f : CaseFns) : Sole pc { caseFns := f } inputs (plainConfig .c f) (.alias alias) [] c!"T" :=
  sole f (top (i := .alias alias) (by simp [items]) (by simp [Hidden, ParserSpec.Ignored, FItem.attrs, alias]) .alias)
    (alias_declarable f) rfl (by decide) (by decide) (by
      intro x hx hn
      simp only [types, List.mem_cons, List.not_mem_nil, or_false] at hx
      rcases hx with rfl | rfl | rfl | rfl <;> first | rfl | exact absurd hn (by decide))

theorem sole_wrapper (f : CaseFns) : Sole pc { caseFns := f } inputs (plainConfig .c f) (.struct wrapper) [] c!"W" :=
  sole f (top (i := .struct wrapper) (by simp [items]) (by simp [Hidden, ParserSpec.Ignored, FItem.attrs, wrapper]) .struct)
    (wrapper_declarable f) rfl (by decide) (by decide) (by
      intro x hx hn
      simp only [types, List.mem_cons, List.not_mem_nil, or_false] at hx
      rcases hx with rfl | rfl | rfl | rfl <;> first | rfl | exact absurd hn (by decide))

theorem sole_struct (f : CaseFns) : Sole pc { caseFns := f } inputs (plainConfig .c f) (.struct struct) [] c!"A" :=
  sole f (top (i := .struct struct) (by simp [items]) (by simp [Hidden, ParserSpec.Ignored, FItem.attrs, struct, reprC]) .struct)
    (struct_declarable f) rfl (by decide) (by decide) (by
      intro x hx hn
      simp only [types, List.mem_cons, List.not_mem_nil, or_false] at hx
      rcases hx with rfl | rfl | rfl | rfl <;> first | rfl | exact absurd hn (by decide))

theorem sole_union (f : CaseFns) :
    Sole pc { caseFns := f } inputs (plainConfig .c f) (.union union) [.boolean c!"unix"] c!"U" :=
  sole f (inner (i := .union union) (by simp) (by simp [Hidden, ParserSpec.Ignored, FItem.attrs, union, reprC]) .union)
    (union_declarable f) rfl (by decide) (by decide) (by
      intro x hx hn
      simp only [types, List.mem_cons, List.not_mem_nil, or_false] at hx
      rcases hx with rfl | rfl | rfl | rfl <;> first | rfl | exact absurd hn (by decide))

/-- The function needs `U`, which needs `A`, which needs `W`, which needs `T`. -/
theorem needed_union (f : CaseFns) : Needed pc { caseFns := f } inputs (plainConfig .c f) c!"U" := by
  have h : Params (E f none) fn.sig.inputs [.mk (some c!"x") (.ptr false false none (.base false (some .union) c!"U" []))] :=
    .ident (n := c!"x") (.raw (.some (named_type (n := c!"U") (by decide) (E_tag_U f _) rfl))) (fun h => h) .nil
  have hg : SrcSpec.Given pc inputs (.fn c!"f" none false fn) [.boolean c!"unix"] := by
    refine inner (i := .fn fn) (by simp) (by simp [Hidden, ParserSpec.Ignored, FItem.attrs, fn, noMangle]) ?_
    exact Declares.fn (Or.inl rfl) (Or.inr (Or.inl rfl)) (Or.inr ⟨by decide, Or.inl (by simp [fn, noMangle]), rfl⟩)
  exact .function hg List.not_mem_nil (a := {}) rfl rfl (rfl : (E f none).owner = none) (.mk h .default)
    (.ident (List.mem_singleton.2 rfl) (.raw (.named (by decide) .none)))

theorem needed_struct (f : CaseFns) : Needed pc { caseFns := f } inputs (plainConfig .c f) c!"A" :=
  .definition (sole_union f) (needed_union f)
    (.union (f := ⟨some c!"a", .path c!"A" .none, []⟩) (by simp [union]) (.named (by decide) .none))

theorem needed_wrapper (f : CaseFns) : Needed pc { caseFns := f } inputs (plainConfig .c f) c!"W" :=
  .definition (sole_struct f) (needed_struct f)
    (.struct (f := ⟨some c!"x", .path c!"W" .none, []⟩) (by simp [struct, listOf]) (.named (by decide) .none))

theorem needed_alias (f : CaseFns) : Needed pc { caseFns := f } inputs (plainConfig .c f) c!"T" :=
  .definition (sole_wrapper f) (needed_wrapper f)
    (.struct (f := ⟨none, .path c!"T" .none, []⟩) (by simp [wrapper, listOf]) (.named (by decide) .none))

theorem read {t : Str} {cs : List Cfg} (ht : headerText env bindings = some t) (hcs : ∀ x ∈ cs, x = .boolean c!"unix") :
    ReadWhere R on [c!"UNIX"] env bindings t rust cs where
  good := bindings_good
  text := ht
  first := nofun
  same := fits
  mapped := by
    intro x hx
    obtain rfl := hcs x hx
    exact ⟨(c!"unix", c!"UNIX"), by simp [env], by decide, rfl⟩
  holds := by
    intro x hx
    obtain rfl := hcs x hx
    rfl

end DefCases

open DefCases in
open SourceCases (env R on) in
/-- Cases for C64: a union, its struct, the struct's transparent wrapper, and an alias, all needed through one function. -/
example (f : CaseFns) : ∃ t o, headerText env DefCases.bindings = some t ∧ readHeader R on t = some o ∧
    .record .union [] (tagOf env.cfg c!"U") (nameOf env.cfg c!"U") uMembers ∈ o.items ∧
    .record .struct [] (tagOf env.cfg c!"A") (nameOf env.cfg c!"A") aMembers ∈ o.items ∧
    .alias c!"W" (cname false c!"T") ∈ o.items ∧ .alias c!"T" (cname false c!"uint8_t") ∈ o.items := by
  obtain ⟨t, ht⟩ := Option.isSome_iff_exists.1 (show (headerText env DefCases.bindings).isSome = true by decide +kernel)
  obtain ⟨o₁, h₁, k₁⟩ := C64_union_partial (stages f) (read ht (by simp)) (sole_union f) (needed_union f) ⟨rfl, rfl⟩ (layout f rfl)
    (a := {}) rfl rfl rfl (rule := .none) rfl
    (by
      intro x hx y hy
      simp only [union, List.mem_cons, List.not_mem_nil, or_false] at hx
      rcases hx with rfl | rfl <;> cases hy) (union_members f)
  obtain ⟨o₂, h₂, k₂⟩ := C64_struct_partial (stages f) (read ht (cs := []) (by simp)) (sole_struct f) (needed_struct f) (s := struct) rfl ⟨rfl, rfl⟩
    (layout f rfl) (a := {}) rfl rfl rfl (rule := .none) rfl
    (by
      intro x hx y hy
      simp only [struct, listOf, List.mem_cons, List.not_mem_nil, or_false] at hx
      rcases hx with rfl | rfl | rfl
      · cases hy
      · obtain rfl := List.mem_singleton.1 hy
        exact ⟨(c!"unix", c!"UNIX"), by simp [env], by decide, rfl⟩
      · obtain rfl := List.mem_singleton.1 hy
        exact ⟨(c!"unix", c!"UNIX"), by simp [env], by decide, rfl⟩) (struct_members f)
  obtain ⟨o₃, h₃, k₃⟩ := C64_transparent_partial (stages f) (read ht (cs := []) (by simp)) (sole_wrapper f) (needed_wrapper f) (s := wrapper) rfl
    (al := none) ⟨⟨_, rfl, rfl, rfl⟩, rfl⟩ (a := {}) rfl rfl (rule := .none) (wrapper_members f) (.here (typed_wrapper f))
  obtain ⟨o₄, h₄, k₄⟩ := C64_alias_partial (stages f) (read ht (cs := []) (by simp)) (sole_alias f) (needed_alias f) (rule := .none) (typed_alias f none)
  obtain rfl := Option.some.inj (h₁.symm.trans h₂)
  obtain rfl := Option.some.inj (h₁.symm.trans h₃)
  obtain rfl := Option.some.inj (h₁.symm.trans h₄)
  exact ⟨t, o₁, ht, h₁, k₁, k₂, k₃, k₄⟩

open DefCases in
/-- Every item of these bindings is from the sources. -/
example (f : CaseFns) : ∀ x ∈ DefCases.bindings.items,
    ∃ t cs, SrcSpec.Given SourceCases.pc DefCases.inputs t cs ∧ typeName t = some x.path := by
  intro x hx
  rcases C64_origin_partial (stages f) hx with ⟨t, cs, hg, hn, _⟩ | ⟨h, _⟩ | ⟨q, vs, hv, hq⟩
  · exact ⟨t, cs, hg, hn⟩
  · cases h
  · refine absurd hq.symm (no_instance rfl ?_ q vs hv)
    simp only [DefCases.bindings, List.mem_cons, List.not_mem_nil, or_false] at hx
    rcases hx with rfl | rfl | rfl | rfl <;> decide

end Cbindgen
