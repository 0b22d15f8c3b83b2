import Verif.Props.SourceStatics
import Verif.Props.SourceDefCases

/-! # Cases for C65 -/

namespace Cbindgen
open CSpec HeadSpec ScopeSpec LexSpec
open SrcSpec hiding Reaches Given Plain

namespace StaticCases
open SourceCases (pc env R on rust fits opts unix)
open ScopeCases (ident)

/-- `#[no_mangle] pub static P: *const A = ..;` -/
def p : SynStatic := ⟨c!"P", .ptr true (.path c!"A" .none), false, [{ attr := noMangle }]⟩
/-- `#[cfg(unix)] #[no_mangle] pub static mut M: [*mut A; 2] = ..;` -/
def m : SynStatic :=
  ⟨c!"M", .array (.ptr false (.path c!"A" .none)) (.lit (.int 2 [])), true, [{ attr := cfgUnix }, { attr := noMangle }]⟩
/-- `#[no_mangle] pub static K: [u8; 3] = ..;` -/
def k : SynStatic := ⟨c!"K", .array (.path c!"u8" .none) (.lit (.int 3 [])), false, [{ attr := noMangle }]⟩
/-- `#[repr(C)] struct A { x: i32, y: i32 }` -/
def struct : SynStruct := SourceCases.struct

/-- `K` is in a module with `#[cfg(unix)]`. -/
def items : List FItem := [.struct struct, .static p, .static m, .mod [{ attr := cfgUnix }] .found [.static k]]
def inputs : Inputs := { srcs := [(c!"lib", some items)] }

def P (t : Ty) : StaticItem := { path := c!"P", exportName := c!"P", ty := .ptr t true true false }
def M (t : Ty) : StaticItem :=
  { path := c!"M", exportName := c!"M", ty := .array (ScopeCases.ptr t) (.value c!"2"), mutable := true,
    cfg := some (.boolean c!"unix") }
def K : StaticItem := { path := c!"K", exportName := c!"K", ty := .array DefCases.u8 (.value c!"3"), cfg := unix }
def a : StructItem := SourceCases.a
def A : Ty := ScopeCases.ref c!"A"
def A' : Ty := ScopeCases.tagged c!"A"

def lib : Library :=
  { structs := [(c!"A", .single a)], globals := [(c!"P", .single (P A)), (c!"M", .cfg [M A]), (c!"K", .cfg [K])] }
def lib' : Library :=
  { structs := [(c!"A", .single a)], globals := [(c!"P", .single (P A')), (c!"M", .cfg [M A']), (c!"K", .cfg [K])] }
def bindings : Bindings := ⟨[], [P A', M A', K], [.struct a], []⟩

theorem built (f : CaseFns) : buildLibrary pc { caseFns := f } 1 inputs = .ok lib := rfl

theorem expanded (f : CaseFns) : (((lib.transferAnnotations id).simplify (plainConfig .c f)).sortFunctions (plainConfig .c f)).expand
    (plainConfig .c f) 1 = .ok lib := rfl

theorem generated (f : CaseFns) : lib.generate (plainConfig .c f) id 1 = .ok bindings := by
  refine Library.generate_of (l' := lib') rfl ?_
  rw [DetSpec.collect_of (d := ⟨[.struct a], [c!"A"]⟩) rfl]
  simp only [DetSpec.bindingsOf]
  rw [sortItems_rest (by decide)]
  rfl

theorem bindings_good : HeaderGood R on [c!"UNIX"] env bindings where
  options := opts
  cpp := nofun
  spaces := nofun
  version := by unfold CommentSafe; decide
  guard := nofun
  header := nofun
  autogen := nofun
  after := nofun
  trailer := nofun
  sys := nofun
  quoted := nofun
  constants := nofun
  globals := by
    intro s hs _
    simp only [bindings, List.mem_cons, List.not_mem_nil, or_false] at hs
    rcases hs with rfl | rfl | rfl
    · exact {
        name := ident (n := c!"P") (by decide)
        ty := ⟨ident (n := c!"A") (by decide), trivial⟩
        params := trivial
        doc := nofun
        const := .inr (.inl rfl) }
    · exact {
        name := ident (n := c!"M") (by decide)
        ty := ⟨by unfold LengthWord Word; decide, ident (n := c!"A") (by decide), trivial⟩
        params := trivial
        doc := nofun
        const := .inl rfl }
    · exact {
        name := ident (n := c!"K") (by decide)
        ty := ⟨by unfold LengthWord Word; decide, trivial⟩
        params := trivial
        doc := nofun
        const := .inr (.inr rfl) }
  items := by
    intro x hx hs
    simp only [bindings, List.mem_singleton] at hx
    subst hx
    exact SourceCases.bindings_good.items _ (by simp [SourceCases.bindings, a]) hs
  functions := nofun

theorem plain : InputsPlain inputs where
  srcs := by
    intro name is h
    simp only [inputs, List.mem_singleton, Prod.mk.injEq, Option.some.injEq] at h
    obtain ⟨_, rfl⟩ := h
    refine ⟨⟨trivial, ?_, ?_, ⟨?_, trivial⟩, trivial⟩, ⟨trivial, ?_, ?_, ⟨?_, trivial⟩, trivial⟩⟩
    · intro args h; simp [p, noMangle] at h
    · intro args h; simp [m, cfgUnix, noMangle] at h
    · intro args h; simp [k, noMangle] at h
    · intro args h; simp [p, noMangle] at h
    · intro args h; simp [m, cfgUnix, noMangle] at h
    · intro args h; simp [k, noMangle] at h
  lib := by
    intro ws root p is h
    simp [inputs] at h

theorem onePath : OnePath pc inputs where
  names := by
    intro ws root p q cs cs' h
    simp [inputs] at h
  paths := by
    intro ws root p cs cs' h
    simp [inputs] at h

theorem given_occurs {t : Taken} {cs : List Cfg} (h : SrcSpec.Given pc inputs t cs) : ∃ cfg crate, Occurs cfg crate items t cs := by
  cases h with
  | src hs ho =>
    simp only [inputs, List.mem_singleton, Prod.mk.injEq, Option.some.injEq] at hs
    obtain ⟨_, rfl⟩ := hs
    exact ⟨_, _, ho⟩
  | lib hl => simp [inputs] at hl

theorem stages (f : CaseFns) : Stages pc { caseFns := f } 1 1 inputs (plainConfig .c f) id lib lib bindings where
  built := built f
  plain := plain
  onePath := onePath
  language := rfl
  ordered := rfl
  bare := by
    intro s cs a h ha
    obtain ⟨_, _, ho⟩ := given_occurs h
    have := occurs_types ho rfl
    simp [items, FItem.typesAll, FItem.types] at this
  generated := generated f
  expanded := expanded f

theorem top {i : FItem} {t : Taken} {cs : List Cfg} (hi : i ∈ items) (hv : ¬ Hidden i.attrs)
    (hd : Declares (fileConfig pc c!"lib") c!"lib" i t cs) : SrcSpec.Given pc inputs t cs :=
  .src (name := c!"lib") (is := items) (by simp [inputs]) (.here hi hv hd)

/-- The variables of the sources with their conditions. -/
def statics : List (Str × SynStatic × List Cfg) :=
  [(c!"P", p, []), (c!"M", m, [.boolean c!"unix"]), (c!"K", k, [.boolean c!"unix"])]

mutual
/-- The variables that an item declares. -/
def vars : FItem → List (SynStatic × List Cfg)
  | .static s => [(s, conds s.attrs)]
  | .mod as _ sub => (varsAll sub).map fun x => (x.1, conds as ++ x.2)
  | _ => []
def varsAll : List FItem → List (SynStatic × List Cfg)
  | [] => []
  | i :: is => vars i ++ varsAll is
end

theorem mem_varsAll {x : SynStatic × List Cfg} {i : FItem} : ∀ {is : List FItem}, i ∈ is → x ∈ vars i → x ∈ varsAll is
  | j :: is, hi, hx => by
    rw [varsAll, List.mem_append]
    rcases List.mem_cons.1 hi with rfl | hi
    · exact Or.inl hx
    · exact Or.inr (mem_varsAll hi hx)

theorem occurs_vars {cfg : ParseConfig} {crate : Str} {is : List FItem} {t : Taken} {cs : List Cfg} {n : Str} {s : SynStatic}
    (h : Occurs cfg crate is t cs) (hn : t = .static n s) : (s, cs) ∈ varsAll is ∧ Symbol s.attrs s.ident n := by
  induction h with
  | here hi _ hd =>
    subst hn
    cases hd with
    | static _ h => exact ⟨mem_varsAll hi (by simp [vars]), h⟩
  | nested hi _ _ ih =>
    refine ⟨mem_varsAll hi ?_, (ih hn).2⟩
    rw [vars]
    exact List.mem_map.2 ⟨_, (ih hn).1, rfl⟩

theorem given_static {n : Str} {s : SynStatic} {cs : List Cfg} (h : SrcSpec.Given pc inputs (.static n s) cs) :
    (n, s, cs) ∈ statics := by
  obtain ⟨_, _, ho⟩ := given_occurs h
  clear h
  obtain ⟨h₁, h₂⟩ := occurs_vars ho rfl
  simp only [items, varsAll, vars, List.mem_append, List.mem_cons, List.not_mem_nil, or_false, List.map_cons, List.map_nil,
    List.append_nil, List.nil_append, Prod.mk.injEq] at h₁
  rcases h₁ with ⟨rfl, rfl⟩ | ⟨rfl, rfl⟩ | ⟨rfl, rfl⟩ <;> rcases h₂ with h₂ | ⟨_, _, rfl⟩ <;>
    first | (cases h₂; done) | (simp [statics, p, m, k, unraw]; rfl)

theorem sole {n : Str} {s : SynStatic} {cs : List Cfg} (h : SrcSpec.Given pc inputs (.static n s) cs)
    (h' : ∀ x ∈ statics, x.1 = n → x = (n, s, cs)) : SoleStatic pc inputs n s cs where
  given := h
  others := fun s' cs' hg => Or.inl (by
    have := h' _ (given_static hg) rfl
    simp only [Prod.mk.injEq, true_and] at this
    exact this)

theorem sole_p : SoleStatic pc inputs c!"P" p [] :=
  sole (top (i := .static p) (by simp [items]) (by simp [Hidden, ParserSpec.Ignored, FItem.attrs, p, noMangle])
    (.static (Or.inl rfl) (Or.inr ⟨by decide, Or.inl (by simp [p, noMangle]), rfl⟩))) (by
      intro x hx hn
      simp only [statics, List.mem_cons, List.not_mem_nil, or_false] at hx
      rcases hx with rfl | rfl | rfl <;> first | rfl | exact absurd hn (by decide))

theorem sole_m : SoleStatic pc inputs c!"M" m [.boolean c!"unix"] :=
  sole (top (i := .static m) (by simp [items]) (by simp [Hidden, ParserSpec.Ignored, FItem.attrs, m, noMangle, cfgUnix])
    (.static (Or.inl rfl) (Or.inr ⟨by decide, Or.inl (by simp [m, noMangle]), rfl⟩))) (by
      intro x hx hn
      simp only [statics, List.mem_cons, List.not_mem_nil, or_false] at hx
      rcases hx with rfl | rfl | rfl <;> first | rfl | exact absurd hn (by decide))

theorem sole_k : SoleStatic pc inputs c!"K" k [.boolean c!"unix"] := by
  refine sole ?_ ?_
  · refine .src (name := c!"lib") (is := items) (by simp [inputs]) ?_
    refine Occurs.nested (attrs := [{ attr := cfgUnix }]) (sub := [.static k]) (cs := []) (by simp [items]) ?_ ?_
    · simp [Hidden, ParserSpec.Ignored, cfgUnix]
    · exact .here (i := .static k) (by simp) (by simp [Hidden, ParserSpec.Ignored, FItem.attrs, k, noMangle])
        (.static (Or.inl rfl) (Or.inr ⟨by decide, Or.inl (by simp [k, noMangle]), rfl⟩))
  · intro x hx hn
    simp only [statics, List.mem_cons, List.not_mem_nil, or_false] at hx
    rcases hx with rfl | rfl | rfl <;> first | rfl | exact absurd hn (by decide)

def E (f : CaseFns) : TyEnv := envOf (plainConfig .c f) env.cfg (tagFor (plainConfig .c f) lib) .none none

theorem type_A (f : CaseFns) (c : Bool) : CType (E f) c (.path c!"A" .none) (.base c (some .struct) c!"A" []) :=
  CType.named (E := E f) (c := c) (n := c!"A") (by decide) .none

/-- `extern const struct A *P;` -/
def tP : CTy := .ptr false false none (.base true (some .struct) c!"A" [])
theorem type_p (f : CaseFns) : CStatic (E f) p.mutable p.ty tP := .pointer (.raw (.some (type_A f true))) trivial
/-- `extern struct A *M[2];` -/
def tM : CTy := .arr c!"2" (.ptr false false none (.base false (some .struct) c!"A" []))
theorem type_m (f : CaseFns) : CStatic (E f) m.mutable m.ty tM :=
  .mutable (.array (.raw (.some (type_A f false))) (.int (n := 2)))
/-- `extern const uint8_t K[3];` -/
def tK : CTy := .arr c!"3" (cname true c!"uint8_t")
theorem type_k (f : CaseFns) : CStatic (E f) k.mutable k.ty tK :=
  .value (.array (.prim (u := c!"uint8_t") (by show _ ∈ intTypes false ++ otherTypes; decide) .none) (.int (n := 3))) (fun h => h)

theorem read {t : Str} {cs : List Cfg} (ht : headerText env bindings = some t) (hcs : ∀ x ∈ cs, x = .boolean c!"unix") :
    ReadWhere R on [c!"UNIX"] env bindings t rust cs where
  good := bindings_good
  text := ht
  first := nofun
  same := fits
  mapped := by
    intro x hx
    obtain rfl := hcs x hx
    exact ⟨(c!"unix", c!"UNIX"), by simp [env], by decide, rfl⟩
  holds := by
    intro x hx
    obtain rfl := hcs x hx
    rfl

/-- The struct is needed through a variable. -/
theorem needed (f : CaseFns) : Needed pc { caseFns := f } inputs (plainConfig .c f) c!"A" :=
  .variable_ sole_p List.not_mem_nil (a := {}) rfl (rfl : (E f).owner = none) (.raw (.some (type_A f true)))
    (.raw (.named (by decide) .none))

theorem members (f : CaseFns) (o : Option Str) : Members (envOf (plainConfig .c f) env.cfg (tagFor (plainConfig .c f) lib) .none o)
    (memberName f .none) rust (countOf struct.fields) (listOf struct.fields)
    [.object false [] c!"x" (cname false c!"int32_t") [], .object false [] c!"y" (cname false c!"int32_t") []] :=
  .shown (n := c!"x") (u := cname false c!"int32_t") .named (.prim (by show _ ∈ intTypes false ++ otherTypes; decide) .none)
    (DefCases.no_bits rfl) nofun
  (.shown (n := c!"y") (u := cname false c!"int32_t") .named (.prim (by show _ ∈ intTypes false ++ otherTypes; decide) .none)
    (DefCases.no_bits rfl) nofun .nil)

theorem sole_struct (f : CaseFns) : Sole pc { caseFns := f } inputs (plainConfig .c f) (.struct struct) [] c!"A" where
  given := top (i := .struct struct) (by simp [items]) (by simp [Hidden, ParserSpec.Ignored, FItem.attrs, struct, SourceCases.struct]) .struct
  declarable := .struct (s := struct) rfl nofun (DefCases.layout f rfl) (.inl rfl) (a := {}) rfl rfl (members f _)
  name := rfl
  others := fun t' cs' h h' => Or.inl (by
    obtain ⟨_, _, ho⟩ := given_occurs h
    have := occurs_types ho h'
    simp only [items, FItem.typesAll, FItem.types, List.append_nil, List.map_nil, List.mem_singleton, Prod.mk.injEq] at this
    exact this)
  std := by decide
  instances := no_instance rfl (by decide)
  kept := List.not_mem_nil
  wanted := by intro k _; cases k <;> rfl

end StaticCases

open StaticCases in
open SourceCases (env R on) in
/-- Cases for C65: a pointer, a mutable array of pointers under a `cfg`, and an array in a module under a `cfg`; the struct
is defined for the pointer. -/
example (f : CaseFns) : ∃ t o, headerText env StaticCases.bindings = some t ∧ readHeader R on t = some o ∧
    .object true [] c!"P" tP [] ∈ o.items ∧ .object true [] c!"M" tM [] ∈ o.items ∧ .object true [] c!"K" tK [] ∈ o.items ∧
    .record .struct [] (tagOf env.cfg c!"A") (nameOf env.cfg c!"A")
      [.object false [] c!"x" (cname false c!"int32_t") [], .object false [] c!"y" (cname false c!"int32_t") []] ∈ o.items := by
  obtain ⟨t, ht⟩ := Option.isSome_iff_exists.1 (show (headerText env StaticCases.bindings).isSome = true by decide +kernel)
  obtain ⟨o₁, h₁, k₁⟩ := C65_declared_partial (built f) plain onePath rfl (generated f) (expanded f) rfl (read ht (by simp)) sole_p
    List.not_mem_nil (a := {}) rfl rfl (type_p f)
  obtain ⟨o₂, h₂, k₂⟩ := C65_declared_partial (built f) plain onePath rfl (generated f) (expanded f) rfl (read ht (by simp)) sole_m
    List.not_mem_nil (a := {}) rfl rfl (type_m f)
  obtain ⟨o₃, h₃, k₃⟩ := C65_declared_partial (built f) plain onePath rfl (generated f) (expanded f) rfl (read ht (by simp)) sole_k
    List.not_mem_nil (a := {}) rfl rfl (type_k f)
  obtain ⟨o₄, h₄, k₄⟩ := C64_struct_partial (stages f) (read ht (cs := []) (by simp)) (sole_struct f) (needed f) (s := struct) rfl ⟨rfl, rfl⟩
    (DefCases.layout f rfl) (a := {}) rfl rfl rfl (rule := .none) rfl
    (by
      intro x hx y hy
      simp only [struct, SourceCases.struct, listOf, List.mem_cons, List.not_mem_nil, or_false] at hx
      rcases hx with rfl | rfl <;> cases hy) (members f _)
  obtain rfl := Option.some.inj (h₁.symm.trans h₂)
  obtain rfl := Option.some.inj (h₁.symm.trans h₃)
  obtain rfl := Option.some.inj (h₁.symm.trans h₄)
  exact ⟨t, o₁, ht, h₁, k₁, k₂, k₃, k₄⟩

open StaticCases in
open SourceCases (env R on rust fits) in
/-- What the header declares is one of the three. -/
example (f : CaseFns) {t : Str} (ht : headerText env StaticCases.bindings = some t) {o : Out} (ho : readHeader R on t = some o)
    {ext : Bool} {attrs bits : List Lx} {n : Str} {ty : CTy} (hd : .object ext attrs n ty bits ∈ o.items)
    (hty : ∀ ps a r, ty ≠ .fn ps a r) : (n, ty) ∈ [(c!"P", tP), (c!"M", tM), (c!"K", tK)] := by
  obtain ⟨_, _, _, s, cs, a, h₁, _, _, _, _, h₂⟩ := C65_only_partial (built f) plain rfl (generated f) (expanded f) rfl bindings_good ht
    ⟨rfl, rfl, rfl, rfl, fun _ => rfl, fun _ => rfl⟩ fits ho hd hty
  have := given_static h₁
  simp only [statics, List.mem_cons, List.not_mem_nil, or_false, Prod.mk.injEq] at this
  rcases this with ⟨rfl, rfl, rfl⟩ | ⟨rfl, rfl, rfl⟩ | ⟨rfl, rfl, rfl⟩
  · rw [← h₂ .none _ (type_p f)]; simp [tP, CTy.forgetFnPtr, CTy.forgetTyArgs]
  · rw [← h₂ .none _ (type_m f)]; simp [tM, CTy.forgetFnPtr, CTy.forgetTyArgs]
  · rw [← h₂ .none _ (type_k f)]; simp [tK, CTy.forgetFnPtr, CTy.forgetTyArgs, cname]

/-! ## Where the code deviates -/

namespace StaticCases

/-- `#[no_mangle] pub static Q: *mut u8 = ..;` -/
def q : SynStatic := ⟨c!"Q", .ptr false (.path c!"u8" .none), false, [{ attr := noMangle }]⟩
def Q : StaticItem := { path := c!"Q", exportName := c!"Q", ty := .ptr DefCases.u8 false true false }
/-- `#[repr(C)] pub struct G<T> { x: T }` and `#[no_mangle] pub static S: G<i32> = ..;` -/
def g : SynStruct :=
  ⟨c!"G", [.type c!"T" none], .named [⟨some c!"x", .path c!"T" .none, []⟩], [DefCases.reprC]⟩
def s : SynStatic := ⟨c!"S", .path c!"G" (.angle [.type (.path c!"i32" .none)]), false, [{ attr := noMangle }]⟩
def G : StructItem :=
  { path := c!"G", exportName := c!"G", fields := [{ name := c!"x", ty := ScopeCases.ref c!"T" }], genericParams := [{ name := c!"T" }] }
def S : StaticItem := { path := c!"S", exportName := c!"S", ty := .path c!"G" c!"G" [.type SourceCases.i32] none }

def contains (line : Str) : Str → Bool
  | [] => line.isPrefixOf []
  | x :: xs => line.isPrefixOf (x :: xs) || contains line xs

end StaticCases

open StaticCases in
open SourceCases (env) in
/-- An immutable variable with a pointer to something mutable is declared as a pointer to something constant. -/
theorem C65_pointer_refuted (f : CaseFns) : ∃ l b t, buildLibrary SourceCases.pc { caseFns := f } 1 { srcs := [(c!"lib", some [.static q])] } = .ok l ∧
    l.generate (plainConfig .c f) id 1 = .ok b ∧ headerText env b = some t ∧ contains c!"extern const uint8_t *Q;" t = true := by
  refine ⟨{ globals := [(c!"Q", .single Q)] }, ⟨[], [Q], [], []⟩, _, rfl, ?_, (Option.some_get (show (headerText env ⟨[], [Q], [], []⟩).isSome = true by decide +kernel)).symm, by decide +kernel⟩
  refine Library.generate_of (l' := { globals := [(c!"Q", .single Q)] }) rfl ?_
  rw [DetSpec.collect_of (d := ⟨[], []⟩) rfl]
  simp only [DetSpec.bindingsOf]
  rw [sortItems_rest (by decide)]
  rfl

open StaticCases in
open SourceCases (env) in
/-- A variable whose type is an instance of a generic struct is declared with a type that is not C, and the instance is
not defined. -/
theorem C65_generic_refuted (f : CaseFns) : ∃ l b t, buildLibrary SourceCases.pc { caseFns := f } 1 { srcs := [(c!"lib", some [.struct g, .static s])] } = .ok l ∧
    l.generate (plainConfig .c f) id 1 = .ok b ∧ headerText env b = some t ∧ contains c!"G<int32_t> S;" t = true := by
  refine ⟨{ structs := [(c!"G", .single G)], globals := [(c!"S", .single S)] }, ⟨[], [S], [], []⟩, _, rfl, ?_, (Option.some_get (show (headerText env ⟨[], [S], [], []⟩).isSome = true by decide +kernel)).symm, by decide +kernel⟩
  refine Library.generate_of (l' := { globals := [(c!"S", .single S)] }) rfl ?_
  rw [DetSpec.collect_of (d := ⟨[], []⟩) rfl]
  simp only [DetSpec.bindingsOf]
  rw [sortItems_rest (by decide)]
  rfl

end Cbindgen
