import Verif.Props.SourceCxx
import Verif.Props.ReadCxxCases
import Verif.Props.SourceStaticCases

/-! # Cases for C75 -/

namespace Cbindgen
open CSpec HeadSpec LexSpec
open SrcSpec hiding Reaches Given Plain Declares

namespace CxxSourceCases
open SourceCases (pc on rust unix a i32)

def named (n : Str) : SynTy := .path n .none

/-- `#[no_mangle] pub extern "C" fn f(x: *mut A, b: Box<A>, p: Option<&Pair<A, 3>>) -> NonZero<u32>` -/
def fn : SynFn :=
  ⟨{ ident := c!"f", abi := .named c!"C",
     inputs := [.ident c!"x" (.ptr false (named c!"A")), .ident c!"b" (.path c!"Box" (.angle [.type (named c!"A")])),
       .ident c!"p" (.path c!"Option" (.angle [.type (.reference false
         (.path c!"Pair" (.angle [.lifetime, .type (named c!"A"), .const (.lit (.int 3 []))])))]))],
     output := .type (.path c!"NonZero" (.angle [.type (named c!"u32")])) }, [{ attr := noMangle }]⟩

/-- A file with a struct, with `#[cfg(unix)] mod m { .. }` around the function, and with a variable. -/
def items : List FItem :=
  [.struct SourceCases.struct, .mod [{ attr := cfgUnix }] .found [.fn fn], .static StaticCases.p]

def inputs : Inputs := { srcs := [(c!"lib", some items)] }

def A : Ty := ScopeCases.ref c!"A"
def box : Ty := .path c!"Box" c!"Box" [.type A] none
def pair : Ty := .path c!"Pair" c!"Pair" [.type A, .const (.value c!"3")] none

def func (p r : Ty) : FuncItem :=
  { path := c!"f", ret := r, cfg := unix,
    args := [⟨some c!"x", ScopeCases.ptr A, none⟩, ⟨some c!"b", box, none⟩, ⟨some c!"p", p, none⟩] }

def u32 : Ty := .prim (.integer true false .b32)

def loaded : FuncItem := func (.path c!"Option" c!"Option" [.type (.ptr pair true false false)] none) (.path c!"NonZero" c!"NonZero" [.type u32] none)
def written : FuncItem := func (.ptr pair true true false) (.prim (.integer false false .b32))

def lib : Library :=
  { structs := [(c!"A", .single a)], globals := [(c!"P", .single (StaticCases.P A))], functions := [loaded] }
def lib' : Library := { lib with functions := [written] }
def bindings : Bindings := ⟨[], [StaticCases.P A], [.struct a], [written]⟩

theorem built (f : CaseFns) : buildLibrary pc { caseFns := f } 1 inputs = .ok lib := rfl

theorem generated (f : CaseFns) : lib.generate (plainConfig .cxx f) id 1 = .ok bindings := by
  refine Library.generate_of (l' := lib') rfl ?_
  rw [DetSpec.collect_of (d := ⟨[.struct a], [c!"A"]⟩) rfl]
  simp only [DetSpec.bindingsOf]
  rw [sortItems_rest (by decide)]
  rfl

/-- Options with a namespace, an attribute for pointers and a macro for `unix`. -/
def env : Env :=
  { cfg := { language := .cxx, namespace_ := some c!"ns", nullableAttr := some c!"_Nullable", defines := [(c!"unix", c!"UNIX")] } }

def R : Dialect := { attrs := [c!"_Nullable", c!"class"] ++ cxxWords, cxx := true }
def D : List Str := [c!"UNIX"]

theorem attrs : AttrsFine R.attrs := by
  have h1 : ∀ a ∈ R.attrs, Word a ∧ wordTok R.attrs a = .attr a ∧ isArith a = false := by unfold Word; decide
  have h2 : ∀ a ∈ R.attrs, ∀ u, ∀ s ∈ [true, false], ∀ k ∈ [IntKind.short, .int, .long, .longlong, .sizeT, .size, .b8, .b16, .b32, .b64],
      ∀ z ∈ [true, false], Prim.toReprC u (.integer z s k) ≠ a := by decide
  intro a ha
  refine ⟨(h1 a ha).1, (h1 a ha).2.1, (h1 a ha).2.2, ?_⟩
  intro p u h
  cases p with
  | integer z s k =>
    exact h2 a ha u s (by cases s <;> simp) k (by cases k <;> simp) z (by cases z <;> simp) h
  | _ => cases u <;> subst h <;> revert ha <;> decide

theorem opts : ReadFine env.cfg R D where
  names := by simp only [env, List.mem_singleton]; rintro _ rfl; unfold CfgSpec.GoodName; decide
  asked := by simp only [env, List.mem_singleton]; rintro _ rfl; decide
  dialect :=
    { known := ⟨attrs, by decide, by decide, by decide⟩
      macros := by decide
      apart := by decide
      noTypedef := by decide
      noExtern := by decide
      reserved := by decide }

theorem ident {n : Str} (h : (n ≠ [] ∧ n.all LexSpec.wordChar = true) ∧ wordTok R.attrs n = .name n ∧ isArith n = false ∧
    n ≠ c!"typedef" ∧ n ≠ c!"extern") : Ident R.attrs n := ⟨h.1.1, h.1.2, h.2⟩

macro "ident_x" : tactic => `(tactic| exact ident (by decide))

theorem ty_A : TyFine R.attrs A ∧ NoVoidParam env.cfg.toDeclConfig A := ⟨⟨by ident_x, trivial⟩, trivial⟩

theorem ty_box : TyFine R.attrs box ∧ NoVoidParam env.cfg.toDeclConfig box := ⟨⟨by ident_x, ty_A.1, trivial⟩, ty_A.2, trivial⟩

theorem ty_pair : TyFine R.attrs pair ∧ NoVoidParam env.cfg.toDeclConfig pair :=
  ⟨⟨by ident_x, ty_A.1, by unfold Word; decide, trivial⟩, ty_A.2, trivial⟩

theorem bindings_good : CxxHeaderGood R on D env bindings where
  options := opts
  lang := rfl
  spaces := by unfold Word; decide
  uses := nofun
  version := by unfold CommentSafe; decide
  guard := nofun
  header := nofun
  autogen := nofun
  after := nofun
  trailer := nofun
  sys := nofun
  quoted := nofun
  constants := nofun
  globals := by
    intro s hs _
    simp only [bindings, List.mem_singleton] at hs
    subst hs
    exact {
      name := by ident_x
      ty := ty_A.1
      params := trivial
      doc := nofun
      const := .inr (.inl rfl) }
  items := by
    intro x hx _
    simp only [bindings, List.mem_singleton] at hx
    subst hx
    exact {
      name := by ident_x
      attrs := by
        intro o ho
        simp only [structAttrs, List.mem_cons, List.not_mem_nil, or_false] at ho
        rcases ho with rfl | rfl | rfl <;> exact nofun
      fields := by
        intro x hx
        simp only [a, ScopeCases.struct2, List.mem_cons, List.not_mem_nil, or_false] at hx
        rcases hx with rfl | rfl
        · exact ⟨by ident_x, trivial, trivial, nofun, nofun⟩
        · exact ⟨by ident_x, trivial, trivial, nofun, nofun⟩
      bodies := ⟨nofun, nofun⟩
      doc := nofun
      consts := nofun
      plain := fun _ => ⟨nofun, rfl, rfl⟩ }
  functions := by
    intro f hf _
    simp only [bindings, List.mem_singleton] at hf
    subst hf
    exact {
      name := by ident_x
      ret := trivial
      args := by
        intro a ha
        simp only [written, func, List.mem_cons, List.not_mem_nil, or_false] at ha
        rcases ha with rfl | rfl | rfl
        · exact ⟨fun n hn => by cases hn; ident_x, ty_A.1, nofun⟩
        · exact ⟨fun n hn => by cases hn; ident_x, ty_box.1, nofun⟩
        · exact ⟨fun n hn => by cases hn; ident_x, ty_pair.1, nofun⟩
      lengths := by
        intro a ha hl
        simp only [written, func, List.mem_cons, List.not_mem_nil, or_false] at ha
        rcases ha with rfl | rfl | rfl <;> simp at hl
      params := by
        refine ⟨by simp [written, func, isVoidList], trivial, ?_⟩
        intro a ha
        simp only [written, func, List.mem_cons, List.not_mem_nil, or_false] at ha
        rcases ha with rfl | rfl | rfl
        · exact ty_A.2
        · exact ty_box.2
        · exact ty_pair.2
      attrs := by
        intro o ho
        simp only [funcAttrs, funcPost, written, func, Bool.false_eq_true, if_false, List.cons_append,
          List.nil_append, List.mem_cons, List.not_mem_nil, or_false] at ho
        rcases ho with rfl | rfl | rfl | rfl | rfl <;> exact nofun
      doc := nofun }

theorem plain : InputsPlain inputs where
  srcs := by
    intro name is h
    simp only [inputs, List.mem_singleton, Prod.mk.injEq, Option.some.injEq] at h
    obtain ⟨_, rfl⟩ := h
    refine ⟨⟨trivial, ⟨trivial, trivial⟩, ?_, trivial⟩, ⟨trivial, ⟨?_, trivial⟩, ?_, trivial⟩⟩
    · intro args h; simp [StaticCases.p, noMangle] at h
    · show ParserSpec.UnsafeOne _
      intro args h
      simp [fn, noMangle] at h
    · intro args h; simp [StaticCases.p, noMangle] at h
  lib := by
    intro ws root p is h
    simp [inputs] at h

theorem onePath : OnePath pc inputs where
  names := by
    intro ws root p q cs cs' h
    simp [inputs] at h
  paths := by
    intro ws root p cs cs' h
    simp [inputs] at h

theorem given : SrcSpec.Given pc inputs (.fn c!"f" none false fn) [.boolean c!"unix"] := by
  refine .src (name := c!"lib") (is := items) (by simp [inputs]) ?_
  refine Occurs.nested (attrs := [{ attr := cfgUnix }]) (sub := [.fn fn]) (cs := []) (by simp [items]) ?_ ?_
  · simp [Hidden, ParserSpec.Ignored, cfgUnix]
  · refine Occurs.here (i := .fn fn) (by simp) ?_ ?_
    · simp [Hidden, ParserSpec.Ignored, FItem.attrs, fn, noMangle]
    · exact .fn (Or.inl rfl) (Or.inr (Or.inl rfl)) (Or.inr ⟨by decide, Or.inl (by simp [fn, noMangle]), rfl⟩)

theorem sole : SoleStatic pc inputs c!"P" StaticCases.p [] where
  given := .src (name := c!"lib") (is := items) (by simp [inputs])
    (.here (i := .static StaticCases.p) (by simp [items]) (by simp [Hidden, ParserSpec.Ignored, FItem.attrs, StaticCases.p, noMangle])
      (.static (Or.inl rfl) (Or.inr ⟨by decide, Or.inl (by simp [StaticCases.p, noMangle]), rfl⟩)))
  others := by
    intro s' cs' hg
    left
    cases hg with
    | src hs ho =>
      simp only [inputs, List.mem_singleton, Prod.mk.injEq, Option.some.injEq] at hs
      obtain ⟨_, rfl⟩ := hs
      have h := (StaticCases.occurs_vars ho rfl).1
      simp only [items, StaticCases.varsAll, StaticCases.vars, List.append_nil, List.nil_append, List.map_nil, List.mem_singleton,
        Prod.mk.injEq] at h
      exact h
    | lib hl => simp [inputs] at hl

/-- `uint32_t f(A *_Nullable x, Box<A> b, const Pair<A, 3> *_Nullable p)` -/
def cty : CTy :=
  .fn [.mk (some c!"x") (.ptr false false (some c!"_Nullable") (.base false none c!"A" [])),
    .mk (some c!"b") (.base false none c!"Box" [.type (.base false none c!"A" [])]),
    .mk (some c!"p") (.ptr false false (some c!"_Nullable")
      (.base true none c!"Pair" [.type (.base false none c!"A" []), .const c!"3"]))] none (cname false c!"uint32_t")

theorem typed_A {f : CaseFns} (c : Bool) : CxxType (cxxEnv (plainConfig .cxx f) env.cfg .none none) c (named c!"A") (.base c none c!"A" []) :=
  .named (n := c!"A") (by decide) .none

theorem typed (f : CaseFns) : CxxFn (cxxEnv (plainConfig .cxx f) env.cfg .none none) fn.sig cty := by
  have h1 : CxxType (cxxEnv (plainConfig .cxx f) env.cfg .none none) true
      (.path c!"Pair" (.angle [.lifetime, .type (named c!"A"), .const (.lit (.int 3 []))]))
      (.base true none c!"Pair" [.type (.base false none c!"A" []), .const c!"3"]) :=
    .template (n := c!"Pair") (by decide) (by decide) (.lifetime (.type (typed_A false) (.const .int .nil)))
  have h2 : CxxType (cxxEnv (plainConfig .cxx f) env.cfg .none none) false (.path c!"Box" (.angle [.type (named c!"A")]))
      (.base false none c!"Box" [.type (.base false none c!"A" [])]) :=
    .template (n := c!"Box") (by decide) (by decide) (.type (typed_A false) .nil)
  have h : CxxParams (cxxEnv (plainConfig .cxx f) env.cfg .none none) fn.sig.inputs
      [.mk (some c!"x") (.ptr false false (some c!"_Nullable") (.base false none c!"A" [])),
        .mk (some c!"b") (.base false none c!"Box" [.type (.base false none c!"A" [])]),
        .mk (some c!"p") (.ptr false false (some c!"_Nullable")
          (.base true none c!"Pair" [.type (.base false none c!"A" []), .const c!"3"]))] :=
    .ident (n := c!"x") (.raw (.some (typed_A false))) (fun h => h)
      (.ident (n := c!"b") h2 (fun h => h)
        (.ident (n := c!"p") (.optNonNull (.reference (m := false) (.some h1)) (.mk rfl)) (fun h => h) .nil))
  have hr : CxxReturns (cxxEnv (plainConfig .cxx f) env.cfg .none none) fn.sig.output none (cname false c!"uint32_t") :=
    .type (.nonZero (.wrapped (n := c!"u32") (show _ ∈ intTypes false by decide) .none (.mk rfl))) (fun h => h)
  exact .mk h hr

theorem fits : CfgSpec.Matches env.cfg.defines rust on := SourceCases.fits

theorem reads {t : Str} (ht : headerText env bindings = some t) : CxxReadWhere R on D env bindings t rust [.boolean c!"unix"] where
  good := bindings_good
  text := ht
  first := nofun
  same := fits
  mapped := by
    intro x hx
    obtain rfl := List.mem_singleton.1 hx
    exact ⟨(c!"unix", c!"UNIX"), by simp [env], by decide, rfl⟩
  holds := by
    intro x hx
    obtain rfl := List.mem_singleton.1 hx
    rfl

end CxxSourceCases

open CxxSourceCases SourceCases in
/-- A case for C75: a function with templates in a module that is only there on Unix.  All hypotheses hold. -/
theorem C75_case (f : CaseFns) : ∃ t, headerText CxxSourceCases.env CxxSourceCases.bindings = some t ∧
    ∃ o attrs, readHeader CxxSourceCases.R on t = some o ∧
      Declares o.items [c!"ns"] true (.object false attrs c!"f" CxxSourceCases.cty.forgetFnPtr []) := by
  obtain ⟨t, ht⟩ := Option.isSome_iff_exists.1
    (show (headerText CxxSourceCases.env CxxSourceCases.bindings).isSome = true by decide +kernel)
  exact ⟨t, ht, C75_declared_partial (CxxSourceCases.built f) CxxSourceCases.plain CxxSourceCases.onePath rfl (CxxSourceCases.generated f) rfl
    (reads ht) CxxSourceCases.given List.not_mem_nil (a := {}) rfl rfl rfl (rule := .none) rfl (CxxSourceCases.typed f)⟩

open CxxSourceCases SourceCases in
/-- The same header declares the variable `extern const A *_Nullable P`, no other variable, and no other function. -/
theorem C75_only_case (f : CaseFns) : ∃ t o, headerText CxxSourceCases.env CxxSourceCases.bindings = some t ∧
    readHeader CxxSourceCases.R on t = some o ∧
    Declares o.items [c!"ns"] true (.object true [] c!"P" (.ptr false false (some c!"_Nullable") (.base true none c!"A" [])) []) ∧
    (∀ ns link ext attrs bits path ps at' ret, Declares o.items ns link (.object ext attrs path (.fn ps at' ret) bits) →
      link = true ∧ ns = [c!"ns"] ∧ ∃ owner sf cs, SrcSpec.Given pc CxxSourceCases.inputs (.fn path owner ext sf) cs) ∧
    ∀ ns link ext attrs bits path ty, Declares o.items ns link (.object ext attrs path ty bits) → (∀ ps a r, ty ≠ .fn ps a r) →
      link = true ∧ ns = [c!"ns"] ∧ ∃ s cs, SrcSpec.Given pc CxxSourceCases.inputs (.static path s) cs := by
  obtain ⟨t, ht⟩ := Option.isSome_iff_exists.1
    (show (headerText CxxSourceCases.env CxxSourceCases.bindings).isSome = true by decide +kernel)
  have hn : ∀ k ∈ [CxxSourceCases.env.cfg.header, CxxSourceCases.env.cfg.autogenWarning, CxxSourceCases.env.cfg.afterIncludes,
      CxxSourceCases.env.cfg.trailer], ∀ d ∈ (blockOut CxxSourceCases.R on k).items, IsType d := by
    intro k hk d hd
    simp only [CxxSourceCases.env, List.mem_cons, List.not_mem_nil, or_false, or_self] at hk
    subst hk
    cases hd
  have hu : CxxStatic (cxxEnv (plainConfig .cxx f) CxxSourceCases.env.cfg .none none) false StaticCases.p.ty
      (.ptr false false (some c!"_Nullable") (.base true none c!"A" [])) :=
    .pointer (.raw (.some (typed_A true))) trivial
  have hr : CxxReadWhere CxxSourceCases.R on D CxxSourceCases.env CxxSourceCases.bindings t rust [] :=
    ⟨CxxSourceCases.bindings_good, ht, nofun, CxxSourceCases.fits, nofun, nofun⟩
  obtain ⟨o, ho, hd⟩ := C75_static_partial (CxxSourceCases.built f) CxxSourceCases.plain CxxSourceCases.onePath rfl
    (CxxSourceCases.generated f) rfl hr CxxSourceCases.sole List.not_mem_nil (a := {}) rfl rfl (rule := .none) hu
  refine ⟨t, o, ht, ho, hd, ?_, ?_⟩
  · intro ns link ext attrs bits path ps at' ret h
    obtain ⟨h1, h2, _, owner, sf, cs, _, hg, _⟩ := C75_only_partial (CxxSourceCases.built f) CxxSourceCases.plain rfl
      (CxxSourceCases.generated f) rfl CxxSourceCases.bindings_good ht hn CxxSourceCases.fits ho h
    exact ⟨h1, h2, owner, sf, cs, hg⟩
  · intro ns link ext attrs bits path ty h hty
    obtain ⟨h1, h2, _, _, _, s, cs, _, hg, _⟩ := C75_static_only_partial (CxxSourceCases.built f) CxxSourceCases.plain rfl
      (CxxSourceCases.generated f) rfl CxxSourceCases.bindings_good ht hn CxxSourceCases.fits ho h hty
    exact ⟨h1, h2, s, cs, hg⟩

end Cbindgen
