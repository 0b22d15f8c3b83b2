import Verif.Props.ReadCxx

/-!
# A C++ header that meets the hypotheses of C74

One header with all kinds of items: namespaces, conditions, attributes, blocks of code, a guard, an `enum class` with a
size, an enum with data, a struct with a constant, and constants that are variables.
-/

namespace Cbindgen
open LexSpec CSpec HeadSpec PreSpec TextSpec CommentSpec

namespace CxxReadCases

def cfg : OutConfig :=
  { language := .cxx, nullableAttr := some c!"_Nullable", noReturn := some c!"NORETURN", pragmaOnce := true,
    includeGuard := some c!"MY_H", header := some c!"/* Text */", autogenWarning := some c!"// warning",
    afterIncludes := some c!"struct Mine;",
    trailer := some c!"#define END 1", sysIncludes := [c!"math.h"], includes := [c!"dep/other.h"],
    defines := [(c!"unix", c!"UNIX"), (c!"feature = x", c!"WITH_X")], preBody := [(c!"S", c!"int first;")],
    layout := { packed := some c!"PACKED", alignedN := some c!"ALIGNED" }, namespace_ := some c!"ns",
    namespaces := some [c!"inner"], usingNamespaces := some [c!"other"],
    function := { mustUse := some c!"MUST_USE", deprecated := some c!"DEPRECATED", post := some c!"POST(1)", args := .vertical },
    structure_ := { mustUse := some c!"MUST_USE" }, enumeration := { deprecatedVariant := some c!"DEPRECATED" },
    packageVersion := true, includeVersion := true, version := c!"1.0" }

def R : Dialect :=
  { attrs := [c!"_Nullable", c!"NORETURN", c!"MUST_USE", c!"DEPRECATED", c!"POST", c!"PACKED", c!"ALIGNED", c!"class"] ++ cxxWords,
    macros := [c!"MUST_USE", c!"DEPRECATED", c!"POST", c!"PACKED", c!"ALIGNED"], cxx := true }

def D : List Str := [c!"UNIX", c!"WITH_X", c23, cplusplus]

def i32 : Ty := .prim (.integer false true .b32)
def sTy : Ty := .path c!"S" c!"S" [] none
def cb : Ty := .fnptr (.prim .void) [.mk (some c!"x") (.ptr sTy false true false), .mk none (.array i32 (.value c!"3"))] false false

def limit : ConstItem :=
  { path := c!"LIMIT", exportName := c!"LIMIT", ty := i32, value := .binop (.expr c!"1") c!"<<" (.cast i32 (.path none c!"BASE")) }

def origin : ConstItem :=
  { path := c!"ORIGIN", exportName := c!"ORIGIN", ty := .array i32 (.value c!"2"), associatedTo := some c!"S",
    value := .array [.expr c!"1", .unary c!"-" (.expr c!"2")] }

def s : StructItem :=
  { path := c!"S", exportName := c!"S", alignment := some (.align 8), annotations := { mustUse := true },
    fields := [{ name := c!"a", ty := i32, doc := [c!" a field"], annotations := { entries := [(c!"bitfield", .atom (some c!"4"))] } },
      { name := c!"b", ty := cb, cfg := some (.boolean c!"unix") }],
    doc := [c!" A struct.", c!"", c!" See * and /."], cfg := some (.not (.any [.boolean c!"unix", .named c!"feature" c!"x"])),
    assocConsts := [origin] }

/-- `<T, const N: usize>` -/
def params : List GParam := [{ name := c!"T" }, { name := c!"N", constTy := some (.prim (.integer true false .size)) }]

/-- `#[repr(packed)] union U<T, const N: usize> { p: *const S, q: *const T }` -/
def u : UnionItem :=
  { path := c!"U", exportName := c!"U", genericParams := params, alignment := some .packed,
    fields := [{ name := c!"p", ty := .ptr sTy true true false },
      { name := c!"q", ty := .ptr (.path c!"T" c!"T" [] none) true true false }] }

/-- `#[repr(u8)] enum Color { Red = 1, Green }` -/
def color : EnumItem :=
  { path := c!"Color", exportName := c!"Color", repr := { style := .c, ty := some (.b8, false) },
    variants := [{ name := c!"Red", exportName := c!"Red", disc := some (.expr c!"1"), cfg := some (.named c!"feature" c!"x") },
      { name := c!"Green", exportName := c!"Green", body := .empty { deprecated := some [] } }] }

def body (name : Str) (fs : List Field) : StructItem :=
  { path := name, exportName := name, fields := fs, isEnumVariantBody := true }

/-- `#[repr(C)] enum Shape { Circle { r: i32 }, Point(S), Nothing }` -/
def shape : EnumItem :=
  { path := c!"Shape", exportName := c!"Shape", repr := { style := .c }, tag := some c!"Shape_Tag",
    variants := [
      { name := c!"Circle", exportName := c!"Circle", body := .body c!"circle" (body c!"Circle_Body" [{ name := c!"r", ty := i32 }]) false false },
      { name := c!"Point", exportName := c!"Point", body := .body c!"point" (body c!"Point_Body" [{ name := c!"point", ty := sTy }]) true false },
      { name := c!"Nothing", exportName := c!"Nothing" }] }

def o : OpaqueItem := { path := c!"O", exportName := c!"O", genericParams := params }
def td : TypedefItem := { path := c!"Callback", exportName := c!"Callback", aliased := cb }
def g : StaticItem := { path := c!"G", exportName := c!"G", ty := .array i32 (.path c!"LIMIT" c!"LIMIT") }

def f : FuncItem :=
  { path := c!"run", ret := .ptr cb false true false,
    args := [⟨some c!"data", .ptr i32 true false false, some c!"LIMIT"⟩, ⟨none, cb, none⟩],
    annotations := { mustUse := true, deprecated := some [] }, neverReturn := false }

def e : Env := { cfg := cfg, structs := [(c!"S", .single s)], packageVersion := c!"cases 0.1" }

def b : Bindings := ⟨[limit], [g], [.enum color, .struct s, .union u, .enum shape, .opaque o, .typedef td], [f]⟩

theorem attrs : AttrsFine R.attrs := by
  have h1 : ∀ a ∈ R.attrs, Word a ∧ wordTok R.attrs a = .attr a ∧ isArith a = false := by unfold Word; decide
  have h2 : ∀ a ∈ R.attrs, ∀ u, ∀ s ∈ [true, false], ∀ k ∈ [IntKind.short, .int, .long, .longlong, .sizeT, .size, .b8, .b16, .b32, .b64],
      ∀ z ∈ [true, false], Prim.toReprC u (.integer z s k) ≠ a := by decide
  intro a ha
  refine ⟨(h1 a ha).1, (h1 a ha).2.1, (h1 a ha).2.2, ?_⟩
  intro p u h
  cases p with
  | integer z s k =>
    exact h2 a ha u s (by cases s <;> simp) k (by cases k <;> simp) z (by cases z <;> simp) h
  | _ => cases u <;> subst h <;> revert ha <;> decide

theorem opts : ReadFine cfg R D where
  names := by
    intro x hx
    simp only [cfg, List.mem_cons, List.not_mem_nil, or_false] at hx
    rcases hx with rfl | rfl <;> exact ⟨by simp, by decide, by decide, by decide, by decide⟩
  asked := by decide
  dialect :=
    { known := ⟨attrs, by decide, by decide, by decide⟩
      macros := by decide
      apart := by decide
      noTypedef := by decide
      noExtern := by decide
      reserved := by decide }

theorem ident {n : Str} (h : (n ≠ [] ∧ n.all LexSpec.wordChar = true) ∧ wordTok R.attrs n = .name n ∧ isArith n = false ∧
    n ≠ c!"typedef" ∧ n ≠ c!"extern") : Ident R.attrs n := ⟨h.1.1, h.1.2, h.2⟩

macro "ident" : tactic => `(tactic| exact ident (by decide))

theorem text_attr {t : Str} {ls : List Lx} (h : isText t false ls true = true) (h1 : isAttrs R.macros .out ls = true)
    (h2 : ls.all isPlainTok = true) : AttrText R t :=
  ⟨ls, scans_text (d := false) h, h1, h2⟩

theorem text_expr {t : Str} {ls : List Lx} (h : isText t false ls true = true) (h1 : Lx.eol ∉ ls) : ExprText t :=
  ⟨ls, h1, fun _ => scans_text h⟩

theorem none_attr {o : Option Str} (h : o = none) : OptAttr R o := by subst h; exact nofun

theorem some_attr {o : Option Str} {t : Str} (ls : List Lx) (ho : o = some t) (h : isText t false ls true = true)
    (h1 : isAttrs R.macros .out ls = true) (h2 : ls.all isPlainTok = true) : OptAttr R o := by
  subst ho
  rintro s ⟨⟩
  exact text_attr h h1 h2

theorem ty_i32 : TyFine R.attrs i32 ∧ NoVoidParam cfg.toDeclConfig i32 := by simp [i32, TyFine, NoVoidParam]

theorem ty_s : TyFine R.attrs sTy ∧ NoVoidParam cfg.toDeclConfig sTy := by
  refine ⟨⟨by ident, trivial⟩, trivial⟩

theorem ty_cb : TyFine R.attrs cb ∧ NoVoidParam cfg.toDeclConfig cb := by
  constructor
  · simp only [cb, TyFine, FArgsFine, and_true, true_and]
    refine ⟨fun n hn => ?_, ty_s.1, nofun, ⟨⟨by simp [CExpr.asStr], by decide⟩, by decide⟩, ty_i32.1⟩
    cases hn
    ident
  · simp [cb, sTy, i32, NoVoidParam, NoVoidParamArgs, NoVoidParamGArgs, meaningArgs, isVoidList]

theorem doc_of {d : List Str} (h : d = [] ∨ d = [c!" a field"] ∨ d = [c!" A struct.", c!"", c!" See * and /."]) : DocFine cfg d := by
  rcases h with rfl | rfl | rfl
  · exact nofun
  · unfold DocFine OneLine Closes; decide
  · unfold DocFine OneLine Closes; decide

theorem member {n : Str} {t : Ty} {g : Option Cfg} {d : List Str} (hn : Ident R.attrs n) (ht : TyFine R.attrs t ∧ NoVoidParam cfg.toDeclConfig t)
    (hd : DocFine cfg d) : MemberFine R cfg { name := n, ty := t, cfg := g, doc := d } :=
  ⟨hn, ht.1, ht.2, hd, nofun⟩

theorem body_text (on : Str → Bool) : BodyText R on D c!"int first;" := by
  refine ⟨_, _, ?_, adds_semi (grow_toks (ls := [.word c!"int", .word c!"first"]) (by decide)) rfl rfl⟩
  intro x hx
  cases hx
  exact ⟨_, _, rfl, .inl rfl, rfl⟩

theorem bodies (on : Str → Bool) (path : Str) : BodiesFine R on D cfg path := by
  constructor
  · intro t ht
    have : t = c!"int first;" := by
      simp only [OutConfig.preBodyOf, cfg, List.lookup] at ht
      split at ht <;> simp only [Option.map_some, Option.map_none, Option.some.injEq, reduceCtorEq] at ht
      rw [← ht]; rfl
    rw [this]
    exact body_text on
  · intro t ht
    simp [OutConfig.postBodyOf, cfg] at ht

theorem origin_good : ConstGood R D e (some s) origin where
  name := by
    rintro n hn
    have : n = c!"S_ORIGIN" := by cases hn; rfl
    subst this
    exact ⟨⟨by simp, by decide⟩, by decide⟩
  value := by
    rintro v hv
    have : v = origin.value := by cases hv; rfl
    subst this
    simp only [origin, LitText, LitTexts, and_true]
    refine ⟨text_expr (ls := [.word c!"1"]) (by decide) (by decide), ⟨[.punct '-'], by simp, fun d => ?_⟩,
      text_expr (ls := [.word c!"2"]) (by decide) (by decide)⟩
    exact scans_text (d := d) (b := false) (x := false) (by decide)
  doc := doc_of (.inl rfl)
  variable_ := by
    intro _
    refine ⟨?_, ⟨⟨⟨by simp [CExpr.asStr], by decide⟩, by decide⟩, ty_i32.1⟩, trivial, .inr rfl, ?_⟩
    · rintro n hn
      have : n = c!"S_ORIGIN" := by cases hn; rfl
      subst this
      ident
    · rintro v hv
      have : v = origin.value := by cases hv; rfl
      subst this
      have : litToks e origin.value = .punct '{' :: [.word c!"1", .punct ',', .punct '-', .word c!"2", .punct ','] ++ .punct '}' :: [] := by
        decide +kernel
      rw [this]
      exact .braces (.tok (by decide) (.tok (by decide) (.tok (by decide) (.tok (by decide) (.tok (by decide) .nil))))) .nil

theorem limit_good : ConstGood R D e none limit where
  name := by
    rintro n hn
    have : n = c!"LIMIT" := by cases hn; rfl
    subst this
    exact ⟨⟨by simp, by decide⟩, by decide⟩
  value := by
    rintro v hv
    have : v = limit.value := by cases hv; rfl
    subst this
    simp only [limit, LitText]
    refine ⟨text_expr (ls := [.word c!"1"]) (by decide) (by decide), ⟨[.punct '<', .punct '<'], by simp, fun d => ?_⟩,
      ⟨ty_i32.1, rfl⟩, by simp [pathText], by decide⟩
    exact scans_text (d := d) (b := true) (x := false) (by decide)
  doc := doc_of (.inl rfl)
  variable_ := by
    intro _
    refine ⟨?_, ty_i32.1, trivial, .inr rfl, ?_⟩
    · rintro n hn
      have : n = c!"LIMIT" := by cases hn; rfl
      subst this
      ident
    · rintro v hv
      have : v = limit.value := by cases hv; rfl
      subst this
      have : litToks e limit.value = [.punct '(', .word c!"1", .punct '<', .punct '<', .punct '(', .word c!"int32_t", .punct ')',
          .word c!"BASE", .punct ')'] := by decide +kernel
      rw [this]
      exact .tok (by decide) (.tok (by decide) (.tok (by decide) (.tok (by decide) (.tok (by decide) (.tok (by decide)
        (.tok (by decide) (.tok (by decide) (.tok (by decide) .nil))))))))

theorem s_good (on : Str → Bool) : StructGood R on D e s where
  name := by ident
  attrs := by
    intro o ho
    simp only [structAttrs, List.mem_cons, List.not_mem_nil, or_false] at ho
    rcases ho with rfl | rfl | rfl
    · exact some_attr [.word c!"ALIGNED", .punct '(', .word c!"8", .punct ')'] rfl (by decide) (by decide) (by decide)
    · exact some_attr [.word c!"MUST_USE"] rfl (by decide) (by decide) (by decide)
    · exact none_attr rfl
  fields := by
    intro f hf
    simp only [s, List.mem_cons, List.not_mem_nil, or_false] at hf
    rcases hf with rfl | rfl
    · refine ⟨by ident, ty_i32.1, ty_i32.2, doc_of (by simp), ?_⟩
      intro b hb
      have : b = some c!"4" := by cases hb; rfl
      exact ⟨_, this, ⟨by simp, by decide⟩, by decide⟩
    · exact member (by ident) ty_cb (doc_of (by simp))
  bodies := bodies on _
  doc := doc_of (by simp [s])
  consts := by
    intro k hk
    simp only [s, List.mem_singleton] at hk
    subst hk
    exact origin_good
  plain := fun _ => ⟨nofun, rfl, rfl⟩

theorem params_good : ∀ p ∈ params, ParamGood R p := by
  intro p hp
  simp only [params, List.mem_cons, List.not_mem_nil, or_false] at hp
  rcases hp with rfl | rfl
  · exact ⟨by ident, nofun, rfl⟩
  · exact ⟨by ident, by rintro t ⟨⟩; exact ⟨_, rfl, nofun⟩, rfl⟩

theorem u_good (on : Str → Bool) : UnionGood R on D cfg u where
  name := by ident
  attrs := some_attr [.word c!"PACKED"] rfl (by decide) (by decide) (by decide)
  fields := by
    intro f hf
    simp only [u, List.mem_cons, List.not_mem_nil, or_false] at hf
    rcases hf with rfl | rfl
    · exact member (by ident) ⟨ty_s.1, ty_s.2⟩ (doc_of (by simp))
    · refine member (by ident) ?_ (doc_of (by simp))
      simp only [TyFine, GArgsFine, NoVoidParam, NoVoidParamGArgs, and_true]
      ident
  bodies := bodies on _
  doc := doc_of (.inl rfl)
  plain := fun _ => params_good

theorem o_good : OpaqueGood R cfg o := ⟨by ident, doc_of (.inl rfl), fun _ => params_good⟩
theorem td_good : TypedefGood R cfg td := ⟨by ident, ty_cb.1, ty_cb.2, doc_of (.inl rfl), fun _ => nofun⟩
theorem g_good : StaticGood R cfg g :=
  ⟨by ident, ⟨⟨⟨by simp [CExpr.asStr], by decide⟩, by decide⟩, ty_i32.1⟩, ty_i32.2, doc_of (.inl rfl), .inr (.inr rfl)⟩

theorem f_good : FuncGood R cfg f where
  name := by ident
  ret := ty_cb.1
  args := by
    intro a ha
    simp only [f, List.mem_cons, List.not_mem_nil, or_false] at ha
    rcases ha with rfl | rfl
    · refine ⟨?_, ty_i32.1, ?_⟩
      · rintro n ⟨⟩; ident
      · rintro l ⟨⟩; exact ⟨⟨by simp, by decide⟩, by decide⟩
    · exact ⟨nofun, ty_cb.1, nofun⟩
  lengths := by
    intro a ha hl
    simp only [f, List.mem_cons, List.not_mem_nil, or_false] at ha
    rcases ha with rfl | rfl
    · exact ⟨_, _, _, _, rfl⟩
    · simp at hl
  params := by
    refine ⟨by simp [f, isVoidList], ty_cb.2, ?_⟩
    intro a ha
    simp only [f, List.mem_cons, List.not_mem_nil, or_false] at ha
    rcases ha with rfl | rfl
    · exact ty_i32.2
    · exact ty_cb.2
  attrs := by
    intro o ho
    simp only [funcAttrs, funcPost, f, Bool.false_eq_true, if_false, List.cons_append, List.nil_append, List.mem_cons,
      List.not_mem_nil, or_false] at ho
    rcases ho with rfl | rfl | rfl | rfl | rfl
    · exact none_attr rfl
    · exact some_attr [.word c!"MUST_USE"] rfl (by decide) (by decide) (by decide)
    · exact some_attr [.word c!"DEPRECATED"] rfl (by decide) (by decide) (by decide)
    · exact some_attr [.word c!"POST", .punct '(', .word c!"1", .punct ')'] rfl (by decide) (by decide) (by decide)
    · exact none_attr rfl
  doc := doc_of (.inl rfl)

theorem plain_variant {v : EnumVariant} (hn : Word v.exportName) (ha : v.body.annotations.deprecated = none) (hv : v.disc = none)
    (hd : v.doc = []) (hb : v.exportName ≠ c!"namespace" ∧ v.exportName ≠ c!"extern") : VariantGood R e v where
  name := hn
  attrs := by
    intro o ho
    simp only [variantAttrs, List.mem_singleton] at ho
    subst ho
    exact none_attr (by simp [Annotations.deprecatedNote, ha])
  commas := by simp [variantAttrs, attrToks, Annotations.deprecatedNote, ha]
  value := by rw [hv]; exact nofun
  doc := doc_of (.inl hd)
  block := fun _ => hb

theorem color_good (on : Str → Bool) : EnumGood R on D e color where
  name := by ident
  attrs := none_attr rfl
  variants := by
    intro v hv
    simp only [color, List.mem_cons, List.not_mem_nil, or_false] at hv
    rcases hv with rfl | rfl
    · refine ⟨⟨by simp, by decide⟩, ?_, by decide, ?_, doc_of (.inl rfl), fun _ => by decide⟩
      · intro o ho
        simp only [variantAttrs, List.mem_singleton] at ho
        subst ho
        exact none_attr rfl
      · rintro d ⟨⟩
        exact ⟨text_expr (ls := [.word c!"1"]) (by decide) (by decide), by decide, by decide⟩
    · refine ⟨⟨by simp, by decide⟩, ?_, by decide, nofun, doc_of (.inl rfl), fun _ => by decide⟩
      intro o ho
      simp only [variantAttrs, List.mem_singleton] at ho
      subst ho
      exact some_attr [.word c!"DEPRECATED"] rfl (by decide) (by decide) (by decide)
  doc := doc_of (.inl rfl)
  size := by
    rintro p hp
    have : p = c!"uint8_t" := by cases hp; rfl
    subst this
    exact ⟨by ident, by decide, by decide⟩
  data := nofun
  plain := fun _ => ⟨rfl, rfl, none_attr rfl, nofun⟩

theorem body_good {n : Str} {fs : List Field} (on : Str → Bool) (hn : Ident R.attrs n) (hf : ∀ f ∈ fs, MemberFine R cfg f) :
    StructGood R on D e (body n fs) where
  name := hn
  attrs := by
    intro o ho
    simp only [structAttrs, List.mem_cons, List.not_mem_nil, or_false] at ho
    rcases ho with rfl | rfl | rfl <;> exact none_attr rfl
  fields := hf
  bodies := bodies on _
  doc := doc_of (.inl rfl)
  consts := nofun
  plain := fun _ => ⟨nofun, rfl, rfl⟩

theorem shape_good (on : Str → Bool) : EnumGood R on D e shape where
  name := by ident
  attrs := none_attr rfl
  variants := by
    intro v hv
    simp only [shape, List.mem_cons, List.not_mem_nil, or_false] at hv
    rcases hv with rfl | rfl | rfl <;> exact plain_variant ⟨by simp, by decide⟩ rfl rfl rfl (by decide)
  doc := doc_of (.inl rfl)
  size := nofun
  data := by
    intro _
    refine ⟨by ident, ?_, bodies on _, ?_, by ident⟩
    · intro o ho
      simp only [dataAttrs, List.mem_cons, List.not_mem_nil, or_false] at ho
      rcases ho with rfl | rfl <;> exact none_attr rfl
    · intro v hv
      simp only [shape, List.mem_cons, List.not_mem_nil, or_false] at hv
      rcases hv with rfl | rfl | rfl
      · refine ⟨by ident, body_good on (by ident) ?_⟩
        intro f hf
        simp only [List.mem_singleton] at hf
        subst hf
        exact member (by ident) ty_i32 (doc_of (.inl rfl))
      · intro f hf
        simp only [body, List.mem_singleton] at hf
        subst hf
        exact member (by ident) ty_s (doc_of (.inl rfl))
      · trivial
  plain := fun _ => ⟨rfl, rfl, none_attr rfl, fun _ => ⟨rfl, by decide⟩⟩

/-- The hypotheses of C74, wherever the header is included. -/
theorem header_good {on : Str → Bool} : CxxHeaderGood R on D e b where
  options := opts
  lang := rfl
  spaces := by unfold Word; decide
  uses := by unfold Word; decide
  version := by unfold CommentSafe; decide
  guard := by
    rintro g hg
    have : g = c!"MY_H" := by cases hg; rfl
    subst this
    exact ⟨⟨by simp, by decide⟩, by decide⟩
  header := by
    rintro t ⟨⟩
    refine ⟨[], {}, ?_, adds_nil⟩
    intro x hx
    cases hx
    exact ⟨_, _, rfl, .inl rfl, rfl⟩
  autogen := by
    rintro t ⟨⟩
    refine ⟨[], {}, ?_, adds_nil⟩
    intro x hx
    cases hx
    exact ⟨_, _, rfl, .inr (.inr rfl), rfl⟩
  after := by
    rintro t ⟨⟩
    refine ⟨_, _, ?_, adds_semi (grow_toks (ls := [.word c!"struct", .word c!"Mine"]) (by decide)) rfl rfl⟩
    intro x hx
    cases hx
    exact ⟨_, _, rfl, .inl rfl, rfl⟩
  trailer := by
    rintro t ⟨⟩
    refine ⟨_, _, ?_, adds_define (x := c!"END") (body := [.word c!"1"]) (by decide) (by decide)⟩
    intro x hx
    cases hx
    exact ⟨_, _, rfl, .inr (.inl ⟨_, rfl⟩), rfl⟩
  sys := by
    intro i hi
    have : i = c!"math.h" := by simpa [e, cfg, OutConfig.allSysIncludes] using hi
    subst this
    exact text_expr (ls := [.word c!"math", .punct '.', .word c!"h"]) (by decide) (by decide)
  quoted := by
    intro i hi
    have : i = c!"dep/other.h" := by simpa [e, cfg, OutConfig.allIncludes] using hi
    subst this
    unfold QuoteSafe
    decide
  constants := by
    intro k hk
    simp only [b, List.mem_singleton] at hk
    subst hk
    exact limit_good
  items := by
    intro i hi _
    simp only [b, List.mem_cons, List.not_mem_nil, or_false] at hi
    rcases hi with rfl | rfl | rfl | rfl | rfl | rfl
    · exact color_good on
    · exact s_good on
    · exact u_good on
    · exact shape_good on
    · exact o_good
    · exact td_good
  globals := by
    intro k hk _
    simp only [b, List.mem_singleton] at hk
    subst hk
    exact g_good
  functions := by
    intro k hk _
    simp only [b, List.mem_singleton] at hk
    subst hk
    exact f_good

/-- The header is written, and it reads back. -/
theorem C74_case : ∃ t, headerText e b = some t ∧ ∀ on, readHeader R on t = some (cxxHeaderOut R e on b) := by
  have h : (headerText e b).isSome = true := by decide +kernel
  obtain ⟨t, ht⟩ := Option.isSome_iff_exists.mp h
  exact ⟨t, ht, fun on => C74_header_reads_back_partial header_good ht⟩

/-- The function has the linkage of C, in the namespaces; nothing else has. -/
theorem C74_linkage_case : ∃ t, headerText e b = some t ∧ ∀ on, on c!"MY_H" = false →
    ∃ o, readHeader R on t = some o ∧ ∃ attrs ty, Declares o.items [c!"ns", c!"inner"] true (.object false attrs c!"run" ty []) := by
  obtain ⟨t, ht, _⟩ := C74_case
  refine ⟨t, ht, fun on hon => ?_⟩
  obtain ⟨o, h1, h2⟩ := C74_function_linkage_partial (on := on) header_good ht (fun g hg => by cases hg; exact hon)
    (f := f) (.head _) rfl rfl
  exact ⟨o, h1, _, _, h2⟩

/-- The header declares one variable and one function. -/
theorem C74_only_case : ∃ t, headerText e b = some t ∧ ∀ on o, readHeader R on t = some o → ∀ ns c ext attrs n ty bits,
    Declares o.items ns c (.object ext attrs n ty bits) → c = true ∧ ns = [c!"ns", c!"inner"] ∧ (n = c!"G" ∨ n = c!"run") := by
  obtain ⟨t, ht, _⟩ := C74_case
  refine ⟨t, ht, fun on o ho ns c ext attrs n ty bits hd => ?_⟩
  obtain ⟨h1, h2, h3⟩ := C74_only_partial header_good ht (by
    intro k hk d hd
    simp only [List.mem_cons, List.not_mem_nil, or_false] at hk
    rcases hk with rfl | rfl | rfl | rfl
    · cases hd
    · cases hd
    · rw [show (blockOut R on e.cfg.afterIncludes).items = [.forward .struct c!"Mine"] from rfl, List.mem_singleton] at hd
      subst hd
      trivial
    · cases hd) ho hd trivial
  refine ⟨h1, h2, ?_⟩
  rcases h3 with ⟨g, hg, _, _, h⟩ | ⟨g, hg, _, _, h⟩
  · cases List.mem_singleton.1 hg
    cases h
    exact .inl rfl
  · cases List.mem_singleton.1 hg
    cases h
    exact .inr rfl

/-- The types with parameters are templates. -/
theorem C74_template_case : ∃ t, headerText e b = some t ∧ ∀ on, on c!"MY_H" = false → ∃ o', readHeader R on t = some o' ∧
    Declares o'.items [c!"ns", c!"inner"] false
      (.template [.type c!"T" (some (.base false none c!"void" [])), .value c!"N" (.base false none c!"uintptr_t" []) (some [.word c!"0"])]
        (.forward .struct c!"O")) := by
  obtain ⟨t, ht, _⟩ := C74_case
  refine ⟨t, ht, fun on hon => ?_⟩
  exact C74_item_space_partial header_good ht (fun g hg => by cases hg; exact hon) (x := .«opaque» o) (by simp [b]) rfl (.head _)

end CxxReadCases

end Cbindgen
