import Verif.Props.ReadHeader

/-!
# A header that meets the hypotheses of C59, C60 and C61

One header with all kinds of items: conditions, attributes, blocks of code, a guard, an enum with a size, an enum with
data, and a struct with a constant.
-/

namespace Cbindgen
open LexSpec CSpec HeadSpec PreSpec TextSpec CommentSpec

namespace ReadCases

def cfg : OutConfig :=
  { language := .c, nullableAttr := some c!"_Nullable", noReturn := some c!"NORETURN", cppCompat := true, pragmaOnce := true,
    includeGuard := some c!"MY_H", header := some c!"/* Text */", autogenWarning := some c!"// warning",
    afterIncludes := some c!"struct Mine;",
    trailer := some c!"#define END 1", sysIncludes := [c!"math.h"], includes := [c!"dep/other.h"],
    defines := [(c!"unix", c!"UNIX"), (c!"feature = x", c!"WITH_X")], preBody := [(c!"S", c!"int first;")],
    layout := { packed := some c!"PACKED", alignedN := some c!"ALIGNED" }, namespace_ := some c!"ns",
    function := { mustUse := some c!"MUST_USE", deprecated := some c!"DEPRECATED", post := some c!"POST(1)", args := .vertical },
    structure_ := { mustUse := some c!"MUST_USE" },
    enumeration := { deprecatedVariant := some c!"DEPRECATED" }, packageVersion := true, includeVersion := true,
    version := c!"1.0" }

def R : Dialect :=
  { attrs := [c!"_Nullable", c!"NORETURN", c!"MUST_USE", c!"DEPRECATED", c!"POST", c!"PACKED", c!"ALIGNED"],
    macros := [c!"MUST_USE", c!"DEPRECATED", c!"POST", c!"PACKED", c!"ALIGNED"] }

def D : List Str := [c!"UNIX", c!"WITH_X", c23, cplusplus]

def i32 : Ty := .prim (.integer false true .b32)
def sTy : Ty := .path c!"S" c!"S" [] none
def cb : Ty := .fnptr (.prim .void) [.mk (some c!"x") (.ptr sTy false true false), .mk none (.array i32 (.value c!"3"))] false false

def limit : ConstItem :=
  { path := c!"LIMIT", exportName := c!"LIMIT", ty := i32, value := .binop (.expr c!"1") c!"<<" (.cast i32 (.path none c!"BASE")) }

def origin : ConstItem :=
  { path := c!"ORIGIN", exportName := c!"ORIGIN", ty := sTy, associatedTo := some c!"S",
    value := .struct c!"S" c!"S" [.mk c!"b" (.unary c!"-" (.expr c!"2")) none, .mk c!"a" (.expr c!"'x'") none] }

def s : StructItem :=
  { path := c!"S", exportName := c!"S", alignment := some (.align 8), annotations := { mustUse := true },
    fields := [{ name := c!"a", ty := i32, doc := [c!" a field"], annotations := { entries := [(c!"bitfield", .atom (some c!"4"))] } },
      { name := c!"b", ty := cb, cfg := some (.boolean c!"unix") }],
    doc := [c!" A struct.", c!"", c!" See * and /."], cfg := some (.not (.any [.boolean c!"unix", .named c!"feature" c!"x"])),
    assocConsts := [origin] }

def u : UnionItem :=
  { path := c!"U", exportName := c!"U", alignment := some .packed, fields := [{ name := c!"p", ty := .ptr sTy true true false }] }

/-- `#[repr(u8)] enum Color { Red = 1, Green }` -/
def color : EnumItem :=
  { path := c!"Color", exportName := c!"Color", repr := { style := .c, ty := some (.b8, false) },
    variants := [{ name := c!"Red", exportName := c!"Red", disc := some (.expr c!"1"), cfg := some (.named c!"feature" c!"x") },
      { name := c!"Green", exportName := c!"Green", body := .empty { deprecated := some [] } }] }

def body (name : Str) (fs : List Field) : StructItem :=
  { path := name, exportName := name, fields := fs, isEnumVariantBody := true }

/-- `#[repr(C)] enum Shape { Circle { r: i32 }, Point(S), Nothing }` -/
def shape : EnumItem :=
  { path := c!"Shape", exportName := c!"Shape", repr := { style := .c }, tag := some c!"Shape_Tag",
    variants := [
      { name := c!"Circle", exportName := c!"Circle", body := .body c!"circle" (body c!"Circle_Body" [{ name := c!"r", ty := i32 }]) false false },
      { name := c!"Point", exportName := c!"Point", body := .body c!"point" (body c!"Point_Body" [{ name := c!"point", ty := sTy }]) true false },
      { name := c!"Nothing", exportName := c!"Nothing" }] }

def o : OpaqueItem := { path := c!"O", exportName := c!"O" }
def td : TypedefItem := { path := c!"Callback", exportName := c!"Callback", aliased := cb }
def g : StaticItem := { path := c!"G", exportName := c!"G", ty := .array i32 (.path c!"LIMIT" c!"LIMIT") }

def f : FuncItem :=
  { path := c!"run", ret := .ptr cb false true false,
    args := [⟨some c!"data", .ptr i32 true false false, some c!"LIMIT"⟩, ⟨none, cb, none⟩],
    annotations := { mustUse := true, deprecated := some [] }, neverReturn := false }

def e : Env := { cfg := cfg, structs := [(c!"S", .single s)], packageVersion := c!"cases 0.1" }

def b : Bindings := ⟨[limit], [g], [.enum color, .struct s, .union u, .enum shape, .opaque o, .typedef td], [f]⟩

theorem attrs : AttrsFine R.attrs := by
  intro a ha
  simp only [R, List.mem_cons, List.not_mem_nil, or_false] at ha
  refine ⟨?_, ?_, ?_, ?_⟩
  · rcases ha with rfl | rfl | rfl | rfl | rfl | rfl | rfl <;> exact ⟨by simp, by decide⟩
  · rcases ha with rfl | rfl | rfl | rfl | rfl | rfl | rfl <;> decide
  · rcases ha with rfl | rfl | rfl | rfl | rfl | rfl | rfl <;> decide
  · intro p v h
    cases p with
    | integer z s k => cases s <;> cases k <;> cases v <;> subst h <;> revert ha <;> simp [Prim.toReprC]
    | _ => cases v <;> subst h <;> revert ha <;> simp [Prim.toReprC]

theorem opts : OptsFine cfg R D where
  lang := rfl
  names := by
    intro x hx
    simp only [cfg, List.mem_cons, List.not_mem_nil, or_false] at hx
    rcases hx with rfl | rfl <;> exact ⟨by simp, by decide, by decide, by decide, by decide⟩
  asked := by decide
  dialect :=
    { known := ⟨attrs, by decide, by decide, by decide⟩
      macros := by decide
      apart := by decide
      noTypedef := by decide
      noExtern := by decide }

theorem ident {n : Str} (h : (n ≠ [] ∧ n.all LexSpec.wordChar = true) ∧ wordTok R.attrs n = .name n ∧ isArith n = false ∧
    n ≠ c!"typedef" ∧ n ≠ c!"extern") : Ident R.attrs n := ⟨h.1.1, h.1.2, h.2⟩

macro "ident" : tactic => `(tactic| exact ident (by decide))

theorem text_attr {t : Str} {ls : List Lx} (h : isText t false ls true = true) (h1 : isAttrs R.macros .out ls = true)
    (h2 : ls.all isPlainTok = true) : AttrText R t :=
  ⟨ls, scans_text (d := false) h, h1, h2⟩

theorem text_expr {t : Str} {ls : List Lx} (h : isText t false ls true = true) (h1 : Lx.eol ∉ ls) : ExprText t :=
  ⟨ls, h1, fun _ => scans_text h⟩

theorem none_attr {o : Option Str} (h : o = none) : OptAttr R o := by subst h; exact nofun

theorem some_attr {o : Option Str} {t : Str} (ls : List Lx) (ho : o = some t) (h : isText t false ls true = true)
    (h1 : isAttrs R.macros .out ls = true) (h2 : ls.all isPlainTok = true) : OptAttr R o := by
  subst ho
  rintro s ⟨⟩
  exact text_attr h h1 h2

theorem ty_i32 : TyFine R.attrs i32 ∧ NoVoidParam cfg.toDeclConfig i32 := by simp [i32, TyFine, NoVoidParam]

theorem ty_s : TyFine R.attrs sTy ∧ NoVoidParam cfg.toDeclConfig sTy := by
  refine ⟨⟨by ident, trivial⟩, trivial⟩

theorem ty_cb : TyFine R.attrs cb ∧ NoVoidParam cfg.toDeclConfig cb := by
  constructor
  · simp only [cb, TyFine, FArgsFine, and_true, true_and]
    refine ⟨fun n hn => ?_, ty_s.1, nofun, ⟨⟨by simp [CExpr.asStr], by decide⟩, by decide⟩, ty_i32.1⟩
    cases hn
    ident
  · simp [cb, sTy, i32, NoVoidParam, NoVoidParamArgs, NoVoidParamGArgs, meaningArgs, isVoidList]

theorem doc_of {d : List Str} (h : d = [] ∨ d = [c!" a field"] ∨ d = [c!" A struct.", c!"", c!" See * and /."]) : DocFine cfg d := by
  rcases h with rfl | rfl | rfl
  · exact nofun
  · unfold DocFine OneLine Closes; decide
  · unfold DocFine OneLine Closes; decide

theorem member {n : Str} {t : Ty} {g : Option Cfg} {d : List Str} (hn : Ident R.attrs n) (ht : TyFine R.attrs t ∧ NoVoidParam cfg.toDeclConfig t)
    (hd : DocFine cfg d) : MemberFine R cfg { name := n, ty := t, cfg := g, doc := d } :=
  ⟨hn, ht.1, ht.2, hd, nofun⟩

theorem body_text (on : Str → Bool) : BodyText R on D c!"int first;" := by
  refine ⟨_, _, ?_, adds_semi (grow_toks (ls := [.word c!"int", .word c!"first"]) (by decide)) rfl rfl⟩
  intro x hx
  cases hx
  exact ⟨_, _, rfl, .inl rfl, rfl⟩

theorem bodies (on : Str → Bool) (path : Str) : BodiesFine R on D cfg path := by
  constructor
  · intro t ht
    have : t = c!"int first;" := by
      simp only [OutConfig.preBodyOf, cfg, List.lookup] at ht
      split at ht <;> simp only [Option.map_some, Option.map_none, Option.some.injEq, reduceCtorEq] at ht
      rw [← ht]; rfl
    rw [this]
    exact body_text on
  · intro t ht
    simp [OutConfig.postBodyOf, cfg] at ht

theorem origin_good : ConstGood R D e (some s) origin where
  name := by
    rintro n hn
    have : n = c!"S_ORIGIN" := by cases hn; rfl
    subst this
    exact ⟨⟨by simp, by decide⟩, by decide⟩
  value := by
    rintro v hv
    have : v = origin.value := by cases hv; rfl
    subst this
    simp only [origin, LitText, LitFieldTexts, and_true]
    refine ⟨⟨rfl, by simp, by decide⟩, ⟨⟨by simp, by decide⟩, ⟨[.punct '-'], by simp, fun d => ?_⟩,
      text_expr (ls := [.word c!"2"]) (by decide) (by decide)⟩,
      ⟨by simp, by decide⟩, ⟨[.quoted '\'' c!"x"], by simp, fun d => ?_⟩⟩
    · exact scans_text (d := d) (b := false) (x := false) (by decide)
    · rintro ⟨m, st, d'⟩ ⟨h1, h2⟩
      simp only at h1 h2
      subst h1 h2
      cases st <;> cases d' <;> exact ⟨_, _, rfl, ⟨.inl rfl, rfl⟩, rfl⟩
  doc := doc_of (.inl rfl)

theorem limit_good : ConstGood R D e none limit where
  name := by
    rintro n hn
    have : n = c!"LIMIT" := by cases hn; rfl
    subst this
    exact ⟨⟨by simp, by decide⟩, by decide⟩
  value := by
    rintro v hv
    have : v = limit.value := by cases hv; rfl
    subst this
    simp only [limit, LitText]
    refine ⟨text_expr (ls := [.word c!"1"]) (by decide) (by decide), ⟨[.punct '<', .punct '<'], by simp, fun d => ?_⟩,
      ⟨ty_i32.1, rfl⟩, by simp [pathText], by decide⟩
    exact scans_text (d := d) (b := true) (x := false) (by decide)
  doc := doc_of (.inl rfl)

theorem s_good (on : Str → Bool) : StructGood R on D e s where
  name := by ident
  attrs := by
    intro o ho
    simp only [structAttrs, List.mem_cons, List.not_mem_nil, or_false] at ho
    rcases ho with rfl | rfl | rfl
    · exact some_attr [.word c!"ALIGNED", .punct '(', .word c!"8", .punct ')'] rfl (by decide) (by decide) (by decide)
    · exact some_attr [.word c!"MUST_USE"] rfl (by decide) (by decide) (by decide)
    · exact none_attr rfl
  fields := by
    intro f hf
    simp only [s, List.mem_cons, List.not_mem_nil, or_false] at hf
    rcases hf with rfl | rfl
    · refine ⟨by ident, ty_i32.1, ty_i32.2, doc_of (by simp), ?_⟩
      intro b hb
      have : b = some c!"4" := by cases hb; rfl
      exact ⟨_, this, ⟨by simp, by decide⟩, by decide⟩
    · exact member (by ident) ty_cb (doc_of (by simp))
  bodies := bodies on _
  doc := doc_of (by simp [s])
  consts := by
    intro k hk
    simp only [s, List.mem_singleton] at hk
    subst hk
    exact origin_good

theorem u_good (on : Str → Bool) : UnionGood R on D cfg u where
  name := by ident
  attrs := some_attr [.word c!"PACKED"] rfl (by decide) (by decide) (by decide)
  fields := by
    intro f hf
    simp only [u, List.mem_singleton] at hf
    subst hf
    exact member (by ident) ⟨ty_s.1, ty_s.2⟩ (doc_of (by simp))
  bodies := bodies on _
  doc := doc_of (.inl rfl)

theorem o_good : OpaqueGood R cfg o := ⟨by ident, doc_of (.inl rfl), nofun⟩
theorem td_good : TypedefGood R cfg td := ⟨by ident, ty_cb.1, ty_cb.2, doc_of (.inl rfl), nofun⟩
theorem g_good : StaticGood R cfg g :=
  ⟨by ident, ⟨⟨⟨by simp [CExpr.asStr], by decide⟩, by decide⟩, ty_i32.1⟩, ty_i32.2, doc_of (.inl rfl), .inr (.inr rfl)⟩

theorem f_good : FuncGood R cfg f where
  name := by ident
  ret := ty_cb.1
  args := by
    intro a ha
    simp only [f, List.mem_cons, List.not_mem_nil, or_false] at ha
    rcases ha with rfl | rfl
    · refine ⟨?_, ty_i32.1, ?_⟩
      · rintro n ⟨⟩; ident
      · rintro l ⟨⟩; exact ⟨⟨by simp, by decide⟩, by decide⟩
    · exact ⟨nofun, ty_cb.1, nofun⟩
  lengths := by
    intro a ha hl
    simp only [f, List.mem_cons, List.not_mem_nil, or_false] at ha
    rcases ha with rfl | rfl
    · exact ⟨_, _, _, _, rfl⟩
    · simp at hl
  params := by
    refine ⟨by simp [f, isVoidList], ty_cb.2, ?_⟩
    intro a ha
    simp only [f, List.mem_cons, List.not_mem_nil, or_false] at ha
    rcases ha with rfl | rfl
    · exact ty_i32.2
    · exact ty_cb.2
  attrs := by
    intro o ho
    simp only [funcAttrs, funcPost, f, Bool.false_eq_true, if_false, List.cons_append, List.nil_append, List.mem_cons,
      List.not_mem_nil, or_false] at ho
    rcases ho with rfl | rfl | rfl | rfl | rfl
    · exact none_attr rfl
    · exact some_attr [.word c!"MUST_USE"] rfl (by decide) (by decide) (by decide)
    · exact some_attr [.word c!"DEPRECATED"] rfl (by decide) (by decide) (by decide)
    · exact some_attr [.word c!"POST", .punct '(', .word c!"1", .punct ')'] rfl (by decide) (by decide) (by decide)
    · exact none_attr rfl
  doc := doc_of (.inl rfl)

theorem plain_variant {v : EnumVariant} (hn : Word v.exportName) (ha : v.body.annotations.deprecated = none) (hv : v.disc = none)
    (hd : v.doc = []) : VariantGood R e v where
  name := hn
  attrs := by
    intro o ho
    simp only [variantAttrs, List.mem_singleton] at ho
    subst ho
    exact none_attr (by simp [Annotations.deprecatedNote, ha])
  commas := by simp [variantAttrs, attrToks, Annotations.deprecatedNote, ha]
  value := by rw [hv]; exact nofun
  doc := doc_of (.inl hd)

theorem color_good (on : Str → Bool) : EnumGood R on D e color where
  name := by ident
  attrs := none_attr rfl
  variants := by
    intro v hv
    simp only [color, List.mem_cons, List.not_mem_nil, or_false] at hv
    rcases hv with rfl | rfl
    · refine ⟨⟨by simp, by decide⟩, ?_, by decide, ?_, doc_of (.inl rfl), nofun⟩
      · intro o ho
        simp only [variantAttrs, List.mem_singleton] at ho
        subst ho
        exact none_attr rfl
      · rintro d ⟨⟩
        exact ⟨text_expr (ls := [.word c!"1"]) (by decide) (by decide), by decide, by decide⟩
    · refine ⟨⟨by simp, by decide⟩, ?_, by decide, nofun, doc_of (.inl rfl), nofun⟩
      intro o ho
      simp only [variantAttrs, List.mem_singleton] at ho
      subst ho
      exact some_attr [.word c!"DEPRECATED"] rfl (by decide) (by decide) (by decide)
  doc := doc_of (.inl rfl)
  size := by
    rintro p hp
    have : p = c!"uint8_t" := by cases hp; rfl
    subst this
    exact ⟨by ident, by decide, by decide⟩
  data := nofun

theorem body_good {n : Str} {fs : List Field} (on : Str → Bool) (hn : Ident R.attrs n) (hf : ∀ f ∈ fs, MemberFine R cfg f) :
    StructGood R on D e (body n fs) where
  name := hn
  attrs := by
    intro o ho
    simp only [structAttrs, List.mem_cons, List.not_mem_nil, or_false] at ho
    rcases ho with rfl | rfl | rfl <;> exact none_attr rfl
  fields := hf
  bodies := bodies on _
  doc := doc_of (.inl rfl)
  consts := nofun

theorem shape_good (on : Str → Bool) : EnumGood R on D e shape where
  name := by ident
  attrs := none_attr rfl
  variants := by
    intro v hv
    simp only [shape, List.mem_cons, List.not_mem_nil, or_false] at hv
    rcases hv with rfl | rfl | rfl <;> exact plain_variant ⟨by simp, by decide⟩ rfl rfl rfl
  doc := doc_of (.inl rfl)
  size := nofun
  data := by
    intro _
    refine ⟨by ident, ?_, bodies on _, ?_, by ident⟩
    · intro o ho
      simp only [dataAttrs, List.mem_cons, List.not_mem_nil, or_false] at ho
      rcases ho with rfl | rfl <;> exact none_attr rfl
    · intro v hv
      simp only [shape, List.mem_cons, List.not_mem_nil, or_false] at hv
      rcases hv with rfl | rfl | rfl
      · refine ⟨by ident, body_good on (by ident) ?_⟩
        intro f hf
        simp only [List.mem_singleton] at hf
        subst hf
        exact member (by ident) ty_i32 (doc_of (.inl rfl))
      · intro f hf
        simp only [body, List.mem_singleton] at hf
        subst hf
        exact member (by ident) ty_s (doc_of (.inl rfl))
      · trivial

/-- The hypotheses of C61, wherever the header is included as C. -/
theorem header_good {on : Str → Bool} (hc : on cplusplus = false) : HeaderGood R on D e b where
  options := opts
  cpp := fun _ => ⟨hc, by decide⟩
  spaces := by
    intro n hn
    have hs : e.cfg.spaces = [c!"ns"] := rfl
    have : n = c!"ns" := by simpa [hs] using hn
    subst this
    exact ⟨by simp, by decide⟩
  version := by unfold CommentSafe; decide
  guard := by
    rintro g hg
    have : g = c!"MY_H" := by cases hg; rfl
    subst this
    exact ⟨⟨by simp, by decide⟩, by decide⟩
  header := by
    rintro t ⟨⟩
    refine ⟨[], {}, ?_, adds_nil⟩
    intro x hx
    cases hx
    exact ⟨_, _, rfl, .inl rfl, rfl⟩
  autogen := by
    rintro t ⟨⟩
    refine ⟨[], {}, ?_, adds_nil⟩
    intro x hx
    cases hx
    exact ⟨_, _, rfl, .inr (.inr rfl), rfl⟩
  after := by
    rintro t ⟨⟩
    refine ⟨_, _, ?_, adds_semi (grow_toks (ls := [.word c!"struct", .word c!"Mine"]) (by decide)) rfl rfl⟩
    intro x hx
    cases hx
    exact ⟨_, _, rfl, .inl rfl, rfl⟩
  trailer := by
    rintro t ⟨⟩
    refine ⟨_, _, ?_, adds_define (x := c!"END") (body := [.word c!"1"]) (by decide) (by decide)⟩
    intro x hx
    cases hx
    exact ⟨_, _, rfl, .inr (.inl ⟨_, rfl⟩), rfl⟩
  sys := by
    intro i hi
    have : i = c!"math.h" := by simpa [e, cfg, OutConfig.allSysIncludes] using hi
    subst this
    exact text_expr (ls := [.word c!"math", .punct '.', .word c!"h"]) (by decide) (by decide)
  quoted := by
    intro i hi
    have : i = c!"dep/other.h" := by simpa [e, cfg, OutConfig.allIncludes] using hi
    subst this
    unfold QuoteSafe
    decide
  constants := by
    intro k hk
    simp only [b, List.mem_singleton] at hk
    subst hk
    exact limit_good
  items := by
    intro i hi _
    simp only [b, List.mem_cons, List.not_mem_nil, or_false] at hi
    rcases hi with rfl | rfl | rfl | rfl | rfl | rfl
    · exact color_good on
    · exact s_good on
    · exact u_good on
    · exact shape_good on
    · exact o_good
    · exact td_good
  globals := by
    intro k hk _
    simp only [b, List.mem_singleton] at hk
    subst hk
    exact g_good
  functions := by
    intro k hk _
    simp only [b, List.mem_singleton] at hk
    subst hk
    exact f_good

/-- The header is written, and it reads back. -/
theorem C61_case : ∃ t, headerText e b = some t ∧
    ∀ on, on cplusplus = false → readHeader R on t = some (headerOut R e on b) := by
  have h : (headerText e b).isSome = true := by decide +kernel
  obtain ⟨t, ht⟩ := Option.isSome_iff_exists.mp h
  exact ⟨t, ht, fun on hc => C61_header_reads_back (header_good hc) ht⟩

end ReadCases

end Cbindgen
