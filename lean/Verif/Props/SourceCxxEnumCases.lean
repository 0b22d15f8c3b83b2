import Verif.Props.SourceCxxEnums
import Verif.Props.SourceCxxDefCases
import Verif.Props.SourceEnumCases

/-! # Cases for C77 -/

namespace Cbindgen
open CSpec HeadSpec LexSpec
open SrcSpec hiding Reaches Given Plain Declares

namespace CxxEnumCases
open SourceCases (pc on rust unix)
open CxxSourceCases (env R ident fits attrs)
open DefCases (reprC u8)
open EnumCases (F fn k five fiveLit five_value k_values number operator)

/-- `#[repr(u8)] enum E { P, Q(K), R { x: *mut G, y: u8 } }` -/
def s : SynEnum :=
  ⟨c!"E", [], [⟨c!"P", .unit, none, []⟩, ⟨c!"Q", .unnamed [⟨none, .path c!"K" .none, []⟩], none, []⟩,
    ⟨c!"R", .named [⟨some c!"x", .ptr false (.path c!"G" .none), []⟩, ⟨some c!"y", .path c!"u8" .none, []⟩], none, []⟩],
    [{ attr := .repr (some [.path c!"u8"]) }]⟩
/-- `#[repr(C)] enum G { #[cfg(not(unix))] H(u8) = 3, I(u8) = 8, J }` -/
def g : SynEnum :=
  ⟨c!"G", [], [⟨c!"H", .unnamed [⟨none, .path c!"u8" .none, []⟩], some (.lit (.int 3 [])), [{ attr := .cfg (some (.not (.boolean c!"unix"))) }]⟩,
    ⟨c!"I", .unnamed [⟨none, .path c!"u8" .none, []⟩], some (.lit (.int 8 [])), []⟩, ⟨c!"J", .unit, none, []⟩], [reprC]⟩
/-- The enum `K` and `fn f(x: *mut E)` are those of the cases for C. -/
def items : List FItem := [.enum k, .enum g, .enum s, .fn fn]
def inputs : Inputs := { srcs := [(c!"lib", some items)] }

def ref (n : Str) : Ty := .path n n [] none
def kE (n : Str) : EnumItem := EnumCases.kItem n
def qBody (n : Str) : StructItem :=
  { path := c!"Q_Body", exportName := c!"Q_Body", fields := [{ name := c!"tag", ty := ref c!"Tag" }, { name := n, ty := ref c!"K" }],
    hasTagField := true, isEnumVariantBody := true }
def rBody : StructItem :=
  { path := c!"R_Body", exportName := c!"R_Body",
    fields := [{ name := c!"tag", ty := ref c!"Tag" }, { name := c!"x", ty := ScopeCases.ptr (ref c!"G") }, { name := c!"y", ty := u8 }],
    hasTagField := true, isEnumVariantBody := true }
def sE (n : Str) : EnumItem :=
  { path := c!"E", exportName := c!"E", repr := { ty := some (.b8, false) }, tag := some c!"Tag",
    variants := [{ name := c!"P", exportName := c!"P" },
      { name := c!"Q", exportName := c!"Q", body := .body c!"Q" (qBody n) false true },
      { name := c!"R", exportName := c!"R", body := .body c!"R" rBody false false }] }
def gBody (v n : Str) : StructItem :=
  { path := v ++ c!"_Body", exportName := v ++ c!"_Body", fields := [{ name := n, ty := u8 }], isEnumVariantBody := true }
def gE (n : Str) : EnumItem :=
  { path := c!"G", exportName := c!"G", repr := { style := .c }, tag := some c!"Tag",
    variants := [{ name := c!"H", exportName := c!"H", disc := some (.expr c!"3"), body := .body c!"H" (gBody c!"H" n) false true,
                   cfg := some (.not (.boolean c!"unix")) },
      { name := c!"I", exportName := c!"I", disc := some (.expr c!"8"), body := .body c!"I" (gBody c!"I" n) false true },
      { name := c!"J", exportName := c!"J" }] }
def f : FuncItem := ScopeCases.takes (ref c!"E")

def lib : Library :=
  { enums := [(c!"K", .single (kE c!"int")), (c!"G", .single (gE c!"0")), (c!"E", .single (sE c!"0"))], functions := [f] }
def lib' : Library :=
  { enums := [(c!"K", .single (kE c!"int_")), (c!"G", .single (gE c!"_0")), (c!"E", .single (sE c!"_0"))], functions := [f] }
def bindings : Bindings := ⟨[], [], [.enum (kE c!"int_"), .enum (gE c!"_0"), .enum (sE c!"_0")], [f]⟩

def lc : LoadConfig := { language := .cxx, caseFns := F }
def c : LibConfig := plainConfig .cxx F

theorem built : buildLibrary pc lc 1 inputs = .ok lib := rfl

theorem generated : lib.generate c id 1 = .ok bindings := by
  refine Library.generate_of (l' := lib') rfl ?_
  rw [DetSpec.collect_of (d := ⟨[.enum (kE c!"int_"), .enum (gE c!"_0"), .enum (sE c!"_0")], [c!"G", c!"K", c!"E"]⟩) rfl]
  simp only [DetSpec.bindingsOf]
  rw [show [Container.enum (kE c!"int_"), .enum (gE c!"_0"), .enum (sE c!"_0")] =
      [Container.enum (kE c!"int_")] ++ [.enum (gE c!"_0"), .enum (sE c!"_0")] from rfl,
    sortItems_enums (by decide) (by decide)]
  rfl

def D : List Str := [c!"UNIX", c23, cplusplus]

theorem opts : ReadFine env.cfg R D where
  names := by simp only [env, List.mem_singleton]; rintro _ rfl; unfold CfgSpec.GoodName; decide
  asked := by simp only [env, List.mem_singleton]; rintro _ rfl; decide
  dialect :=
    { known := ⟨attrs, by decide, by decide, by decide⟩
      macros := by decide
      apart := by decide
      noTypedef := by decide
      noExtern := by decide
      reserved := by decide }

theorem five_text : LitText R env fiveLit :=
  ⟨⟨number (ls := [.word c!"1"]) (by decide) (by decide), operator (ls := [.punct '<', .punct '<']) (by decide) (by decide),
      number (ls := [.word c!"2"]) (by decide) (by decide)⟩,
    operator (ls := [.punct '|']) (by decide) (by decide), number (ls := [.word c!"1"]) (by decide) (by decide)⟩

theorem variant_good {v : EnumVariant} (hn : Word v.exportName) (ha : v.body.annotations.deprecated = none)
    (hv : ∀ d, v.disc = some d → LitText R env d ∧ (litToks env d).all isPlainTok = true ∧ Lx.punct ',' ∉ litToks env d)
    (hd : v.doc = []) (hb : v.exportName ≠ c!"namespace" ∧ v.exportName ≠ c!"extern") : VariantGood R env v where
  name := hn
  attrs := by
    intro o ho
    simp only [variantAttrs, List.mem_singleton] at ho
    subst ho
    simp [Annotations.deprecatedNote, ha, OptAttr]
  commas := by simp [variantAttrs, attrToks, Annotations.deprecatedNote, ha]
  value := hv
  doc := by rw [hd]; exact nofun
  block := fun _ => hb

theorem k_good : EnumGood R on D env (kE c!"int_") where
  name := by ident_x
  attrs := nofun
  variants := by
    intro v hv
    simp only [kE, EnumCases.kItem, List.mem_cons, List.not_mem_nil, or_false] at hv
    rcases hv with rfl | rfl | rfl | rfl
    · exact variant_good ⟨by simp, by decide⟩ rfl (by rintro d ⟨⟩; exact ⟨five_text, by decide, by decide⟩) rfl (by decide)
    · exact variant_good ⟨by simp, by decide⟩ rfl nofun rfl (by decide)
    · exact variant_good ⟨by simp, by decide⟩ rfl
        (by rintro d ⟨⟩; exact ⟨number (ls := [.word c!"9"]) (by decide) (by decide), by decide, by decide⟩) rfl (by decide)
    · exact variant_good ⟨by simp, by decide⟩ rfl nofun rfl (by decide)
  doc := nofun
  size := nofun
  data := nofun
  plain := fun _ => ⟨rfl, rfl, nofun, nofun⟩

theorem g_good : EnumGood R on D env (gE c!"_0") where
  name := by ident_x
  attrs := nofun
  variants := by
    intro v hv
    simp only [gE, List.mem_cons, List.not_mem_nil, or_false] at hv
    rcases hv with rfl | rfl | rfl
    · exact variant_good ⟨by simp, by decide⟩ rfl
        (by rintro d ⟨⟩; exact ⟨number (ls := [.word c!"3"]) (by decide) (by decide), by decide, by decide⟩) rfl (by decide)
    · exact variant_good ⟨by simp, by decide⟩ rfl
        (by rintro d ⟨⟩; exact ⟨number (ls := [.word c!"8"]) (by decide) (by decide), by decide, by decide⟩) rfl (by decide)
    · exact variant_good ⟨by simp, by decide⟩ rfl nofun rfl (by decide)
  doc := nofun
  size := nofun
  data := by
    intro _
    refine ⟨by ident_x, ?_, ⟨nofun, nofun⟩, ?_, by ident_x⟩
    · intro o ho
      simp only [dataAttrs, List.mem_cons, List.not_mem_nil, or_false] at ho
      rcases ho with rfl | rfl <;> exact nofun
    · have : ∀ v : Str, Ident R.attrs (v ++ c!"_Body") → StructGood R on D env (gBody v c!"_0") := fun v hv => {
          name := hv
          attrs := by
            intro o ho
            simp only [structAttrs, List.mem_cons, List.not_mem_nil, or_false] at ho
            rcases ho with rfl | rfl | rfl <;> exact nofun
          fields := by
            intro x hx
            simp only [gBody, List.mem_singleton] at hx
            subst hx
            exact ⟨by ident_x, trivial, trivial, nofun, nofun⟩
          bodies := ⟨nofun, nofun⟩
          doc := nofun
          consts := nofun
          plain := fun _ => ⟨nofun, rfl, rfl⟩ }
      intro v hv
      simp only [gE, List.mem_cons, List.not_mem_nil, or_false] at hv
      rcases hv with rfl | rfl | rfl
      · exact ⟨by ident_x, this c!"H" (by ident_x)⟩
      · exact ⟨by ident_x, this c!"I" (by ident_x)⟩
      · trivial
  plain := fun _ => ⟨rfl, rfl, nofun, fun _ => ⟨rfl, by decide⟩⟩

theorem s_good : EnumGood R on D env (sE c!"_0") where
  name := by ident_x
  attrs := nofun
  variants := by
    intro v hv
    simp only [sE, List.mem_cons, List.not_mem_nil, or_false] at hv
    rcases hv with rfl | rfl | rfl <;> exact variant_good ⟨by simp, by decide⟩ rfl nofun rfl (by decide)
  doc := nofun
  size := by
    rintro p hp
    have : p = c!"uint8_t" := by cases hp; rfl
    subst this
    exact ⟨by ident_x, by decide, by decide⟩
  data := by
    intro _
    refine ⟨by ident_x, ?_, ⟨nofun, nofun⟩, ?_, by ident_x⟩
    · intro o ho
      simp only [dataAttrs, List.mem_cons, List.not_mem_nil, or_false] at ho
      rcases ho with rfl | rfl <;> exact nofun
    · intro v hv
      simp only [sE, List.mem_cons, List.not_mem_nil, or_false] at hv
      rcases hv with rfl | rfl | rfl
      · trivial
      · refine ⟨by ident_x, {
          name := by ident_x
          attrs := by
            intro o ho
            simp only [structAttrs, List.mem_cons, List.not_mem_nil, or_false] at ho
            rcases ho with rfl | rfl | rfl <;> exact nofun
          fields := by
            intro x hx
            simp only [qBody, List.mem_cons, List.not_mem_nil, or_false] at hx
            rcases hx with rfl | rfl
            · exact ⟨by ident_x, ⟨by ident_x, trivial⟩, trivial, nofun, nofun⟩
            · exact ⟨by ident_x, ⟨by ident_x, trivial⟩, trivial, nofun, nofun⟩
          bodies := ⟨nofun, nofun⟩
          doc := nofun
          consts := nofun
          plain := fun _ => ⟨nofun, rfl, rfl⟩ }⟩
      · refine ⟨by ident_x, {
          name := by ident_x
          attrs := by
            intro o ho
            simp only [structAttrs, List.mem_cons, List.not_mem_nil, or_false] at ho
            rcases ho with rfl | rfl | rfl <;> exact nofun
          fields := by
            intro x hx
            simp only [rBody, List.mem_cons, List.not_mem_nil, or_false] at hx
            rcases hx with rfl | rfl | rfl
            · exact ⟨by ident_x, ⟨by ident_x, trivial⟩, trivial, nofun, nofun⟩
            · exact ⟨by ident_x, ⟨by ident_x, trivial⟩, trivial, nofun, nofun⟩
            · exact ⟨by ident_x, trivial, trivial, nofun, nofun⟩
          bodies := ⟨nofun, nofun⟩
          doc := nofun
          consts := nofun
          plain := fun _ => ⟨nofun, rfl, rfl⟩ }⟩
  plain := fun _ => ⟨rfl, rfl, nofun, fun _ => ⟨rfl, by decide⟩⟩

theorem bindings_good : CxxHeaderGood R on D env bindings where
  options := opts
  lang := rfl
  spaces := by unfold Word; decide
  uses := nofun
  version := by unfold CommentSafe; decide
  guard := nofun
  header := nofun
  autogen := nofun
  after := nofun
  trailer := nofun
  sys := nofun
  quoted := nofun
  constants := nofun
  globals := nofun
  items := by
    intro x hx _
    simp only [bindings, List.mem_cons, List.not_mem_nil, or_false] at hx
    rcases hx with rfl | rfl | rfl
    · exact k_good
    · exact g_good
    · exact s_good
  functions := by
    intro g hg _
    simp only [bindings, List.mem_singleton] at hg
    subst hg
    exact {
      name := by ident_x
      ret := trivial
      args := by
        intro a ha
        simp only [f, ScopeCases.takes, List.mem_singleton] at ha
        subst ha
        exact ⟨fun n hn => by cases hn; ident_x, ⟨by ident_x, trivial⟩, nofun⟩
      lengths := by
        intro a ha hl
        simp only [f, ScopeCases.takes, List.mem_singleton] at ha
        subst ha
        simp at hl
      params := by
        refine ⟨by simp [f, ScopeCases.takes, isVoidList, meaningFnArg, ScopeCases.ptr], trivial, ?_⟩
        intro a ha
        simp only [f, ScopeCases.takes, List.mem_singleton] at ha
        subst ha
        trivial
      attrs := by
        intro o ho
        simp only [f, funcAttrs, funcPost, ScopeCases.takes, Bool.false_eq_true, if_false, List.cons_append,
          List.nil_append, List.mem_cons, List.not_mem_nil, or_false] at ho
        rcases ho with rfl | rfl | rfl | rfl | rfl <;> exact nofun
      doc := nofun }

theorem plain : InputsPlain inputs where
  srcs := by
    intro name is h
    simp only [inputs, List.mem_singleton, Prod.mk.injEq, Option.some.injEq] at h
    obtain ⟨_, rfl⟩ := h
    refine ⟨⟨trivial, trivial, trivial, trivial, trivial⟩, ⟨trivial, trivial, trivial, ?_, trivial⟩⟩
    show ParserSpec.UnsafeOne _
    intro args h
    simp [fn, noMangle] at h
  lib := by
    intro ws root p is h
    simp [inputs] at h

theorem onePath : OnePath pc inputs where
  names := by
    intro ws root p q cs cs' h
    simp [inputs] at h
  paths := by
    intro ws root p cs cs' h
    simp [inputs] at h

/-- All types of the sources, with their conditions. -/
def types : List (Taken × List Cfg) := [(.enum k, []), (.enum g, []), (.enum s, [])]

theorem given_types {t : Taken} {cs : List Cfg} {n : Str} (h : SrcSpec.Given pc inputs t cs) (hn : typeName t = some n) :
    (t, cs) ∈ types := by
  have h' : ∃ cfg crate, Occurs cfg crate items t cs := by
    cases h with
    | src hs ho =>
      simp only [inputs, List.mem_singleton, Prod.mk.injEq, Option.some.injEq] at hs
      obtain ⟨_, rfl⟩ := hs
      exact ⟨_, _, ho⟩
    | lib hl => simp [inputs] at hl
  obtain ⟨_, _, ho⟩ := h'
  exact occurs_types ho hn

theorem stages : StagesX pc lc 1 1 inputs c id lib bindings where
  built := built
  plain := plain
  onePath := onePath
  language := rfl
  ordered := rfl
  bare := by
    intro s cs a h ha
    have := given_types h rfl
    simp [types] at this
  generated := generated

theorem top {i : FItem} {t : Taken} {cs : List Cfg} (hi : i ∈ items) (hv : ¬ Hidden i.attrs)
    (hd : SrcSpec.Declares (fileConfig pc c!"lib") c!"lib" i t cs) : SrcSpec.Given pc inputs t cs :=
  .src (name := c!"lib") (is := items) (by simp [inputs]) (.here hi hv hd)

def rK : Repr := { style := .c }
def rE : Repr := { ty := some (.b8, false) }

theorem isK : EnumIs lc c k rK {} .snakeCase .none where
  repr := ⟨rfl, .inl rfl, rfl⟩
  annotations := rfl
  arms := rfl
  rule := rfl

theorem isG : EnumIs lc c g rK {} .snakeCase .none where
  repr := ⟨rfl, .inl rfl, rfl⟩
  annotations := rfl
  arms := rfl
  rule := rfl

theorem isE : EnumIs lc c s rE {} .snakeCase .none where
  repr := ⟨rfl, .inr ⟨rfl, nofun⟩, rfl⟩
  annotations := rfl
  arms := rfl
  rule := rfl

def V (r : Repr) (n : Str) : EnumEnv := cxxEnumEnv lc c env.cfg r {} .snakeCase .none n

theorem named_type {r : Repr} {o n : Str} {b : Bool} (hn : unraw n ∉ builtin) (he : unraw n = n) :
    CxxType ((V r o).types .none) b (.path n .none) (.base b none n []) := by
  have := CxxType.named (E := (V r o).types .none) (c := b) hn .none
  rw [show ((V r o).types .none).name (unraw n) = n by rw [he]; rfl] at this
  exact this

theorem byte_type {r : Repr} {o : Str} : CxxType ((V r o).types .none) false (.path c!"u8" .none) (cname false c!"uint8_t") :=
  .prim (by show _ ∈ intTypes false ++ otherTypes; decide) .none

def tagOfE : CItem := .object false [] c!"tag" (cname false c!"Tag") []
/-- The structs of the data of `Q` and `R`, and the members for them. -/
def eBodies : List CItem :=
  [.record .struct [] (some c!"Q_Body") none [tagOfE, .object false [] c!"_0" (cname false c!"K") []],
   .record .struct [] (some c!"R_Body") none [tagOfE,
    .object false [] c!"x" (.ptr false false (some c!"_Nullable") (cname false c!"G")) [], .object false [] c!"y" (cname false c!"uint8_t") []]]
def eMembers : List CItem := [.object false [] c!"Q" (cname false c!"Q_Body") [], .object false [] c!"R" (cname false c!"R_Body") []]
/-- The same for `I`; `H` is not there on Unix. -/
def gBodies : List CItem := [.record .struct [] (some c!"I_Body") none [.object false [] c!"_0" (cname false c!"uint8_t") []]]
def gMembers : List CItem := [.object false [] c!"I" (cname false c!"I_Body") []]

theorem variant_p {r : Repr} {o n : Str} {d : Option SynExpr} {as : List SAttr} (ha : Annotations.load as = .ok {}) :
    CxxVariantIs (V r o) rust ⟨n, .unit, d, as⟩ [] none := .unit rfl ha

theorem variant_q : CxxVariantIs (V rE c!"E") rust ⟨c!"Q", .unnamed [⟨none, .path c!"K" .none, []⟩], none, []⟩
    [.object false [] c!"Q" (cname false c!"Q_Body") []] (some ({}, [tagOfE, .object false [] c!"_0" (cname false c!"K") []])) :=
  .body (a := {}) (rule := .none) (.inr rfl) rfl rfl rfl
    (.shown (n := c!"0") (u := cname false c!"K") .tuple (named_type (by decide) rfl) (DefCases.no_bits rfl) nofun .nil)

theorem variant_r : CxxVariantIs (V rE c!"E") rust
    ⟨c!"R", .named [⟨some c!"x", .ptr false (.path c!"G" .none), []⟩, ⟨some c!"y", .path c!"u8" .none, []⟩], none, []⟩
    [.object false [] c!"R" (cname false c!"R_Body") []]
    (some ({}, [tagOfE, .object false [] c!"x" (.ptr false false (some c!"_Nullable") (cname false c!"G")) [],
      .object false [] c!"y" (cname false c!"uint8_t") []])) :=
  .body (a := {}) (rule := .none) (.inl rfl) rfl rfl rfl
    (.shown (n := c!"x") (u := .ptr false false (some c!"_Nullable") (cname false c!"G")) .named
      (.raw (.some (named_type (by decide) rfl))) (DefCases.no_bits rfl) nofun
      (.shown (n := c!"y") (u := cname false c!"uint8_t") .named byte_type (DefCases.no_bits rfl) nofun .nil))

theorem variant_g {n m : Str} {d : Option SynExpr} {as : List SAttr} (ha : Annotations.load as = .ok {})
    (hm : (V rK c!"G").armMember ((V rK c!"G").arm (unraw n)) = m) :
    CxxVariantIs (V rK c!"G") rust ⟨n, .unnamed [⟨none, .path c!"u8" .none, []⟩], d, as⟩
      [.object false [] m (cname false (n ++ c!"_Body")) []] (some ({}, [.object false [] c!"_0" (cname false c!"uint8_t") []])) := by
  subst hm
  exact .body (a := {}) (rule := .none) (.inr rfl) ha rfl rfl
    (.shown (n := c!"0") (u := cname false c!"uint8_t") .tuple byte_type (DefCases.no_bits rfl) nofun .nil)

theorem e_arms : CxxArms (V rE c!"E") rust (cxxBodyOf env.cfg) s.variants eBodies eMembers :=
  .shown (variant_p rfl) nofun (.shown variant_q nofun (.shown variant_r nofun .nil))

theorem g_arms : CxxArms (V rK c!"G") rust (cxxBodyOf env.cfg) g.variants gBodies gMembers := by
  refine .hidden (variant_g (m := c!"H") rfl rfl) ?_ (.shown (variant_g (n := c!"I") (m := c!"I") rfl rfl) nofun (.shown (variant_p rfl) nofun .nil))
  exact ⟨_, List.mem_singleton.2 rfl, rfl⟩

theorem k_declarable : CxxDeclarable lc (.enum k) := by
  refine .enum (V := V rK c!"K") (rust := rust) nofun isK.repr isK.annotations rfl isK.arms (fun _ => rfl) (fun _ => rfl) ?_
  intro v hv
  simp only [k, List.mem_cons, List.not_mem_nil, or_false] at hv
  rcases hv with rfl | rfl | rfl | rfl
  · exact ⟨fun e he => by cases he; exact ⟨noConsts, _, 5, five_value _⟩, _, _, variant_p rfl⟩
  · exact ⟨nofun, _, _, variant_p rfl⟩
  · exact ⟨fun e he => by cases he; exact ⟨noConsts, 0, 9, .int (n := 9) (by decide) (by decide)⟩, _, _, variant_p rfl⟩
  · exact ⟨nofun, _, _, variant_p rfl⟩

theorem g_declarable : CxxDeclarable lc (.enum g) := by
  refine .enum (V := V rK c!"G") (rust := rust) nofun isG.repr isG.annotations rfl isG.arms (fun _ => rfl) (fun _ => rfl) ?_
  intro v hv
  simp only [g, List.mem_cons, List.not_mem_nil, or_false] at hv
  rcases hv with rfl | rfl | rfl
  · exact ⟨fun e he => by cases he; exact ⟨noConsts, 0, 3, .int (n := 3) (by decide) (by decide)⟩, _, _, variant_g rfl rfl⟩
  · exact ⟨fun e he => by cases he; exact ⟨noConsts, 0, 8, .int (n := 8) (by decide) (by decide)⟩, _, _, variant_g rfl rfl⟩
  · exact ⟨nofun, _, _, variant_p rfl⟩

theorem s_declarable : CxxDeclarable lc (.enum s) := by
  refine .enum (V := V rE c!"E") (rust := rust) nofun isE.repr isE.annotations rfl isE.arms (fun _ => rfl) (fun _ => rfl) ?_
  intro v hv
  simp only [s, List.mem_cons, List.not_mem_nil, or_false] at hv
  rcases hv with rfl | rfl | rfl
  · exact ⟨nofun, _, _, variant_p rfl⟩
  · exact ⟨nofun, _, _, variant_q⟩
  · exact ⟨nofun, _, _, variant_r⟩

theorem sole {t : Taken} {n : Str} (hg : SrcSpec.Given pc inputs t []) (hd : CxxDeclarable lc t)
    (hn : typeName t = some n) (h₁ : n ∉ stdNames) (h₃ : ∀ x ∈ types, typeName x.1 = some n → x = (t, [])) :
    CxxSole pc lc inputs c t [] n where
  given := hg
  declarable := hd
  name := hn
  others := fun t' cs' h h' => Or.inl (by
    have := h₃ _ (given_types h h') h'
    cases this
    exact ⟨rfl, rfl⟩)
  std := h₁
  kept := List.not_mem_nil
  wanted := by intro k _; cases k <;> rfl

theorem sole_k : CxxSole pc lc inputs c (.enum k) [] c!"K" :=
  sole (top (i := .enum k) (by simp [items]) (by simp [Hidden, ParserSpec.Ignored, FItem.attrs, k, reprC]) .enum) k_declarable rfl
    (by decide) (by
      intro x hx hn
      simp only [types, List.mem_cons, List.not_mem_nil, or_false] at hx
      rcases hx with rfl | rfl | rfl <;> first | rfl | exact absurd hn (by decide))

theorem sole_g : CxxSole pc lc inputs c (.enum g) [] c!"G" :=
  sole (top (i := .enum g) (by simp [items]) (by simp [Hidden, ParserSpec.Ignored, FItem.attrs, g, reprC]) .enum) g_declarable rfl
    (by decide) (by
      intro x hx hn
      simp only [types, List.mem_cons, List.not_mem_nil, or_false] at hx
      rcases hx with rfl | rfl | rfl <;> first | rfl | exact absurd hn (by decide))

theorem sole_s : CxxSole pc lc inputs c (.enum s) [] c!"E" :=
  sole (top (i := .enum s) (by simp [items]) (by simp [Hidden, ParserSpec.Ignored, FItem.attrs, s]) .enum) s_declarable rfl
    (by decide) (by
      intro x hx hn
      simp only [types, List.mem_cons, List.not_mem_nil, or_false] at hx
      rcases hx with rfl | rfl | rfl <;> first | rfl | exact absurd hn (by decide))

/-- The function needs `E`, which needs `K` and `G`. -/
theorem needed_s : CxxNeeded pc lc inputs c c!"E" := by
  have h : CxxParams (CxxDefCases.E F [] none) fn.sig.inputs [.mk (some c!"x") (.ptr false false (some c!"_Nullable") (.base false none c!"E" []))] :=
    .ident (n := c!"x") (.raw (.some (CxxDefCases.named_type (n := c!"E") (by decide) rfl))) (fun h => h) .nil
  have hg : SrcSpec.Given pc inputs (.fn c!"f" none false fn) [] := by
    refine top (i := .fn fn) (by simp [items]) (by simp [Hidden, ParserSpec.Ignored, FItem.attrs, fn, noMangle]) ?_
    exact SrcSpec.Declares.fn (Or.inl rfl) (Or.inr (Or.inl rfl)) (Or.inr ⟨by decide, Or.inl (by simp [fn, noMangle]), rfl⟩)
  exact .function hg List.not_mem_nil (a := {}) rfl rfl (rfl : (CxxDefCases.E F [] none).owner = none) (.mk h .default)
    (.ident (List.mem_singleton.2 rfl) (.raw (.named (by decide) .none)))

theorem needed_k : CxxNeeded pc lc inputs c c!"K" :=
  .definition sole_s needed_s
    (.enum (v := ⟨c!"Q", .unnamed [⟨none, .path c!"K" .none, []⟩], none, []⟩) (f := ⟨none, .path c!"K" .none, []⟩)
      (by simp [s]) (by simp [listOf]) (.named (by decide) .none))

theorem needed_g : CxxNeeded pc lc inputs c c!"G" :=
  .definition sole_s needed_s
    (.enum (v := ⟨c!"R", .named [⟨some c!"x", .ptr false (.path c!"G" .none), []⟩, ⟨some c!"y", .path c!"u8" .none, []⟩], none, []⟩)
      (f := ⟨some c!"x", .ptr false (.path c!"G" .none), []⟩)
      (by simp [s]) (by simp [listOf]) (.raw (.named (by decide) .none)))

theorem read {t : Str} (ht : headerText env bindings = some t) : CxxReadWhere R on D env bindings t rust [] where
  good := bindings_good
  text := ht
  first := nofun
  same := fits
  mapped := nofun
  holds := nofun

theorem g_values : Discriminants noConsts (reprLimit none) rust 0 g.variants [(c!"I", 8), (c!"J", 9)] 10 := by
  refine .hidden ?_ (.set nofun rfl (.int (n := 8) (by decide) (by decide)) (.next nofun rfl .nil))
  exact ⟨_, List.mem_singleton.2 rfl, rfl⟩

theorem s_values : Discriminants noConsts (reprLimit (some (.b8, false))) rust 0 s.variants [(c!"P", 0), (c!"Q", 1), (c!"R", 2)] 3 :=
  .next nofun rfl (.next nofun rfl (.next nofun rfl .nil))

theorem k_mapped : ∀ v ∈ k.variants, ∀ x ∈ conds v.attrs, CfgSpec.Mapped env.cfg.defines x := EnumCases.k_mapped

theorem g_mapped : ∀ v ∈ g.variants, ∀ x ∈ conds v.attrs, CfgSpec.Mapped env.cfg.defines x := by
  intro v hv x hx
  simp only [g, List.mem_cons, List.not_mem_nil, or_false] at hv
  rcases hv with rfl | rfl | rfl
  · obtain rfl := List.mem_singleton.1 hx
    exact ⟨(c!"unix", c!"UNIX"), by simp [env], by decide, rfl⟩
  · cases hx
  · cases hx

theorem s_mapped : ∀ v ∈ s.variants, ∀ x ∈ conds v.attrs, CfgSpec.Mapped env.cfg.defines x := by
  intro v hv x hx
  simp only [s, List.mem_cons, List.not_mem_nil, or_false] at hv
  rcases hv with rfl | rfl | rfl <;> cases hx

theorem g_fields : ∀ v ∈ g.variants, ∀ f ∈ listOf v.fields, ∀ x ∈ conds f.attrs, CfgSpec.Mapped env.cfg.defines x := by
  intro v hv f hf x hx
  simp only [g, List.mem_cons, List.not_mem_nil, or_false] at hv
  rcases hv with rfl | rfl | rfl <;> simp only [listOf, List.mem_cons, List.not_mem_nil, or_false] at hf <;> subst hf <;> cases hx

theorem s_fields : ∀ v ∈ s.variants, ∀ f ∈ listOf v.fields, ∀ x ∈ conds f.attrs, CfgSpec.Mapped env.cfg.defines x := by
  intro v hv f hf x hx
  simp only [s, List.mem_cons, List.not_mem_nil, or_false] at hv
  rcases hv with rfl | rfl | rfl <;> simp only [listOf, List.mem_cons, List.not_mem_nil, or_false] at hf
  · subst hf; cases hx
  · rcases hf with rfl | rfl <;> cases hx

end CxxEnumCases

open CxxEnumCases in
open CxxSourceCases (env R) in
open SourceCases (on) in
/-- Cases for C77: an enum with values, one with data in a union and one with data in a struct. -/
theorem C77_case : ∃ t o es es' es'', headerText env CxxEnumCases.bindings = some t ∧ readHeader R on t = some o ∧
    (Declares o.items [c!"ns"] false (.enumClass [] c!"K" none es) ∧
      ∀ p M, Usual p → EnumValues p M 0 es [(c!"A", 5), (c!"B", 6), (c!"int_", 7)]) ∧
    (Declares o.items [c!"ns"] false (.record .union [] (some c!"E") none
        (.enumClass [] c!"Tag" (some (cname false c!"uint8_t")) es' :: (eBodies ++ .record .struct [] none none [tagOfE] :: eMembers))) ∧
      ∀ p M, Usual p → EnumValues p M 0 es' [(c!"P", 0), (c!"Q", 1), (c!"R", 2)]) ∧
    (Declares o.items [c!"ns"] false (.record .struct [] (some c!"G") none
        (.enumClass [] c!"Tag" none es'' :: (gBodies ++ [tagOfE, .record .union [] none none gMembers]))) ∧
      ∀ p M, Usual p → EnumValues p M 0 es'' [(c!"I", 8), (c!"J", 9)]) := by
  obtain ⟨t, ht⟩ := Option.isSome_iff_exists.1 (show (headerText env CxxEnumCases.bindings).isSome = true by decide +kernel)
  obtain ⟨o₁, es, h₁, k₁, v₁⟩ := C77_enum_partial stages (read ht) sole_k needed_k isK rfl rfl k_mapped .none EnumCases.k_values
  obtain ⟨o₂, es', h₂, k₂, v₂⟩ := C77_data_partial stages (read ht) sole_s needed_s isE rfl rfl s_mapped s_fields ⟨rfl, rfl⟩
    (fun _ _ => ⟨rfl, rfl⟩) (ty := some (cname false c!"uint8_t")) (.some (ty := (.b8, false)) (by decide)) s_values e_arms
  obtain ⟨o₃, es'', h₃, k₃, v₃⟩ := C77_data_partial stages (read ht) sole_g needed_g isG rfl rfl g_mapped g_fields ⟨rfl, rfl⟩
    (fun _ _ => ⟨rfl, rfl⟩) .none g_values g_arms
  obtain rfl := Option.some.inj (h₁.symm.trans h₂)
  obtain rfl := Option.some.inj (h₁.symm.trans h₃)
  exact ⟨t, o₁, es, es', es'', ht, h₁, ⟨k₁, fun p M hp => v₁ p M hp nofun⟩, ⟨k₂, fun p M hp => v₂ p M hp nofun⟩,
    k₃, fun p M hp => v₃ p M hp nofun⟩

namespace CxxEnumCases
open DefCases (u8)
open EnumCases (fn rawEnum rawInputs)

def rawBody (n : Str) : StructItem :=
  { path := c!"r#type_Body", exportName := c!"r#type_Body", fields := [{ name := n, ty := u8 }], isEnumVariantBody := true }
def rawItem (n : Str) : EnumItem :=
  { path := c!"E", exportName := c!"E", repr := { style := .c }, tag := some c!"Tag",
    variants := [{ name := c!"type", exportName := c!"type", body := .body n (rawBody c!"x") false false }] }
def rawLib : Library := { enums := [(c!"E", .single (rawItem c!"type"))], functions := [f] }
def rawBindings : Bindings := ⟨[], [], [.enum (rawItem c!"type")], [f]⟩

end CxxEnumCases

open CxxEnumCases in
/-- **C77** is false for a variant with a raw identifier: the struct for its data is named `r#type_Body`, which is not a name
in C++. -/
theorem C77_raw_refuted : ∃ t, buildLibrary SourceCases.pc lc 1 EnumCases.rawInputs = .ok rawLib ∧
    rawLib.generate c id 1 = .ok rawBindings ∧ headerText CxxSourceCases.env rawBindings = some t ∧
    c!"struct r#type_Body {" <:+: t := by
  obtain ⟨t, ht⟩ := Option.isSome_iff_exists.1 (show (headerText CxxSourceCases.env rawBindings).isSome = true by decide +kernel)
  refine ⟨t, rfl, ?_, ht, ?_⟩
  · refine Library.generate_of (l' := rawLib) rfl ?_
    rw [DetSpec.collect_of (d := ⟨[.enum (rawItem c!"type")], [c!"E"]⟩) rfl]
    simp only [DetSpec.bindingsOf]
    rw [sortItems_rest (by decide)]
    rfl
  · have : ((headerText CxxSourceCases.env rawBindings).any fun t => decide (c!"struct r#type_Body {" <:+: t)) = true := by decide +kernel
    rw [ht] at this
    exact of_decide_eq_true this

end Cbindgen
