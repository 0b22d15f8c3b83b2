import Verif.Props.SourceEnums
import Verif.Props.SourceDefCases

/-! # Cases for C66 -/

namespace Cbindgen
open CSpec HeadSpec ScopeSpec LexSpec
open SrcSpec hiding Reaches Given Plain

open LibSpec in
/-- Items that are none opaque, with the plain enums first, stay as they are. -/
theorem sortItems_enums {xs ys : List Container} (h₁ : ∀ x ∈ xs, isPlainEnum x = true ∧ isOpaque x = false)
    (h₂ : ∀ x ∈ ys, isPlainEnum x = false ∧ isOpaque x = false) : sortItems (xs ++ ys) = xs ++ ys := by
  refine ((C12_layers _ _).1 ⟨[], ⟨.nil, fun n => ?_⟩, ?_⟩).symm
  · have : (xs ++ ys).filter isOpaque = [] := List.filter_eq_nil_iff.2 fun x hx => by
      rcases List.mem_append.1 hx with hx | hx
      · simp [(h₁ x hx).2]
      · simp [(h₂ x hx).2]
    rw [this]
  · rw [List.filter_append, List.filter_append, List.filter_eq_self.2 fun x hx => (h₁ x hx).1,
      List.filter_eq_nil_iff.2 fun x hx => by simp [(h₂ x hx).1],
      List.filter_eq_nil_iff.2 fun x hx => by simp [h₁ x hx],
      List.filter_eq_self.2 fun x hx => by simp [h₂ x hx]]
    simp

namespace EnumCases
open SourceCases (pc env R on rust fits unix)
open ScopeCases (ident)
open DefCases (reprC u8 named)

def F : CaseFns := ⟨id, id, id, id, id, id⟩

/-- `#[no_mangle] pub extern "C" fn f(x: *mut E) {}` -/
def fn : SynFn :=
  ⟨{ ident := c!"f", abi := .named c!"C", inputs := [.ident c!"x" (.ptr false (.path c!"E" .none))] }, [{ attr := noMangle }]⟩
/-- `1 << 2 | 1` -/
def five : SynExpr := .binary (.binary (.lit (.int 1 [])) .shl (.lit (.int 2 []))) .bitOr (.lit (.int 1 []))
/-- `#[repr(C)] enum K { A = 1 << 2 | 1, #[cfg(unix)] B, #[cfg(not(unix))] C = 9, int }` -/
def k : SynEnum :=
  ⟨c!"K", [], [⟨c!"A", .unit, some five, []⟩, ⟨c!"B", .unit, none, [{ attr := cfgUnix }]⟩,
    ⟨c!"C", .unit, some (.lit (.int 9 [])), [{ attr := .cfg (some (.not (.boolean c!"unix"))) }]⟩, ⟨c!"int", .unit, none, []⟩], [reprC]⟩
/-- `-9223372036854775808` -/
def least : SynExpr := .unary .neg (.lit (.int (2 ^ 63) []))
/-- `#[repr(i64)] enum M { N = -9223372036854775808 }` -/
def m : SynEnum := ⟨c!"M", [], [⟨c!"N", .unit, some least, []⟩], [{ attr := .repr (some [.path c!"i64"]) }]⟩
/-- `#[repr(u8)] enum E { P, Q(K), R { x: M, y: u8 } }` -/
def s : SynEnum :=
  ⟨c!"E", [], [⟨c!"P", .unit, none, []⟩, ⟨c!"Q", .unnamed [⟨none, .path c!"K" .none, []⟩], none, []⟩,
    ⟨c!"R", .named [⟨some c!"x", .path c!"M" .none, []⟩, ⟨some c!"y", .path c!"u8" .none, []⟩], none, []⟩],
    [{ attr := .repr (some [.path c!"u8"]) }]⟩
def items : List FItem := [.enum k, .enum m, .enum s, .fn fn]
def inputs : Inputs := { srcs := [(c!"lib", some items)] }

def fiveLit : Lit := .binop (.binop (.expr c!"1") c!"<<" (.expr c!"2")) c!"|" (.expr c!"1")
def leastLit : Lit := .unary c!"-" (.expr c!"9223372036854775808ull")
def kItem (n : Str) : EnumItem :=
  { path := c!"K", exportName := c!"K", repr := { style := .c },
    variants := [{ name := c!"A", exportName := c!"A", disc := some fiveLit }, { name := c!"B", exportName := c!"B", cfg := some (.boolean c!"unix") },
      { name := c!"C", exportName := c!"C", disc := some (.expr c!"9"), cfg := some (.not (.boolean c!"unix")) }, { name := c!"int", exportName := n }] }
def mItem : EnumItem :=
  { path := c!"M", exportName := c!"M", repr := { ty := some (.b64, true) },
    variants := [{ name := c!"N", exportName := c!"N", disc := some leastLit }] }
def qBody (t : Str) (k : Option DeclKind) : StructItem :=
  { path := c!"Q_Body", exportName := c!"Q_Body", fields := [{ name := c!"Q_tag", ty := named t none }, { name := c!"Q", ty := named c!"K" k }], hasTagField := true, isEnumVariantBody := true }
def rBody (t : Str) (k : Option DeclKind) : StructItem :=
  { path := c!"R_Body", exportName := c!"R_Body", fields := [{ name := c!"tag", ty := named t none }, { name := c!"x", ty := named c!"M" k }, { name := c!"y", ty := u8 }], hasTagField := true, isEnumVariantBody := true }
def sItem (t : Str) (k k' : Option DeclKind) : EnumItem :=
  { path := c!"E", exportName := c!"E", repr := { ty := some (.b8, false) }, tag := some t,
    variants := [{ name := c!"P", exportName := c!"P" },
      { name := c!"Q", exportName := c!"Q", body := .body c!"Q" (qBody t k) true true },
      { name := c!"R", exportName := c!"R", body := .body c!"R" (rBody t k') false false }] }
def f (k : Option DeclKind) : FuncItem := ScopeCases.takes (named c!"E" k)

def lib : Library :=
  { enums := [(c!"K", .single (kItem c!"int")), (c!"M", .single mItem), (c!"E", .single (sItem c!"Tag" none none))], functions := [f none] }

theorem built : buildLibrary pc { caseFns := F } 1 inputs = .ok lib := rfl

def kE : EnumItem := kItem c!"int_"
def sE : EnumItem := sItem c!"E_Tag" (some .enum) none
def lib' : Library :=
  { enums := [(c!"K", .single kE), (c!"M", .single mItem), (c!"E", .single sE)], functions := [f (some .union)] }
def bindings : Bindings := ⟨[], [], [.enum kE, .enum mItem, .enum sE], [f (some .union)]⟩

def c : LibConfig := plainConfig .c F

theorem expanded : (((lib.transferAnnotations id).simplify c).sortFunctions c).expand c 1 = .ok lib := rfl

theorem generated : lib.generate c id 1 = .ok bindings := by
  refine Library.generate_of (l' := lib') rfl ?_
  rw [DetSpec.collect_of (d := ⟨[.enum kE, .enum mItem, .enum sE], [c!"M", c!"K", c!"E"]⟩) rfl]
  simp only [DetSpec.bindingsOf]
  rw [show [Container.enum kE, .enum mItem, .enum sE] = [Container.enum kE, .enum mItem] ++ [.enum sE] from rfl,
    sortItems_enums (by decide) (by decide)]
  rfl

def D : List Str := [c!"UNIX", c23, cplusplus]

theorem opts : OptsFine env.cfg R D where
  lang := rfl
  names := by simp only [env, List.mem_singleton]; rintro _ rfl; unfold CfgSpec.GoodName; decide
  asked := by simp only [env, List.mem_singleton]; rintro _ rfl; simp [D]
  dialect :=
    { known := ⟨nofun, by decide, by decide, by decide⟩
      macros := nofun
      apart := by decide
      noTypedef := by decide
      noExtern := by decide }

theorem number {t : Str} {ls : List Lx} (h : isText t false ls true = true) (h1 : Lx.eol ∉ ls) : ExprText t :=
  ⟨ls, h1, fun _ => scans_text h⟩

theorem operator {t : Str} {ls : List Lx} (h : isText (c!" " ++ t ++ c!" ") true ls false = true) (h1 : Lx.eol ∉ ls) : BinaryText t :=
  ⟨ls, h1, fun _ => scans_text h⟩

theorem five_text : LitText R env fiveLit :=
  ⟨⟨number (ls := [.word c!"1"]) (by decide) (by decide), operator (ls := [.punct '<', .punct '<']) (by decide) (by decide),
      number (ls := [.word c!"2"]) (by decide) (by decide)⟩,
    operator (ls := [.punct '|']) (by decide) (by decide), number (ls := [.word c!"1"]) (by decide) (by decide)⟩

theorem least_text : LitText R env leastLit :=
  ⟨⟨[.punct '-'], by decide, fun d => scans_text (d := d) (b := false) (x := false) (by decide)⟩,
    number (ls := [.word c!"9223372036854775808ull"]) (by decide) (by decide)⟩

theorem variant_good {v : EnumVariant} (hn : Word v.exportName) (ha : v.body.annotations.deprecated = none)
    (hv : ∀ d, v.disc = some d → LitText R env d ∧ (litToks env d).all isPlainTok = true ∧ Lx.punct ',' ∉ litToks env d)
    (hd : v.doc = []) : VariantGood R env v where
  name := hn
  attrs := by
    intro o ho
    simp only [variantAttrs, List.mem_singleton] at ho
    subst ho
    simp [Annotations.deprecatedNote, ha, OptAttr]
  commas := by simp [variantAttrs, attrToks, Annotations.deprecatedNote, ha]
  value := hv
  doc := by rw [hd]; exact nofun

theorem k_good : EnumGood R on D env kE where
  name := ident (n := c!"K") (by decide)
  attrs := nofun
  variants := by
    intro v hv
    simp only [kE, kItem, List.mem_cons, List.not_mem_nil, or_false] at hv
    rcases hv with rfl | rfl | rfl | rfl
    · exact variant_good ⟨by simp, by decide⟩ rfl (by rintro d ⟨⟩; exact ⟨five_text, by decide, by decide⟩) rfl
    · exact variant_good ⟨by simp, by decide⟩ rfl nofun rfl
    · exact variant_good ⟨by simp, by decide⟩ rfl
        (by rintro d ⟨⟩; exact ⟨number (ls := [.word c!"9"]) (by decide) (by decide), by decide, by decide⟩) rfl
    · exact variant_good ⟨by simp, by decide⟩ rfl nofun rfl
  doc := nofun
  size := nofun
  data := nofun

theorem m_good : EnumGood R on D env mItem where
  name := ident (n := c!"M") (by decide)
  attrs := nofun
  variants := by
    intro v hv
    simp only [mItem, List.mem_singleton] at hv
    subst hv
    exact variant_good ⟨by simp, by decide⟩ rfl (by rintro d ⟨⟩; exact ⟨least_text, by decide, by decide⟩) rfl
  doc := nofun
  size := by
    rintro p hp
    have : p = c!"int64_t" := by cases hp; rfl
    subst this
    exact ⟨ident (by decide), by decide, by decide⟩
  data := nofun

theorem s_good : EnumGood R on D env sE where
  name := ident (n := c!"E_Tag") (by decide)
  attrs := nofun
  variants := by
    intro v hv
    simp only [sE, sItem, List.mem_cons, List.not_mem_nil, or_false] at hv
    rcases hv with rfl | rfl | rfl <;> exact variant_good ⟨by simp, by decide⟩ rfl nofun rfl
  doc := nofun
  size := by
    rintro p hp
    have : p = c!"uint8_t" := by cases hp; rfl
    subst this
    exact ⟨ident (by decide), by decide, by decide⟩
  data := by
    intro _
    refine ⟨ident (n := c!"E") (by decide), ?_, ⟨nofun, nofun⟩, ?_, ident (by decide)⟩
    · intro o ho
      simp only [dataAttrs, List.mem_cons, List.not_mem_nil, or_false] at ho
      rcases ho with rfl | rfl <;> exact nofun
    · intro v hv
      simp only [sE, sItem, List.mem_cons, List.not_mem_nil, or_false] at hv
      rcases hv with rfl | rfl | rfl
      · trivial
      · intro f hf
        simp only [qBody, List.mem_cons, List.not_mem_nil, or_false] at hf
        rcases hf with rfl | rfl
        · exact ⟨ident (n := c!"Q_tag") (by decide), ⟨ident (n := c!"E_Tag") (by decide), trivial⟩, trivial, nofun, nofun⟩
        · exact ⟨ident (n := c!"Q") (by decide), ⟨ident (n := c!"K") (by decide), trivial⟩, trivial, nofun, nofun⟩
      · refine ⟨ident (n := c!"R") (by decide), {
          name := ident (n := c!"R_Body") (by decide)
          attrs := by
            intro o ho
            simp only [structAttrs, List.mem_cons, List.not_mem_nil, or_false] at ho
            rcases ho with rfl | rfl | rfl <;> exact nofun
          fields := by
            intro x hx
            simp only [rBody, List.mem_cons, List.not_mem_nil, or_false] at hx
            rcases hx with rfl | rfl | rfl
            · exact ⟨ident (n := c!"tag") (by decide), ⟨ident (n := c!"E_Tag") (by decide), trivial⟩, trivial, nofun, nofun⟩
            · exact ⟨ident (n := c!"x") (by decide), ⟨ident (n := c!"M") (by decide), trivial⟩, trivial, nofun, nofun⟩
            · exact ⟨ident (n := c!"y") (by decide), trivial, trivial, nofun, nofun⟩
          bodies := ⟨nofun, nofun⟩
          doc := nofun
          consts := nofun }⟩

theorem bindings_good : HeaderGood R on D env bindings where
  options := opts
  cpp := nofun
  spaces := nofun
  version := by unfold CommentSafe; decide
  guard := nofun
  header := nofun
  autogen := nofun
  after := nofun
  trailer := nofun
  sys := nofun
  quoted := nofun
  constants := nofun
  globals := nofun
  items := by
    intro x hx _
    simp only [bindings, List.mem_cons, List.not_mem_nil, or_false] at hx
    rcases hx with rfl | rfl | rfl
    · exact k_good
    · exact m_good
    · exact s_good
  functions := by
    intro f' hf _
    simp only [bindings, List.mem_singleton] at hf
    subst hf
    exact {
      name := ident (n := c!"f") (by decide)
      ret := trivial
      args := by
        intro a ha
        simp only [f, ScopeCases.takes, List.mem_singleton] at ha
        subst ha
        exact ⟨fun n hn => by cases hn; exact ident (by decide), ⟨ident (n := c!"E") (by decide), trivial⟩, nofun⟩
      lengths := by
        intro a ha hl
        simp only [f, ScopeCases.takes, List.mem_singleton] at ha
        subst ha
        simp at hl
      params := by
        refine ⟨by simp [f, ScopeCases.takes, isVoidList, meaningFnArg, ScopeCases.ptr], trivial, ?_⟩
        intro a ha
        simp only [f, ScopeCases.takes, List.mem_singleton] at ha
        subst ha
        trivial
      attrs := by
        intro o ho
        simp only [f, funcAttrs, funcPost, ScopeCases.takes, Bool.false_eq_true, if_false, List.cons_append,
          List.nil_append, List.mem_cons, List.not_mem_nil, or_false] at ho
        rcases ho with rfl | rfl | rfl | rfl | rfl <;> exact nofun
      doc := nofun }

theorem plain : InputsPlain inputs where
  srcs := by
    intro name is h
    simp only [inputs, List.mem_singleton, Prod.mk.injEq, Option.some.injEq] at h
    obtain ⟨_, rfl⟩ := h
    refine ⟨⟨trivial, trivial, trivial, trivial, trivial⟩, ⟨trivial, trivial, trivial, ?_, trivial⟩⟩
    show ParserSpec.UnsafeOne _
    intro args h
    simp [fn, noMangle] at h
  lib := by
    intro ws root p is h
    simp [inputs] at h

theorem onePath : OnePath pc inputs where
  names := by
    intro ws root p q cs cs' h
    simp [inputs] at h
  paths := by
    intro ws root p cs cs' h
    simp [inputs] at h

/-- All types of the sources, with their conditions. -/
def types : List (Taken × List Cfg) := [(.enum k, []), (.enum m, []), (.enum s, [])]

theorem given_types {t : Taken} {cs : List Cfg} {n : Str} (h : SrcSpec.Given pc inputs t cs) (hn : typeName t = some n) :
    (t, cs) ∈ types := by
  have h' : ∃ cfg crate, Occurs cfg crate items t cs := by
    cases h with
    | src hs ho =>
      simp only [inputs, List.mem_singleton, Prod.mk.injEq, Option.some.injEq] at hs
      obtain ⟨_, rfl⟩ := hs
      exact ⟨_, _, ho⟩
    | lib hl => simp [inputs] at hl
  obtain ⟨_, _, ho⟩ := h'
  exact occurs_types ho hn

def lc : LoadConfig := { caseFns := F }

theorem stages : Stages pc lc 1 1 inputs c id lib lib bindings where
  built := built
  plain := plain
  onePath := onePath
  language := rfl
  ordered := rfl
  bare := by
    intro s cs a h ha
    have := given_types h rfl
    simp [types] at this
  generated := generated
  expanded := expanded

theorem top {i : FItem} {t : Taken} {cs : List Cfg} (hi : i ∈ items) (hv : ¬ Hidden i.attrs)
    (hd : Declares (fileConfig pc c!"lib") c!"lib" i t cs) : SrcSpec.Given pc inputs t cs :=
  .src (name := c!"lib") (is := items) (by simp [inputs]) (.here hi hv hd)

def rK : Repr := { style := .c }
def rE : Repr := { ty := some (.b8, false) }

theorem isK : EnumIs lc c k rK {} .snakeCase .none where
  repr := ⟨rfl, .inl rfl, rfl⟩
  annotations := rfl
  arms := rfl
  rule := rfl

theorem isE : EnumIs lc c s rE {} .snakeCase .none where
  repr := ⟨rfl, .inr ⟨rfl, nofun⟩, rfl⟩
  annotations := rfl
  arms := rfl
  rule := rfl

def VK : EnumEnv := enumEnvOf lc c env.cfg (tagFor c lib) rK {} .snakeCase .none c!"K"
def VE : EnumEnv := enumEnvOf lc c env.cfg (tagFor c lib) rE {} .snakeCase .none c!"E"

theorem named_type {n : Str} {k : Option DeclKind} (hn : unraw n ∉ builtin)
    (hk : (VE.types .none).tag (unraw n) = k) (he : (VE.types .none).name (unraw n) = n) :
    CType (VE.types .none) false (.path n .none) (.base false k n []) := by
  have := CType.named (E := VE.types .none) (c := false) hn .none
  rw [hk, he] at this
  exact this

/-- The members of the union, and of the struct for `R`. -/
def qArm : List CItem :=
  [.record .struct [] none none [.object false [] c!"Q_tag" (cname false c!"E_Tag") [],
    .object false [] c!"Q" (.base false (some .enum) c!"K" []) []]]
def rArm : List CItem := [.object false [] c!"R" (cname false c!"R_Body") []]
def rMembers : List CItem :=
  [.object false [] c!"tag" (cname false c!"E_Tag") [], .object false [] c!"x" (cname false c!"M") [],
    .object false [] c!"y" (cname false c!"uint8_t") []]

theorem variant_p : VariantIs VE rust ⟨c!"P", .unit, none, []⟩ [] none := .unit rfl (a := {}) rfl

theorem variant_q : VariantIs VE rust ⟨c!"Q", .unnamed [⟨none, .path c!"K" .none, []⟩], none, []⟩ qArm none :=
  .single (a := {}) (rule := .none) rfl rfl rfl rfl
    (.shown (u := .base false (some .enum) c!"K" []) .one (named_type (by decide) rfl rfl) (DefCases.no_bits rfl) nofun .nil)

theorem variant_r : VariantIs VE rust
    ⟨c!"R", .named [⟨some c!"x", .path c!"M" .none, []⟩, ⟨some c!"y", .path c!"u8" .none, []⟩], none, []⟩ rArm (some ({}, rMembers)) :=
  .body (a := {}) (rule := .none) (.inl rfl) rfl rfl rfl
    (.shown (n := c!"x") (u := cname false c!"M") .named (named_type (by decide) rfl rfl) (DefCases.no_bits rfl) nofun
      (.shown (n := c!"y") (u := cname false c!"uint8_t") .named (.prim (by show _ ∈ intTypes false ++ otherTypes; decide) .none)
        (DefCases.no_bits rfl) nofun .nil))

theorem arms : Arms VE rust s.variants ([] ++ (qArm ++ (rArm ++ []))) :=
  .shown variant_p nofun (.shown variant_q nofun (.shown variant_r nofun .nil))

theorem five_value (K : Nat → Str → Int → Prop) : RustValue K (reprLimit none) five 5 :=
  .small (n := 5) (.op (x := 4) (y := 1) (.shift (x := 1) (k := 2) (.int (by decide)) (.int (by decide)) rfl (by decide) (by decide))
    (.int (by decide)) rfl (by decide) (by decide))

theorem k_declarable : Declarable lc (.enum k) := by
  refine .enum (V := VK) (rust := rust) nofun isK.repr isK.annotations rfl isK.arms (fun _ => rfl) (fun _ => rfl) ?_
  intro v hv
  simp only [k, List.mem_cons, List.not_mem_nil, or_false] at hv
  rcases hv with rfl | rfl | rfl | rfl
  · exact ⟨fun e he => by cases he; exact ⟨noConsts, _, 5, five_value _⟩, _, _, .unit rfl (a := {}) rfl⟩
  · exact ⟨nofun, _, _, .unit rfl (a := {}) rfl⟩
  · exact ⟨fun e he => by cases he; exact ⟨noConsts, 0, 9, .int (n := 9) (by decide) (by decide)⟩, _, _, .unit rfl (a := {}) rfl⟩
  · exact ⟨nofun, _, _, .unit rfl (a := {}) rfl⟩

theorem s_declarable : Declarable lc (.enum s) := by
  refine .enum (V := VE) (rust := rust) nofun isE.repr isE.annotations rfl isE.arms (fun _ => rfl) (fun _ => rfl) ?_
  intro v hv
  simp only [s, List.mem_cons, List.not_mem_nil, or_false] at hv
  rcases hv with rfl | rfl | rfl
  · exact ⟨nofun, _, _, variant_p⟩
  · exact ⟨nofun, _, _, variant_q⟩
  · exact ⟨nofun, _, _, variant_r⟩

theorem sole {t : Taken} {n : Str} (hg : SrcSpec.Given pc inputs t []) (hd : Declarable lc t)
    (hn : typeName t = some n) (h₁ : n ∉ stdNames) (h₂ : '_' ∉ n) (h₃ : ∀ x ∈ types, typeName x.1 = some n → x = (t, [])) :
    Sole pc lc inputs c t [] n where
  given := hg
  declarable := hd
  name := hn
  others := fun t' cs' h h' => Or.inl (by
    have := h₃ _ (given_types h h') h'
    cases this
    exact ⟨rfl, rfl⟩)
  std := h₁
  instances := no_instance rfl h₂
  kept := List.not_mem_nil
  wanted := by intro k _; cases k <;> rfl

theorem sole_k : Sole pc lc inputs c (.enum k) [] c!"K" :=
  sole (top (i := .enum k) (by simp [items]) (by simp [Hidden, ParserSpec.Ignored, FItem.attrs, k, reprC]) .enum) k_declarable rfl
    (by decide) (by decide) (by
      intro x hx hn
      simp only [types, List.mem_cons, List.not_mem_nil, or_false] at hx
      rcases hx with rfl | rfl | rfl <;> first | rfl | exact absurd hn (by decide))

theorem sole_s : Sole pc lc inputs c (.enum s) [] c!"E" :=
  sole (top (i := .enum s) (by simp [items]) (by simp [Hidden, ParserSpec.Ignored, FItem.attrs, s]) .enum) s_declarable rfl
    (by decide) (by decide) (by
      intro x hx hn
      simp only [types, List.mem_cons, List.not_mem_nil, or_false] at hx
      rcases hx with rfl | rfl | rfl <;> first | rfl | exact absurd hn (by decide))

/-- The function needs `E`, which needs `K`. -/
theorem needed_s : Needed pc lc inputs c c!"E" := by
  have h : Params (DefCases.E F none) fn.sig.inputs [.mk (some c!"x") (.ptr false false none (.base false none c!"E" []))] :=
    .ident (n := c!"x") (.raw (.some (DefCases.named_type (n := c!"E") (by decide) rfl rfl))) (fun h => h) .nil
  have hg : SrcSpec.Given pc inputs (.fn c!"f" none false fn) [] := by
    refine top (i := .fn fn) (by simp [items]) (by simp [Hidden, ParserSpec.Ignored, FItem.attrs, fn, noMangle]) ?_
    exact Declares.fn (Or.inl rfl) (Or.inr (Or.inl rfl)) (Or.inr ⟨by decide, Or.inl (by simp [fn, noMangle]), rfl⟩)
  exact .function hg List.not_mem_nil (a := {}) rfl rfl (rfl : (DefCases.E F none).owner = none) (.mk h .default)
    (.ident (List.mem_singleton.2 rfl) (.raw (.named (by decide) .none)))

theorem needed_k : Needed pc lc inputs c c!"K" :=
  .definition sole_s needed_s
    (.enum (v := ⟨c!"Q", .unnamed [⟨none, .path c!"K" .none, []⟩], none, []⟩) (f := ⟨none, .path c!"K" .none, []⟩)
      (by simp [s]) (by simp [listOf]) (.named (by decide) .none))

theorem read {t : Str} (ht : headerText env bindings = some t) : ReadWhere R on D env bindings t rust [] where
  good := bindings_good
  text := ht
  first := nofun
  same := fits
  mapped := nofun
  holds := nofun

/-- `A` is 5, `B` follows, `C` is not there on Unix. -/
theorem k_values : Discriminants noConsts (reprLimit none) rust 0 k.variants [(c!"A", 5), (c!"B", 6), (c!"int", 7)] 8 := by
  refine .set nofun rfl (five_value _) (.next ?_ rfl (.hidden ?_ (.next nofun rfl .nil)))
  · intro x hx
    obtain rfl := List.mem_singleton.1 hx
    rfl
  · exact ⟨_, List.mem_singleton.2 rfl, rfl⟩

theorem s_values : Discriminants noConsts (reprLimit (some (.b8, false))) rust 0 s.variants [(c!"P", 0), (c!"Q", 1), (c!"R", 2)] 3 :=
  .next nofun rfl (.next nofun rfl (.next nofun rfl .nil))

theorem k_mapped : ∀ v ∈ k.variants, ∀ x ∈ conds v.attrs, CfgSpec.Mapped env.cfg.defines x := by
  intro v hv x hx
  simp only [k, List.mem_cons, List.not_mem_nil, or_false] at hv
  rcases hv with rfl | rfl | rfl | rfl
  · cases hx
  · obtain rfl := List.mem_singleton.1 hx
    exact ⟨(c!"unix", c!"UNIX"), by simp [env], by decide, rfl⟩
  · obtain rfl := List.mem_singleton.1 hx
    exact ⟨(c!"unix", c!"UNIX"), by simp [env], by decide, rfl⟩
  · cases hx

theorem s_mapped : ∀ v ∈ s.variants, ∀ x ∈ conds v.attrs, CfgSpec.Mapped env.cfg.defines x := by
  intro v hv x hx
  simp only [s, List.mem_cons, List.not_mem_nil, or_false] at hv
  rcases hv with rfl | rfl | rfl <;> cases hx

theorem s_fields : ∀ v ∈ s.variants, ∀ f ∈ listOf v.fields, ∀ x ∈ conds f.attrs, CfgSpec.Mapped env.cfg.defines x := by
  intro v hv f hf x hx
  simp only [s, List.mem_cons, List.not_mem_nil, or_false] at hv
  rcases hv with rfl | rfl | rfl <;> simp only [listOf, List.mem_cons, List.not_mem_nil, or_false] at hf
  · subst hf; cases hx
  · rcases hf with rfl | rfl <;> cases hx


/-- A constant with a `u` has no sign. -/
theorem no_sign {p : PrimSpec.Platform} {n : Nat} {s : Str} {ty : Nat × Bool} (h : IntSpec.constType p n s = some ty) (hu : 'u' ∈ s) :
    ty.2 = false := by
  obtain ⟨ts, h1, h2⟩ := Option.bind_eq_some_iff.1 h
  have h3 := List.mem_of_find?_eq_some h2
  have : ∀ x : Str × List (Nat × Bool), x ∈ ([ (c!"", [(p.int, true), (p.long, true), (p.longlong, true)]),
    (c!"u", [(p.int, false), (p.long, false), (p.longlong, false)]),
    (c!"l", [(p.long, true), (p.longlong, true)]),
    (c!"ul", [(p.long, false), (p.longlong, false)]),
    (c!"ll", [(p.longlong, true)]),
    (c!"ull", [(p.longlong, false)]) ] : List (Str × List (Nat × Bool))) → 'u' ∈ x.1 → ∀ t ∈ x.2, t.2 = false := by
    intro x hx
    simp only [List.mem_cons, List.not_mem_nil, or_false] at hx
    rcases hx with rfl | rfl | rfl | rfl | rfl | rfl <;> simp
  exact this (s, ts) (by
    obtain ⟨l₁, l₂, e, _⟩ := List.lookup_eq_some_iff.1 h1
    rw [e]; simp) hu ty h3

/-- What C makes of `-9223372036854775808ull`: it is not negative. -/
theorem least_value {p : PrimSpec.Platform} {M : List (Str × List Lx)} {ty : Nat × Bool} {v : Int}
    (hM : (M.all fun m => m.1 != c!"9223372036854775808ull") = true)
    (h : CValue p M [.punct '-', .word c!"9223372036854775808ull"] ty v) : 0 ≤ v := by
  generalize hts : [Lx.punct '-', .word c!"9223372036854775808ull"] = ts at h
  cases h with
  | const => cases hts
  | yes => cases hts
  | no => cases hts
  | limit => cases hts
  | «macro» => cases hts
  | not => simp at hts
  | cast => simp at hts
  | op => simp at hts
  | shift => simp at hts
  | neg h' =>
    simp only [List.cons.injEq, true_and] at hts
    subst hts
    generalize hts : [Lx.word c!"9223372036854775808ull"] = ts at h'
    generalize hn : ((_ : Nat) : Int) = n at h'
    cases h' with
    | yes => simp at hts
    | no => simp at hts
    | limit hl =>
      simp only [List.cons.injEq, Lx.word.injEq, and_true] at hts
      subst hts
      have : ∀ q ∈ cLimits, q.1 ≠ c!"9223372036854775808ull" := by decide
      exact absurd rfl (this _ hl)
    | «macro» hm =>
      simp only [List.cons.injEq, Lx.word.injEq, and_true] at hts
      subst hts
      have := List.all_eq_true.1 hM _ hm
      simp at this
    | cast => simp at hts
    | op => simp at hts
    | shift => simp at hts
    | neg => cases hts
    | not => cases hts
    | @const w n' s ty h1 h2 =>
      simp only [List.cons.injEq, Lx.word.injEq, and_true] at hts
      subst hts
      obtain ⟨ds, e, _, hd, _, hf⟩ := h1
      have hu : 'u' ∈ ds ++ s := by rw [← e]; decide
      rcases List.mem_append.1 hu with hu | hu
      · exact absurd (hd _ hu) (by decide)
      · rw [IntSpec.negValue, no_sign h2 hu]
        exact Int.natCast_nonneg _

end EnumCases

open EnumCases in
open SourceCases (env R on) in
/-- Cases for C66: an enum with values, one with data and a size, the union of its data, and the struct of one variant. -/
example : ∃ t o es es', headerText env EnumCases.bindings = some t ∧ readHeader R on t = some o ∧
    (.enumeration [] (some c!"K") none (some c!"K") es ∈ o.items ∧ ∀ p M, Usual p → EnumValues p M 0 es [(c!"A", 5), (c!"B", 6), (c!"int_", 7)]) ∧
    (.enumeration [] (some c!"E_Tag") none none es' ∈ o.items ∧ ∀ p M, Usual p → EnumValues p M 0 es' [(c!"P", 0), (c!"Q", 1), (c!"R", 2)]) ∧
    .alias c!"E_Tag" (cname false c!"uint8_t") ∈ o.items ∧
    .record .union [] (some c!"E") (some c!"E") (.object false [] c!"tag" (cname false c!"E_Tag") [] :: (qArm ++ rArm)) ∈ o.items ∧
    .record .struct [] (some c!"R_Body") (some c!"R_Body") rMembers ∈ o.items := by
  obtain ⟨t, ht⟩ := Option.isSome_iff_exists.1 (show (headerText env EnumCases.bindings).isSome = true by decide +kernel)
  obtain ⟨o₁, es, h₁, k₁, v₁⟩ := C66_enum_partial stages (read ht) sole_k needed_k isK rfl rfl k_mapped k_values
  obtain ⟨o₂, es', h₂, k₂, v₂, a₂⟩ := C66_sized_partial stages (read ht) sole_s needed_s isE rfl (ty := (.b8, false)) rfl
    (size := c!"uint8_t") (by decide) s_mapped s_values
  obtain ⟨o₃, h₃, k₃⟩ := C66_data_partial stages (read ht) sole_s needed_s isE rfl rfl s_mapped s_fields ⟨rfl, rfl⟩ arms
  obtain ⟨o₄, h₄, k₄⟩ := C66_body_partial stages (read ht) sole_s needed_s isE rfl
    (v := ⟨c!"R", .named [⟨some c!"x", .path c!"M" .none, []⟩, ⟨some c!"y", .path c!"u8" .none, []⟩], none, []⟩) (by simp [s])
    nofun nofun (s_fields _ (by simp [s])) ⟨rfl, rfl⟩ arms variant_r
  obtain rfl := Option.some.inj (h₁.symm.trans h₂)
  obtain rfl := Option.some.inj (h₁.symm.trans h₃)
  obtain rfl := Option.some.inj (h₁.symm.trans h₄)
  exact ⟨t, o₁, es, es', ht, h₁, ⟨k₁, fun p M hp => v₁ p M hp nofun⟩, ⟨k₂, fun p M hp => v₂ p M hp nofun⟩, a₂ rfl, k₃, k₄⟩

open EnumCases in
open SourceCases (env R on) in
/-- **C66** is false for the least number of 64 bits: `#[repr(i64)] enum M { N = -9223372036854775808 }` is in the sources, and
in the header `N` is not negative on any platform. -/
theorem C66_min_refuted : ∃ t o es, Stages SourceCases.pc lc 1 1 inputs c id lib lib EnumCases.bindings ∧
    SrcSpec.Given SourceCases.pc inputs (.enum m) [] ∧ m.variants.map (·.disc) = [some (.unary .neg (.lit (.int (2 ^ 63) [])))] ∧
    headerText env EnumCases.bindings = some t ∧ readHeader R on t = some o ∧
    .enumeration [] (some c!"M") none none es ∈ o.items ∧ es.map (·.name) = [c!"N"] ∧
    ∀ p v, EnumValues p o.macros 0 es [(c!"N", v)] → 0 ≤ v := by
  obtain ⟨t, ht⟩ := Option.isSome_iff_exists.1 (show (headerText env EnumCases.bindings).isSome = true by decide +kernel)
  refine ⟨t, _, enumeratorsOf env on mItem.variants, stages,
    top (i := .enum m) (by simp [items]) (by simp [Hidden, ParserSpec.Ignored, FItem.attrs, m]) .enum, rfl, ht,
    C61_header_reads_back bindings_good ht, ?_, rfl, ?_⟩
  · refine header_container (read ht).first (x := .enum mItem) (by simp [EnumCases.bindings]) rfl (mem_enumOut rfl rfl ?_)
    exact List.mem_append.2 (.inl (List.mem_singleton.2 rfl))
  · intro p v h
    have : enumeratorsOf env on mItem.variants = [⟨c!"N", [], some [.punct '-', .word c!"9223372036854775808ull"]⟩] := rfl
    rw [this] at h
    cases h with
    | set h _ => exact least_value (by decide +kernel) h

namespace EnumCases
open DefCases (reprC u8 named)

/-- `#[repr(C)] enum E { r#type { x: u8 } }` -/
def rawEnum : SynEnum :=
  ⟨c!"E", [], [⟨c!"r#type", .named [⟨some c!"x", .path c!"u8" .none, []⟩], none, []⟩], [reprC]⟩
def rawInputs : Inputs := { srcs := [(c!"lib", some [.enum rawEnum, .fn fn])] }
def rawBody : StructItem :=
  { path := c!"r#type_Body", exportName := c!"r#type_Body", fields := [{ name := c!"x", ty := u8 }], isEnumVariantBody := true }
def rawItem (t n : Str) : EnumItem :=
  { path := c!"E", exportName := c!"E", repr := { style := .c }, tag := some t,
    variants := [{ name := c!"type", exportName := n, body := .body n rawBody false false }] }
def rawLib : Library := { enums := [(c!"E", .single (rawItem c!"Tag" c!"type"))], functions := [f none] }
def rawBindings : Bindings := ⟨[], [], [.enum (rawItem c!"E_Tag" c!"type")], [f (some .struct)]⟩

end EnumCases

open EnumCases in
/-- **C66** is false for a variant with a raw identifier: the struct for its data is named `r#type_Body`, which is not a name
in C. -/
theorem C66_raw_refuted : ∃ t, buildLibrary SourceCases.pc lc 1 rawInputs = .ok rawLib ∧ rawLib.generate c id 1 = .ok rawBindings ∧
    headerText SourceCases.env rawBindings = some t ∧ c!"typedef struct r#type_Body {" <:+: t := by
  obtain ⟨t, ht⟩ := Option.isSome_iff_exists.1 (show (headerText SourceCases.env rawBindings).isSome = true by decide +kernel)
  refine ⟨t, rfl, ?_, ht, ?_⟩
  · refine Library.generate_of (l' := { enums := [(c!"E", .single (rawItem c!"E_Tag" c!"type"))], functions := [f (some .struct)] }) rfl ?_
    rw [DetSpec.collect_of (d := ⟨[.enum (rawItem c!"E_Tag" c!"type")], [c!"E"]⟩) rfl]
    simp only [DetSpec.bindingsOf]
    rw [sortItems_rest (by decide)]
    rfl
  · have : ((headerText SourceCases.env rawBindings).any fun t => decide (c!"typedef struct r#type_Body {" <:+: t)) = true := by decide +kernel
    rw [ht] at this
    exact of_decide_eq_true this

end Cbindgen
