import Verif.Props.SourceCxxConsts
import Verif.Props.SourceCxxEnumCases
import Verif.Props.SourceConstCases

/-! # Cases for C79 -/

namespace Cbindgen
open CSpec HeadSpec LexSpec
open SrcSpec hiding Reaches Given Plain Declares

namespace CxxConstCases
open SourceCases (pc on rust)
open CxxSourceCases (env R fits)
open CxxEnumCases (lc c D opts variant_good f)
open EnumCases (F fn number operator)
open ConstCases (n fl bt e items inputs ref constants nItem flItem btItem sItem tItem uItem xItem yItem eItem sole_n sole_fl sole_bt given_occurs top)

/-- The sources are those of the cases for C. -/
def lib : Library := { ConstCases.lib with functions := [f] }
def bindings : Bindings := ⟨constants, [], [.enum eItem], [f]⟩

theorem built : buildLibrary pc lc 1 inputs = .ok lib := rfl

theorem generated : lib.generate c id 1 = .ok bindings := by
  refine Library.generate_of (l' := lib) rfl ?_
  rw [DetSpec.collect_of (d := ⟨[.enum eItem], [c!"E"]⟩) rfl]
  simp only [DetSpec.bindingsOf]
  rw [show [Container.enum eItem] = [Container.enum eItem] ++ [] from rfl, sortItems_enums (by decide) (by decide)]
  rfl

theorem e_good : EnumGood R on D env eItem where
  name := by ident_x
  attrs := nofun
  variants := by
    intro v hv
    simp only [eItem, List.mem_cons, List.not_mem_nil, or_false] at hv
    rcases hv with rfl | rfl
    · exact variant_good ⟨by simp, by decide⟩ rfl (by
        rintro d ⟨⟩
        exact ⟨⟨⟨trivial, rfl⟩, by unfold LitText; exact ⟨by simp [pathText], by decide⟩⟩, by decide, by decide⟩) rfl (by decide)
    · exact variant_good ⟨by simp, by decide⟩ rfl nofun rfl (by decide)
  doc := nofun
  size := nofun
  data := nofun
  plain := fun _ => ⟨rfl, rfl, nofun, nofun⟩

theorem braced : ∀ {ls : List Lx}, (ls.all fun l => isPlainTok l && l != .word c!"namespace" && l != .word c!"extern") = true → Braced ls
  | [], _ => .nil
  | l :: ls, h => by
    rw [List.all_cons, Bool.and_eq_true] at h
    exact .tok h.1 (braced h.2)

theorem const_good {n : Str} {q : Prim} {v : Lit} {g : Option Cfg} (hn : Ident R.attrs n) (hD : Word n ∧ n ∉ D)
    (hp : v.peel env.transparent = some v) (hv : LitText R env v)
    (hb : ((litToks env v).all fun l => isPlainTok l && l != .word c!"namespace" && l != .word c!"extern") = true) :
    ConstGood R D env none (ConstCases.item n (.prim q) v g) where
  name := by
    intro m hm
    cases hm
    exact hD
  value := by
    intro w hw
    have : some v = some w := hp.symm.trans hw
    cases this
    exact hv
  doc := nofun
  variable_ := fun _ => {
    name := by
      intro m hm
      cases hm
      exact hn
    ty := trivial
    params := trivial
    const := .inr rfl
    value := by
      intro w hw
      have : some v = some w := hp.symm.trans hw
      cases this
      exact braced hb }

theorem word_text {w : Str} (h : Word w) : LitText R env (.path none w) := h

theorem constants_good : ∀ k ∈ constants, ConstGood R D env none k := by
  intro k hk
  have hw : ∀ w ∈ [c!"N", c!"F", c!"B", c!"S", c!"T", c!"U", c!"X", c!"Y"], Word w ∧ w ∉ D := by unfold Word; decide
  have shl : BinaryText c!"<<" := operator (ls := [.punct '<', .punct '<']) (by decide) (by decide)
  have num : ∀ w ∈ [c!"1", c!"2", c!"3", c!"31", c!"200", c!"true"], ExprText w := by
    intro w hw
    simp only [List.mem_cons, List.not_mem_nil, or_false] at hw
    rcases hw with rfl | rfl | rfl | rfl | rfl | rfl
    · exact number (ls := [.word c!"1"]) (by decide) (by decide)
    · exact number (ls := [.word c!"2"]) (by decide) (by decide)
    · exact number (ls := [.word c!"3"]) (by decide) (by decide)
    · exact number (ls := [.word c!"31"]) (by decide) (by decide)
    · exact number (ls := [.word c!"200"]) (by decide) (by decide)
    · exact number (ls := [.word c!"true"]) (by decide) (by decide)
  simp only [constants, List.mem_cons, List.not_mem_nil, or_false] at hk
  have cpl : UnaryText c!"~" := ⟨[.punct '~'], by decide, fun d => scans_text (d := d) (b := false) (x := false) (by decide)⟩
  rcases hk with rfl | rfl | rfl | rfl | rfl | rfl | rfl | rfl
  · exact const_good (by ident_x) (hw _ (by simp)) rfl (num _ (by simp)) (by decide)
  · exact const_good (by ident_x) (hw _ (by simp)) rfl ⟨⟨word_text (w := c!"N") ⟨by simp, by decide⟩, shl, num _ (by simp)⟩,
      operator (ls := [.punct '|']) (by decide) (by decide), num _ (by simp)⟩ (by decide)
  · exact const_good (by ident_x) (hw _ (by simp)) rfl (num _ (by simp)) (by decide)
  · exact const_good (by ident_x) (hw _ (by simp)) rfl ⟨word_text (w := c!"A") ⟨by simp, by decide⟩,
      operator (ls := [.punct '+']) (by decide) (by decide), num _ (by simp)⟩ (by decide)
  · exact const_good (by ident_x) (hw _ (by simp)) rfl ⟨num _ (by simp), shl, num _ (by simp)⟩ (by decide)
  · exact const_good (by ident_x) (hw _ (by simp)) rfl ⟨num _ (by simp), shl, num _ (by simp)⟩ (by decide)
  · exact const_good (by ident_x) (hw _ (by simp)) rfl ⟨cpl, num _ (by simp)⟩ (by decide)
  · exact const_good (by ident_x) (hw _ (by simp)) rfl ⟨cpl, num _ (by simp)⟩ (by decide)

theorem bindings_good : CxxHeaderGood R on D env bindings where
  options := opts
  lang := rfl
  spaces := by unfold Word; decide
  uses := nofun
  version := by unfold CommentSafe; decide
  guard := nofun
  header := nofun
  autogen := nofun
  after := nofun
  trailer := nofun
  sys := nofun
  quoted := nofun
  constants := constants_good
  globals := nofun
  items := by
    intro x hx _
    simp only [bindings, List.mem_singleton] at hx
    subst hx
    exact e_good
  functions := CxxEnumCases.bindings_good.functions

theorem stages : StagesX pc lc 1 1 inputs c id lib bindings where
  built := built
  plain := ConstCases.plain
  onePath := ConstCases.onePath
  language := rfl
  ordered := rfl
  bare := by
    intro s cs a h ha
    obtain ⟨_, _, ho⟩ := given_occurs h
    have := occurs_types ho rfl
    simp [items, FItem.typesAll, FItem.types] at this
  generated := generated

/-- The values of the constants in Rust. -/
def K : Nat → Str → Int → Prop := CxxConstVal pc inputs c.export_.exclude rust

theorem K.intro {k : SynConst} {cs : List Cfg} {n : Str} {lim : Nat} {v : Int} (hS : SrcSpec.SoleConst pc inputs k cs n)
    (hc : ∀ x ∈ cs, CfgSpec.holds rust x = true) (hl : ScalarIs k.ty k.expr lim v) (ha : ∃ a, Annotations.load k.attrs = .ok a)
    (hv : SrcSpec.RustValue K lim k.expr v) : K lim n v := by
  intro P hP
  exact hP k cs n lim v hS hc List.not_mem_nil hl ha (value_mono (fun _ _ _ h => h P hP) hv)

theorem value_n : K (2 ^ 32) c!"N" 3 :=
  K.intro sole_n nofun (.int (n := c!"u32") (lo := 0) (hi := 2 ^ 32) rfl (by decide) (by decide) (by decide)) ⟨{}, rfl⟩
    (.int (n := 3) (by decide) (by decide))

theorem value_fl : K (2 ^ 32) c!"F" 13 := by
  refine K.intro sole_fl ?_ (.int (n := c!"u32") (lo := 0) (hi := 2 ^ 32) rfl (by decide) (by decide) (by decide)) ⟨{}, rfl⟩ ?_
  · intro x hx
    obtain rfl := List.mem_singleton.1 hx
    rfl
  · exact .small (n := 13) (.op (x := 12) (y := 1) (.shift (x := 3) (k := 2) (.name value_n (by decide)) (.int (by decide)) rfl (by decide) (by decide))
      (.int (by decide)) rfl (by decide) (by decide))

theorem value_bt : K 2 c!"B" 1 := K.intro sole_bt nofun .bool ⟨{}, rfl⟩ (.bool (b := true))

theorem read {t : Str} (ht : headerText env bindings = some t) : CxxReadWhere R on D env bindings t rust [] where
  good := bindings_good
  text := ht
  first := nofun
  same := fits
  mapped := nofun
  holds := nofun

def rE : Repr := { style := .c }

theorem isE : EnumIs lc c e rE {} .snakeCase .none where
  repr := ⟨rfl, .inl rfl, rfl⟩
  annotations := rfl
  arms := rfl
  rule := rfl

theorem disc_value : RustValue K (reprLimit none) (.cast (ref c!"N") (.path c!"isize" .none)) 3 :=
  .small (n := 3) (.cast (.name value_n (by decide)) rfl (by decide))

theorem e_declarable : CxxDeclarable lc (.enum e) := by
  refine .enum (V := CxxEnumCases.V rE c!"E") (rust := rust) nofun isE.repr isE.annotations rfl isE.arms (fun _ => rfl) (fun _ => rfl) ?_
  intro v hv
  simp only [e, List.mem_cons, List.not_mem_nil, or_false] at hv
  rcases hv with rfl | rfl
  · exact ⟨fun e he => by cases he; exact ⟨_, _, 3, disc_value⟩, _, _, CxxEnumCases.variant_p rfl⟩
  · exact ⟨nofun, _, _, CxxEnumCases.variant_p rfl⟩

theorem sole_e : CxxSole pc lc inputs c (.enum e) [] c!"E" where
  given := top (i := .enum e) (by simp [items]) (by simp [Hidden, ParserSpec.Ignored, FItem.attrs, e, DefCases.reprC]) .enum
  declarable := e_declarable
  name := rfl
  others := fun t' cs' h h' => Or.inl (by
    obtain ⟨_, _, ho⟩ := given_occurs h
    have := occurs_types ho h'
    simp only [items, FItem.typesAll, FItem.types, List.append_nil, List.nil_append, List.mem_singleton, Prod.mk.injEq] at this
    exact this)
  std := by decide
  kept := List.not_mem_nil
  wanted := by intro k _; cases k <;> rfl

theorem needed_e : CxxNeeded pc lc inputs c c!"E" := by
  have h : CxxParams (CxxDefCases.E F [] none) fn.sig.inputs [.mk (some c!"x") (.ptr false false (some c!"_Nullable") (.base false none c!"E" []))] :=
    .ident (n := c!"x") (.raw (.some (CxxDefCases.named_type (n := c!"E") (by decide) rfl))) (fun h => h) .nil
  have hg : SrcSpec.Given pc inputs (.fn c!"f" none false fn) [] := by
    refine top (i := .fn fn) (by simp [items]) (by simp [Hidden, ParserSpec.Ignored, FItem.attrs, fn, noMangle]) ?_
    exact SrcSpec.Declares.fn (Or.inl rfl) (Or.inr (Or.inl rfl)) (Or.inr ⟨by decide, Or.inl (by simp [fn, noMangle]), rfl⟩)
  exact .function hg List.not_mem_nil (a := {}) rfl rfl (rfl : (CxxDefCases.E F [] none).owner = none) (.mk h .default)
    (.ident (List.mem_singleton.2 rfl) (.raw (.named (by decide) .none)))

end CxxConstCases

open CxxConstCases in
open CxxSourceCases (env R) in
open SourceCases (on) in
/-- Cases for C79: a number, an expression with another constant under a `cfg`, a truth value, and an enum whose first
discriminant is a constant. -/
theorem C79_case : ∃ t o es M, headerText env CxxConstCases.bindings = some t ∧ readHeader R on t = some o ∧
    Declares o.items [c!"ns"] false (.enumClass [] c!"E" none es) ∧
    (∀ m ∈ M, Standing (· ∈ o.macros) (constantIn o.items [c!"ns"]) m) ∧
    ∀ p, Usual p →
      (∃ ts ty, (c!"N", ts) ∈ M ∧ CValue p M ts ty 3) ∧ (∃ ts ty, (c!"F", ts) ∈ M ∧ CValue p M ts ty 13) ∧
      (∃ ts ty, (c!"B", ts) ∈ M ∧ CValue p M ts ty 1) ∧ EnumValues p M 0 es [(c!"V", 3), (c!"W", 4)] := by
  obtain ⟨t, ht⟩ := Option.isSome_iff_exists.1 (show (headerText env CxxConstCases.bindings).isSome = true by decide +kernel)
  obtain ⟨o, es, M, h₁, k₁, k₂, v⟩ := C79_enum_partial (e := env) stages rfl ConstCases.mapped (read ht) sole_e needed_e isE rfl rfl
    (by
      intro v hv x hx
      simp only [ConstCases.e, List.mem_cons, List.not_mem_nil, or_false] at hv
      rcases hv with rfl | rfl <;> cases hx) .none
    (ds := [(c!"V", 3), (c!"W", 4)]) (k := 5) (.set nofun rfl disc_value (.next nofun rfl .nil))
  exact ⟨t, o, es, M, ht, h₁, k₁, k₂, fun p hp =>
    ⟨(v p hp).1 _ _ _ value_n, (v p hp).1 _ _ _ value_fl, (v p hp).1 _ _ _ value_bt, (v p hp).2⟩⟩

/-! ## Where the code deviates -/

namespace CxxConstCases
open CxxSourceCases (env R)
open SourceCases (on)

/-- The names of constants in a list. -/
def constantName : CItem → Option Str
  | .constant _ n _ _ => some n
  | _ => none

/-- What is inside the namespace. -/
def inside : Out :=
  constantsOut env on true bindings.constants ++
  outs ((bindings.items.filter fun i => i.annotations.shouldExport).map (containerOut R env on)) ++
  constantsOut env on false bindings.constants ++ cxxLinkageOut env on bindings

theorem header_items : (cxxHeaderOut R env on bindings).items = [.space c!"ns" inside.items] := rfl

theorem no_a {ws : List Str} {t : CTy} {ts : List Lx} : ¬ Declares (cxxHeaderOut R env on bindings).items [c!"ns"] false (.constant ws c!"A" t ts) := by
  have hno : (inside.items.all fun d => constantName d != some c!"A") = true := by decide +kernel
  rw [header_items]
  intro h
  cases h with
  | space hm hd =>
    cases List.mem_singleton.1 hm
    cases hd with
    | here hm =>
      have := List.all_eq_true.1 hno _ hm
      simp [constantName] at this

end CxxConstCases

open CxxConstCases in
open CxxSourceCases (env R) in
open SourceCases (on pc) in
open CxxEnumCases (lc c) in
/-- **C79** is false for constants that refer to private ones: `const A: u32 = 5; pub const S: u32 = A + 1;` gives an object `S`
whose initialiser uses `A`, which the header does not declare. -/
theorem C79_private_refuted : ∃ tx o ts, StagesX pc lc 1 1 ConstCases.inputs c id CxxConstCases.lib CxxConstCases.bindings ∧
    SrcSpec.Given pc ConstCases.inputs (.const ConstCases.s) [] ∧
    ConstCases.s.expr = .binary (.path [] c!"A" .none) .add (.lit (.int 1 [])) ∧
    headerText env CxxConstCases.bindings = some tx ∧ readHeader R on tx = some o ∧
    constantIn o.items [c!"ns"] [c!"constexpr", c!"static"] c!"S" c!"uint32_t" ts ∧
    ∀ M, (∀ m ∈ M, Standing (· ∈ o.macros) (constantIn o.items [c!"ns"]) m) → ∀ p ty v, ¬ CValue p M ts ty v := by
  obtain ⟨tx, ht⟩ := Option.isSome_iff_exists.1 (show (headerText env CxxConstCases.bindings).isSome = true by decide +kernel)
  refine ⟨tx, _, [.punct '('] ++ [.word c!"A"] ++ c!"+".map .punct ++ [.word c!"1"] ++ [.punct ')'], stages,
    ConstCases.top (i := .const ConstCases.s) (by simp [ConstCases.items]) (by simp [Hidden, ParserSpec.Ignored, FItem.attrs, ConstCases.s])
      (.const (Or.inl rfl) rfl), rfl, ht, C74_header_reads_back_partial bindings_good ht, ?_, ?_⟩
  · exact cxx_constant (e := env) (b := CxxConstCases.bindings) (fun _ h => by cases h) (k := ConstCases.sItem) (by simp [CxxConstCases.bindings, ConstCases.constants])
      (List.mem_singleton.2 rfl)
  · intro M hM p ty v h
    have hno : (M.all fun m => m.1 != c!"A") = true := by
      rw [List.all_eq_true]
      intro m hm
      cases hM m hm with
      | «macro» h => exact absurd h (by rw [show (cxxHeaderOut R env on CxxConstCases.bindings).macros = [] from rfl]; exact List.not_mem_nil)
      | object h _ =>
        rw [bne_iff_ne]
        rintro rfl
        exact no_a h
      | bool h _ _ =>
        rw [bne_iff_ne]
        rintro rfl
        exact no_a h
    obtain ⟨t, u, x, y, z, h1, _⟩ := cvalue_binary (by decide) (by decide) h
    obtain ⟨n, s, ⟨ds, k1, k2, k3, _⟩, _⟩ := cvalue_word h1 hno (by decide)
    cases ds with
    | nil => exact k2 rfl
    | cons c ds =>
      have := k3 c (by simp)
      rw [← (List.cons.inj k1).1] at this
      exact absurd this (by decide)

end Cbindgen
