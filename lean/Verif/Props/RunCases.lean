import Verif.Props.Runs
import Verif.Props.SourceCxxConstCases

/-! # Cases for C80 -/

namespace Cbindgen
open CSpec HeadSpec LexSpec MainSpec
open SrcSpec hiding Reaches Given Plain Declares

namespace RunCases
open SourceCases (pc on rust)
open CxxSourceCases (env R fits)
open CxxEnumCases (lc c D opts variant_good f)
open CxxConstCases (lib bindings const_good word_text stages)
open EnumCases (F fn number operator)
open ConstCases (items inputs constants eItem)

/-- The configuration of the run. -/
def settings : Settings := { out := env.cfg }

/-- The file `lib.rs`, with constants, an enum and a function, and its configuration. -/
def world : World where
  cwd := []
  isDir _ := false
  parent _ := some []
  stem _ := some c!"lib"
  configFile _ := none
  rootConfig _ := some settings
  source _ := some items
  library _ := .missing
  cargo _ := none
  nested := false
  order := id
  crates := 1
  fuel := 1

/-- `cbindgen -o a.hpp lib.rs` -/
def cli : Cli := { input := some c!"lib.rs", out := { out := some c!"a.hpp" } }

theorem loads : world.load cli = .ok (settings, inputs, []) := rfl

/-- The settings and the enums of the run. -/
def envX : Env := { env with enums := lib.enums }

theorem makes : world.generate settings inputs [] = .ok (envX, bindings) := by
  unfold World.generate
  have h1 : buildLibrary settings.parse settings.load world.crates inputs = .ok lib := rfl
  have h2 : settings.lib = c := rfl
  have h3 : world.order = id := rfl
  have h4 : world.fuel = 1 := rfl
  rw [h1]
  have hp : lib.prepare c id 1 = .ok lib := rfl
  have hc : lib.collect c = some bindings := by
    rw [DetSpec.collect_of (d := ⟨[.enum eItem], [c!"E"]⟩) rfl]
    simp only [DetSpec.bindingsOf]
    rw [show [Container.enum eItem] = [Container.enum eItem] ++ [] from rfl, sortItems_enums (by decide) (by decide)]
    rfl
  simp only [h2, h3, h4, hp, hc]
  rfl

theorem e_good : EnumGood R on D envX eItem :=
  have h := CxxConstCases.e_good
  { name := h.name
    attrs := h.attrs
    variants := fun v hv =>
      have g := h.variants v hv
      { name := g.name
        attrs := g.attrs
        commas := g.commas
        value := by
          intro d hd
          simp only [eItem, List.mem_cons, List.not_mem_nil, or_false] at hv
          rcases hv with rfl | rfl
          · cases hd
            exact ⟨⟨⟨trivial, rfl⟩, by unfold LitText; exact ⟨by simp [pathText], by decide⟩⟩, by decide, by decide⟩
          · cases hd
        doc := g.doc
        block := g.block }
    doc := h.doc
    size := h.size
    data := nofun
    plain := h.plain }

theorem text_same : ∀ k ∈ constants, LitText R env k.value → LitText R envX k.value := by
  intro k hk
  simp only [constants, List.mem_cons, List.not_mem_nil, or_false] at hk
  rcases hk with rfl | rfl | rfl | rfl | rfl | rfl | rfl | rfl <;> exact id

theorem toks_same : ∀ k ∈ constants, k.value.peel env.transparent = some k.value ∧ k.value.peel envX.transparent = some k.value ∧
    litToks envX k.value = litToks env k.value := by
  intro k hk
  simp only [constants, List.mem_cons, List.not_mem_nil, or_false] at hk
  rcases hk with rfl | rfl | rfl | rfl | rfl | rfl | rfl | rfl <;> exact ⟨rfl, rfl, rfl⟩

theorem constants_good : ∀ k ∈ constants, ConstGood R D envX none k := by
  intro k hk
  have h := CxxConstCases.constants_good k hk
  obtain ⟨h1, h2, h3⟩ := toks_same k hk
  exact
    { name := h.name
      value := by
        intro v hv
        rw [h2] at hv
        cases hv
        exact text_same k hk (h.value _ h1)
      doc := h.doc
      variable_ := fun hc =>
        have g := h.variable_ hc
        { name := g.name
          ty := g.ty
          params := g.params
          const := g.const
          value := by
            intro v hv
            rw [h2] at hv
            cases hv
            rw [h3]
            exact g.value _ h1 } }

theorem good : CxxHeaderGood R on D envX bindings where
  options := opts
  lang := rfl
  spaces := by unfold Word; decide
  uses := nofun
  version := by unfold CommentSafe; decide
  guard := nofun
  header := nofun
  autogen := nofun
  after := nofun
  trailer := nofun
  sys := nofun
  quoted := nofun
  constants := constants_good
  globals := nofun
  items := by
    intro x hx _
    simp only [bindings, List.mem_singleton] at hx
    subst hx
    exact e_good
  functions := CxxEnumCases.bindings_good.functions

theorem fine : SourcesFine settings inputs on rust where
  plain := ConstCases.plain
  onePath := ConstCases.onePath
  bare := stages.bare
  first := nofun
  same := fits

end RunCases

open RunCases CxxConstCases in
open CxxSourceCases (R) in
open SourceCases (on rust) in
open ConstCases (inputs) in
/-- A case for C80: after `cbindgen -o a.hpp lib.rs`, the file `a.hpp` declares `void f(E *x)` in its namespace, the enum `E`
with the values of its variants, of which the first is a constant, and constants with their values. -/
theorem C80_case : ∃ r t o attrs es M, world.run cli ⟨fun _ => none, []⟩ = .exit r ∧ r.disk.file c!"a.hpp" = some (utf8 t) ∧
    readHeader R on t = some o ∧
    Declares o.items [c!"ns"] true (.object false attrs c!"f" (.fn [.mk (some c!"x")
      (.ptr false false (some c!"_Nullable") (.base false none c!"E" []))] none (.base false none c!"void" [])) []) ∧
    Declares o.items [c!"ns"] false (.enumClass [] c!"E" none es) ∧
    (∀ m ∈ M, Standing (· ∈ o.macros) (constantIn o.items [c!"ns"]) m) ∧
    ∀ p, Usual p → (∃ ts ty, (c!"F", ts) ∈ M ∧ CValue p M ts ty 13) ∧ EnumValues p M 0 es [(c!"V", 3), (c!"W", 4)] := by
  obtain ⟨t, ht⟩ := Option.isSome_iff_exists.1 (show (headerText envX bindings).isSome = true by decide +kernel)
  have hrun : world.run cli ⟨fun _ => none, []⟩ =
      .exit (runOutput cli.out false (utf8 t) (utf8 bindings.symfileText) ⟨fun _ => none, []⟩) :=
    run_of rfl rfl loads rfl makes ht
  have hw : WritesTo world cli ⟨fun _ => none, []⟩ (runOutput cli.out false (utf8 t) (utf8 bindings.symfileText) ⟨fun _ => none, []⟩) :=
    ⟨hrun, rfl, rfl, fun _ _ h => by cases h⟩
  obtain ⟨s, i, v, t', o, hl, hf, hr, hd⟩ := C80_cxx_partial (R := R) (on := on) (D := CxxEnumCases.D) (rust := rust) hw rfl
    (by
      intro s i v e b hl hg
      rw [loads] at hl
      cases hl
      rw [makes] at hg
      cases hg
      exact good)
    (by
      intro s i v hl
      rw [loads] at hl
      cases hl
      exact fine)
  rw [loads] at hl
  cases hl
  obtain ⟨M, m1, m2, m3, _⟩ := hd.values rfl ConstCases.mapped
  obtain ⟨es, e1, e2⟩ := m3 ConstCases.e [] c!"E" CxxConstCases.rE {} .snakeCase .none none [(c!"V", 3), (c!"W", 4)] 5 sole_e needed_e ⟨nofun, nofun⟩
    isE rfl rfl
    (by
      intro v hv x hx
      simp only [ConstCases.e, List.mem_cons, List.not_mem_nil, or_false] at hv
      rcases hv with rfl | rfl <;> cases hx) .none
    (.set nofun rfl disc_value (.next nofun rfl .nil))
  obtain ⟨attrs, hfn⟩ := hd.functions rfl c!"f" none false EnumCases.fn [] {} .none _
    (by
      refine ConstCases.top (i := .fn EnumCases.fn) (by simp [ConstCases.items]) (by simp [Hidden, ParserSpec.Ignored, FItem.attrs, EnumCases.fn, noMangle]) ?_
      exact SrcSpec.Declares.fn (Or.inl rfl) (Or.inr (Or.inl rfl)) (Or.inr ⟨by decide, Or.inl (by simp [EnumCases.fn, noMangle]), rfl⟩))
    ⟨nofun, nofun⟩ List.not_mem_nil rfl rfl rfl rfl
    (.mk (.ident (n := c!"x") (.raw (.some (CxxDefCases.named_type (f := EnumCases.F) (ns := []) (o := none) (n := c!"E") (by decide) rfl))) (fun h => h) .nil) .default)
  exact ⟨_, t', o, attrs, es, M, hrun, hf, hr, hfn, e1, m1, fun p hp => ⟨m2 p hp _ _ _ value_fl, e2 p hp⟩⟩

namespace RunCasesC
open SourceCases (pc env R on rust fits)
open EnumCases (lc c D)
open ConstCases (items inputs constants eItem lib lib' bindings stages)

/-- The same file with a configuration for C. -/
def settings : Settings := { out := env.cfg }
def world : World := { RunCases.world with rootConfig := fun _ => some settings }

theorem loads : world.load RunCases.cli = .ok (settings, inputs, []) := rfl

/-- The settings and the enums of the run. -/
def envC : Env := { env with enums := lib'.enums }

theorem makes : world.generate settings inputs [] = .ok (envC, bindings) := by
  unfold World.generate
  have h1 : buildLibrary settings.parse settings.load world.crates inputs = .ok lib := rfl
  have h2 : settings.lib = c := rfl
  have h3 : world.order = id := rfl
  have h4 : world.fuel = 1 := rfl
  rw [h1]
  have hp : lib.prepare c id 1 = .ok lib' := rfl
  have hc : lib'.collect c = some bindings := by
    rw [DetSpec.collect_of (d := ⟨[.enum eItem], [c!"E"]⟩) rfl]
    simp only [DetSpec.bindingsOf]
    rw [show [Container.enum eItem] = [Container.enum eItem] ++ [] from rfl, sortItems_enums (by decide) (by decide)]
    rfl
  simp only [h2, h3, h4, hp, hc]
  rfl

theorem e_good : EnumGood R on D envC eItem :=
  have h := ConstCases.e_good
  { name := h.name
    attrs := h.attrs
    variants := fun v hv =>
      have g := h.variants v hv
      { name := g.name
        attrs := g.attrs
        commas := g.commas
        value := by
          intro d hd
          simp only [eItem, List.mem_cons, List.not_mem_nil, or_false] at hv
          rcases hv with rfl | rfl
          · cases hd
            exact ⟨⟨⟨trivial, rfl⟩, by unfold LitText; exact ⟨by simp [pathText], by decide⟩⟩, by decide, by decide⟩
          · cases hd
        doc := g.doc
        block := g.block }
    doc := h.doc
    size := h.size
    data := nofun
    plain := h.plain }

theorem text_same : ∀ k ∈ constants, LitText R env k.value → LitText R envC k.value := by
  intro k hk
  simp only [constants, List.mem_cons, List.not_mem_nil, or_false] at hk
  rcases hk with rfl | rfl | rfl | rfl | rfl | rfl | rfl | rfl <;> exact id

theorem peels : ∀ k ∈ constants, k.value.peel env.transparent = some k.value ∧ k.value.peel envC.transparent = some k.value := by
  intro k hk
  simp only [constants, List.mem_cons, List.not_mem_nil, or_false] at hk
  rcases hk with rfl | rfl | rfl | rfl | rfl | rfl | rfl | rfl <;> exact ⟨rfl, rfl⟩

theorem constants_good : ∀ k ∈ constants, ConstGood R D envC none k := by
  intro k hk
  have h := ConstCases.constants_good k hk
  obtain ⟨h1, h2⟩ := peels k hk
  exact
    { name := h.name
      value := by
        intro v hv
        rw [h2] at hv
        cases hv
        exact text_same k hk (h.value _ h1)
      doc := h.doc
      variable_ := nofun }

theorem good : HeaderGood R on D envC bindings where
  options := ConstCases.bindings_good.options
  cpp := nofun
  spaces := nofun
  version := by unfold CommentSafe; decide
  guard := nofun
  header := nofun
  autogen := nofun
  after := nofun
  trailer := nofun
  sys := nofun
  quoted := nofun
  constants := constants_good
  globals := nofun
  items := by
    intro x hx _
    simp only [bindings, List.mem_singleton] at hx
    subst hx
    exact e_good
  functions := ConstCases.bindings_good.functions

theorem fine : SourcesFine settings inputs on rust where
  plain := ConstCases.plain
  onePath := ConstCases.onePath
  bare := stages.bare
  first := nofun
  same := fits

end RunCasesC

open RunCasesC ConstCases in
open SourceCases (env R on rust) in
open EnumCases (lc c) in
/-- A case for C80: the same command with a configuration for C writes macros for the constants and the enum with its values. -/
theorem C80_case_c : ∃ r t o es, RunCasesC.world.run RunCases.cli ⟨fun _ => none, []⟩ = .exit r ∧ r.disk.file c!"a.hpp" = some (utf8 t) ∧
    readHeader R on t = some o ∧ .enumeration [] (some c!"E") none (some c!"E") es ∈ o.items ∧
    ∀ p, Usual p → (∃ ts ty, (c!"F", ts) ∈ o.macros ∧ CValue p o.macros ts ty 13) ∧ EnumValues p o.macros 0 es [(c!"V", 3), (c!"W", 4)] := by
  obtain ⟨t, ht⟩ := Option.isSome_iff_exists.1 (show (headerText envC ConstCases.bindings).isSome = true by decide +kernel)
  have hrun : RunCasesC.world.run RunCases.cli ⟨fun _ => none, []⟩ =
      .exit (runOutput RunCases.cli.out false (utf8 t) (utf8 ConstCases.bindings.symfileText) ⟨fun _ => none, []⟩) :=
    run_of rfl rfl RunCasesC.loads rfl RunCasesC.makes ht
  obtain ⟨s, i, v, t', o, l, l₁, hl, hf, hr, hb, hx, hd⟩ := C80_c_partial (R := R) (on := on) (D := EnumCases.D) (rust := rust)
    ⟨hrun, rfl, rfl, fun _ _ h => by cases h⟩ rfl
    (by
      intro s i v e b hl hg
      rw [RunCasesC.loads] at hl
      cases hl
      rw [RunCasesC.makes] at hg
      cases hg
      exact RunCasesC.good)
    (by
      intro s i v hl
      rw [RunCasesC.loads] at hl
      cases hl
      exact RunCasesC.fine)
  rw [RunCasesC.loads] at hl
  cases hl
  obtain ⟨m2, m3, _⟩ := hd.values rfl ConstCases.mapped
  obtain ⟨es, e1, e2⟩ := m3 ConstCases.e [] c!"E" ConstCases.rE {} .snakeCase .none [(c!"V", 3), (c!"W", 4)] 5 ConstCases.sole_e
    ConstCases.needed_e ⟨nofun, nofun⟩ ConstCases.isE rfl rfl
    (by
      intro v hv x hx
      simp only [ConstCases.e, List.mem_cons, List.not_mem_nil, or_false] at hv
      rcases hv with rfl | rfl <;> cases hx)
    (.set nofun rfl ConstCases.disc_value (.next nofun rfl .nil))
  exact ⟨_, t', o, es, hrun, hf, hr, e1, fun p hp => ⟨m2 p hp _ _ _ ConstCases.value_fl, e2 p hp⟩⟩

theorem no_block {R : Dialect} {on : Str → Bool} {c : OutConfig}
    (h : c.header = none ∧ c.autogenWarning = none ∧ c.afterIncludes = none ∧ c.trailer = none) : NoTypesIn R on c := by
  obtain ⟨h1, h2, h3, h4⟩ := h
  intro k hk ns link d hd
  rw [h1, h2, h3, h4] at hk
  simp only [List.mem_cons, List.not_mem_nil, or_false, or_self] at hk
  subst hk
  exact absurd hd no_types_nil

open RunCases CxxConstCases in
open CxxSourceCases (R) in
open SourceCases (on rust) in
open ConstCases (inputs) in
/-- A case for C82: the header of C80 declares the type `E` in its namespace, and all types that it declares are of the sources. -/
theorem C82_case : ∃ r t o d, world.run cli ⟨fun _ => none, []⟩ = .exit r ∧ r.disk.file c!"a.hpp" = some (utf8 t) ∧ readHeader R on t = some o ∧ Declares o.items [c!"ns"] false d ∧
    c!"E" ∈ d.defines ∧ ∀ ns link d n, Declares o.items ns link d → n ∈ d.defines →
      link = false ∧ ns = [c!"ns"] ∧ CxxSource settings.parse inputs settings.lib settings.out.defines rust n := by
  obtain ⟨t, ht⟩ := Option.isSome_iff_exists.1 (show (headerText envX bindings).isSome = true by decide +kernel)
  have hrun : world.run cli ⟨fun _ => none, []⟩ =
      .exit (runOutput cli.out false (utf8 t) (utf8 bindings.symfileText) ⟨fun _ => none, []⟩) :=
    run_of rfl rfl loads rfl makes ht
  obtain ⟨s, i, v, t', o, hl, hf, hr, hd⟩ := C80_cxx_partial (R := R) (on := on) (D := CxxEnumCases.D) (rust := rust)
    ⟨hrun, rfl, rfl, fun _ _ h => by cases h⟩ rfl
    (by
      intro s i v e b hl hg
      rw [loads] at hl
      cases hl
      rw [makes] at hg
      cases hg
      exact good)
    (by
      intro s i v hl
      rw [loads] at hl
      cases hl
      exact fine)
  rw [loads] at hl
  cases hl
  obtain ⟨M, m1, m2, m3, _⟩ := hd.values rfl ConstCases.mapped
  obtain ⟨es, e1, e2⟩ := m3 ConstCases.e [] c!"E" CxxConstCases.rE {} .snakeCase .none none [(c!"V", 3), (c!"W", 4)] 5 sole_e needed_e ⟨nofun, nofun⟩
    isE rfl rfl
    (by
      intro v hv x hx
      simp only [ConstCases.e, List.mem_cons, List.not_mem_nil, or_false] at hv
      rcases hv with rfl | rfl <;> cases hx) .none
    (.set nofun rfl disc_value (.next nofun rfl .nil))
  exact ⟨_, t', o, _, hrun, hf, hr, e1, List.mem_singleton.2 rfl, hd.onlyDefinitions (no_block ⟨rfl, rfl, rfl, rfl⟩)⟩

open RunCasesC ConstCases in
open SourceCases (env R on rust) in
open EnumCases (lc c) in
/-- A case for C82: the same for C. -/
theorem C82_case_c : ∃ r t o, RunCasesC.world.run RunCases.cli ⟨fun _ => none, []⟩ = .exit r ∧ r.disk.file c!"a.hpp" = some (utf8 t) ∧
    readHeader R on t = some o ∧ (∃ d ∈ o.items, c!"E" ∈ d.defines) ∧
    ∀ d ∈ o.items, ∀ n ∈ d.defines, CSource RunCasesC.settings.parse inputs RunCasesC.settings.lib RunCasesC.settings.out.defines rust n := by
  obtain ⟨t, ht⟩ := Option.isSome_iff_exists.1 (show (headerText envC ConstCases.bindings).isSome = true by decide +kernel)
  have hrun : RunCasesC.world.run RunCases.cli ⟨fun _ => none, []⟩ =
      .exit (runOutput RunCases.cli.out false (utf8 t) (utf8 ConstCases.bindings.symfileText) ⟨fun _ => none, []⟩) :=
    run_of rfl rfl RunCasesC.loads rfl RunCasesC.makes ht
  obtain ⟨s, i, v, t', o, l, l₁, hl, hf, hr, hb, hx, hd⟩ := C80_c_partial (R := R) (on := on) (D := EnumCases.D) (rust := rust)
    ⟨hrun, rfl, rfl, fun _ _ h => by cases h⟩ rfl
    (by
      intro s i v e b hl hg
      rw [RunCasesC.loads] at hl
      cases hl
      rw [RunCasesC.makes] at hg
      cases hg
      exact RunCasesC.good)
    (by
      intro s i v hl
      rw [RunCasesC.loads] at hl
      cases hl
      exact RunCasesC.fine)
  rw [RunCasesC.loads] at hl
  cases hl
  obtain ⟨m2, m3, _⟩ := hd.values rfl ConstCases.mapped
  obtain ⟨es, e1, e2⟩ := m3 ConstCases.e [] c!"E" ConstCases.rE {} .snakeCase .none [(c!"V", 3), (c!"W", 4)] 5 ConstCases.sole_e
    ConstCases.needed_e ⟨nofun, nofun⟩ ConstCases.isE rfl rfl
    (by
      intro v hv x hx
      simp only [ConstCases.e, List.mem_cons, List.not_mem_nil, or_false] at hv
      rcases hv with rfl | rfl <;> cases hx)
    (.set nofun rfl ConstCases.disc_value (.next nofun rfl .nil))
  exact ⟨_, t', o, hrun, hf, hr, ⟨_, e1, by simp only [CItem.defines]; decide⟩, hd.onlyDefinitions (no_block ⟨rfl, rfl, rfl, rfl⟩)⟩

open RunCasesC ConstCases in
open SourceCases (env R on rust) in
open EnumCases (lc c) in
/-- A case for C80: the file that a run leaves defines the macros of the constants of the sources and no others, and its enum has
the enumerators of that of the sources and no others. -/
theorem C80_case_only : ∃ r t o, RunCasesC.world.run RunCases.cli ⟨fun _ => none, []⟩ = .exit r ∧ r.disk.file c!"a.hpp" = some (utf8 t) ∧
    readHeader R on t = some o ∧
    (∃ d ∈ o.items, ∃ es, d.enumerators = some es ∧
      EnumSource RunCasesC.settings.parse RunCasesC.settings.load inputs RunCasesC.settings.lib RunCasesC.settings.out.defines rust es) ∧
    ∀ m ∈ o.macros, (∃ g, RunCasesC.settings.out.guard = some g ∧ m = (g, [])) ∨
      MacroSource RunCasesC.settings.parse inputs RunCasesC.settings.lib RunCasesC.settings.out.caseFns
        RunCasesC.settings.out.defines rust m.1 := by
  obtain ⟨t, ht⟩ := Option.isSome_iff_exists.1 (show (headerText envC ConstCases.bindings).isSome = true by decide +kernel)
  have hrun : RunCasesC.world.run RunCases.cli ⟨fun _ => none, []⟩ =
      .exit (runOutput RunCases.cli.out false (utf8 t) (utf8 ConstCases.bindings.symfileText) ⟨fun _ => none, []⟩) :=
    run_of rfl rfl RunCasesC.loads rfl RunCasesC.makes ht
  obtain ⟨s, i, v, t', o, l, l₁, hl, hf, hr, hb, hx, hd⟩ := C80_c_partial (R := R) (on := on) (D := EnumCases.D) (rust := rust)
    ⟨hrun, rfl, rfl, fun _ _ h => by cases h⟩ rfl
    (by
      intro s i v e b hl hg
      rw [RunCasesC.loads] at hl
      cases hl
      rw [RunCasesC.makes] at hg
      cases hg
      exact RunCasesC.good)
    (by
      intro s i v hl
      rw [RunCasesC.loads] at hl
      cases hl
      exact RunCasesC.fine)
  rw [RunCasesC.loads] at hl
  cases hl
  obtain ⟨m2, m3, _⟩ := hd.values rfl ConstCases.mapped
  obtain ⟨es, e1, e2⟩ := m3 ConstCases.e [] c!"E" ConstCases.rE {} .snakeCase .none [(c!"V", 3), (c!"W", 4)] 5 ConstCases.sole_e
    ConstCases.needed_e ⟨nofun, nofun⟩ ConstCases.isE rfl rfl
    (by
      intro v hv x hx
      simp only [ConstCases.e, List.mem_cons, List.not_mem_nil, or_false] at hv
      rcases hv with rfl | rfl <;> cases hx)
    (.set nofun rfl ConstCases.disc_value (.next nofun rfl .nil))
  refine ⟨_, t', o, hrun, hf, hr, ⟨_, e1, es, rfl, hd.onlyEnumerators (no_block ⟨rfl, rfl, rfl, rfl⟩) _ e1
    (by simp only [CItem.defines]; decide) es rfl⟩, fun m hm => ?_⟩
  rcases hd.onlyMacros m hm with ⟨k, hk, tx, _, hkt, _⟩ | hm
  · have : ∀ k ∈ [RunCasesC.settings.out.header, RunCasesC.settings.out.autogenWarning, RunCasesC.settings.out.afterIncludes,
        RunCasesC.settings.out.trailer], k = none := by decide
    rw [this k hk] at hkt
    cases hkt
  · exact hm

end Cbindgen
