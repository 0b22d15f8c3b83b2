import Verif.Props.BuilderRuns
import Verif.Props.RunCases

/-! # Cases for C83 -/

namespace Cbindgen
open CSpec HeadSpec LexSpec MainSpec FileSpec
open SrcSpec hiding Reaches Given Plain Declares

namespace BuilderCases

/-- `Builder::new().with_language(C).with_include("a.h").with_define("feature", "x", "X")…` -/
def options : List ConfigCall :=
  [ .withLanguage .c, .withInclude c!"a.h", .withInclude c!"b.h", .withDefine c!"feature" c!"x" c!"X",
    .withParseExpand [c!"one"], .withParseExpandProfile .release, .withTargetOsDefine c!"linux" c!"LINUX",
    .withDefine c!"feature" c!"x" c!"Y" ]

/-- The file with the changes. -/
def file : Toml := .table
  [ (c!"language", .str c!"C"), (c!"includes", .arr [.str c!"a.h", .str c!"b.h"]),
    (c!"defines", .table [(c!"feature = x", .str c!"Y"), (c!"target_os = linux", .str c!"LINUX")]),
    (c!"parse", .table [(c!"expand", .table [(c!"crates", .arr [.str c!"one"]), (c!"profile", .str c!"release")])]) ]

theorem file_changed : options.foldl (fun t c => change c t) (.table []) = file := rfl

end BuilderCases

open BuilderCases in
/-- A case for C83: calls of all kinds, and the file they stand for. -/
theorem C83_case_options : ∃ s, (Builder.new {}).calls true (BuilderCases.options.map .option) = some { Builder.new {} with config := s } ∧
    Describes {} file s ∧ s.out.includes = [c!"a.h", c!"b.h"] ∧ s.profile = .release ∧ s.parse.expandCrates = [c!"one"] := by
  obtain ⟨s, h1, h2, h3⟩ := C83_calls {} true BuilderCases.options
  rw [file_changed] at h2 h3
  cases h1
  exact ⟨_, rfl, h2, rfl, rfl, rfl⟩

/-- A case for `C83_define`. -/
example (s : Settings) : ∃ e ∈ (ConfigCall.apply s (.withDefine c!"feature" c!"x y" c!"X")).out.defines,
    CfgSpec.KeyMeans e.1 (.kv c!"feature" c!"x y") ∧ e.2 = c!"X" :=
  C83_define s c!"X" (by decide) (by decide) (by decide) (by decide)

example (s : Settings) : ∃ e ∈ (ConfigCall.apply s (.withTargetOsDefine c!"linux" c!"L")).out.defines,
    CfgSpec.KeyMeans e.1 (.kv c!"target_os" c!"linux") ∧ e.2 = c!"L" :=
  C83_target_os s c!"L" (by decide) (by decide)

namespace BuilderCases

/-- `Builder::new().with_config(settings).with_src("lib.rs")` -/
def calls (s : Settings) : List Call := [.withConfig s, .withSrc c!"lib.rs"]
def builder (s : Settings) : Builder := { Builder.new {} with config := s, srcs := [c!"lib.rs"] }

theorem called (s : Settings) : (Builder.new {}).calls true (calls s) = some (builder s) := rfl
theorem loads : (builder RunCases.settings).load RunCases.world = .ok (RunCases.settings, ConstCases.inputs, []) := rfl
theorem loads_c : (builder RunCasesC.settings).load RunCasesC.world = .ok (RunCasesC.settings, ConstCases.inputs, []) := rfl

end BuilderCases

open BuilderCases in
/-- A case for `C83_sources`. -/
example : SourcesOfCalls RunCases.world (calls RunCases.settings) RunCases.settings ConstCases.inputs [] :=
  (C83_sources (called _) rfl loads).1

open BuilderCases in
open CxxSourceCases (R) in
open SourceCases (on rust) in
/-- A case for C83: `Builder::new().with_config(c).with_src("lib.rs").generate()` in C++ has the enum and the constants. -/
theorem C83_case : ∃ b g t o es M, (Builder.new {}).calls true (calls RunCases.settings) = some b ∧ b.generate RunCases.world = .ok g ∧
    g.write = some (utf8 t) ∧ readHeader R on t = some o ∧ Declares o.items [c!"ns"] false (.enumClass [] c!"E" none es) ∧
    (∀ m ∈ M, Standing (· ∈ o.macros) (constantIn o.items [c!"ns"]) m) ∧
    ∀ p, Usual p → (∃ ts ty, (c!"F", ts) ∈ M ∧ CValue p M ts ty 13) ∧ EnumValues p M 0 es [(c!"V", 3), (c!"W", 4)] := by
  obtain ⟨t, ht⟩ := Option.isSome_iff_exists.1 (show (headerText RunCases.envX CxxConstCases.bindings).isSome = true by decide +kernel)
  have hg : (builder RunCases.settings).generate RunCases.world = .ok (.bindings RunCases.envX CxxConstCases.bindings) := by
    exact generate_of rfl loads RunCases.makes
  have hw : (Generated.bindings RunCases.envX CxxConstCases.bindings).write = some (utf8 t) := write_of ht
  obtain ⟨s, i, v, t', o, hl, hf, hr, hd⟩ := C83_cxx_partial (R := R) (on := on) (D := CxxEnumCases.D) (rust := rust) rfl hg hw rfl
    (by
      intro s i v e b hl hg
      rw [loads] at hl
      cases hl
      rw [RunCases.makes] at hg
      cases hg
      exact RunCases.good)
    (by
      intro s i v hl
      rw [loads] at hl
      cases hl
      exact RunCases.fine)
  rw [loads] at hl
  cases hl
  obtain ⟨M, m1, m2, m3, _⟩ := hd.values rfl ConstCases.mapped
  obtain ⟨es, e1, e2⟩ := m3 ConstCases.e [] c!"E" CxxConstCases.rE {} .snakeCase .none none [(c!"V", 3), (c!"W", 4)] 5 CxxConstCases.sole_e
    CxxConstCases.needed_e ⟨nofun, nofun⟩ CxxConstCases.isE rfl rfl
    (by
      intro v hv x hx
      simp only [ConstCases.e, List.mem_cons, List.not_mem_nil, or_false] at hv
      rcases hv with rfl | rfl <;> cases hx) .none
    (.set nofun rfl CxxConstCases.disc_value (.next nofun rfl .nil))
  exact ⟨_, _, t', o, es, M, called _, hg, by rw [hw, hf], hr, e1, m1, fun p hp => ⟨m2 p hp _ _ _ CxxConstCases.value_fl, e2 p hp⟩⟩

open BuilderCases ConstCases in
open SourceCases (R on rust) in
/-- A case for C83: the same in C. -/
theorem C83_case_c : ∃ b g t o es, (Builder.new {}).calls true (calls RunCasesC.settings) = some b ∧ b.generate RunCasesC.world = .ok g ∧
    g.write = some (utf8 t) ∧ readHeader R on t = some o ∧ .enumeration [] (some c!"E") none (some c!"E") es ∈ o.items ∧
    ∀ p, Usual p → (∃ ts ty, (c!"F", ts) ∈ o.macros ∧ CValue p o.macros ts ty 13) ∧ EnumValues p o.macros 0 es [(c!"V", 3), (c!"W", 4)] := by
  obtain ⟨t, ht⟩ := Option.isSome_iff_exists.1 (show (headerText RunCasesC.envC ConstCases.bindings).isSome = true by decide +kernel)
  have hg : (builder RunCasesC.settings).generate RunCasesC.world = .ok (.bindings RunCasesC.envC ConstCases.bindings) := by
    exact generate_of rfl BuilderCases.loads_c RunCasesC.makes
  have hw : (Generated.bindings RunCasesC.envC ConstCases.bindings).write = some (utf8 t) := write_of ht
  obtain ⟨s, i, v, t', o, l, l₁, hl, hf, hr, hb, hx, hd⟩ := C83_c_partial (R := R) (on := on) (D := EnumCases.D) (rust := rust) rfl hg hw rfl
    (by
      intro s i v e b hl hg
      rw [BuilderCases.loads_c] at hl
      cases hl
      rw [RunCasesC.makes] at hg
      cases hg
      exact RunCasesC.good)
    (by
      intro s i v hl
      rw [BuilderCases.loads_c] at hl
      cases hl
      exact RunCasesC.fine)
  rw [BuilderCases.loads_c] at hl
  cases hl
  obtain ⟨m2, m3, _⟩ := hd.values rfl ConstCases.mapped
  obtain ⟨es, e1, e2⟩ := m3 ConstCases.e [] c!"E" ConstCases.rE {} .snakeCase .none [(c!"V", 3), (c!"W", 4)] 5 ConstCases.sole_e
    ConstCases.needed_e ⟨nofun, nofun⟩ ConstCases.isE rfl rfl
    (by
      intro v hv x hx
      simp only [ConstCases.e, List.mem_cons, List.not_mem_nil, or_false] at hv
      rcases hv with rfl | rfl <;> cases hx)
    (.set nofun rfl ConstCases.disc_value (.next nofun rfl .nil))
  exact ⟨_, _, t', o, es, BuilderCases.called _, hg, by rw [hw, hf], hr, e1, fun p hp => ⟨m2 p hp _ _ _ ConstCases.value_fl, e2 p hp⟩⟩

/-- A case for `C83_program`: the program on the file and the builder agree. -/
theorem C83_case_program : ∃ r, WritesTo RunCases.world RunCases.cli ⟨fun _ => none, []⟩ r ∧ ∃ s₁ cs b g t,
    ProgramCalls RunCases.world RunCases.cli s₁ cs ∧ (Builder.new {}).calls true cs = some b ∧ b.generate RunCases.world = .ok g ∧
      g.write = some t ∧ r.disk.file c!"a.hpp" = some t := by
  obtain ⟨t, ht⟩ := Option.isSome_iff_exists.1 (show (headerText RunCases.envX CxxConstCases.bindings).isSome = true by decide +kernel)
  have hrun : RunCases.world.run RunCases.cli ⟨fun _ => none, []⟩ =
      .exit (runOutput RunCases.cli.out false (utf8 t) (utf8 CxxConstCases.bindings.symfileText) ⟨fun _ => none, []⟩) :=
    run_of rfl rfl RunCases.loads rfl RunCases.makes ht
  have hw : WritesTo RunCases.world RunCases.cli ⟨fun _ => none, []⟩
      (runOutput RunCases.cli.out false (utf8 t) (utf8 CxxConstCases.bindings.symfileText) ⟨fun _ => none, []⟩) :=
    ⟨hrun, rfl, rfl, fun _ _ h => by cases h⟩
  obtain ⟨s₀, s₁, cs, b, g, t', _, _, h3, h4, h5, h6, h7⟩ := C83_program ((C69_valid _).1 (by decide)) hw {} true
  exact ⟨_, hw, s₁, cs, b, g, t', h3, h4, h5, h6, h7⟩

end Cbindgen
