import Verif.Lemmas.ConfigSections
import Verif.Props.Main

/-!
# C81: a configuration file means what it says
-/

namespace Cbindgen
open FileSpec MainSpec

theorem flat_top : Flat topSettings topKeys := rfl

theorem paths_of_flat {σ : Type} {xs : List (Setting σ)} {ks : List Str} (h : Flat xs ks) : ∀ x ∈ xs, x.path ≠ [] := by
  intro x hx e
  obtain ⟨k, _, e'⟩ := h.of_mem hx
  rw [e] at e'
  cases e'

theorem loadEntries_iff {x : Outside} {es : List (Str × Toml)} (hw : WellFormed (.table es)) {s : Settings} :
    loadEntries x es = some s ↔ Reading options (.table es) s ∧ FromOutside x s := by
  rw [options, reading_group (top := topSettings) (ks := topKeys) flat_top (by decide +kernel)
    (by
      simp only [List.forall_mem_cons, List.not_mem_nil, false_implies, implies_true, and_true]
      refine ⟨?_, ?_, ?_, ?_, ?_, ?_, ?_, ?_, ?_, ?_⟩
      · exact ⟨nofun, paths_of_flat (ks := [c!"parse_deps", c!"include", c!"exclude", c!"expand", c!"clean", c!"extra_bindings"]) rfl⟩
      · refine ⟨nofun, ?_⟩
        intro y hy
        rcases mem_group.1 hy with hy | ⟨c, _, z, _, rfl⟩
        · exact paths_of_flat (xs := exportTop) (ks := [c!"include", c!"exclude", c!"rename", c!"pre_body", c!"body", c!"prefix",
            c!"item_types", c!"renaming_overrides_prefixing"]) rfl y hy
        · exact nofun
      all_goals
        refine ⟨nofun, ?_⟩
        simp [macroSettings, layoutSettings, fnSettings, structSettings, enumSettings, constSettings, ptrSettings, cythonSettings, key])
    (by simp [topSettings]) hw]
  rw [show (∀ e ∈ es, e.1 ∈ topKeys ++ List.map (·.1)
      [ (c!"parse", parseSettings), (c!"export", exportSettings), (c!"macro_expansion", macroSettings), (c!"layout", layoutSettings),
        (c!"fn", fnSettings), (c!"struct", structSettings), (c!"enum", enumSettings), (c!"const", constSettings),
        (c!"ptr", ptrSettings), (c!"cython", cythonSettings) ]) ↔ knownKeys (topKeys ++ sectionKeys) es = some () from
      knownKeys_iff.symm]
  simp only [loadEntries, bind, Option.bind_eq_some_iff, List.forall_mem_cons, List.not_mem_nil, false_implies, implies_true, and_true]
  constructor
  · rintro ⟨_, hk, top, ht, pa, ⟨e1, s1, l1⟩, ex, ⟨e2, s2, l2⟩, bf, ⟨e3, s3, l3⟩, la, ⟨e4, s4, l4⟩, fn, ⟨e5, s5, l5⟩, st, ⟨e6, s6, l6⟩,
      en, ⟨e7, s7, l7⟩, co, ⟨e8, s8, l8⟩, pt, ⟨e9, s9, l9⟩, cy, ⟨e10, s10, l10⟩, he⟩
    cases he
    exact ⟨⟨hk, (loadTop_iff hw).1 ht, ⟨e1, s1, (loadParse_iff (wf_section hw s1)).1 l1⟩,
      ⟨e2, s2, (loadExport_iff (wf_section hw s2)).1 l2⟩, ⟨e3, s3, (loadMacroExpansion_iff (wf_section hw s3)).1 l3⟩,
      ⟨e4, s4, (loadLayout_iff (wf_section hw s4)).1 l4⟩, ⟨e5, s5, (loadFunction_iff (wf_section hw s5)).1 l5⟩,
      ⟨e6, s6, (loadStruct_iff (wf_section hw s6)).1 l6⟩, ⟨e7, s7, (loadEnum_iff (wf_section hw s7)).1 l7⟩,
      ⟨e8, s8, (loadConstConfig_iff (wf_section hw s8)).1 l8⟩, ⟨e9, s9, (loadPtr_iff (wf_section hw s9)).1 l9⟩,
      ⟨e10, s10, (loadCython_iff (wf_section hw s10)).1 l10⟩⟩, rfl, rfl, rfl, rfl, rfl⟩
  · rintro ⟨⟨hk, ht, ⟨e1, s1, l1⟩, ⟨e2, s2, l2⟩, ⟨e3, s3, l3⟩, ⟨e4, s4, l4⟩, ⟨e5, s5, l5⟩, ⟨e6, s6, l6⟩, ⟨e7, s7, l7⟩, ⟨e8, s8, l8⟩,
      ⟨e9, s9, l9⟩, ⟨e10, s10, l10⟩⟩, o1, o2, o3, o4, o5⟩
    refine ⟨(), hk, _, (loadTop_iff hw).2 ht, _, ⟨e1, s1, (loadParse_iff (wf_section hw s1)).2 l1⟩,
      _, ⟨e2, s2, (loadExport_iff (wf_section hw s2)).2 l2⟩, _, ⟨e3, s3, (loadMacroExpansion_iff (wf_section hw s3)).2 l3⟩,
      _, ⟨e4, s4, (loadLayout_iff (wf_section hw s4)).2 l4⟩, _, ⟨e5, s5, (loadFunction_iff (wf_section hw s5)).2 l5⟩,
      _, ⟨e6, s6, (loadStruct_iff (wf_section hw s6)).2 l6⟩, _, ⟨e7, s7, (loadEnum_iff (wf_section hw s7)).2 l7⟩,
      _, ⟨e8, s8, (loadConstConfig_iff (wf_section hw s8)).2 l8⟩, _, ⟨e9, s9, (loadPtr_iff (wf_section hw s9)).2 l9⟩,
      _, ⟨e10, s10, (loadCython_iff (wf_section hw s10)).2 l10⟩, ?_⟩
    rw [Outside.settings, ← o1, ← o2, ← o3, ← o4, ← o5]
    rfl

/-- **C81.** A file is accepted exactly if all that is in it are options with values for them, and then each option has the value
of the file, or its default if the file does not have it. -/
theorem C81_file_partial {x : Outside} {t : Toml} {s : Settings} (hw : WellFormed t) : loadConfig x t = some s ↔ Describes x t s := by
  cases t with
  | table es => exact loadEntries_iff hw
  | _ =>
    simp only [loadConfig, Describes, reduceCtorEq, false_iff]
    rintro ⟨⟨h, _⟩, _⟩
    rcases h [] _ .here with ⟨y, hy, hp⟩ | ⟨_, es, h⟩
    · rw [List.prefix_nil] at hp
      have : ∀ y ∈ options, y.path ≠ [] := by
        intro y hy
        rcases mem_group.1 hy with hy | ⟨c, _, z, _, rfl⟩
        · exact paths_of_flat flat_top y hy
        · exact nofun
      exact this y hy hp
    · cases h

theorem sets_empty {α : Type} {k : Str} {p : List Str} {m : Toml → α → Prop} {dflt a : α} :
    Sets (.table []) (k :: p) m dflt a ↔ a = dflt := by
  have h : ∀ v, ¬ At (.table []) (k :: p) v := by
    rintro v (_ | ⟨h, _⟩)
    cases h
  constructor
  · rintro (⟨v, hv, _⟩ | ⟨_, e⟩)
    · exact absurd hv (h v)
    · exact e
  · exact fun e => .inr ⟨h, e⟩

theorem options_path : ∀ y ∈ options, y.path ≠ [] := by
  intro y hy
  rcases mem_group.1 hy with hy | ⟨c, _, z, _, rfl⟩
  · exact paths_of_flat flat_top y hy
  · exact nofun

/-- An empty file is as no file. -/
theorem describes_empty {x : Outside} {s : Settings} : Describes x (.table []) s ↔ Default x s := by
  unfold Describes Reading Default
  have hk : Known options (.table []) := known_empty nofun
  have : (∀ o ∈ options, o.Reads (.table []) s) ↔ ∀ o ∈ options, o.get s = o.dflt := by
    refine forall_congr' fun o => forall_congr' fun ho => ?_
    have hp := options_path o ho
    unfold Setting.Reads
    revert hp
    generalize o.path = p
    intro hp
    cases p with
    | nil => exact absurd rfl hp
    | cons k p => exact sets_empty
  rw [this]
  exact ⟨fun h => ⟨h.1.2, h.2⟩, fun h => ⟨⟨hk, h.1⟩, h.2⟩⟩

/-- **C81.** Without a file, all options have their defaults, and nothing else is a configuration with all options at their defaults. -/
theorem C81_default {x : Outside} {s : Settings} : s = defaultConfig x ↔ Default x s := by
  rw [← describes_empty, ← C81_file_partial wf_empty]
  have : loadConfig x (.table []) = some (defaultConfig x) := rfl
  rw [this, Option.some.injEq, eq_comm]

/-- The options and what comes from outside are the whole configuration: a file has one meaning. -/
theorem C81_unique {x : Outside} {t : Toml} {s s' : Settings} (hw : WellFormed t) (h : Describes x t s) (h' : Describes x t s') : s = s' := by
  have h1 := (C81_file_partial hw).2 h
  rw [(C81_file_partial hw).2 h'] at h1
  exact (Option.some.inj h1).symm

theorem configured_of {f : ConfigFiles} {x : Outside} {w : World} {a : Cli} {s : Settings} (hd : OnDisk f x w)
    (hw : ∀ p t, f.parsed p = some t → WellFormed t) (h : ConfigOf w a s) : ConfiguredBy f x w a s := by
  obtain ⟨h1, h2⟩ := hd
  rcases h with ⟨p, hc, hp⟩ | ⟨hc, dir, hdir, hp⟩
  · rw [h1, ConfigFiles.fromFile, Option.bind_eq_some_iff] at hp
    obtain ⟨t, ht, hl⟩ := hp
    exact .inl ⟨p, t, .given hc, ht, (C81_file_partial (hw p t ht)).1 hl⟩
  · rw [h2, ConfigFiles.fromRoot] at hp
    split at hp
    next he =>
      rw [ConfigFiles.fromFile, Option.bind_eq_some_iff] at hp
      obtain ⟨t, ht, hl⟩ := hp
      exact .inl ⟨_, t, .root hc hdir he, ht, (C81_file_partial (hw _ t ht)).1 hl⟩
    next he =>
      cases hp
      exact .inr ⟨.none hc hdir (by simpa using he), C81_default.1 rfl⟩

/-- **C81.** The options of a run are those of the command line; else those that the configuration file says, which is the one of
the command line or `cbindgen.toml` next to the file or the manifest; else the defaults. -/
theorem C81_run_partial {f : ConfigFiles} {x : Outside} {w : World} {a : Cli} {s : Settings} {i : Inputs} {v : Str} (hd : OnDisk f x w)
    (hw : ∀ p t, f.parsed p = some t → WellFormed t) (hv : Valid a) (h : w.load a = .ok (s, i, v)) :
    ∃ s₀ s₁, ConfiguredBy f x w a s₀ ∧ Effective a s₀ s₁ ∧
      s = { s₁ with parse := { s₁.parse with bindingCrate := s.parse.bindingCrate } } := by
  obtain ⟨s₀, s₁, h1, h2, h3⟩ := C69_config hv h
  exact ⟨s₀, s₁, configured_of hd hw h1, h2, h3⟩

theorem configDir_unique {w : World} {a : Cli} {input d d' : Str} (h : ConfigDir w a input d) (h' : ConfigDir w a input d') : d = d' := by
  cases h with
  | file i1 p1 =>
    cases h' with
    | file i2 p2 =>
      rw [p1] at p2
      exact Option.some.inj p2
    | crate i2 => rw [i1] at i2; cases i2
    | unknown i2 => rw [i1] at i2; cases i2
  | crate i1 c1 r1 g1 p1 =>
    cases h' with
    | file i2 => rw [i1] at i2; cases i2
    | crate i2 c2 r2 g2 p2 =>
      rw [c1] at c2
      cases c2
      rw [r1] at r2
      cases r2
      rw [g1] at g2
      cases g2
      rw [p1] at p2
      exact Option.some.inj p2
    | unknown i2 c2 r2 g2 =>
      rw [c1] at c2
      cases c2
      rw [r1] at r2
      cases r2
      have := g2 _ g1
      rw [p1] at this
      cases this
  | unknown i1 c1 r1 g1 =>
    cases h' with
    | file i2 => rw [i1] at i2; cases i2
    | crate i2 c2 r2 g2 p2 =>
      rw [c1] at c2
      cases c2
      rw [r1] at r2
      cases r2
      have := g1 _ g2
      rw [p2] at this
      cases this
    | unknown => rfl

theorem configPath_unique {f : ConfigFiles} {w : World} {a : Cli} {p p' : Option Str} (h : ConfigPath f w a p) (h' : ConfigPath f w a p') :
    p = p' := by
  cases h with
  | given h =>
    cases h' with
    | given h' => rw [← h, ← h']
    | root h' => rw [h] at h'; cases h'
    | none h' => rw [h] at h'; cases h'
  | root h d e =>
    cases h' with
    | given h' => rw [h] at h'; cases h'
    | root h' d' e' => rw [configDir_unique d d']
    | none h' d' e' =>
      rw [configDir_unique d d', e'] at e
      cases e
  | none h d e =>
    cases h' with
    | given h' => rw [h] at h'; cases h'
    | root h' d' e' =>
      rw [configDir_unique d d', e'] at e
      cases e
    | none => rfl

/-- **C81.** A run whose configuration file cannot be read, or is not a configuration, writes nothing and does not succeed. -/
theorem C81_invalid {f : ConfigFiles} {x : Outside} {w : World} {a : Cli} {p : Str} (hd : OnDisk f x w)
    (hw : ∀ p t, f.parsed p = some t → WellFormed t) (hp : ConfigPath f w a (some p))
    (hbad : ∀ t s, f.parsed p = some t → ¬ Describes x t s) (d : Disk) :
    w.run a d = .panic ∨ ∃ r, w.run a d = .exit r ∧ r.exit ≠ 0 ∧ r.disk = d ∧ r.stdout = [] := by
  unfold World.run
  by_cases hv : a.accepted = true
  · rw [hv]
    simp only [Bool.not_true, Bool.false_eq_true, if_false]
    split
    · exact .inr ⟨_, rfl, nofun, rfl, rfl⟩
    · cases hl : w.load a with
      | error e =>
        cases e with
        | panic => exact .inl rfl
        | error => exact .inr ⟨_, rfl, nofun, rfl, rfl⟩
      | ok r =>
        obtain ⟨s, i, v⟩ := r
        obtain ⟨s₀, s₁, h1, _, _⟩ := C81_run_partial hd hw ((C69_valid a).1 hv) hl
        rcases h1 with ⟨p', t, hp', ht, hs⟩ | ⟨hp', _⟩
        · cases configPath_unique hp hp'
          exact absurd hs (hbad t s₀ ht)
        · cases configPath_unique hp hp'
  · rw [Bool.not_eq_true] at hv
    rw [hv]
    exact .inr ⟨_, rfl, nofun, rfl, rfl⟩

/-! ## Cases -/

namespace ConfigCases

theorem wf_table {es : List (Str × Toml)} (h : (es.map (·.1)).Nodup) (h' : ∀ e ∈ es, WellFormed e.2) : WellFormed (.table es) := by
  intro p es' ha
  cases ha with
  | here => exact h
  | there hm ha => exact h' _ hm _ _ ha

theorem wf_str (s : Str) : WellFormed (.str s) := by
  rintro p es ⟨⟩

theorem wf_bool (b : Bool) : WellFormed (.bool b) := by
  rintro p es ⟨⟩

theorem wf_int (n : Int) : WellFormed (.int n) := by
  rintro p es ⟨⟩

theorem wf_arr (xs : List Toml) : WellFormed (.arr xs) := by
  rintro p es ⟨⟩

/-- A file with options of several sections. -/
def file : Toml := .table
  [ (c!"language", .str c!"C"),
    (c!"tab_width", .int 4),
    (c!"includes", .arr [.str c!"a.h", .str c!"b.h"]),
    (c!"documentation_style", .str c!"C99"),
    (c!"parse", .table [(c!"expand", .arr [.str c!"foo"])]),
    (c!"export", .table
      [ (c!"prefix", .str c!"x_"),
        (c!"rename", .table [(c!"A", .str c!"B")]),
        (c!"mangle", .table [(c!"remove_underscores", .bool true)]) ]),
    (c!"enum", .table [(c!"rename_variants", .str c!"prefix:E_"), (c!"enum_class", .bool false)]),
    (c!"cython", .table [(c!"cimports", .table [(c!"m", .arr [.str c!"f"]), (c!"l", .arr [])])]) ]

/-- The configuration of the file. -/
def settings : Settings where
  out :=
    { language := .c, tabWidth := 4, includes := [c!"a.h", c!"b.h"], documentationStyle := .c99,
      export_ := { pre := some c!"x_", rename := [(c!"A", c!"B")], mangle := { removeUnderscores := true } },
      enumeration := { enumClass := false }, cythonCimports := [(c!"l", []), (c!"m", [c!"f"])] }
  parse := { bindingCrate := [], expandCrates := [c!"foo"] }
  renameVariants := .prefixWith c!"E_"
  allFeatures := true

theorem file_wf : WellFormed file := by
  unfold file
  refine wf_table (by decide) ?_
  simp only [List.forall_mem_cons, List.not_mem_nil, false_implies, implies_true, and_true]
  refine ⟨wf_str _, wf_int _, wf_arr _, wf_str _, wf_table (by decide) ?_, wf_table (by decide) ?_, wf_table (by decide) ?_,
    wf_table (by decide) ?_⟩ <;>
    simp only [List.forall_mem_cons, List.not_mem_nil, false_implies, implies_true, and_true]
  · exact wf_arr _
  · refine ⟨wf_str _, wf_table (by decide) ?_, wf_table (by decide) ?_⟩ <;>
      simp only [List.forall_mem_cons, List.not_mem_nil, false_implies, implies_true, and_true]
    · exact wf_str _
    · exact wf_bool _
  · exact ⟨wf_str _, wf_bool _⟩
  · refine wf_table (by decide) ?_
    simp only [List.forall_mem_cons, List.not_mem_nil, false_implies, implies_true, and_true]
    exact ⟨wf_arr _, wf_arr _⟩

/-- A case for C81: the file is this configuration, and no other. -/
theorem C81_case : Describes {} file settings ∧ ∀ s, Describes {} file s → s = settings := by
  have h : Describes {} file settings := (C81_file_partial file_wf).1 rfl
  exact ⟨h, fun s hs => C81_unique file_wf hs h⟩

/-- A word that is not one of the options, and a value that is not one of its option. -/
theorem C81_case_unknown : (∀ s, ¬ Describes {} (.table [(c!"fn", .table [(c!"prefx", .str [])])]) s) ∧
    ∀ s, ¬ Describes {} (.table [(c!"fn", .table [(c!"sort_by", .bool true)])]) s := by
  constructor
  · intro s hs
    have := (C81_file_partial (wf_table (by decide) (by
      simp only [List.forall_mem_cons, List.not_mem_nil, false_implies, implies_true, and_true]
      exact wf_table (by decide) (by simpa using wf_str _)))).2 hs
    cases this
  · intro s hs
    have := (C81_file_partial (wf_table (by decide) (by
      simp only [List.forall_mem_cons, List.not_mem_nil, false_implies, implies_true, and_true]
      exact wf_table (by decide) (by simpa using wf_bool _)))).2 hs
    cases this

/-- A disk with a configuration next to the source, and with one that has a mistake. -/
def files : ConfigFiles where
  fileExists p := p == c!"src/cbindgen.toml"
  parsed p := if p = c!"src/cbindgen.toml" then some file else if p = c!"bad.toml" then some (.table [(c!"languge", .str c!"C")]) else none
  inDir d := d ++ c!"/cbindgen.toml"

theorem files_wf : ∀ p t, files.parsed p = some t → WellFormed t := by
  intro p t h
  unfold files at h
  simp only at h
  split at h
  · cases h
    exact file_wf
  · split at h
    · cases h
      exact wf_table (by decide) (by simpa using wf_str _)
    · cases h

/-- A source in `src`. -/
def world : World where
  cwd := []
  isDir _ := false
  parent _ := some c!"src"
  stem _ := some c!"lib"
  configFile := files.fromFile {}
  rootConfig := files.fromRoot {}
  source _ := some []
  library _ := .missing
  cargo _ := none
  nested := false
  order := id
  crates := 1
  fuel := 1

/-- A case for C81: `cbindgen -l c++ src/lib.rs` makes C++ as the command line says, with the prefix of the file. -/
theorem C81_case_run : ∃ s i v, world.load { input := some c!"src/lib.rs", lang := some c!"c++" } = .ok (s, i, v) ∧
    s.out.language = .cxx ∧ s.out.export_.pre = some c!"x_" ∧ s.out.lineLength = 100 := by
  refine ⟨_, _, _, rfl, rfl, rfl, rfl⟩

example : ∃ s₀ s₁, ConfiguredBy files {} world { input := some c!"src/lib.rs", lang := some c!"c++" } s₀ ∧
    Effective { input := some c!"src/lib.rs", lang := some c!"c++" } s₀ s₁ := by
  obtain ⟨s, i, v, h, _⟩ := C81_case_run
  obtain ⟨s₀, s₁, h1, h2, _⟩ := C81_run_partial ⟨rfl, rfl⟩ files_wf ((C69_valid _).1 (by decide)) h
  exact ⟨s₀, s₁, h1, h2⟩

/-- A case for C81: the run with the mistake. -/
example (d : Disk) : world.run { input := some c!"src/lib.rs", config := some c!"bad.toml" } d = .panic ∨
    ∃ r, world.run { input := some c!"src/lib.rs", config := some c!"bad.toml" } d = .exit r ∧ r.exit ≠ 0 ∧ r.disk = d ∧ r.stdout = [] := by
  refine C81_invalid (p := c!"bad.toml") ⟨rfl, rfl⟩ files_wf (.given rfl) ?_ d
  intro t s ht hs
  have h := (C81_file_partial (files_wf _ _ ht)).2 hs
  have e : files.parsed c!"bad.toml" = some (.table [(c!"languge", .str c!"C")]) := rfl
  rw [e] at ht
  cases ht
  cases h

end ConfigCases

end Cbindgen
