import Verif.Lemmas.ConfigFile

/-! # The sections of a configuration file -/

namespace Cbindgen
open FileSpec

theorem language_words : SameWords languageTable languageWords := by decide +kernel
theorem style_words : SameWords styleTable styleWords := by decide +kernel
theorem profile_words : SameWords profileTable profileWords := by decide +kernel
theorem braces_words : SameWords bracesTable bracesWords := by decide +kernel
theorem layout_words : SameWords layoutTable layoutWords := by decide +kernel
theorem lineEnding_words : SameWords lineEndingTable lineEndingWords := by decide +kernel
theorem docStyle_words : SameWords docStyleTable docStyleWords := by decide +kernel
theorem docLength_words : SameWords docLengthTable docLengthWords := by decide +kernel
theorem itemType_words : SameWords itemTypeTable itemTypeWords := by decide +kernel
theorem sortKey_words : SameWords sortKeyTable sortWords := by decide +kernel

/-- The decoders of the fields. -/
macro "decode" : tactic => `(tactic| first
  | exact dec_str.w | exact dec_bool.w | exact dec_usize.w | exact dec_rule.w
  | exact (dec_opt dec_str).w | exact (dec_list dec_str).w | exact (dec_opt (dec_list dec_str)).w | exact (dec_map dec_str).w
  | exact (dec_word language_words).w | exact (dec_word style_words).w | exact (dec_word profile_words).w
  | exact (dec_word braces_words).w | exact (dec_word layout_words).w | exact (dec_lower lineEnding_words).w
  | exact (dec_lower docStyle_words).w | exact (dec_lower docLength_words).w | exact (dec_list (dec_lower itemType_words)).w
  | exact (dec_lower sortKey_words).w | exact (dec_opt (dec_lower sortKey_words)).w | exact dec_sorted (dec_list dec_str)
  | assumption)

theorem loadExpand_iff {es : List (Str × Toml)} (hw : WellFormed (.table es)) {s : ExpandPart} :
    loadExpand es = some s ↔ Reading expandSettings (.table es) s := by
  rw [reading_flat (xs := expandSettings) (ks := [c!"crates", c!"all_features", c!"default_features", c!"features", c!"profile"])
      (u := ()) rfl
    (by decide +kernel) (by simp [expandSettings]) hw]
  simp only [loadExpand, expandSettings, List.forall_mem_cons, List.not_mem_nil, false_implies, implies_true, and_true,
      Setting.Reads, key, bind, Option.bind_eq_some_iff]
  constructor
  · rintro ⟨_, hk, _, h0, _, h1, _, h2, _, h3, _, h4, he⟩
    cases he
    exact ⟨hk, (field_iff hw (by decode)).1 h0, (field_iff hw (by decode)).1 h1, (field_iff hw (by decode)).1 h2, (field_iff hw
        (by decode)).1 h3, (field_iff hw (by decode)).1 h4⟩
  · rintro ⟨hk, h0, h1, h2, h3, h4⟩
    exact ⟨(), hk, _, (field_iff hw (by decode)).2 h0, _, (field_iff hw (by decode)).2 h1, _, (field_iff hw (by decode)).2 h2, _,
        (field_iff hw (by decode)).2 h3, _, (field_iff hw (by decode)).2 h4, rfl⟩

theorem dec_expand : DecW decExpand Expansion := by
  intro v e hw
  cases v with
  | arr xs =>
    simp only [decExpand, Expansion, Option.map_eq_some_iff]
    constructor
    · rintro ⟨names, h, rfl⟩
      exact .inl ⟨names, ⟨xs, rfl, (dec_each dec_str _ _).1 h⟩, rfl⟩
    · rintro (⟨names, ⟨_, ⟨⟩, h⟩, rfl⟩ | h)
      · exact ⟨names, (dec_each dec_str _ _).2 h, rfl⟩
      · rcases h.1 [] _ .here with ⟨x, hx, hp⟩ | ⟨_, es, h⟩
        · rw [List.prefix_nil] at hp
          simp only [expandSettings, List.mem_cons, List.not_mem_nil, or_false] at hx
          rcases hx with rfl | rfl | rfl | rfl | rfl <;> cases hp
        · cases h
  | table es =>
    simp only [decExpand, Expansion]
    rw [loadExpand_iff hw]
    constructor
    · exact .inr
    · rintro (⟨_, ⟨_, h, _⟩, _⟩ | h)
      · cases h
      · exact h
  | _ =>
    simp only [decExpand, Expansion, reduceCtorEq, false_iff]
    rintro (⟨_, ⟨_, h, _⟩, _⟩ | h)
    · cases h
    · rcases h.1 [] _ .here with ⟨x, hx, hp⟩ | ⟨_, es, h⟩
      · rw [List.prefix_nil] at hp
        simp only [expandSettings, List.mem_cons, List.not_mem_nil, or_false] at hx
        rcases hx with rfl | rfl | rfl | rfl | rfl <;> cases hp
      · cases h

theorem loadParse_iff {es : List (Str × Toml)} (hw : WellFormed (.table es)) {s : Settings} :
    loadParse es = some ⟨s.parse.parseDeps, s.parse.incl, s.parse.exclude, expansion s, s.clean, s.parse.extraBindings⟩ ↔ Reading
        parseSettings (.table es) s := by
  rw [reading_flat (xs := parseSettings) (ks := [c!"parse_deps", c!"include", c!"exclude", c!"expand", c!"clean",
      c!"extra_bindings"]) (u := ()) rfl
    (by decide +kernel) (by simp [parseSettings]) hw]
  simp only [loadParse, parseSettings, List.forall_mem_cons, List.not_mem_nil, false_implies, implies_true, and_true,
      Setting.Reads, key, bind, Option.bind_eq_some_iff]
  generalize s.parse.parseDeps = a1
  generalize s.parse.incl = a2
  generalize s.parse.exclude = a3
  generalize expansion s = a4
  generalize s.clean = a5
  generalize s.parse.extraBindings = a6
  have hx := dec_expand
  constructor
  · rintro ⟨_, hk, _, h0, _, h1, _, h2, _, h3, _, h4, _, h5, he⟩
    cases he
    exact ⟨hk, (field_iff hw (by decode)).1 h0, (field_iff hw (by decode)).1 h1, (field_iff hw (by decode)).1 h2, (field_iff hw
        (by decode)).1 h3, (field_iff hw (by decode)).1 h4, (field_iff hw (by decode)).1 h5⟩
  · rintro ⟨hk, h0, h1, h2, h3, h4, h5⟩
    exact ⟨(), hk, _, (field_iff hw (by decode)).2 h0, _, (field_iff hw (by decode)).2 h1, _, (field_iff hw (by decode)).2 h2, _,
        (field_iff hw (by decode)).2 h3, _, (field_iff hw (by decode)).2 h4, _, (field_iff hw (by decode)).2 h5, rfl⟩

theorem loadMangle_iff {es : List (Str × Toml)} (hw : WellFormed (.table es)) {s : Settings} :
    loadMangle es = some s.out.export_.mangle ↔ Reading mangleSettings (.table es) s := by
  rw [reading_flat (xs := mangleSettings) (ks := [c!"rename_types", c!"remove_underscores"]) (u := ()) rfl
    (by decide +kernel) (by simp [mangleSettings]) hw]
  simp only [loadMangle, mangleSettings, List.forall_mem_cons, List.not_mem_nil, false_implies, implies_true, and_true,
      Setting.Reads, key, bind, Option.bind_eq_some_iff]
  generalize s.out.export_.mangle = f
  constructor
  · rintro ⟨_, hk, _, h0, _, h1, he⟩
    cases he
    exact ⟨hk, (field_iff hw (by decode)).1 h0, (field_iff hw (by decode)).1 h1⟩
  · rintro ⟨hk, h0, h1⟩
    exact ⟨(), hk, _, (field_iff hw (by decode)).2 h0, _, (field_iff hw (by decode)).2 h1, rfl⟩

theorem loadMacroExpansion_iff {es : List (Str × Toml)} (hw : WellFormed (.table es)) {s : Settings} :
    loadMacroExpansion es = some s.parse.expandBitflags ↔ Reading macroSettings (.table es) s := by
  rw [reading_flat (xs := macroSettings) (ks := [c!"bitflags"]) (u := ()) rfl
    (by decide +kernel) (by simp [macroSettings]) hw]
  simp only [loadMacroExpansion, macroSettings, List.forall_mem_cons, List.not_mem_nil, false_implies, implies_true, and_true,
      Setting.Reads, key, bind, Option.bind_eq_some_iff]
  generalize s.parse.expandBitflags = f
  constructor
  · rintro ⟨_, hk, _, h0, he⟩
    cases he
    exact ⟨hk, (field_iff hw (by decode)).1 h0⟩
  · rintro ⟨hk, h0⟩
    exact ⟨(), hk, _, (field_iff hw (by decode)).2 h0, rfl⟩

theorem loadLayout_iff {es : List (Str × Toml)} (hw : WellFormed (.table es)) {s : Settings} :
    loadLayout es = some s.out.layout ↔ Reading layoutSettings (.table es) s := by
  rw [reading_flat (xs := layoutSettings) (ks := [c!"packed", c!"aligned_n"]) (u := ()) rfl
    (by decide +kernel) (by simp [layoutSettings]) hw]
  simp only [loadLayout, layoutSettings, List.forall_mem_cons, List.not_mem_nil, false_implies, implies_true, and_true,
      Setting.Reads, key, bind, Option.bind_eq_some_iff]
  generalize s.out.layout = f
  constructor
  · rintro ⟨_, hk, _, h0, _, h1, he⟩
    cases he
    exact ⟨hk, (field_iff hw (by decode)).1 h0, (field_iff hw (by decode)).1 h1⟩
  · rintro ⟨hk, h0, h1⟩
    exact ⟨(), hk, _, (field_iff hw (by decode)).2 h0, _, (field_iff hw (by decode)).2 h1, rfl⟩

theorem loadFunction_iff {es : List (Str × Toml)} (hw : WellFormed (.table es)) {s : Settings} :
    loadFunction es = some ⟨s.out.function, s.functionSortBy, s.out.noReturn⟩ ↔ Reading fnSettings (.table es) s := by
  rw [reading_flat (xs := fnSettings) (ks := [c!"prefix", c!"postfix", c!"must_use", c!"deprecated", c!"deprecated_with_note",
      c!"args", c!"rename_args", c!"swift_name_macro", c!"sort_by", c!"no_return"]) (u := ()) rfl
    (by decide +kernel) (by simp [fnSettings]) hw]
  simp only [loadFunction, fnSettings, List.forall_mem_cons, List.not_mem_nil, false_implies, implies_true, and_true,
      Setting.Reads, key, bind, Option.bind_eq_some_iff]
  generalize s.out.function = f
  generalize s.functionSortBy = a
  generalize s.out.noReturn = b
  constructor
  · rintro ⟨_, hk, _, h0, _, h1, _, h2, _, h3, _, h4, _, h5, _, h6, _, h7, _, h8, _, h9, he⟩
    cases he
    exact ⟨hk, (field_iff hw (by decode)).1 h0, (field_iff hw (by decode)).1 h1, (field_iff hw (by decode)).1 h2, (field_iff hw
        (by decode)).1 h3, (field_iff hw (by decode)).1 h4, (field_iff hw (by decode)).1 h5, (field_iff hw (by decode)).1 h6,
        (field_iff hw (by decode)).1 h7, (field_iff hw (by decode)).1 h8, (field_iff hw (by decode)).1 h9⟩
  · rintro ⟨hk, h0, h1, h2, h3, h4, h5, h6, h7, h8, h9⟩
    exact ⟨(), hk, _, (field_iff hw (by decode)).2 h0, _, (field_iff hw (by decode)).2 h1, _, (field_iff hw (by decode)).2 h2, _,
        (field_iff hw (by decode)).2 h3, _, (field_iff hw (by decode)).2 h4, _, (field_iff hw (by decode)).2 h5, _, (field_iff hw
        (by decode)).2 h6, _, (field_iff hw (by decode)).2 h7, _, (field_iff hw (by decode)).2 h8, _, (field_iff hw (by
        decode)).2 h9, rfl⟩

theorem loadStruct_iff {es : List (Str × Toml)} (hw : WellFormed (.table es)) {s : Settings} :
    loadStruct es = some ⟨s.out.structure_, s.renameFields⟩ ↔ Reading structSettings (.table es) s := by
  rw [reading_flat (xs := structSettings) (ks := [c!"rename_fields", c!"derive_constructor", c!"derive_eq", c!"derive_neq",
      c!"derive_lt", c!"derive_lte", c!"derive_gt", c!"derive_gte", c!"derive_ostream", c!"associated_constants_in_body",
      c!"rename_associated_constant", c!"must_use", c!"deprecated", c!"deprecated_with_note"]) (u := ()) rfl
    (by decide +kernel) (by simp [structSettings]) hw]
  simp only [loadStruct, structSettings, List.forall_mem_cons, List.not_mem_nil, false_implies, implies_true, and_true,
      Setting.Reads, key, bind, Option.bind_eq_some_iff]
  generalize s.out.structure_ = f
  generalize s.renameFields = a
  constructor
  · rintro ⟨_, hk, _, h0, _, h1, _, h2, _, h3, _, h4, _, h5, _, h6, _, h7, _, h8, _, h9, _, h10, _, h11, _, h12, _, h13, he⟩
    cases he
    exact ⟨hk, (field_iff hw (by decode)).1 h0, (field_iff hw (by decode)).1 h1, (field_iff hw (by decode)).1 h2, (field_iff hw
        (by decode)).1 h3, (field_iff hw (by decode)).1 h4, (field_iff hw (by decode)).1 h5, (field_iff hw (by decode)).1 h6,
        (field_iff hw (by decode)).1 h7, (field_iff hw (by decode)).1 h8, (field_iff hw (by decode)).1 h9, (field_iff hw (by
        decode)).1 h10, (field_iff hw (by decode)).1 h11, (field_iff hw (by decode)).1 h12, (field_iff hw (by decode)).1 h13⟩
  · rintro ⟨hk, h0, h1, h2, h3, h4, h5, h6, h7, h8, h9, h10, h11, h12, h13⟩
    exact ⟨(), hk, _, (field_iff hw (by decode)).2 h0, _, (field_iff hw (by decode)).2 h1, _, (field_iff hw (by decode)).2 h2, _,
        (field_iff hw (by decode)).2 h3, _, (field_iff hw (by decode)).2 h4, _, (field_iff hw (by decode)).2 h5, _, (field_iff hw
        (by decode)).2 h6, _, (field_iff hw (by decode)).2 h7, _, (field_iff hw (by decode)).2 h8, _, (field_iff hw (by
        decode)).2 h9, _, (field_iff hw (by decode)).2 h10, _, (field_iff hw (by decode)).2 h11, _, (field_iff hw (by decode)).2
        h12, _, (field_iff hw (by decode)).2 h13, rfl⟩

theorem loadEnum_iff {es : List (Str × Toml)} (hw : WellFormed (.table es)) {s : Settings} :
    loadEnum es = some ⟨s.out.enumeration, s.renameVariants, s.renameVariantNameFields, s.addSentinel, s.prefixWithName⟩ ↔
        Reading enumSettings (.table es) s := by
  rw [reading_flat (xs := enumSettings) (ks := [c!"rename_variants", c!"rename_variant_name_fields", c!"add_sentinel",
      c!"prefix_with_name", c!"derive_helper_methods", c!"derive_const_casts", c!"derive_mut_casts", c!"cast_assert_name",
      c!"must_use", c!"deprecated", c!"deprecated_with_note", c!"deprecated_variant", c!"deprecated_variant_with_note",
      c!"derive_tagged_enum_destructor", c!"derive_tagged_enum_copy_constructor", c!"derive_tagged_enum_copy_assignment",
      c!"derive_ostream", c!"enum_class", c!"private_default_tagged_enum_constructor"]) (u := ()) rfl
    (by decide +kernel) (by simp [enumSettings]) hw]
  simp only [loadEnum, enumSettings, List.forall_mem_cons, List.not_mem_nil, false_implies, implies_true, and_true,
      Setting.Reads, key, bind, Option.bind_eq_some_iff]
  generalize s.out.enumeration = f
  generalize s.renameVariants = a
  generalize s.renameVariantNameFields = b
  generalize s.addSentinel = c
  generalize s.prefixWithName = d
  constructor
  · rintro ⟨_, hk, _, h0, _, h1, _, h2, _, h3, _, h4, _, h5, _, h6, _, h7, _, h8, _, h9, _, h10, _, h11, _, h12, _, h13, _, h14,
      _, h15, _, h16, _, h17, _, h18, he⟩
    cases he
    exact ⟨hk, (field_iff hw (by decode)).1 h0, (field_iff hw (by decode)).1 h1, (field_iff hw (by decode)).1 h2, (field_iff hw
        (by decode)).1 h3, (field_iff hw (by decode)).1 h4, (field_iff hw (by decode)).1 h5, (field_iff hw (by decode)).1 h6,
        (field_iff hw (by decode)).1 h7, (field_iff hw (by decode)).1 h8, (field_iff hw (by decode)).1 h9, (field_iff hw (by
        decode)).1 h10, (field_iff hw (by decode)).1 h11, (field_iff hw (by decode)).1 h12, (field_iff hw (by decode)).1 h13,
        (field_iff hw (by decode)).1 h14, (field_iff hw (by decode)).1 h15, (field_iff hw (by decode)).1 h16, (field_iff hw (by
        decode)).1 h17, (field_iff hw (by decode)).1 h18⟩
  · rintro ⟨hk, h0, h1, h2, h3, h4, h5, h6, h7, h8, h9, h10, h11, h12, h13, h14, h15, h16, h17, h18⟩
    exact ⟨(), hk, _, (field_iff hw (by decode)).2 h0, _, (field_iff hw (by decode)).2 h1, _, (field_iff hw (by decode)).2 h2, _,
        (field_iff hw (by decode)).2 h3, _, (field_iff hw (by decode)).2 h4, _, (field_iff hw (by decode)).2 h5, _, (field_iff hw
        (by decode)).2 h6, _, (field_iff hw (by decode)).2 h7, _, (field_iff hw (by decode)).2 h8, _, (field_iff hw (by
        decode)).2 h9, _, (field_iff hw (by decode)).2 h10, _, (field_iff hw (by decode)).2 h11, _, (field_iff hw (by decode)).2
        h12, _, (field_iff hw (by decode)).2 h13, _, (field_iff hw (by decode)).2 h14, _, (field_iff hw (by decode)).2 h15, _,
        (field_iff hw (by decode)).2 h16, _, (field_iff hw (by decode)).2 h17, _, (field_iff hw (by decode)).2 h18, rfl⟩

theorem loadConstConfig_iff {es : List (Str × Toml)} (hw : WellFormed (.table es)) {s : Settings} :
    loadConstConfig es = some ⟨s.out.allowStaticConst, s.out.allowConstexpr, s.constantSortBy⟩ ↔ Reading constSettings (.table
        es) s := by
  rw [reading_flat (xs := constSettings) (ks := [c!"allow_static_const", c!"allow_constexpr", c!"sort_by"]) (u := ()) rfl
    (by decide +kernel) (by simp [constSettings]) hw]
  simp only [loadConstConfig, constSettings, List.forall_mem_cons, List.not_mem_nil, false_implies, implies_true, and_true,
      Setting.Reads, key, bind, Option.bind_eq_some_iff]
  generalize s.out.allowStaticConst = a
  generalize s.out.allowConstexpr = b
  generalize s.constantSortBy = c
  constructor
  · rintro ⟨_, hk, _, h0, _, h1, _, h2, he⟩
    cases he
    exact ⟨hk, (field_iff hw (by decode)).1 h0, (field_iff hw (by decode)).1 h1, (field_iff hw (by decode)).1 h2⟩
  · rintro ⟨hk, h0, h1, h2⟩
    exact ⟨(), hk, _, (field_iff hw (by decode)).2 h0, _, (field_iff hw (by decode)).2 h1, _, (field_iff hw (by decode)).2 h2, rfl⟩

theorem loadPtr_iff {es : List (Str × Toml)} (hw : WellFormed (.table es)) {s : Settings} :
    loadPtr es = some ⟨s.out.nonNullAttr, s.out.nullableAttr⟩ ↔ Reading ptrSettings (.table es) s := by
  rw [reading_flat (xs := ptrSettings) (ks := [c!"non_null_attribute", c!"nullable_attribute"]) (u := ()) rfl
    (by decide +kernel) (by simp [ptrSettings]) hw]
  simp only [loadPtr, ptrSettings, List.forall_mem_cons, List.not_mem_nil, false_implies, implies_true, and_true, Setting.Reads,
      key, bind, Option.bind_eq_some_iff]
  generalize s.out.nonNullAttr = a
  generalize s.out.nullableAttr = b
  constructor
  · rintro ⟨_, hk, _, h0, _, h1, he⟩
    cases he
    exact ⟨hk, (field_iff hw (by decode)).1 h0, (field_iff hw (by decode)).1 h1⟩
  · rintro ⟨hk, h0, h1⟩
    exact ⟨(), hk, _, (field_iff hw (by decode)).2 h0, _, (field_iff hw (by decode)).2 h1, rfl⟩

theorem loadCython_iff {es : List (Str × Toml)} (hw : WellFormed (.table es)) {s : Settings} :
    loadCython es = some ⟨s.out.cythonHeader, s.out.cythonCimports⟩ ↔ Reading cythonSettings (.table es) s := by
  rw [reading_flat (xs := cythonSettings) (ks := [c!"header", c!"cimports"]) (u := ()) rfl
    (by decide +kernel) (by simp [cythonSettings]) hw]
  simp only [loadCython, cythonSettings, List.forall_mem_cons, List.not_mem_nil, false_implies, implies_true, and_true,
      Setting.Reads, key, bind, Option.bind_eq_some_iff]
  generalize s.out.cythonHeader = a
  generalize s.out.cythonCimports = b
  constructor
  · rintro ⟨_, hk, _, h0, _, h1, he⟩
    cases he
    exact ⟨hk, (field_iff hw (by decode)).1 h0, (field_iff hw (by decode)).1 h1⟩
  · rintro ⟨hk, h0, h1⟩
    exact ⟨(), hk, _, (field_iff hw (by decode)).2 h0, _, (field_iff hw (by decode)).2 h1, rfl⟩

theorem loadExport_iff {es : List (Str × Toml)} (hw : WellFormed (.table es)) {s : Settings} :
    loadExport es = some ⟨s.out.export_, s.out.preBody, s.out.body⟩ ↔ Reading exportSettings (.table es) s := by
  rw [exportSettings, reading_group (top := exportTop) (ks := [c!"include", c!"exclude", c!"rename", c!"pre_body", c!"body",
      c!"prefix", c!"item_types", c!"renaming_overrides_prefixing"]) rfl
    (by decide +kernel) (by simp [mangleSettings, key]) (by simp [exportTop]) hw, ← knownKeys_iff (u := ())]
  simp only [List.map_cons, List.map_nil, List.cons_append, List.nil_append, List.forall_mem_cons, List.not_mem_nil, false_implies,
    implies_true, and_true, loadExport, bind, Option.bind_eq_some_iff]
  simp only [exportTop, List.forall_mem_cons, List.not_mem_nil, false_implies, implies_true, and_true, Setting.Reads, key]
  constructor
  · rintro ⟨_, hk, _, h0, _, h1, _, h2, _, h3, _, h4, _, h5, _, h6, _, h7, mt, hs, mg, hm, he⟩
    simp only [Option.some.injEq, ExportPart.mk.injEq] at he
    obtain ⟨e1, e2, e3⟩ := he
    have hm' : loadMangle mt = some s.out.export_.mangle := by rw [hm, ← e1]
    rw [← e1, ← e2, ← e3]
    exact ⟨hk, ⟨(field_iff hw (by decode)).1 h0, (field_iff hw (by decode)).1 h1, (field_iff hw (by decode)).1 h2, (field_iff hw
        (by decode)).1 h3, (field_iff hw (by decode)).1 h4, (field_iff hw (by decode)).1 h5, (field_iff hw (by decode)).1 h6,
        (field_iff hw (by decode)).1 h7⟩, mt, hs, (loadMangle_iff (wf_section hw hs)).1 hm'⟩
  · rintro ⟨hk, ⟨h0, h1, h2, h3, h4, h5, h6, h7⟩, mt, hs, hm⟩
    exact ⟨(), hk, _, (field_iff hw (by decode)).2 h0, _, (field_iff hw (by decode)).2 h1, _, (field_iff hw (by decode)).2 h2, _,
        (field_iff hw (by decode)).2 h3, _, (field_iff hw (by decode)).2 h4, _, (field_iff hw (by decode)).2 h5, _, (field_iff hw
        (by decode)).2 h6, _, (field_iff hw (by decode)).2 h7, mt, hs, _, (loadMangle_iff (wf_section hw hs)).2 hm, rfl⟩

/-- The options before the first section. -/
def topOf (s : Settings) : TopPart where
  header := s.out.header
  includes := s.out.includes
  sysIncludes := s.out.sysIncludes
  afterIncludes := s.out.afterIncludes
  trailer := s.out.trailer
  includeGuard := s.out.includeGuard
  pragmaOnce := s.out.pragmaOnce
  noIncludes := s.out.noIncludes
  packageVersion := s.out.packageVersion
  autogenWarning := s.out.autogenWarning
  includeVersion := s.out.includeVersion
  namespace_ := s.out.namespace_
  namespaces := s.out.namespaces
  usingNamespaces := s.out.usingNamespaces
  braces := s.out.braces
  lineLength := s.out.lineLength
  tabWidth := s.out.tabWidth
  lineEnding := s.out.lineEnding
  language := s.out.language
  cppCompat := s.out.cppCompat
  style := s.out.style
  sortBy := s.sortBy
  usizeIsSizeT := s.out.usizeIsSizeT
  defines := s.out.defines
  documentation := s.out.documentation
  documentationStyle := s.out.documentationStyle
  documentationLength := s.out.documentationLength
  onlyTargetDependencies := s.onlyTargetDependencies

theorem loadTop_iff {es : List (Str × Toml)} (hw : WellFormed (.table es)) {s : Settings} :
    loadTop es = some (topOf s) ↔ ∀ x ∈ topSettings, x.Reads (.table es) s := by
  simp only [loadTop, topOf, topSettings, List.forall_mem_cons, List.not_mem_nil, false_implies, implies_true, and_true,
      Setting.Reads, key,
    bind, Option.bind_eq_some_iff]
  generalize s.out.header = x0
  generalize s.out.includes = x1
  generalize s.out.sysIncludes = x2
  generalize s.out.afterIncludes = x3
  generalize s.out.trailer = x4
  generalize s.out.includeGuard = x5
  generalize s.out.pragmaOnce = x6
  generalize s.out.noIncludes = x7
  generalize s.out.packageVersion = x8
  generalize s.out.autogenWarning = x9
  generalize s.out.includeVersion = x10
  generalize s.out.namespace_ = x11
  generalize s.out.namespaces = x12
  generalize s.out.usingNamespaces = x13
  generalize s.out.braces = x14
  generalize s.out.lineLength = x15
  generalize s.out.tabWidth = x16
  generalize s.out.lineEnding = x17
  generalize s.out.language = x18
  generalize s.out.cppCompat = x19
  generalize s.out.style = x20
  generalize s.sortBy = x21
  generalize s.out.usizeIsSizeT = x22
  generalize s.out.defines = x23
  generalize s.out.documentation = x24
  generalize s.out.documentationStyle = x25
  generalize s.out.documentationLength = x26
  generalize s.onlyTargetDependencies = x27
  constructor
  · rintro ⟨_, h0, _, h1, _, h2, _, h3, _, h4, _, h5, _, h6, _, h7, _, h8, _, h9, _, h10, _, h11, _, h12, _, h13, _, h14, _, h15,
      _, h16, _, h17, _, h18, _, h19, _, h20, _, h21, _, h22, _, h23, _, h24, _, h25, _, h26, _, h27, he⟩
    cases he
    exact ⟨(field_iff hw (by decode)).1 h0, (field_iff hw (by decode)).1 h1, (field_iff hw (by decode)).1 h2, (field_iff hw (by
        decode)).1 h3, (field_iff hw (by decode)).1 h4, (field_iff hw (by decode)).1 h5, (field_iff hw (by decode)).1 h6,
        (field_iff hw (by decode)).1 h7, (field_iff hw (by decode)).1 h8, (field_iff hw (by decode)).1 h9, (field_iff hw (by
        decode)).1 h10, (field_iff hw (by decode)).1 h11, (field_iff hw (by decode)).1 h12, (field_iff hw (by decode)).1 h13,
        (field_iff hw (by decode)).1 h14, (field_iff hw (by decode)).1 h15, (field_iff hw (by decode)).1 h16, (field_iff hw (by
        decode)).1 h17, (field_iff hw (by decode)).1 h18, (field_iff hw (by decode)).1 h19, (field_iff hw (by decode)).1 h20,
        (field_iff hw (by decode)).1 h21, (field_iff hw (by decode)).1 h22, (field_iff hw (by decode)).1 h23, (field_iff hw (by
        decode)).1 h24, (field_iff hw (by decode)).1 h25, (field_iff hw (by decode)).1 h26, (field_iff hw (by decode)).1 h27⟩
  · rintro ⟨h0, h1, h2, h3, h4, h5, h6, h7, h8, h9, h10, h11, h12, h13, h14, h15, h16, h17, h18, h19, h20, h21, h22, h23, h24,
      h25, h26, h27⟩
    exact ⟨_, (field_iff hw (by decode)).2 h0, _, (field_iff hw (by decode)).2 h1, _, (field_iff hw (by decode)).2 h2, _,
        (field_iff hw (by decode)).2 h3, _, (field_iff hw (by decode)).2 h4, _, (field_iff hw (by decode)).2 h5, _, (field_iff hw
        (by decode)).2 h6, _, (field_iff hw (by decode)).2 h7, _, (field_iff hw (by decode)).2 h8, _, (field_iff hw (by
        decode)).2 h9, _, (field_iff hw (by decode)).2 h10, _, (field_iff hw (by decode)).2 h11, _, (field_iff hw (by decode)).2
        h12, _, (field_iff hw (by decode)).2 h13, _, (field_iff hw (by decode)).2 h14, _, (field_iff hw (by decode)).2 h15, _,
        (field_iff hw (by decode)).2 h16, _, (field_iff hw (by decode)).2 h17, _, (field_iff hw (by decode)).2 h18, _, (field_iff
        hw (by decode)).2 h19, _, (field_iff hw (by decode)).2 h20, _, (field_iff hw (by decode)).2 h21, _, (field_iff hw (by
        decode)).2 h22, _, (field_iff hw (by decode)).2 h23, _, (field_iff hw (by decode)).2 h24, _, (field_iff hw (by decode)).2
        h25, _, (field_iff hw (by decode)).2 h26, _, (field_iff hw (by decode)).2 h27, rfl⟩

end Cbindgen
