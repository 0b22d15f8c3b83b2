import Verif.Spec.Main
import Verif.Model.ConfigFile

/-!
# What a configuration file means (C81)

The options of `docs.md` and of the comments on the fields of `Config`: where each is in the file, what its value means, and what
it is if the file does not have it.
-/

namespace Cbindgen.FileSpec

/-- The value of a file at a path of keys. -/
inductive At : Toml → List Str → Toml → Prop
  | here {v} : At v [] v
  | there {es k w p v} : (k, w) ∈ es → At w p v → At (.table es) (k :: p) v

/-- No table has a key twice: TOML. -/
def WellFormed (t : Toml) : Prop := ∀ p es, At t p (.table es) → (es.map (·.1)).Nodup

/-! ## Values -/

def Text (v : Toml) (s : Str) : Prop := v = .str s
def Flag (v : Toml) (b : Bool) : Prop := v = .bool b
def Number (v : Toml) (n : Nat) : Prop := v = .int n

/-- An option that need not have a value. -/
def Maybe {α : Type} (m : Toml → α → Prop) (v : Toml) (o : Option α) : Prop := ∃ a, o = some a ∧ m v a

inductive Matched {α : Type} (m : Toml → α → Prop) : List Toml → List α → Prop
  | nil : Matched m [] []
  | cons {x xs a as} : m x a → Matched m xs as → Matched m (x :: xs) (a :: as)

def Each {α : Type} (m : Toml → α → Prop) (v : Toml) (as : List α) : Prop := ∃ xs, v = .arr xs ∧ Matched m xs as

/-- A table with keys of the user. -/
def Entries {α : Type} (m : Toml → α → Prop) (v : Toml) (as : List (Str × α)) : Prop :=
  ∃ es, v = .table es ∧ es.map (·.1) = as.map (·.1) ∧ Matched m (es.map (·.2)) (as.map (·.2))

/-- Such a table, with the keys in order. -/
def Ordered {α : Type} (m : Toml → α → Prop) (v : Toml) (as : List (Str × α)) : Prop :=
  as.Pairwise (fun a b => a.1 < b.1) ∧ ∃ bs, Entries m v bs ∧ bs.Perm as

/-- One of some words. -/
def Word {α : Type} (ws : List (α × List Str)) (v : Toml) (a : α) : Prop := ∃ s l, v = .str s ∧ (a, l) ∈ ws ∧ s ∈ l

/-- One of some words, in capital or small letters. -/
def AnyCase {α : Type} (ws : List (α × List Str)) (v : Toml) (a : α) : Prop :=
  ∃ s l, v = .str s ∧ (a, l) ∈ ws ∧ s.map Char.toLower ∈ l

def languageWords : List (Language × List Str) :=
  [(.c, [c!"c", c!"C"]), (.cxx, [c!"c++", c!"C++", c!"cxx", c!"Cxx", c!"CXX", c!"cpp", c!"Cpp", c!"CPP"]),
   (.cython, [c!"cython", c!"Cython"])]
def styleWords : List (Style × List Str) :=
  [(.both, [c!"both", c!"Both"]), (.tag, [c!"tag", c!"Tag"]), (.type, [c!"type", c!"Type"])]
def profileWords : List (Profile × List Str) := [(.debug, [c!"debug", c!"Debug"]), (.release, [c!"release", c!"Release"])]
def bracesWords : List (Braces × List Str) :=
  [(.sameLine, [c!"same_line", c!"SameLine"]), (.nextLine, [c!"next_line", c!"NextLine"])]
def layoutWords : List (Layout × List Str) :=
  [(.horizontal, [c!"horizontal", c!"Horizontal"]), (.vertical, [c!"vertical", c!"Vertical"]), (.auto, [c!"auto", c!"Auto"])]
def lineEndingWords : List (LineEnding × List Str) :=
  [(.lf, [c!"lf"]), (.cr, [c!"cr"]), (.crlf, [c!"crlf"]), (.native, [c!"native"])]
def docStyleWords : List (DocStyle × List Str) :=
  [(.c, [c!"c"]), (.c99, [c!"c99"]), (.cxx, [c!"c++", c!"cxx"]), (.doxy, [c!"doxy"]), (.auto, [c!"auto"])]
def docLengthWords : List (DocLength × List Str) := [(.short, [c!"short"]), (.full, [c!"full"])]
def itemTypeWords : List (ItemType × List Str) :=
  [(.constants, [c!"constants"]), (.globals, [c!"globals"]), (.enums, [c!"enums"]), (.structs, [c!"structs"]),
   (.unions, [c!"unions"]), (.typedefs, [c!"typedefs"]), (.opaqueItems, [c!"opaque"]), (.functions, [c!"functions"])]
def sortWords : List (SortKey × List Str) := [(.name, [c!"name"]), (.none, [c!"none"])]
def ruleWords : List (RenameRule × List Str) :=
  [(.none, [c!"none", c!"None"]),
   (.geckoCase, [c!"mGeckoCase", c!"GeckoCase", c!"gecko_case"]),
   (.lowerCase, [c!"lowercase", c!"LowerCase", c!"lower_case"]),
   (.upperCase, [c!"UPPERCASE", c!"UpperCase", c!"upper_case"]),
   (.pascalCase, [c!"PascalCase", c!"pascal_case"]),
   (.camelCase, [c!"camelCase", c!"CamelCase", c!"camel_case"]),
   (.snakeCase, [c!"snake_case", c!"SnakeCase"]),
   (.screamingSnakeCase, [c!"SCREAMING_SNAKE_CASE", c!"ScreamingSnakeCase", c!"screaming_snake_case"]),
   (.qualifiedScreamingSnakeCase,
     [c!"QUALIFIED_SCREAMING_SNAKE_CASE", c!"QualifiedScreamingSnakeCase", c!"qualified_screaming_snake_case"])]

/-- A rule for names: one of the words, or `prefix:` with a text. -/
def Rule (v : Toml) (r : RenameRule) : Prop := Word ruleWords v r ∨ ∃ p, v = .str (c!"prefix:" ++ p) ∧ r = .prefixWith p

/-! ## Options -/

/-- An option of a configuration: its place in the file, the meaning of its value, where it ends up, and its default. -/
structure Setting (σ : Type) where
  path : List Str
  {α : Type}
  means : Toml → α → Prop
  get : σ → α
  dflt : α

/-- The file gives the option this value. -/
def Sets {α : Type} (t : Toml) (path : List Str) (means : Toml → α → Prop) (dflt a : α) : Prop :=
  (∃ v, At t path v ∧ means v a) ∨ ((∀ v, ¬ At t path v) ∧ a = dflt)

def Setting.Reads {σ : Type} (x : Setting σ) (t : Toml) (s : σ) : Prop := Sets t x.path x.means x.dflt (x.get s)

/-- The file has nothing but options: all that is in it is part of an option, or a table on the way to one. -/
def Known {σ : Type} (xs : List (Setting σ)) (t : Toml) : Prop :=
  ∀ p v, At t p v → (∃ x ∈ xs, x.path <+: p) ∨ ((∃ x ∈ xs, p <+: x.path) ∧ ∃ es, v = .table es)

/-- The file is a configuration, and it is this one. -/
def Reading {σ : Type} (xs : List (Setting σ)) (t : Toml) (s : σ) : Prop := Known xs t ∧ ∀ x ∈ xs, x.Reads t s

/-- An option that is a key of a table. -/
def key {σ α : Type} (k : Str) (means : Toml → α → Prop) (get : σ → α) (dflt : α) : Setting σ := ⟨[k], means, get, dflt⟩

def Setting.under {σ : Type} (k : Str) (x : Setting σ) : Setting σ := { x with path := k :: x.path }

/-- Options of a table and of tables in it. -/
def group {σ : Type} (top : List (Setting σ)) (sections : List (Str × List (Setting σ))) : List (Setting σ) :=
  top ++ sections.flatMap fun c => c.2.map (Setting.under c.1)

/-- `[parse.expand]` -/
def expandSettings : List (Setting ExpandPart) :=
  [ key c!"crates" (Each Text) (·.crates) [],
    key c!"all_features" Flag (·.allFeatures) false,
    key c!"default_features" Flag (·.defaultFeatures) true,
    key c!"features" (Maybe (Each Text)) (·.features) none,
    key c!"profile" (Word profileWords) (·.profile) .debug ]

/-- The value of `expand`: the names of crates, which are expanded with all of their features, or a table. -/
def Expansion (v : Toml) (e : ExpandPart) : Prop :=
  (∃ names, Each Text v names ∧ e = ⟨names, true, true, none, .debug⟩) ∨ Reading expandSettings v e

/-- What `expand` is about. -/
def expansion (s : Settings) : ExpandPart := ⟨s.parse.expandCrates, s.allFeatures, s.defaultFeatures, s.features, s.profile⟩

/-- `[parse]` -/
def parseSettings : List (Setting Settings) :=
  [ key c!"parse_deps" Flag (·.parse.parseDeps) false,
    key c!"include" (Maybe (Each Text)) (·.parse.incl) none,
    key c!"exclude" (Each Text) (·.parse.exclude) [],
    key c!"expand" Expansion expansion ⟨[], false, true, none, .debug⟩,
    key c!"clean" Flag (·.clean) false,
    key c!"extra_bindings" (Each Text) (·.parse.extraBindings) [] ]

/-- `[export]` and `[export.mangle]` -/
def mangleSettings : List (Setting Settings) :=
  [ key c!"rename_types" Rule (·.out.export_.mangle.renameTypes) .none,
    key c!"remove_underscores" Flag (·.out.export_.mangle.removeUnderscores) false ]
def exportTop : List (Setting Settings) :=
  [ key c!"include" (Each Text) (·.out.export_.inc) [],
    key c!"exclude" (Each Text) (·.out.export_.exclude) [],
    key c!"rename" (Entries Text) (·.out.export_.rename) [],
    key c!"pre_body" (Entries Text) (·.out.preBody) [],
    key c!"body" (Entries Text) (·.out.body) [],
    key c!"prefix" (Maybe Text) (·.out.export_.pre) none,
    key c!"item_types" (Each (AnyCase itemTypeWords)) (·.out.export_.itemTypes) [],
    key c!"renaming_overrides_prefixing" Flag (·.out.export_.renamingOverridesPrefixing) false ]
def exportSettings : List (Setting Settings) := group exportTop [(c!"mangle", mangleSettings)]

/-- `[macro_expansion]` -/
def macroSettings : List (Setting Settings) := [ key c!"bitflags" Flag (·.parse.expandBitflags) false ]

/-- `[layout]` -/
def layoutSettings : List (Setting Settings) :=
  [ key c!"packed" (Maybe Text) (·.out.layout.packed) none,
    key c!"aligned_n" (Maybe Text) (·.out.layout.alignedN) none ]

/-- `[fn]` -/
def fnSettings : List (Setting Settings) :=
  [ key c!"prefix" (Maybe Text) (·.out.function.pre) none,
    key c!"postfix" (Maybe Text) (·.out.function.post) none,
    key c!"must_use" (Maybe Text) (·.out.function.mustUse) none,
    key c!"deprecated" (Maybe Text) (·.out.function.deprecated) none,
    key c!"deprecated_with_note" (Maybe Text) (·.out.function.deprecatedWithNote) none,
    key c!"args" (Word layoutWords) (·.out.function.args) .auto,
    key c!"rename_args" Rule (·.out.function.renameArgs) .none,
    key c!"swift_name_macro" (Maybe Text) (·.out.function.swiftNameMacro) none,
    key c!"sort_by" (Maybe (AnyCase sortWords)) (·.functionSortBy) none,
    key c!"no_return" (Maybe Text) (·.out.noReturn) none ]

/-- `[struct]` -/
def structSettings : List (Setting Settings) :=
  [ key c!"rename_fields" Rule (·.renameFields) .none,
    key c!"derive_constructor" Flag (·.out.structure_.deriveConstructor) false,
    key c!"derive_eq" Flag (·.out.structure_.deriveEq) false,
    key c!"derive_neq" Flag (·.out.structure_.deriveNeq) false,
    key c!"derive_lt" Flag (·.out.structure_.deriveLt) false,
    key c!"derive_lte" Flag (·.out.structure_.deriveLte) false,
    key c!"derive_gt" Flag (·.out.structure_.deriveGt) false,
    key c!"derive_gte" Flag (·.out.structure_.deriveGte) false,
    key c!"derive_ostream" Flag (·.out.structure_.deriveOstream) false,
    key c!"associated_constants_in_body" Flag (·.out.structure_.associatedConstantsInBody) false,
    key c!"rename_associated_constant" Rule (·.out.structure_.renameAssociatedConstant) .none,
    key c!"must_use" (Maybe Text) (·.out.structure_.mustUse) none,
    key c!"deprecated" (Maybe Text) (·.out.structure_.deprecated) none,
    key c!"deprecated_with_note" (Maybe Text) (·.out.structure_.deprecatedWithNote) none ]

/-- `[enum]` -/
def enumSettings : List (Setting Settings) :=
  [ key c!"rename_variants" Rule (·.renameVariants) .none,
    key c!"rename_variant_name_fields" Rule (·.renameVariantNameFields) .snakeCase,
    key c!"add_sentinel" Flag (·.addSentinel) false,
    key c!"prefix_with_name" Flag (·.prefixWithName) false,
    key c!"derive_helper_methods" Flag (·.out.enumeration.deriveHelperMethods) false,
    key c!"derive_const_casts" Flag (·.out.enumeration.deriveConstCasts) false,
    key c!"derive_mut_casts" Flag (·.out.enumeration.deriveMutCasts) false,
    key c!"cast_assert_name" (Maybe Text) (·.out.enumeration.castAssertName) none,
    key c!"must_use" (Maybe Text) (·.out.enumeration.mustUse) none,
    key c!"deprecated" (Maybe Text) (·.out.enumeration.deprecated) none,
    key c!"deprecated_with_note" (Maybe Text) (·.out.enumeration.deprecatedWithNote) none,
    key c!"deprecated_variant" (Maybe Text) (·.out.enumeration.deprecatedVariant) none,
    key c!"deprecated_variant_with_note" (Maybe Text) (·.out.enumeration.deprecatedVariantWithNote) none,
    key c!"derive_tagged_enum_destructor" Flag (·.out.enumeration.deriveTaggedEnumDestructor) false,
    key c!"derive_tagged_enum_copy_constructor" Flag (·.out.enumeration.deriveTaggedEnumCopyConstructor) false,
    key c!"derive_tagged_enum_copy_assignment" Flag (·.out.enumeration.deriveTaggedEnumCopyAssignment) false,
    key c!"derive_ostream" Flag (·.out.enumeration.deriveOstream) false,
    key c!"enum_class" Flag (·.out.enumeration.enumClass) true,
    key c!"private_default_tagged_enum_constructor" Flag (·.out.enumeration.privateDefaultTaggedEnumConstructor) false ]

/-- `[const]` -/
def constSettings : List (Setting Settings) :=
  [ key c!"allow_static_const" Flag (·.out.allowStaticConst) true,
    key c!"allow_constexpr" Flag (·.out.allowConstexpr) true,
    key c!"sort_by" (Maybe (AnyCase sortWords)) (·.constantSortBy) none ]

/-- `[ptr]` -/
def ptrSettings : List (Setting Settings) :=
  [ key c!"non_null_attribute" (Maybe Text) (·.out.nonNullAttr) none,
    key c!"nullable_attribute" (Maybe Text) (·.out.nullableAttr) none ]

/-- `[cython]` -/
def cythonSettings : List (Setting Settings) :=
  [ key c!"header" (Maybe Text) (·.out.cythonHeader) none,
    key c!"cimports" (Ordered (Each Text)) (·.out.cythonCimports) [] ]

/-- Before the first section. -/
def topSettings : List (Setting Settings) :=
  [ key c!"header" (Maybe Text) (·.out.header) none,
    key c!"includes" (Each Text) (·.out.includes) [],
    key c!"sys_includes" (Each Text) (·.out.sysIncludes) [],
    key c!"after_includes" (Maybe Text) (·.out.afterIncludes) none,
    key c!"trailer" (Maybe Text) (·.out.trailer) none,
    key c!"include_guard" (Maybe Text) (·.out.includeGuard) none,
    key c!"pragma_once" Flag (·.out.pragmaOnce) false,
    key c!"no_includes" Flag (·.out.noIncludes) false,
    key c!"package_version" Flag (·.out.packageVersion) false,
    key c!"autogen_warning" (Maybe Text) (·.out.autogenWarning) none,
    key c!"include_version" Flag (·.out.includeVersion) false,
    key c!"namespace" (Maybe Text) (·.out.namespace_) none,
    key c!"namespaces" (Maybe (Each Text)) (·.out.namespaces) none,
    key c!"using_namespaces" (Maybe (Each Text)) (·.out.usingNamespaces) none,
    key c!"braces" (Word bracesWords) (·.out.braces) .sameLine,
    key c!"line_length" Number (·.out.lineLength) 100,
    key c!"tab_width" Number (·.out.tabWidth) 2,
    key c!"line_endings" (AnyCase lineEndingWords) (·.out.lineEnding) .lf,
    key c!"language" (Word languageWords) (·.out.language) .cxx,
    key c!"cpp_compat" Flag (·.out.cppCompat) false,
    key c!"style" (Word styleWords) (·.out.style) .both,
    key c!"sort_by" (AnyCase sortWords) (·.sortBy) .none,
    key c!"usize_is_size_t" Flag (·.out.usizeIsSizeT) false,
    key c!"defines" (Entries Text) (·.out.defines) [],
    key c!"documentation" Flag (·.out.documentation) true,
    key c!"documentation_style" (AnyCase docStyleWords) (·.out.documentationStyle) .auto,
    key c!"documentation_length" (AnyCase docLengthWords) (·.out.documentationLength) .full,
    key c!"only_target_dependencies" Flag (·.onlyTargetDependencies) false ]

/-- All options of a file. -/
def options : List (Setting Settings) :=
  group topSettings
    [ (c!"parse", parseSettings), (c!"export", exportSettings), (c!"macro_expansion", macroSettings), (c!"layout", layoutSettings),
      (c!"fn", fnSettings), (c!"struct", structSettings), (c!"enum", enumSettings), (c!"const", constSettings),
      (c!"ptr", ptrSettings), (c!"cython", cythonSettings) ]

/-- What does not come from the file. -/
def FromOutside (x : Outside) (s : Settings) : Prop :=
  s.out.version = x.version ∧ s.out.strDebug = x.strDebug ∧ s.out.caseFns = x.caseFns ∧ s.fieldOrder = x.fieldOrder ∧
    s.parse.bindingCrate = x.bindingCrate

/-- The configuration of a file. -/
def Describes (x : Outside) (t : Toml) (s : Settings) : Prop := Reading options t s ∧ FromOutside x s

/-- The configuration without a file. -/
def Default (x : Outside) (s : Settings) : Prop := (∀ o ∈ options, o.get s = o.dflt) ∧ FromOutside x s

/-- The configurations of the runs come from files. -/
def OnDisk (f : ConfigFiles) (x : Outside) (w : World) : Prop := w.configFile = f.fromFile x ∧ w.rootConfig = f.fromRoot x

/-- The file with the configuration of a run: that of the command line, or else `cbindgen.toml` in the directory, if there is one. -/
inductive ConfigPath (f : ConfigFiles) (w : World) (a : Cli) : Option Str → Prop
  | given {p} : a.config = some p → ConfigPath f w a (some p)
  | root {dir} : a.config = none → MainSpec.ConfigDir w a (a.input.getD w.cwd) dir → f.fileExists (f.inDir dir) = true →
      ConfigPath f w a (some (f.inDir dir))
  | none {dir} : a.config = none → MainSpec.ConfigDir w a (a.input.getD w.cwd) dir → f.fileExists (f.inDir dir) = false →
      ConfigPath f w a none

/-- The configuration of a run. -/
def ConfiguredBy (f : ConfigFiles) (x : Outside) (w : World) (a : Cli) (s : Settings) : Prop :=
  (∃ p t, ConfigPath f w a (some p) ∧ f.parsed p = some t ∧ Describes x t s) ∨ (ConfigPath f w a none ∧ Default x s)

end Cbindgen.FileSpec
