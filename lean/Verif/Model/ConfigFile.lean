import Verif.Model.Main

/-!
# The configuration file: src/bindgen/config.rs

`Deserialize` of `Config` and of its parts, as serde derives it from the attributes `default`, `deny_unknown_fields` and
`rename`, for a file that the toml crate has parsed.
-/

namespace Cbindgen

/-- A value of a file that the toml crate has parsed.  Floats and dates are `other`: no option has such a value. -/
inductive Toml
  | str (s : Str)
  | int (n : Int)
  | bool (b : Bool)
  | arr (xs : List Toml)
  | table (es : List (Str × Toml))
  | other

/-! ## Values: the implementations of `Deserialize` of serde -/

/-- `String` -/
def decStr : Toml → Option Str
  | .str s => some s
  | _ => none

/-- `bool` -/
def decBool : Toml → Option Bool
  | .bool b => some b
  | _ => none

/-- `usize`, of 64 bits; integers of a file have 64 bits and a sign. -/
def decUsize : Toml → Option Nat
  | .int n => if 0 ≤ n then some n.toNat else none
  | _ => none

/-- `Option<T>`: a value that is there -/
def decOpt {α : Type} (d : Toml → Option α) (v : Toml) : Option (Option α) := (d v).map some

def decEach {α : Type} (d : Toml → Option α) : List Toml → Option (List α)
  | [] => some []
  | x :: xs =>
    match d x, decEach d xs with
    | some a, some as => some (a :: as)
    | _, _ => none

/-- `Vec<T>` -/
def decList {α : Type} (d : Toml → Option α) : Toml → Option (List α)
  | .arr xs => decEach d xs
  | _ => none

def decPairs {α : Type} (d : Toml → Option α) : List (Str × Toml) → Option (List (Str × α))
  | [] => some []
  | (k, v) :: es =>
    match d v, decPairs d es with
    | some a, some as => some ((k, a) :: as)
    | _, _ => none

/-- `HashMap<String, T>`, as a list in the order of the file.  A date is taken for a table by the toml crate; that is left out. -/
def decMap {α : Type} (d : Toml → Option α) : Toml → Option (List (Str × α))
  | .table es => decPairs d es
  | _ => none

/-- `BTreeMap::insert` of a key that is not there. -/
def insertKey {α : Type} (k : Str) (a : α) : List (Str × α) → List (Str × α)
  | [] => [(k, a)]
  | x :: xs => if strLt k x.1 then (k, a) :: x :: xs else x :: insertKey k a xs

/-- The entries in the order of a `BTreeMap`. -/
def sortKeys {α : Type} : List (Str × α) → List (Str × α)
  | [] => []
  | x :: xs => insertKey x.1 x.2 (sortKeys xs)

/-- `BTreeMap<String, T>` -/
def decSorted {α : Type} (d : Toml → Option α) (v : Toml) : Option (List (Str × α)) := (decMap d v).map sortKeys

/-- `deserialize_enum_str`, src/bindgen/mod.rs:8-37 -/
def decFrom {α : Type} (parse : Str → Option α) : Toml → Option α
  | .str s => parse s
  | _ => none

/-- The enums whose `from_str` is a match on the text. -/
def decWord {α : Type} (table : List (Str × α)) : Toml → Option α := decFrom fun s => table.lookup s

/-- The enums whose `from_str` is a match on `to_lowercase` of the text.  Only ASCII letters become letters of the words: the
Kelvin sign becomes `k`, but no word has a `k`. -/
def decLower {α : Type} (table : List (Str × α)) : Toml → Option α := decFrom fun s => table.lookup (s.map Char.toLower)

def decRule : Toml → Option RenameRule := decFrom RenameRule.parse

/-- `LineEndingStyle::from_str`, src/bindgen/config.rs:97-109 -/
def lineEndingTable : List (Str × LineEnding) :=
  [(c!"native", .native), (c!"lf", .lf), (c!"crlf", .crlf), (c!"cr", .cr)]

/-- `Braces::from_str`, src/bindgen/config.rs:120-132 -/
def bracesTable : List (Str × Braces) :=
  [(c!"SameLine", .sameLine), (c!"same_line", .sameLine), (c!"NextLine", .nextLine), (c!"next_line", .nextLine)]

/-- `Layout::from_str`, src/bindgen/config.rs:144-158 -/
def layoutTable : List (Str × Layout) :=
  [(c!"Horizontal", .horizontal), (c!"horizontal", .horizontal), (c!"Vertical", .vertical), (c!"vertical", .vertical),
   (c!"Auto", .auto), (c!"auto", .auto)]

/-- `DocumentationStyle::from_str`, src/bindgen/config.rs:172-186 -/
def docStyleTable : List (Str × DocStyle) :=
  [(c!"c", .c), (c!"c99", .c99), (c!"cxx", .cxx), (c!"c++", .cxx), (c!"doxy", .doxy), (c!"auto", .auto)]

/-- `DocumentationLength::from_str`, src/bindgen/config.rs:197-207 -/
def docLengthTable : List (Str × DocLength) := [(c!"short", .short), (c!"full", .full)]

/-- `ItemType::from_str`, src/bindgen/config.rs:277-294 -/
def itemTypeTable : List (Str × ItemType) :=
  [(c!"constants", .constants), (c!"globals", .globals), (c!"enums", .enums), (c!"structs", .structs), (c!"unions", .unions),
   (c!"typedefs", .typedefs), (c!"opaque", .opaqueItems), (c!"functions", .functions)]

/-- `SortKey::from_str`, src/bindgen/config.rs:305-316 -/
def sortKeyTable : List (Str × SortKey) := [(c!"name", .name), (c!"none", .none)]

/-! ## Structs: what `derive(Deserialize)` makes of the attributes -/

/-- `deny_unknown_fields` -/
def knownKeys (ks : List Str) (es : List (Str × Toml)) : Option Unit :=
  if es.all (fun e => ks.contains e.1) then some () else none

/-- A field of a struct with `default`: its value in the table, or that of the default. -/
def field {α : Type} (es : List (Str × Toml)) (k : Str) (d : Toml → Option α) (dflt : α) : Option α :=
  match es.lookup k with
  | none => some dflt
  | some v => d v

/-- The table of a field that is a struct.  The default of such a field has the default of all of its fields, so that a missing
table is an empty one.  That serde also takes an array for a struct is left out. -/
def sectionOf (es : List (Str × Toml)) (k : Str) : Option (List (Str × Toml)) :=
  match es.lookup k with
  | none => some []
  | some (.table es') => some es'
  | some _ => none

/-- `ParseExpandConfig`, src/bindgen/config.rs:768-782 -/
structure ExpandPart where
  crates : List Str
  allFeatures : Bool
  defaultFeatures : Bool
  features : Option (List Str)
  profile : Profile

/-- `ParseExpandConfig::default`, src/bindgen/config.rs:784-794 -/
def ExpandPart.dflt : ExpandPart := ⟨[], false, true, none, .debug⟩

/-- `Deserialize` of `ParseExpandConfig`, src/bindgen/config.rs:763-782 -/
def loadExpand (es : List (Str × Toml)) : Option ExpandPart := do
  knownKeys [c!"crates", c!"all_features", c!"default_features", c!"features", c!"profile"] es
  let crates ← field es c!"crates" (decList decStr) []
  let allFeatures ← field es c!"all_features" decBool false
  let defaultFeatures ← field es c!"default_features" decBool true
  let features ← field es c!"features" (decOpt (decList decStr)) none
  let profile ← field es c!"profile" (decWord profileTable) .debug
  some ⟨crates, allFeatures, defaultFeatures, features, profile⟩

/-- `retrocomp_parse_expand_config_deserialize`, src/bindgen/config.rs:803-836: a list of names of crates is the old form. -/
def decExpand : Toml → Option ExpandPart
  | .arr xs => (decEach decStr xs).map fun crates => ⟨crates, true, true, none, .debug⟩
  | .table es => loadExpand es
  | _ => none

/-- `ParseConfig`, src/bindgen/config.rs:838-867 -/
structure ParsePart where
  parseDeps : Bool
  incl : Option (List Str)
  exclude : List Str
  expand : ExpandPart
  clean : Bool
  extraBindings : List Str

def loadParse (es : List (Str × Toml)) : Option ParsePart := do
  knownKeys [c!"parse_deps", c!"include", c!"exclude", c!"expand", c!"clean", c!"extra_bindings"] es
  let parseDeps ← field es c!"parse_deps" decBool false
  let incl ← field es c!"include" (decOpt (decList decStr)) none
  let exclude ← field es c!"exclude" (decList decStr) []
  let expand ← field es c!"expand" decExpand ExpandPart.dflt
  let clean ← field es c!"clean" decBool false
  let extraBindings ← field es c!"extra_bindings" (decList decStr) []
  some ⟨parseDeps, incl, exclude, expand, clean, extraBindings⟩

/-- `MangleConfig`, src/bindgen/config.rs:346-356 -/
def loadMangle (es : List (Str × Toml)) : Option MangleConfig := do
  knownKeys [c!"rename_types", c!"remove_underscores"] es
  let renameTypes ← field es c!"rename_types" decRule .none
  let removeUnderscores ← field es c!"remove_underscores" decBool false
  some { renameTypes, removeUnderscores }

/-- `ExportConfig`, src/bindgen/config.rs:319-344 -/
structure ExportPart where
  config : ExportConfig
  preBody : List (Str × Str)
  body : List (Str × Str)

def loadExport (es : List (Str × Toml)) : Option ExportPart := do
  knownKeys [c!"include", c!"exclude", c!"rename", c!"pre_body", c!"body", c!"prefix", c!"item_types",
    c!"renaming_overrides_prefixing", c!"mangle"] es
  let inc ← field es c!"include" (decList decStr) []
  let exclude ← field es c!"exclude" (decList decStr) []
  let rename ← field es c!"rename" (decMap decStr) []
  let preBody ← field es c!"pre_body" (decMap decStr) []
  let body ← field es c!"body" (decMap decStr) []
  let pre ← field es c!"prefix" (decOpt decStr) none
  let itemTypes ← field es c!"item_types" (decList (decLower itemTypeTable)) []
  let renamingOverridesPrefixing ← field es c!"renaming_overrides_prefixing" decBool false
  let mangleTable ← sectionOf es c!"mangle"
  let mangle ← loadMangle mangleTable
  some ⟨{ inc, exclude, rename, pre, itemTypes, renamingOverridesPrefixing, mangle }, preBody, body⟩

/-- `MacroExpansionConfig`, src/bindgen/config.rs:728-737 -/
def loadMacroExpansion (es : List (Str × Toml)) : Option Bool := do
  knownKeys [c!"bitflags"] es
  let bitflags ← field es c!"bitflags" decBool false
  some bitflags

/-- `LayoutConfig`, src/bindgen/config.rs:384-395 -/
def loadLayout (es : List (Str × Toml)) : Option LayoutConfig := do
  knownKeys [c!"packed", c!"aligned_n"] es
  let packed ← field es c!"packed" (decOpt decStr) none
  let alignedN ← field es c!"aligned_n" (decOpt decStr) none
  some { packed, alignedN }

/-- `FunctionConfig`, src/bindgen/config.rs:408-450 -/
structure FnPart where
  config : FunctionConfig
  sortBy : Option SortKey
  noReturn : Option Str

def loadFunction (es : List (Str × Toml)) : Option FnPart := do
  knownKeys [c!"prefix", c!"postfix", c!"must_use", c!"deprecated", c!"deprecated_with_note", c!"args", c!"rename_args",
    c!"swift_name_macro", c!"sort_by", c!"no_return"] es
  let pre ← field es c!"prefix" (decOpt decStr) none
  let post ← field es c!"postfix" (decOpt decStr) none
  let mustUse ← field es c!"must_use" (decOpt decStr) none
  let deprecated ← field es c!"deprecated" (decOpt decStr) none
  let deprecatedWithNote ← field es c!"deprecated_with_note" (decOpt decStr) none
  let args ← field es c!"args" (decWord layoutTable) .auto
  let renameArgs ← field es c!"rename_args" decRule .none
  let swiftNameMacro ← field es c!"swift_name_macro" (decOpt decStr) none
  let sortBy ← field es c!"sort_by" (decOpt (decLower sortKeyTable)) none
  let noReturn ← field es c!"no_return" (decOpt decStr) none
  some ⟨{ pre, post, mustUse, deprecated, deprecatedWithNote, args, renameArgs, swiftNameMacro }, sortBy, noReturn⟩

/-- `StructConfig`, src/bindgen/config.rs:469-506 -/
structure StructPart where
  config : StructConfig
  renameFields : RenameRule

def loadStruct (es : List (Str × Toml)) : Option StructPart := do
  knownKeys [c!"rename_fields", c!"derive_constructor", c!"derive_eq", c!"derive_neq", c!"derive_lt", c!"derive_lte",
    c!"derive_gt", c!"derive_gte", c!"derive_ostream", c!"associated_constants_in_body", c!"rename_associated_constant",
    c!"must_use", c!"deprecated", c!"deprecated_with_note"] es
  let renameFields ← field es c!"rename_fields" decRule .none
  let deriveConstructor ← field es c!"derive_constructor" decBool false
  let deriveEq ← field es c!"derive_eq" decBool false
  let deriveNeq ← field es c!"derive_neq" decBool false
  let deriveLt ← field es c!"derive_lt" decBool false
  let deriveLte ← field es c!"derive_lte" decBool false
  let deriveGt ← field es c!"derive_gt" decBool false
  let deriveGte ← field es c!"derive_gte" decBool false
  let deriveOstream ← field es c!"derive_ostream" decBool false
  let associatedConstantsInBody ← field es c!"associated_constants_in_body" decBool false
  let renameAssociatedConstant ← field es c!"rename_associated_constant" decRule .none
  let mustUse ← field es c!"must_use" (decOpt decStr) none
  let deprecated ← field es c!"deprecated" (decOpt decStr) none
  let deprecatedWithNote ← field es c!"deprecated_with_note" (decOpt decStr) none
  some ⟨{ deriveConstructor, deriveEq, deriveNeq, deriveLt, deriveLte, deriveGt, deriveGte, deriveOstream,
          associatedConstantsInBody, renameAssociatedConstant, mustUse, deprecated, deprecatedWithNote }, renameFields⟩

/-- `EnumConfig`, src/bindgen/config.rs:561-638 -/
structure EnumPart where
  config : EnumConfig
  renameVariants : RenameRule
  renameVariantNameFields : RenameRule
  addSentinel : Bool
  prefixWithName : Bool

def loadEnum (es : List (Str × Toml)) : Option EnumPart := do
  knownKeys [c!"rename_variants", c!"rename_variant_name_fields", c!"add_sentinel", c!"prefix_with_name",
    c!"derive_helper_methods", c!"derive_const_casts", c!"derive_mut_casts", c!"cast_assert_name", c!"must_use", c!"deprecated",
    c!"deprecated_with_note", c!"deprecated_variant", c!"deprecated_variant_with_note", c!"derive_tagged_enum_destructor",
    c!"derive_tagged_enum_copy_constructor", c!"derive_tagged_enum_copy_assignment", c!"derive_ostream", c!"enum_class",
    c!"private_default_tagged_enum_constructor"] es
  let renameVariants ← field es c!"rename_variants" decRule .none
  let renameVariantNameFields ← field es c!"rename_variant_name_fields" decRule .snakeCase
  let addSentinel ← field es c!"add_sentinel" decBool false
  let prefixWithName ← field es c!"prefix_with_name" decBool false
  let deriveHelperMethods ← field es c!"derive_helper_methods" decBool false
  let deriveConstCasts ← field es c!"derive_const_casts" decBool false
  let deriveMutCasts ← field es c!"derive_mut_casts" decBool false
  let castAssertName ← field es c!"cast_assert_name" (decOpt decStr) none
  let mustUse ← field es c!"must_use" (decOpt decStr) none
  let deprecated ← field es c!"deprecated" (decOpt decStr) none
  let deprecatedWithNote ← field es c!"deprecated_with_note" (decOpt decStr) none
  let deprecatedVariant ← field es c!"deprecated_variant" (decOpt decStr) none
  let deprecatedVariantWithNote ← field es c!"deprecated_variant_with_note" (decOpt decStr) none
  let deriveTaggedEnumDestructor ← field es c!"derive_tagged_enum_destructor" decBool false
  let deriveTaggedEnumCopyConstructor ← field es c!"derive_tagged_enum_copy_constructor" decBool false
  let deriveTaggedEnumCopyAssignment ← field es c!"derive_tagged_enum_copy_assignment" decBool false
  let deriveOstream ← field es c!"derive_ostream" decBool false
  let enumClass ← field es c!"enum_class" decBool true
  let privateDefaultTaggedEnumConstructor ← field es c!"private_default_tagged_enum_constructor" decBool false
  some ⟨{ deriveHelperMethods, deriveConstCasts, deriveMutCasts, castAssertName, mustUse, deprecated, deprecatedWithNote,
          deprecatedVariant, deprecatedVariantWithNote, deriveTaggedEnumDestructor, deriveTaggedEnumCopyConstructor,
          deriveTaggedEnumCopyAssignment, deriveOstream, enumClass, privateDefaultTaggedEnumConstructor },
        renameVariants, renameVariantNameFields, addSentinel, prefixWithName⟩

/-- `ConstantConfig`, src/bindgen/config.rs:704-726 -/
structure ConstPart where
  allowStaticConst : Bool
  allowConstexpr : Bool
  sortBy : Option SortKey

def loadConstConfig (es : List (Str × Toml)) : Option ConstPart := do
  knownKeys [c!"allow_static_const", c!"allow_constexpr", c!"sort_by"] es
  let allowStaticConst ← field es c!"allow_static_const" decBool true
  let allowConstexpr ← field es c!"allow_constexpr" decBool true
  let sortBy ← field es c!"sort_by" (decOpt (decLower sortKeyTable)) none
  some ⟨allowStaticConst, allowConstexpr, sortBy⟩

/-- `PtrConfig`, src/bindgen/config.rs:884-894 -/
structure PtrPart where
  nonNull : Option Str
  nullable : Option Str

def loadPtr (es : List (Str × Toml)) : Option PtrPart := do
  knownKeys [c!"non_null_attribute", c!"nullable_attribute"] es
  let nonNull ← field es c!"non_null_attribute" (decOpt decStr) none
  let nullable ← field es c!"nullable_attribute" (decOpt decStr) none
  some ⟨nonNull, nullable⟩

/-- `CythonConfig`, src/bindgen/config.rs:896-907 -/
structure CythonPart where
  header : Option Str
  cimports : List (Str × List Str)

def loadCython (es : List (Str × Toml)) : Option CythonPart := do
  knownKeys [c!"header", c!"cimports"] es
  let header ← field es c!"header" (decOpt decStr) none
  let cimports ← field es c!"cimports" (decSorted (decList decStr)) []
  some ⟨header, cimports⟩

/-- The fields of `Config` that are not structs, src/bindgen/config.rs:909-1035. -/
structure TopPart where
  header : Option Str
  includes : List Str
  sysIncludes : List Str
  afterIncludes : Option Str
  trailer : Option Str
  includeGuard : Option Str
  pragmaOnce : Bool
  noIncludes : Bool
  packageVersion : Bool
  autogenWarning : Option Str
  includeVersion : Bool
  namespace_ : Option Str
  namespaces : Option (List Str)
  usingNamespaces : Option (List Str)
  braces : Braces
  lineLength : Nat
  tabWidth : Nat
  lineEnding : LineEnding
  language : Language
  cppCompat : Bool
  style : Style
  sortBy : SortKey
  usizeIsSizeT : Bool
  defines : List (Str × Str)
  documentation : Bool
  documentationStyle : DocStyle
  documentationLength : DocLength
  onlyTargetDependencies : Bool

def loadTop (es : List (Str × Toml)) : Option TopPart := do
  let header ← field es c!"header" (decOpt decStr) none
  let includes ← field es c!"includes" (decList decStr) []
  let sysIncludes ← field es c!"sys_includes" (decList decStr) []
  let afterIncludes ← field es c!"after_includes" (decOpt decStr) none
  let trailer ← field es c!"trailer" (decOpt decStr) none
  let includeGuard ← field es c!"include_guard" (decOpt decStr) none
  let pragmaOnce ← field es c!"pragma_once" decBool false
  let noIncludes ← field es c!"no_includes" decBool false
  let packageVersion ← field es c!"package_version" decBool false
  let autogenWarning ← field es c!"autogen_warning" (decOpt decStr) none
  let includeVersion ← field es c!"include_version" decBool false
  let namespace_ ← field es c!"namespace" (decOpt decStr) none
  let namespaces ← field es c!"namespaces" (decOpt (decList decStr)) none
  let usingNamespaces ← field es c!"using_namespaces" (decOpt (decList decStr)) none
  let braces ← field es c!"braces" (decWord bracesTable) .sameLine
  let lineLength ← field es c!"line_length" decUsize 100
  let tabWidth ← field es c!"tab_width" decUsize 2
  let lineEnding ← field es c!"line_endings" (decLower lineEndingTable) .lf
  let language ← field es c!"language" (decWord languageTable) .cxx
  let cppCompat ← field es c!"cpp_compat" decBool false
  let style ← field es c!"style" (decWord styleTable) .both
  let sortBy ← field es c!"sort_by" (decLower sortKeyTable) .none
  let usizeIsSizeT ← field es c!"usize_is_size_t" decBool false
  let defines ← field es c!"defines" (decMap decStr) []
  let documentation ← field es c!"documentation" decBool true
  let documentationStyle ← field es c!"documentation_style" (decLower docStyleTable) .auto
  let documentationLength ← field es c!"documentation_length" (decLower docLengthTable) .full
  let onlyTargetDependencies ← field es c!"only_target_dependencies" decBool false
  some { header, includes, sysIncludes, afterIncludes, trailer, includeGuard, pragmaOnce, noIncludes, packageVersion,
         autogenWarning, includeVersion, namespace_, namespaces, usingNamespaces, braces, lineLength, tabWidth, lineEnding,
         language, cppCompat, style, sortBy, usizeIsSizeT, defines, documentation, documentationStyle, documentationLength,
         onlyTargetDependencies }

/-- The keys of the fields that are not structs, and those of the fields that are. -/
def topKeys : List Str :=
  [c!"header", c!"includes", c!"sys_includes", c!"after_includes", c!"trailer", c!"include_guard", c!"pragma_once",
   c!"no_includes", c!"package_version", c!"autogen_warning", c!"include_version", c!"namespace", c!"namespaces",
   c!"using_namespaces", c!"braces", c!"line_length", c!"tab_width", c!"line_endings", c!"language", c!"cpp_compat", c!"style",
   c!"sort_by", c!"usize_is_size_t", c!"defines", c!"documentation", c!"documentation_style", c!"documentation_length",
   c!"only_target_dependencies"]
def sectionKeys : List Str :=
  [c!"parse", c!"export", c!"macro_expansion", c!"layout", c!"fn", c!"struct", c!"enum", c!"const", c!"ptr", c!"cython"]

/-- What no file says: the version, the functions of other crates, and the name of the crate. -/
structure Outside where
  version : Str := []
  strDebug : Str → Str := fun s => ['"'] ++ s ++ ['"']
  caseFns : CaseFns := ⟨id, id, id, id, id, id⟩
  fieldOrder : List LitField → List LitField := id
  bindingCrate : Str := []

/-- The parts of `Config`, src/bindgen/config.rs:909-1035, put together. -/
def Outside.settings (x : Outside) (top : TopPart) (parse : ParsePart) (export_ : ExportPart) (bitflags : Bool)
    (layout : LayoutConfig) (fn : FnPart) (st : StructPart) (en : EnumPart) (co : ConstPart) (ptr : PtrPart)
    (cython : CythonPart) : Settings where
  out :=
    { language := top.language
      usizeIsSizeT := top.usizeIsSizeT
      nonNullAttr := ptr.nonNull
      nullableAttr := ptr.nullable
      noReturn := fn.noReturn
      header := top.header
      includes := top.includes
      sysIncludes := top.sysIncludes
      afterIncludes := top.afterIncludes
      trailer := top.trailer
      includeGuard := top.includeGuard
      pragmaOnce := top.pragmaOnce
      noIncludes := top.noIncludes
      packageVersion := top.packageVersion
      autogenWarning := top.autogenWarning
      includeVersion := top.includeVersion
      namespace_ := top.namespace_
      namespaces := top.namespaces
      usingNamespaces := top.usingNamespaces
      braces := top.braces
      lineLength := top.lineLength
      tabWidth := top.tabWidth
      lineEnding := top.lineEnding
      cppCompat := top.cppCompat
      style := top.style
      preBody := export_.preBody
      body := export_.body
      export_ := export_.config
      layout := layout
      function := fn.config
      structure_ := st.config
      enumeration := en.config
      allowStaticConst := co.allowStaticConst
      allowConstexpr := co.allowConstexpr
      defines := top.defines
      documentation := top.documentation
      documentationStyle := top.documentationStyle
      documentationLength := top.documentationLength
      cythonHeader := cython.header
      cythonCimports := cython.cimports
      version := x.version
      strDebug := x.strDebug
      caseFns := x.caseFns }
  parse :=
    { bindingCrate := x.bindingCrate
      parseDeps := parse.parseDeps
      incl := parse.incl
      exclude := parse.exclude
      expandCrates := parse.expand.crates
      extraBindings := parse.extraBindings
      expandBitflags := bitflags }
  profile := parse.expand.profile
  onlyTargetDependencies := top.onlyTargetDependencies
  sortBy := top.sortBy
  functionSortBy := fn.sortBy
  constantSortBy := co.sortBy
  renameFields := st.renameFields
  renameVariants := en.renameVariants
  prefixWithName := en.prefixWithName
  renameVariantNameFields := en.renameVariantNameFields
  addSentinel := en.addSentinel
  fieldOrder := x.fieldOrder
  allFeatures := parse.expand.allFeatures
  defaultFeatures := parse.expand.defaultFeatures
  features := parse.expand.features
  clean := parse.clean

/-- `Deserialize` of `Config`, src/bindgen/config.rs:909-1035, for the entries of a file. -/
def loadEntries (x : Outside) (es : List (Str × Toml)) : Option Settings := do
  knownKeys (topKeys ++ sectionKeys) es
  let top ← loadTop es
  let parse ← (sectionOf es c!"parse").bind loadParse
  let export_ ← (sectionOf es c!"export").bind loadExport
  let bitflags ← (sectionOf es c!"macro_expansion").bind loadMacroExpansion
  let layout ← (sectionOf es c!"layout").bind loadLayout
  let fn ← (sectionOf es c!"fn").bind loadFunction
  let st ← (sectionOf es c!"struct").bind loadStruct
  let en ← (sectionOf es c!"enum").bind loadEnum
  let co ← (sectionOf es c!"const").bind loadConstConfig
  let ptr ← (sectionOf es c!"ptr").bind loadPtr
  let cython ← (sectionOf es c!"cython").bind loadCython
  some (x.settings top parse export_ bitflags layout fn st en co ptr cython)

/-- `toml::from_str::<Config>` for a parsed file; `none` is an error. -/
def loadConfig (x : Outside) : Toml → Option Settings
  | .table es => loadEntries x es
  | _ => none

/-- `Config::default`, src/bindgen/config.rs:1037-1081. -/
def defaultConfig (x : Outside) : Settings where
  out := { language := .cxx, version := x.version, strDebug := x.strDebug, caseFns := x.caseFns }
  parse := { bindingCrate := x.bindingCrate }
  fieldOrder := x.fieldOrder

/-- The files with configurations: whether there is one, and what toml makes of it; `none` if it cannot be read or parsed. -/
structure ConfigFiles where
  fileExists : Str → Bool
  parsed : Str → Option Toml
  /-- `Path::join` with `cbindgen.toml` -/
  inDir : Str → Str

/-- `Config::from_file`, src/bindgen/config.rs:1112-1126. -/
def ConfigFiles.fromFile (f : ConfigFiles) (x : Outside) (p : Str) : Option Settings := (f.parsed p).bind (loadConfig x)

/-- `Config::from_root_or_default`, src/bindgen/config.rs:1128-1136; `none` is a panic. -/
def ConfigFiles.fromRoot (f : ConfigFiles) (x : Outside) (dir : Str) : Option Settings :=
  if f.fileExists (f.inDir dir) then f.fromFile x (f.inDir dir) else some (defaultConfig x)

end Cbindgen
