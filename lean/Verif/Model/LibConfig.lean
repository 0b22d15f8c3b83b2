import Verif.Model.TyOps

/-!
# The configuration of the library stage, and name mangling
-/

namespace Cbindgen

/-- `ItemType`, src/bindgen/config.rs:265-274. -/
inductive ItemType
  | constants
  | globals
  | enums
  | structs
  | unions
  | typedefs
  | opaqueItems
  | functions
  deriving DecidableEq

/-- `MangleConfig`, src/bindgen/config.rs:351-356. -/
structure MangleConfig where
  renameTypes : RenameRule := .none
  removeUnderscores : Bool := false

/-- `ExportConfig`, src/bindgen/config.rs:324-345, without the `pre_body` and `body` texts.  The hash
map `rename` is an association list; only lookups are made. -/
structure ExportConfig where
  inc : List Str := []
  exclude : List Str := []
  rename : List (Str × Str) := []
  pre : Option Str := none
  itemTypes : List ItemType := []
  renamingOverridesPrefixing : Bool := false
  mangle : MangleConfig := {}

/-- `ExportConfig::should_generate`, src/bindgen/config.rs:359-361. -/
def ExportConfig.shouldGenerate (c : ExportConfig) (t : ItemType) : Bool :=
  c.itemTypes.isEmpty || c.itemTypes.contains t

/-- The prefixing step of `ExportConfig::rename`, src/bindgen/config.rs:378-380. -/
def ExportConfig.addPrefix (c : ExportConfig) (n : Str) : Str :=
  match c.pre with
  | some p => p ++ n
  | none => n

/-- `ExportConfig::rename`, src/bindgen/config.rs:371-381, as a function of the name. -/
def ExportConfig.renameName (c : ExportConfig) (n : Str) : Str :=
  match c.rename.lookup n with
  | some m => if c.renamingOverridesPrefixing then m else c.addPrefix m
  | none => c.addPrefix n

/-- `SortKey`, src/bindgen/config.rs:299-302. -/
inductive SortKey
  | name
  | none
  deriving DecidableEq

/-- The options read by `Library::generate` and the `rename_for_config` methods. -/
structure LibConfig where
  language : Language := .c
  export_ : ExportConfig := {}
  /-- `style.generate_tag()`, src/bindgen/config.rs:224-229. -/
  generateTag : Bool := true
  sortBy : SortKey := .none
  functionSortBy : Option SortKey := none
  constantSortBy : Option SortKey := none
  /-- `structure.rename_fields`. -/
  renameFields : RenameRule := .none
  /-- `function.rename_args`. -/
  renameArgs : RenameRule := .none
  /-- `enumeration.rename_variants`. -/
  renameVariants : RenameRule := .none
  /-- `enumeration.prefix_with_name`. -/
  prefixWithName : Bool := false
  caseFns : CaseFns

/-- `config.export.rename` of a configuration. -/
def LibConfig.ren (c : LibConfig) : Str → Str := c.export_.renameName

/-! ## Rename rules as text -/

/-- The match of `RenameRule::from_str`, src/bindgen/rename.rs:107-139, as a table. -/
def renameRuleTable : List (Str × RenameRule) :=
  [ (c!"none", .none), (c!"None", .none),
    (c!"mGeckoCase", .geckoCase), (c!"GeckoCase", .geckoCase), (c!"gecko_case", .geckoCase),
    (c!"lowercase", .lowerCase), (c!"LowerCase", .lowerCase), (c!"lower_case", .lowerCase),
    (c!"UPPERCASE", .upperCase), (c!"UpperCase", .upperCase), (c!"upper_case", .upperCase),
    (c!"PascalCase", .pascalCase), (c!"pascal_case", .pascalCase),
    (c!"camelCase", .camelCase), (c!"CamelCase", .camelCase), (c!"camel_case", .camelCase),
    (c!"snake_case", .snakeCase), (c!"SnakeCase", .snakeCase),
    (c!"SCREAMING_SNAKE_CASE", .screamingSnakeCase), (c!"ScreamingSnakeCase", .screamingSnakeCase),
    (c!"screaming_snake_case", .screamingSnakeCase),
    (c!"QUALIFIED_SCREAMING_SNAKE_CASE", .qualifiedScreamingSnakeCase),
    (c!"QualifiedScreamingSnakeCase", .qualifiedScreamingSnakeCase),
    (c!"qualified_screaming_snake_case", .qualifiedScreamingSnakeCase) ]

/-- `RenameRule::from_str`, src/bindgen/rename.rs:103-145. -/
def RenameRule.parse (s : Str) : Option RenameRule :=
  match renameRuleTable.lookup s with
  | some r => some r
  | Option.none =>
    if c!"prefix:".isPrefixOf s then some (.prefixWith (s.drop 7)) else Option.none

/-- `annotations.parse_atom::<RenameRule>("rename-all")` with the config's rule as the fallback,
src/bindgen/ir/annotation.rs:197-208; `none` is a panic: the text is not a rule. -/
def Annotations.ruleOr (a : Annotations) (dflt : RenameRule) : Option RenameRule :=
  match a.entries.lookup c!"rename-all" with
  | some (.atom (some s)) => RenameRule.parse s
  | some (.atom none) => some .none
  | _ => some dflt

/-! ## Mangling: src/bindgen/mangle.rs -/

/-- `Separator`, src/bindgen/mangle.rs:21-32, with its number. -/
inductive Separator
  | openingAngleBracket
  | comma
  | closingAngleBracket
  | beginMutPtr
  | beginConstPtr
  | beginFn
  | betweenFnArg
  | endFn
  | beginArray
  | betweenArray

/-- `id as usize`, src/bindgen/mangle.rs:63. -/
def Separator.count : Separator → Nat
  | .openingAngleBracket => 1
  | .comma => 2
  | .closingAngleBracket => 3
  | .beginMutPtr => 4
  | .beginConstPtr => 5
  | .beginFn => 6
  | .betweenFnArg => 7
  | .endFn => 8
  | .beginArray => 9
  | .betweenArray => 10

/-- `Mangler::push`, src/bindgen/mangle.rs:62-70. -/
def MangleConfig.sep (c : MangleConfig) (s : Separator) : Str :=
  if c.removeUnderscores then [] else List.replicate s.count '_'

/-- A separator that is left out at the end of the name, src/bindgen/mangle.rs:125-127 and 155-157. -/
def MangleConfig.sepUnless (c : MangleConfig) (last : Bool) (s : Separator) : Str :=
  if last then [] else c.sep s

mutual
/-- `Mangler::append_mangled_type`, src/bindgen/mangle.rs:86-136: the text appended.  `selfLast` is
the mangler's own `last`. -/
def Ty.mangle (f : CaseFns) (c : MangleConfig) (selfLast last : Bool) : Ty → Str
  | .path _ e gs _ => c.renameTypes.apply f (e ++ GArg.mangleTail f c last gs) .type
  | .prim p => c.renameTypes.apply f p.toReprRust .type
  | .ptr t true _ _ => c.sep .beginConstPtr ++ t.mangle f c selfLast last
  | .ptr t false _ _ => c.sep .beginMutPtr ++ t.mangle f c selfLast last
  | .fnptr r as _ _ =>
    c.sep .beginFn ++ r.mangle f c selfLast as.isEmpty ++ FArg.mangleList f c selfLast last as ++
      c.sepUnless selfLast .endFn
  | .array t l =>
    c.sep .beginArray ++ t.mangle f c selfLast false ++ c.sep .betweenArray ++
      (match l with
        | .path _ e => c.renameTypes.apply f e .type
        | .value s => s)
/-- `Mangler::append_mangled_argument`, src/bindgen/mangle.rs:72-84. -/
def GArg.mangle (f : CaseFns) (c : MangleConfig) (selfLast last : Bool) : GArg → Str
  | .type t => t.mangle f c selfLast last
  | .const (.path _ e) => c.renameTypes.apply f e .type
  | .const (.value s) => s
def FArg.mangle (f : CaseFns) (c : MangleConfig) (selfLast last : Bool) : FArg → Str
  | .mk _ t => t.mangle f c selfLast last
/-- The arguments of a function pointer, src/bindgen/mangle.rs:120-124. -/
def FArg.mangleList (f : CaseFns) (c : MangleConfig) (selfLast last : Bool) : List FArg → Str
  | [] => []
  | a :: as =>
    c.sep .betweenFnArg ++ a.mangle f c selfLast (last && as.isEmpty) ++
      FArg.mangleList f c selfLast last as
/-- `Mangler::mangle_internal`, src/bindgen/mangle.rs:138-158, after the name itself. -/
def GArg.mangleTail (f : CaseFns) (c : MangleConfig) (last : Bool) : List GArg → Str
  | [] => []
  | g :: gs =>
    c.sep .openingAngleBracket ++ g.mangle f c last (last && gs.isEmpty) ++
      GArg.mangleRest f c last gs ++ c.sepUnless last .closingAngleBracket
/-- The arguments after the first one, src/bindgen/mangle.rs:147-153. -/
def GArg.mangleRest (f : CaseFns) (c : MangleConfig) (last : Bool) : List GArg → Str
  | [] => []
  | g :: gs =>
    c.sep .comma ++ g.mangle f c last (last && gs.isEmpty) ++ GArg.mangleRest f c last gs
end

/-- `mangle_name`, src/bindgen/mangle.rs:13-19. -/
def mangleName (f : CaseFns) (c : MangleConfig) (name : Str) (gs : List GArg) : Str :=
  name ++ GArg.mangleTail f c true gs

/-- `mangle_path(path, generic_values, &config.export.mangle)`. -/
def LibConfig.manglePath (c : LibConfig) (path : Str) (gs : List GArg) : Str :=
  mangleName c.caseFns c.export_.mangle path gs

end Cbindgen
