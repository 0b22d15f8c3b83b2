import Verif.Model.CDecl
import Verif.Model.Cfg

/-!
# Names of fields, arguments and enumerators

src/bindgen/reserved.rs, src/bindgen/rename.rs and the naming parts of `rename_for_config` in
src/bindgen/ir/structure.rs, union.rs, function.rs and enumeration.rs.
-/

namespace Cbindgen

/-! ## Reserved words -/

/-- `RESERVED_KEYWORDS`, src/bindgen/reserved.rs:8-82. -/
def reservedKeywords : List Str :=
  [ c!"alignas", c!"alignof", c!"auto", c!"bool", c!"break", c!"case", c!"catch", c!"char",
    c!"char16_t", c!"char32_t", c!"char8_t", c!"class", c!"const", c!"const_cast", c!"consteval",
    c!"constexpr", c!"continue", c!"decltype", c!"default", c!"delete", c!"do", c!"double",
    c!"dynamic_cast", c!"else", c!"enum", c!"explicit", c!"export", c!"extern", c!"false", c!"float",
    c!"for", c!"friend", c!"goto", c!"if", c!"inline", c!"int", c!"long", c!"mutable", c!"namespace",
    c!"new", c!"noexcept", c!"nullptr", c!"operator", c!"private", c!"protected", c!"public",
    c!"register", c!"reinterpret_cast", c!"return", c!"short", c!"signed", c!"sizeof", c!"static",
    c!"static_assert", c!"static_cast", c!"struct", c!"switch", c!"template", c!"this",
    c!"thread_local", c!"throw", c!"true", c!"try", c!"typedef", c!"typename", c!"union",
    c!"unsigned", c!"using", c!"virtual", c!"void", c!"volatile", c!"wchar_t", c!"while" ]

/-- The order of Rust strings: bytes of the UTF-8 encoding, which is the order of code points. -/
def strLt : Str → Str → Bool
  | [], [] => false
  | [], _ :: _ => true
  | _ :: _, [] => false
  | a :: as, b :: bs => if a.toNat < b.toNat then true else if a = b then strLt as bs else false

/-- `slice::binary_search` of the standard library, on the remaining part of the slice: the middle
element decides which part is kept.  `fuel` bounds the number of steps. -/
def binarySearch (x : Str) : Nat → List Str → Bool
  | 0, _ => false
  | _ + 1, [] => false
  | _ + 1, [y] => decide (x = y)
  | n + 1, l =>
    let half := l.length / 2
    match l.drop half with
    | [] => false
    | y :: rest => if strLt x y then binarySearch x n (l.take (l.length - half))
      else binarySearch x n (y :: rest)

/-- `escape`, src/bindgen/reserved.rs:84-91. -/
def escape (s : Str) : Str :=
  if binarySearch s reservedKeywords.length reservedKeywords then s ++ c!"_" else s

/-! ## Rename rules -/

/-- The case conversions of the `heck` crate and of `str`, which are not modelled. -/
structure CaseFns where
  upperCamel : Str → Str
  lower : Str → Str
  upper : Str → Str
  lowerCamel : Str → Str
  snake : Str → Str
  shouty : Str → Str

/-- `IdentifierType`, src/bindgen/rename.rs:10-16. -/
inductive IdentType
  | structMember
  | enumVariant (pre : Str)
  | functionArg
  | type
  | enum

/-- `IdentifierType::to_str`, src/bindgen/rename.rs:19-27. -/
def IdentType.toStr : IdentType → Str
  | .structMember => c!"m"
  | .functionArg => c!"a"
  | _ => []

/-- `RenameRule`, src/bindgen/rename.rs:32-55. -/
inductive RenameRule
  | none
  | geckoCase
  | lowerCase
  | upperCase
  | pascalCase
  | camelCase
  | snakeCase
  | screamingSnakeCase
  | qualifiedScreamingSnakeCase
  | prefixWith (p : Str)
  deriving DecidableEq

/-- `RenameRule::not_none`, src/bindgen/rename.rs:58-63. -/
def RenameRule.notNone : RenameRule → Option RenameRule
  | .none => Option.none
  | r => some r

/-- `ScreamingSnakeCase.apply`, src/bindgen/rename.rs:69-71 and 81. -/
def screaming (f : CaseFns) (s : Str) : Str := if s = [] then [] else f.shouty s

/-- `RenameRule::apply`, src/bindgen/rename.rs:66-97. -/
def RenameRule.apply (f : CaseFns) (r : RenameRule) (text : Str) (ctx : IdentType) : Str :=
  if text = [] then []
  else
    match r with
    | .none => text
    | .geckoCase => ctx.toStr ++ f.upperCamel text
    | .lowerCase => f.lower text
    | .upperCase => f.upper text
    | .pascalCase => f.upperCamel text
    | .camelCase => f.lowerCamel text
    | .snakeCase => f.snake text
    | .screamingSnakeCase => screaming f text
    | .qualifiedScreamingSnakeCase =>
      match ctx with
      | .enumVariant pre => screaming f pre ++ c!"_" ++ screaming f text
      | _ => screaming f text
    | .prefixWith p => p ++ text

/-! ## Fields -/

/-- `for (dest, src) in names.zip(o) { *dest = src }`, src/bindgen/ir/structure.rs:348-350, and the
loop of src/bindgen/ir/union.rs:177-189: the first names are replaced, the rest is kept. -/
def overwrite : List Str → List Str → List Str
  | [], _ => []
  | ns, [] => ns
  | _ :: ns, o :: os => o :: overwrite ns os

/-- `name.starts_with(|c| c.is_ascii_digit())` and the insertion of `_`,
src/bindgen/ir/structure.rs:359-361. -/
def underscoreDigit : Str → Str
  | [] => []
  | c :: cs => if '0' ≤ c ∧ c ≤ '9' then '_' :: c :: cs else c :: cs

/-- The renaming of the fields of a struct, src/bindgen/ir/structure.rs:329-368: `fieldNames` is the
`field-names` annotation, `rule` the `rename-all` annotation or else the config's rule. -/
def structFieldNames (f : CaseFns) (fieldNames : Option (List Str)) (rule : RenameRule)
    (names : List Str) : List Str :=
  let renamed :=
    match fieldNames with
    | some o => overwrite names o
    | none =>
      match rule.notNone with
      | some r => names.map fun n => r.apply f n .structMember
      | none => names.map underscoreDigit
  renamed.map escape

/-- The renaming of the fields of a union, src/bindgen/ir/union.rs:171-212. -/
def unionFieldNames (f : CaseFns) (fieldNames : Option (List Str)) (rule : RenameRule)
    (tupleUnion : Bool) (names : List Str) : List Str :=
  match fieldNames with
  | some o => overwrite names o
  | none =>
    match rule.notNone with
    | some r => names.map fun n => r.apply f n .structMember
    | none => if tupleUnion then names.map ('_' :: ·) else names

/-! ## Arguments -/

/-- The renaming of an argument, src/bindgen/ir/function.rs:158-187 (without its type). -/
def argName (f : CaseFns) (rule : RenameRule) (n : Str) : Str :=
  escape (match rule.notNone with
    | some r => r.apply f n .functionArg
    | none => n)

/-- `str_tuple[1..str_tuple.len() - 1]`, src/bindgen/ir/function.rs:194; `none` is a panic: an empty
string or one of length one, or a first or last character that is longer than one byte. -/
def stripTuple (s : Str) : Option Str :=
  match s with
  | [] => none
  | [_] => none
  | c :: d :: cs =>
    if c.toNat < 128 ∧ ((d :: cs).getLast (by simp)).toNat < 128 then some ((d :: cs).dropLast)
    else none

/-- The map built from the `ptrs-as-arrays` annotation, src/bindgen/ir/function.rs:192-205: a later
entry for a name replaces an earlier one.  Entries that do not have two parts are dropped.  As an
association list, the latest entry first. -/
def arrayTuples : List Str → Option (List (Str × Str))
  | [] => some []
  | s :: ss =>
    match stripTuple s, arrayTuples ss with
    | some body, some rest =>
      match (splitChar ';' body).map trim with
      | [a, b] => some (rest ++ [(a, b)])
      | _ => some rest
    | _, _ => none

/-- Is it a pointer?  src/bindgen/ir/function.rs:208-211. -/
def Ty.isPtrTy : Ty → Bool
  | .ptr .. => true
  | _ => false

/-- The array length of one argument, src/bindgen/ir/function.rs:207-217. -/
def setArrayLength (m : List (Str × Str)) (a : FnArg) : FnArg :=
  if a.ty.isPtrTy then
    match a.name with
    | some n => { a with arrayLength := m.lookup n }
    | none => a
  else a

/-- The arguments in `Function::rename_for_config`, src/bindgen/ir/function.rs:153-219, without the
renaming of types: `renTy`.  `arrays` is the `ptrs-as-arrays` annotation.  `none` is a panic. -/
def renameArgs (f : CaseFns) (renTy : Ty → Ty) (rule : RenameRule) (arrays : Option (List Str))
    (args : List FnArg) : Option (List FnArg) :=
  let args := args.map fun a =>
    { name := a.name.map (argName f rule), ty := renTy a.ty,
      arrayLength := if rule.notNone.isSome then none else a.arrayLength : FnArg }
  match arrays with
  | none => some args
  | some ts => (arrayTuples ts).map fun m => args.map (setArrayLength m)

/-! ## Enumerators -/

/-- What the naming of enum variants looks at: `EnumVariant`, src/bindgen/ir/enumeration.rs:88-95.
`D` is the type of discriminant expressions.  `body` is the name of the variant's member, if the
variant has data. -/
structure Variant (D : Type) where
  exportName : Str
  disc : Option D := none
  body : Option Str := none
  cfg : Option Cfg := none

/-- A variant as it is read, with what `Enum::load` adds after the variants of the source: the
`enum-trailing-values` annotation and the sentinel, src/bindgen/ir/enumeration.rs:378-412. -/
def loadVariants {D : Type} (variants : List (Variant D)) (trailing : Option (List Str))
    (sentinel : Bool) : List (Variant D) :=
  variants ++ (match trailing with
    | some ns => ns.map fun n => { exportName := n }
    | none => []) ++
  (if sentinel then [{ exportName := c!"Sentinel" }] else [])

/-- The options that name variants: `prefix` is the `prefix-with-name` annotation or else the
config's value, `rule` the `rename-all` annotation or else the config's rule. -/
structure VariantConfig where
  prefixWithName : Bool := false
  removeUnderscores : Bool := false
  rule : RenameRule := .none

/-- Escape and prefix, src/bindgen/ir/enumeration.rs:529-564. -/
def prefixVariant {D : Type} (cfg : VariantConfig) (enumName : Str) (v : Variant D) : Variant D :=
  let name := escape v.exportName
  { v with
    exportName := if cfg.prefixWithName then
        enumName ++ (if cfg.removeUnderscores then [] else c!"_") ++ name
      else name
    body := v.body.map escape }

/-- The rename rule, src/bindgen/ir/enumeration.rs:571-604. -/
def ruleVariant {D : Type} (f : CaseFns) (enumName : Str) (r : RenameRule) (v : Variant D) :
    Variant D :=
  { v with
    exportName := r.apply f v.exportName (.enumVariant enumName)
    body := v.body.map fun b => r.apply f b .structMember }

/-- `Enum::rename_for_config`, src/bindgen/ir/enumeration.rs:511-605, as far as the names of the
variants are concerned; discriminants are renamed by `renDisc`. -/
def renameVariants {D : Type} (f : CaseFns) (renDisc : D → D) (cfg : VariantConfig) (enumName : Str)
    (vs : List (Variant D)) : List (Variant D) :=
  let vs := vs.map fun v => prefixVariant cfg enumName { v with disc := v.disc.map renDisc }
  match cfg.rule.notNone with
  | some r => vs.map (ruleVariant f enumName r)
  | none => vs

/-- An enumerator in the header: its guard, name and value expression. -/
structure Enumerator (D : Type) where
  guard : Option Condition
  name : Str
  disc : Option D

/-- `write_enum_variant`, src/bindgen/language_backend/clike.rs:22-43, without documentation and
attributes. -/
def writeVariant {D : Type} (defines : List (Str × Str)) (v : Variant D) : Enumerator D :=
  ⟨optToCondition defines v.cfg, v.exportName, v.disc⟩

end Cbindgen
