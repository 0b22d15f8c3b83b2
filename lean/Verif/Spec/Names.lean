import Verif.Model.Names
import Verif.Spec.Cfg

/-! # Keywords and enumerations -/

namespace Cbindgen.NameSpec

open Cbindgen CfgSpec

/-- The keywords of C11. -/
def c11Keywords : List Str :=
  [ c!"auto", c!"break", c!"case", c!"char", c!"const", c!"continue", c!"default", c!"do",
    c!"double", c!"else", c!"enum", c!"extern", c!"float", c!"for", c!"goto", c!"if", c!"inline",
    c!"int", c!"long", c!"register", c!"restrict", c!"return", c!"short", c!"signed", c!"sizeof",
    c!"static", c!"struct", c!"switch", c!"typedef", c!"union", c!"unsigned", c!"void",
    c!"volatile", c!"while", c!"_Alignas", c!"_Alignof", c!"_Atomic", c!"_Bool", c!"_Complex",
    c!"_Generic", c!"_Imaginary", c!"_Noreturn", c!"_Static_assert", c!"_Thread_local" ]

/-- The keywords of C++20, with the alternative operator spellings. -/
def cxx20Keywords : List Str :=
  [ c!"alignas", c!"alignof", c!"and", c!"and_eq", c!"asm", c!"auto", c!"bitand", c!"bitor",
    c!"bool", c!"break", c!"case", c!"catch", c!"char", c!"char8_t", c!"char16_t", c!"char32_t",
    c!"class", c!"compl", c!"concept", c!"const", c!"consteval", c!"constexpr", c!"constinit",
    c!"const_cast", c!"continue", c!"co_await", c!"co_return", c!"co_yield", c!"decltype",
    c!"default", c!"delete", c!"do", c!"double", c!"dynamic_cast", c!"else", c!"enum", c!"explicit",
    c!"export", c!"extern", c!"false", c!"float", c!"for", c!"friend", c!"goto", c!"if", c!"inline",
    c!"int", c!"long", c!"mutable", c!"namespace", c!"new", c!"noexcept", c!"not", c!"not_eq",
    c!"nullptr", c!"operator", c!"or", c!"or_eq", c!"private", c!"protected", c!"public",
    c!"register", c!"reinterpret_cast", c!"requires", c!"return", c!"short", c!"signed", c!"sizeof",
    c!"static", c!"static_assert", c!"static_cast", c!"struct", c!"switch", c!"template", c!"this",
    c!"thread_local", c!"throw", c!"true", c!"try", c!"typedef", c!"typeid", c!"typename", c!"union",
    c!"unsigned", c!"using", c!"virtual", c!"void", c!"volatile", c!"wchar_t", c!"while", c!"xor",
    c!"xor_eq" ]

/-- A word that cannot be used as an identifier in a C11 or C++20 header. -/
def Keyword (s : Str) : Prop := s ∈ c11Keywords ∨ s ∈ cxx20Keywords

/-- The keywords that are missing from cbindgen's table. -/
def missingKeywords : List Str :=
  [ c!"restrict", c!"_Alignas", c!"_Alignof", c!"_Atomic", c!"_Bool", c!"_Complex", c!"_Generic",
    c!"_Imaginary", c!"_Noreturn", c!"_Static_assert", c!"_Thread_local", c!"and", c!"and_eq",
    c!"asm", c!"bitand", c!"bitor", c!"compl", c!"concept", c!"constinit", c!"co_await",
    c!"co_return", c!"co_yield", c!"not", c!"not_eq", c!"or", c!"or_eq", c!"requires", c!"typeid",
    c!"xor", c!"xor_eq" ]

/-- Values of the enumerators of an enumeration, in Rust and in C: an explicit value, or the
previous one plus one, or zero at the start. -/
def enumValues {α D : Type} (eval : D → Int) (disc : α → Option D) : Int → List α → List (α × Int)
  | _, [] => []
  | next, a :: as =>
    let v := match disc a with
      | some d => eval d
      | none => next
    (a, v) :: enumValues eval disc (v + 1) as

/-- An enumerator is seen by the compiler if it has no guard or its guard is true. -/
def visible {D : Type} (defined : Str → Bool) (e : Enumerator D) : Bool :=
  match e.guard with
  | none => true
  | some k => condHolds defined k

/-- The documented effect of a rename rule on an identifier (docs.md, `rename_args`, `rename_fields`,
`rename_variants`): `letter` is what the rule `GeckoCase` puts before it, `owner` is the enum of a
variant. -/
def ruled (f : CaseFns) (letter : Str) (owner : Option Str) : RenameRule → Str → Str
  | .none, s => s
  | .geckoCase, s => letter ++ f.upperCamel s
  | .lowerCase, s => f.lower s
  | .upperCase, s => f.upper s
  | .pascalCase, s => f.upperCamel s
  | .camelCase, s => f.lowerCamel s
  | .snakeCase, s => f.snake s
  | .screamingSnakeCase, s => f.shouty s
  | .qualifiedScreamingSnakeCase, s =>
    match owner with
    | some e => f.shouty e ++ c!"_" ++ f.shouty s
    | none => f.shouty s
  | .prefixWith p, s => p ++ s

/-- The name documented for a variant: escaped if it is a reserved word, prefixed with the enum's
name if so configured, and then subjected to the rename rule. -/
def variantName (f : CaseFns) (cfg : VariantConfig) (enumName ident : Str) : Str :=
  let base := if ident ∈ reservedKeywords then ident ++ c!"_" else ident
  let sep := if cfg.removeUnderscores then [] else c!"_"
  let full := if cfg.prefixWithName then enumName ++ sep ++ base else base
  ruled f [] (some enumName) cfg.rule full

/-- The name documented for the field at a position of a struct, before reserved words are escaped:
the one given by the `field-names` annotation; otherwise the result of the rename rule; without
either, an underscore is put before a digit. -/
def fieldName (f : CaseFns) (fieldNames : Option (List Str)) (rule : RenameRule) (i : Nat)
    (name : Str) : Str :=
  match fieldNames with
  | some o => (o[i]?).getD name
  | none =>
    if rule ≠ .none then ruled f c!"m" none rule name
    else match name with
      | c :: _ => if '0' ≤ c ∧ c ≤ '9' then '_' :: name else name
      | [] => name

end Cbindgen.NameSpec
