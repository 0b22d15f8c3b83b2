import Verif.Spec.HeaderAll
import Verif.Spec.Main
import Verif.Spec.SourceDefs

/-!
# The types that a header may define (C82)
-/

namespace Cbindgen.HeadSpec
open LexSpec CSpec

/-- The names of types that a declaration introduces where it stands. -/
def CItem.defines : CItem → List Str
  | .alias n _ => [n]
  | .forward _ t => [t]
  | .record _ _ tag name _ => tag.toList ++ name.toList
  | .enumeration _ tag _ name _ => tag.toList ++ name.toList
  | .enumClass _ n _ _ => [n]
  | .template _ d => d.defines
  | _ => []

end Cbindgen.HeadSpec

namespace Cbindgen.SrcSpec

/-- The names in C for an item of the sources with values for its parameters: its own name; if it is an enum with data, one
for the enum of its tags and one for the struct of every variant with fields. -/
inductive NameFor (c : LibConfig) (t : Taken) (vs : List GArg) : Str → Prop
  | own {q} : typeName t = some q → NameFor c t vs (c.ren (c.manglePath q vs))
  | tag {s} : t = .enum s → withData s = true → NameFor c t vs (c.ren (c.manglePath (unraw s.ident) vs) ++ c!"_Tag")
  | body {s v lead} : t = .enum s → v ∈ s.variants → hasFields v.fields = true →
      lead = [] ∨ lead = c.ren (c.manglePath (unraw s.ident) vs) ++ c.variantSep →
      NameFor c t vs (lead ++ c.ren (c.manglePath (v.ident ++ c!"_Body") vs))

/-- The attributes of the definition of a type. -/
def typeAttrs : Taken → List SAttr
  | .struct s => s.attrs
  | .union s => s.attrs
  | .enum s => s.attrs
  | .alias s => s.attrs
  | .bitflags b => b.struct.getD []
  | _ => []

/-- An item of the sources that the settings and its annotations let through, where its `cfg`s hold. -/
structure Offered (pc : ParseConfig) (i : Inputs) (c : LibConfig) (defines : List (Str × Str)) (rust : CfgSpec.Opt → Bool)
    (t : Taken) (q : Str) (vs : List GArg) : Prop where
  name : typeName t = some q
  kept : c.manglePath q vs ∉ c.export_.exclude
  given : ∃ cs, Given pc i t cs ∧ ((∀ x ∈ cs, CfgSpec.Mapped defines x) → ∀ x ∈ cs, CfgSpec.holds rust x = true)
  exported : ∀ a, Annotations.load (typeAttrs t) = .ok a → a.shouldExport = true
  wanted : ∃ k, (kindOf t = some k ∨ k = .opaqueItems) ∧ c.export_.shouldGenerate k = true

/-- A type of the standard library, which is left opaque. -/
def StdName (i : Inputs) (c : LibConfig) (vs : List GArg) (n : Str) : Prop :=
  i.stdTypes = true ∧ c.export_.shouldGenerate .opaqueItems = true ∧ ∃ q ∈ MainSpec.knownTypes, c.manglePath q vs ∉ c.export_.exclude ∧ n = c.ren (c.manglePath q vs)

/-- Where the name of a type in a C header comes from.  The last case is the struct of a variant of a generic enum, that
something asks for by its name. -/
def CSource (pc : ParseConfig) (i : Inputs) (c : LibConfig) (defines : List (Str × Str)) (rust : CfgSpec.Opt → Bool) (n : Str) : Prop :=
  ∃ vs, (∃ t q, Offered pc i c defines rust t q vs ∧ NameFor c t vs n) ∨ StdName i c vs n ∨
    (vs ≠ [] ∧ ∃ s v cs, Given pc i (.enum s) cs ∧ v ∈ s.variants ∧ hasFields v.fields = true ∧
      n = c.ren (c.manglePath (v.ident ++ c!"_Body") vs))

/-- Where the name of a type in a C++ header comes from: generic items stay generic, and the types for the tags and variants
of an enum are inside its class. -/
def CxxSource (pc : ParseConfig) (i : Inputs) (c : LibConfig) (defines : List (Str × Str)) (rust : CfgSpec.Opt → Bool) (n : Str) : Prop :=
  (∃ t q, Offered pc i c defines rust t q [] ∧ n = c.ren q) ∨ StdName i c [] n

end Cbindgen.SrcSpec
