import Verif.Spec.OnlyTypes

/-!
# The enumerators that a header may have (C85)
-/

namespace Cbindgen.HeadSpec
open LexSpec CSpec

/-- The enumerators of a declaration of an enum. -/
def CItem.enumerators : CItem → Option (List Enumerator)
  | .enumeration _ _ _ _ es => some es
  | .enumClass _ _ _ es => some es
  | .template _ d => d.enumerators
  | _ => none

/-- The members of a declaration of a `struct` or `union`. -/
def CItem.members : CItem → List CItem
  | .record _ _ _ _ ms => ms
  | .template _ d => d.members
  | _ => []

/-- The texts of the settings for the bodies of types have no enums. -/
def NoEnumsInside (R : Dialect) (on : Str → Bool) (c : OutConfig) : Prop :=
  ∀ p, ∀ k ∈ [c.preBodyOf p, c.postBodyOf p], ∀ m ∈ (blockOut R on k).items, m.enumerators = none

end Cbindgen.HeadSpec

namespace Cbindgen.SrcSpec

/-- The enumerators that an enum of the sources asks for, with the predicates of their own: its variants, what its annotation
lists, and a sentinel. -/
inductive AsksFor (lc : LoadConfig) (s : SynEnum) (a : Annotations) : Str → List Cfg → Prop
  | variant {v : SynVariant} : v ∈ s.variants → AsksFor lc s a (unraw v.ident) (conds v.attrs)
  | more {n} : n ∈ moreNames lc a → AsksFor lc s a n []

end Cbindgen.SrcSpec
