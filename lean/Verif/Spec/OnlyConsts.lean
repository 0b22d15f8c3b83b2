import Verif.Spec.SourceDefs

/-!
# The macros that a header may define (C84)
-/

namespace Cbindgen.SrcSpec

/-- The name of a type in front of its constants: its name in C, to which a rule for names may be applied. -/
def Lead (c : LibConfig) (f : CaseFns) (q lead : Str) : Prop :=
  lead = c.ren q ∨ ∃ r : RenameRule, lead = r.apply f (c.ren q) .type

/-- The names in C for a constant of the sources, with the predicates that the constant has inside of its item. -/
inductive ConstName (c : LibConfig) (f : CaseFns) : Taken → List Cfg → Str → Prop
  | const {k : SynConst} : c.export_.shouldGenerate .constants = true → unraw k.ident ∉ c.export_.exclude →
      ConstName c f (.const k) [] (c.ren (unraw k.ident))
  | assoc {q lead} {k : SynConst} : Lead c f q lead → ConstName c f (.assoc q k) [] (lead ++ c!"_" ++ unraw k.ident)
  | flag {b : SynBitflags} {x lead} : x ∈ b.flags → Lead c f (unraw b.name) lead →
      ConstName c f (.bitflags b) (conds x.attrs) (lead ++ c!"_" ++ unraw x.name)

/-- The flags are not under predicates that only the struct of `bitflags!` has. -/
def StructFree (t : Taken) : Prop := ∀ b, t = .bitflags b → conds (b.struct.getD []) = []

/-- Where the name of a macro comes from: a constant of the sources, where its `cfg`s hold. -/
def MacroSource (pc : ParseConfig) (i : Inputs) (c : LibConfig) (f : CaseFns) (defines : List (Str × Str)) (rust : CfgSpec.Opt → Bool)
    (n : Str) : Prop :=
  ∃ t cs own, Given pc i t cs ∧ ConstName c f t own n ∧
    ((∀ x ∈ cs ++ own, CfgSpec.Mapped defines x) →
      (∀ x ∈ own, CfgSpec.holds rust x = true) ∧ (StructFree t → ∀ x ∈ cs, CfgSpec.holds rust x = true))

end Cbindgen.SrcSpec
