import Verif.Props.CxxEnums

/-!
# C72: what is not derived
-/

namespace Cbindgen.CxxSpec
open LexSpec TextSpec

/-- The annotations with the operator switched off. -/
def switchOff (a : Annotations) (r : Rel) : Annotations := { a with entries := (key r, .bool false) :: a.entries }

theorem switchOff_bool {a : Annotations} {r : Rel} {k : Str} (h : (k == key r) = false) : (switchOff a r).bool k = a.bool k := by
  simp [switchOff, Annotations.bool, List.lookup, h]

theorem switchOff_atom {a : Annotations} {r : Rel} {k : Str} (h : (k == key r) = false) : (switchOff a r).atom k = a.atom k := by
  simp [switchOff, Annotations.atom, List.lookup, h]

theorem switchOff_self (a : Annotations) (r : Rel) : (switchOff a r).bool (key r) = some false := by
  simp [switchOff, Annotations.bool, List.lookup]

theorem switchOff_boolOr {a : Annotations} {r : Rel} {k : Str} (h : (k == key r) = false) (d : Bool) :
    (switchOff a r).boolOr k d = a.boolOr k d := by
  unfold Annotations.boolOr; rw [switchOff_bool h]

theorem switchOff_boolOr_self (a : Annotations) (r : Rel) (d : Bool) : (switchOff a r).boolOr (key r) d = false := by
  unfold Annotations.boolOr; rw [switchOff_self]; rfl

theorem switchOff_attr {a : Annotations} {r : Rel} {k : Str} (h : (k == key r) = false) :
    attrOps (switchOff a r) k = attrOps a k := by
  unfold attrOps; rw [switchOff_atom h]

theorem switchOff_compare (c : OutConfig) (s : StructItem) (r q : Rel) :
    compareOps c { s with annotations := switchOff s.annotations r } (attrName q) q.text (conjText q) =
      compareOps c s (attrName q) q.text (conjText q) := by
  have : attrOps (switchOff s.annotations r) (attrName q ++ c!"-attributes") = attrOps s.annotations (attrName q ++ c!"-attributes") :=
    switchOff_attr (by cases q <;> cases r <;> decide)
  simp only [compareOps, this]

/-- The six operators. -/
def operatorBlocks (c : OutConfig) (s : StructItem) : List (List WOp) :=
  [Rel.eq, .ne, .lt, .le, .gt, .ge].flatMap fun r =>
    blockIf (s.annotations.boolOr (key r) (setting c r) && able s r) (compareOps c s (attrName r) r.text (conjText r))

theorem derivedBlocks_eq (c : OutConfig) (s : StructItem) : derivedBlocks c s =
    blockIf (s.annotations.boolOr c!"derive-constructor" c.structure_.deriveConstructor && !s.fields.isEmpty) (constructorOps c s) ++
    blockIf (s.annotations.boolOr c!"internal-derive-bitflags" false) (bitflagsOps c s) ++
    blockIf (s.annotations.boolOr c!"derive-ostream" c.structure_.deriveOstream) (ostreamOps c s) ++ operatorBlocks c s := by
  simp [derivedBlocks, operatorBlocks, able, key, setting, attrName, Rel.text, conjText, Rel.conj]

theorem operator_off {c : OutConfig} {s : StructItem} {r : Rel} (h : able s r = false) (q : Rel) :
    blockIf ((switchOff s.annotations r).boolOr (key q) (setting c q) &&
        able { s with annotations := switchOff s.annotations r } q)
      (compareOps c { s with annotations := switchOff s.annotations r } (attrName q) q.text (conjText q)) =
    blockIf (s.annotations.boolOr (key q) (setting c q) && able s q) (compareOps c s (attrName q) q.text (conjText q)) := by
  rw [switchOff_compare]
  have ha : able { s with annotations := switchOff s.annotations r } q = able s q := rfl
  rw [ha]
  by_cases hq : q = r
  · subst hq; rw [h]; simp
  · rw [switchOff_boolOr (by revert hq; cases q <;> cases r <;> decide)]

end Cbindgen.CxxSpec

namespace Cbindgen
open LexSpec TextSpec CxxSpec

/-- **C72 (structs that cannot be compared).**  If the fields of a struct cannot be compared with an operator, the
derived member functions are those of the struct with that operator switched off, whatever is asked. -/
theorem C72_struct_only {c : OutConfig} {s : StructItem} {r : Rel} (h : ¬Comparable s.fields r) :
    derivedOps c s = derivedOps c { s with annotations := switchOff s.annotations r } := by
  have ha : able s r = false := by
    cases hb : able s r with
    | false => rfl
    | true => exact absurd ((able_iff s r).mp hb) h
  have hb : derivedBlocks c { s with annotations := switchOff s.annotations r } = derivedBlocks c s := by
    rw [derivedBlocks_eq, derivedBlocks_eq]
    have h1 : ∀ d, (switchOff s.annotations r).boolOr c!"derive-constructor" d = s.annotations.boolOr c!"derive-constructor" d :=
      switchOff_boolOr (by cases r <;> decide)
    have h2 : ∀ d, (switchOff s.annotations r).boolOr c!"internal-derive-bitflags" d =
        s.annotations.boolOr c!"internal-derive-bitflags" d := switchOff_boolOr (by cases r <;> decide)
    have h3 : ∀ d, (switchOff s.annotations r).boolOr c!"derive-ostream" d = s.annotations.boolOr c!"derive-ostream" d :=
      switchOff_boolOr (by cases r <;> decide)
    have h4 : operatorBlocks c { s with annotations := switchOff s.annotations r } = operatorBlocks c s := by
      unfold operatorBlocks
      congr 1
      funext q
      exact operator_off ha q
    simp only [h1, h2, h3, h4]
    rfl
  unfold derivedOps
  rw [hb]

/-- **C72 (enums that cannot be compared).**  If the data of some variant cannot be compared, the derived member functions
of the enum are those of the enum with `==` switched off, whatever is asked. -/
theorem C72_enum_only {c : OutConfig} {x : EnumItem} (h : ¬AllComparable x) :
    enumDataFunctions c x = enumDataFunctions c { x with annotations := switchOff x.annotations .eq } := by
  have ha : x.canDeriveEq = false := by
    cases hb : x.canDeriveEq with
    | false => rfl
    | true => exact absurd ((canDeriveEq_enum x).mp hb).2 h
  have ha' : ({ x with annotations := switchOff x.annotations .eq } : EnumItem).canDeriveEq = false := ha
  unfold enumDataFunctions
  simp only [ha, ha', Bool.false_and, onlyIf]
  have hb : ∀ k d, (k == key .eq) = false → (switchOff x.annotations .eq).boolOr k d = x.annotations.boolOr k d :=
    fun k d h => switchOff_boolOr h d
  have hc : ∀ k, (k == key .eq) = false → attrOps (switchOff x.annotations .eq) k = attrOps x.annotations k :=
    fun k h => switchOff_attr h
  simp only [hb c!"derive-helper-methods" _ (by decide), hb c!"private-default-tagged-enum-constructor" _ (by decide),
    hb c!"derive-tagged-enum-destructor" _ (by decide), hb c!"derive-tagged-enum-copy-constructor" _ (by decide),
    enumDestructorOps, enumCopyOps, hc c!"destructor-attributes" (by decide), hc c!"copy-constructor-attributes" (by decide),
    hc c!"copy-assignment-attributes" (by decide), hb c!"derive-tagged-enum-copy-assignment" _ (by decide), helperOps,
    hb c!"derive-const-casts" _ (by decide), hb c!"derive-mut-casts" _ (by decide)]
  rfl

end Cbindgen
