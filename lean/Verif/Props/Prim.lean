import Verif.Model.Prim
import Verif.Spec.Prim

/-!
# C18: primitive types keep width and signedness
-/

namespace Cbindgen

open PrimSpec

/-- Everything `PrimitiveType::maybe` knows, as one table. -/
def allPrims : List (Str × Prim) :=
  plainTable ++ integerTable.map (fun e => (e.1, .integer true e.2.2 e.2.1)) ++
    nonzeroIntegerTable.map (fun e => (e.1, .integer false e.2.2 e.2.1))

theorem mem_of_lookup {β : Type} {l : List (Str × β)} {s : Str} {b : β} (h : l.lookup s = some b) :
    (s, b) ∈ l := by
  induction l with
  | nil => simp at h
  | cons e es ih =>
    obtain ⟨k, v⟩ := e
    rw [List.lookup_cons] at h
    by_cases hk : s = k
    · subst hk; simp at h; subst h; simp
    · have : (s == k) = false := by simpa using hk
      rw [this] at h
      exact List.mem_cons_of_mem _ (ih h)

theorem maybe_mem {s : Str} {p : Prim} (h : Prim.maybe s = some p) : (s, p) ∈ allPrims := by
  unfold Prim.maybe at h
  unfold allPrims
  split at h
  · rename_i q hq
    cases h
    simp [mem_of_lookup hq]
  · split at h
    · rename_i k sg hq
      cases h
      have := mem_of_lookup hq
      simp only [List.mem_append, List.mem_map]
      exact .inl (.inr ⟨_, this, rfl⟩)
    · split at h
      · rename_i k sg hq
        cases h
        have := mem_of_lookup hq
        simp only [List.mem_append, List.mem_map]
        exact .inr ⟨_, this, rfl⟩
      · cases h

/-- The names cbindgen recognises although the claim fails for them. -/
def oddNames : List Str := [c!"VaList", c!"NonZeroUSize", c!"NonZeroISize"]

/-- Every recognised name except `VaList`, `NonZeroUSize` and `NonZeroISize` is a primitive type or a C
alias of Rust, and the C type written for it has the same representation, on every platform that allows
the mode. -/
theorem C18_primitive_representation_partial {s : Str} {p : Prim} (h : Prim.maybe s = some p)
    (hs : s ∉ oddNames) (pf : Platform) (mode : Bool) (hm : pf.Allows mode) :
    ∃ r, rustScalar pf s = some r ∧ cScalar pf (p.toReprC mode) = some r := by
  have hmem := maybe_mem h
  simp only [oddNames, List.mem_cons, List.not_mem_nil, or_false, not_or] at hs
  obtain ⟨h1, h2, h3⟩ := hs
  simp only [allPrims, plainTable, integerTable, nonzeroIntegerTable, List.map_cons, List.map_nil,
    List.cons_append, List.nil_append, List.mem_cons, List.not_mem_nil, or_false, Prod.mk.injEq] at hmem
  cases mode with
  | false =>
    rcases hmem with ⟨rfl, rfl⟩ | hmem
    · exact ⟨_, rfl, rfl⟩
    repeat (rcases hmem with ⟨rfl, rfl⟩ | hmem <;> first | exact ⟨_, rfl, rfl⟩ | contradiction | skip)
  | true =>
    obtain ⟨e1, e2⟩ := hm rfl
    obtain ⟨sh, it, lo, ll, pt, sz, pd, cs⟩ := pf
    simp only at e1 e2
    subst e1 e2
    rcases hmem with ⟨rfl, rfl⟩ | hmem
    · exact ⟨_, rfl, rfl⟩
    repeat (rcases hmem with ⟨rfl, rfl⟩ | hmem <;> first | exact ⟨_, rfl, rfl⟩ | contradiction | skip)

/-- The names of Rust that are not recognised, so that a type of that name is taken for an item of the
crate. -/
def unknownNames : List Str := [c!"u128", c!"i128", c!"NonZeroUsize", c!"NonZeroIsize"]

/-- All the other primitive names of Rust are recognised. -/
theorem C18_primitive_recognised {pf : Platform} {s : Str} {r : Scalar} (h : rustScalar pf s = some r)
    (hs : s ∉ unknownNames) : ∃ p, Prim.maybe s = some p := by
  have hmem := mem_of_lookup h
  simp only [unknownNames, List.mem_cons, List.not_mem_nil, or_false, not_or] at hs
  obtain ⟨h1, h2, h3, h4⟩ := hs
  simp only [rustScalars, List.mem_cons, List.not_mem_nil, or_false, Prod.mk.injEq] at hmem
  rcases hmem with ⟨rfl, rfl⟩ | hmem
  · exact ⟨_, rfl⟩
  repeat (rcases hmem with ⟨rfl, rfl⟩ | hmem <;> first | exact ⟨_, rfl⟩ | contradiction | skip)

/-- `NonZeroUSize` and `NonZeroISize` are no names of Rust (the types are called `NonZeroUsize` and `NonZeroIsize`), but
they are recognised as primitives; the real names are not. -/
theorem C18_misspelt_nonzero (pf : Platform) :
    (rustScalar pf c!"NonZeroUSize" = none ∧ Prim.maybe c!"NonZeroUSize" = some (.integer false false .size) ∧
      (∃ r, rustScalar pf c!"NonZeroUsize" = some r) ∧ Prim.maybe c!"NonZeroUsize" = none) ∧
    rustScalar pf c!"NonZeroISize" = none ∧ Prim.maybe c!"NonZeroISize" = some (.integer false true .size) ∧
      (∃ r, rustScalar pf c!"NonZeroIsize" = some r) ∧ Prim.maybe c!"NonZeroIsize" = none :=
  ⟨⟨rfl, rfl, ⟨_, rfl⟩, rfl⟩, rfl, rfl, ⟨_, rfl⟩, rfl⟩

/-- `VaList` is written as `...`, which is not the type `va_list`. -/
theorem C18_vaList_is_not_variadic (pf : Platform) (mode : Bool) :
    Prim.maybe c!"VaList" = some .vaList ∧ rustScalar pf c!"VaList" = some .vaList ∧
    cScalar pf (Prim.vaList.toReprC mode) = some .variadic := ⟨rfl, rfl, rfl⟩

/-- The Rust name written for a recognised primitive is recognised as the same primitive, except for
`VaList` and the non-zero integers. -/
theorem C18_toReprRust_recognised (p : Prim) (h1 : p ≠ .vaList) (h2 : ∀ s k, p ≠ .integer false s k) :
    Prim.maybe p.toReprRust = some p := by
  cases p with
  | integer z s k =>
    cases z with
    | false => exact absurd rfl (h2 s k)
    | true => cases s <;> cases k <;> rfl
  | vaList => exact absurd rfl h1
  | _ => rfl

/-- 64-bit Linux. -/
def lp64 : Platform :=
  { short := 16, int := 32, long := 64, longlong := 64, ptr := 64, size := 64, ptrdiff := 64,
    charSigned := true }

/-- On 64-bit Linux `usize` becomes `size_t`, an unsigned integer of 64 bits. -/
theorem C18_primitive_case : ∃ r, rustScalar lp64 c!"usize" = some r ∧
    cScalar lp64 ((Prim.integer true false .size).toReprC true) = some r :=
  C18_primitive_representation_partial (s := c!"usize") rfl (by decide) lp64 true (fun _ => ⟨rfl, rfl⟩)

end Cbindgen
