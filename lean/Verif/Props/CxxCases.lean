import Verif.Props.CxxOnly

/-!
# C72: a header with derived functions, and where they go wrong
-/

namespace Cbindgen
open LexSpec TextSpec CxxSpec

namespace CxxCases

def i32 : Ty := .prim (.integer false true .b32)

/-- Everything is asked for. -/
def cfg : OutConfig :=
  { language := .cxx, noIncludes := true
    structure_ := { deriveEq := true, deriveNeq := true, deriveLt := true }
    enumeration := { deriveHelperMethods := true, deriveTaggedEnumDestructor := true, deriveTaggedEnumCopyConstructor := true } }

/-- `struct S { a: i32, p: *mut i32 }` -/
def s : StructItem := { path := c!"S", exportName := c!"S", fields := [{ name := c!"a", ty := i32 }, { name := c!"p", ty := .ptr i32 false true false }] }

/-- The data of `B`. -/
def body : StructItem := { path := c!"B_Body", exportName := c!"B_Body", fields := [{ name := c!"_0", ty := i32 }], isEnumVariantBody := true }

def vA : EnumVariant := { name := c!"A", exportName := c!"A" }
def vB : EnumVariant := { name := c!"B", exportName := c!"B", body := .body c!"b" body false true }

/-- `enum E { A, B(i32) }` -/
def x : EnumItem :=
  { path := c!"E", exportName := c!"E", tag := some c!"Tag"
    repr := { style := .c }
    variants := [vA, vB] }

def env : Env := { cfg := cfg }
def bindings : Bindings := ⟨[], [], [.struct s, .enum x], []⟩

theorem text : ∃ t, headerText env bindings = some t := Option.isSome_iff_exists.mp (by decide +kernel)

theorem word_of {w : Str} (h : (!w.isEmpty && w.all wordChar) = true) : Word w := by
  rw [Bool.and_eq_true] at h
  exact ⟨by rintro rfl; exact absurd h.1 (by decide), h.2⟩

theorem enumCase {t : Str} (ht : headerText env bindings = some t) : EnumCase env bindings t x c!"other" where
  text := ht
  lang := rfl
  item := .tail _ (.head _)
  exported := rfl
  tag := rfl
  param := rfl
  paramWord := word_of (by decide)
  name := word_of (by decide)
  tagName := word_of (by decide)
  variants := by
    intro v hv
    cases hv with
    | head => exact word_of (by decide)
    | tail _ hv =>
      cases hv with
      | head => exact word_of (by decide)
      | tail _ hv => cases hv
  distinct := by
    refine List.pairwise_cons.mpr ⟨fun v hv => ?_, List.pairwise_cons.mpr ⟨nofun, .nil⟩⟩
    cases hv with
    | head => decide
    | tail _ hv => cases hv
  plain := by
    intro v hv _
    cases hv with
    | head => rfl
    | tail _ hv =>
      cases hv with
      | head => rfl
      | tail _ hv => cases hv
  members := by
    intro v hv n s i j hb
    cases hv with
    | head => cases hb
    | tail _ hv =>
      cases hv with
      | head => cases hb; exact ⟨word_of (by decide), by decide⟩
      | tail _ hv => cases hv
  notTag := by decide

theorem comparable : AllComparable x := by
  intro v hv n s i j hb
  cases hv with
  | head => cases hb
  | tail _ hv =>
    cases hv with
    | head =>
      cases hb
      show _ ∧ _
      refine ⟨by simp [body], fun f hf => ?_⟩
      cases hf with
      | head => nofun
      | tail _ hf => cases hf
    | tail _ hv => cases hv

/-- `==` and `!=` of the struct. -/
example {t : Str} (ht : headerText env bindings = some t) (r : Rel) (hr : r = .eq ∨ r = .ne) :
    Compares t s c!"other" s.fields r := by
  refine C72_struct_partial ht rfl (.head _) rfl rfl ?_ ?_ rfl (word_of (by decide)) (word_of (by decide)) rfl (by simp [s]) ?_
  · rcases hr with rfl | rfl <;> rfl
  · unfold Comparable
    rw [if_pos hr]
    refine ⟨by simp [s], fun f hf => ?_⟩
    cases hf with
    | head => nofun
    | tail _ hf =>
      cases hf with
      | head => nofun
      | tail _ hf => cases hf
  · intro f hf
    cases hf with
    | head => exact ⟨word_of (by decide), by decide⟩
    | tail _ hf =>
      cases hf with
      | head => exact ⟨word_of (by decide), by decide⟩
      | tail _ hf => cases hf

/-- `<` of the data of `B`. -/
example {t : Str} (ht : headerText env bindings = some t) : Compares t body c!"other" body.fields .lt := by
  refine C72_body_partial (enumCase ht) (v := vB) (.tail _ (.head _)) (j := true) rfl (r := .lt) rfl ?_ (word_of (by decide)) rfl (by simp [body]) ?_
  · exact ⟨_, rfl, .prim (by decide)⟩
  · intro f hf
    cases hf with
    | head => exact ⟨word_of (by decide), by decide⟩
    | tail _ hf => cases hf

/-- Two values of the struct whose second fields differ. -/
example (k : Member)
    (hk : ∀ (V : Type) (this other : Str → Option V) (w w' : V) (const : Str → Str → Option V)
      (cmp : Rel → V → V → Option Bool) (g : Str → Bool),
      (∀ f ∈ s.fields, ∃ x y, this f.name = some x ∧ other f.name = some y ∧ cmp .eq x y = some (g f.name)) →
      k.result (.within c!"other" this other w w' const cmp) = some (s.fields.all (g ·.name))) :
    k.result (.within c!"other" (fun f => some f.length) (fun f => some (if f = c!"a" then 1 else 0)) 0 0 (fun _ _ => none)
      (fun _ x y => some (x == y))) = some false := by
  refine (hk Nat _ _ 0 0 _ _ (fun f => f == c!"a") fun f hf => ?_).trans (by decide)
  cases hf with
  | head => exact ⟨1, 1, rfl, rfl, rfl⟩
  | tail _ hf =>
    cases hf with
    | head => exact ⟨1, 0, rfl, rfl, rfl⟩
    | tail _ hf => cases hf

/-- The constants of the tag. -/
def const (a b : Str) : Option Nat := if a = c!"Tag" then some (if b = c!"A" then 0 else 1) else none
def cmp : Rel → Nat → Nat → Option Bool
  | .eq, x, y => some (x == y)
  | .ne, x, y => some (x != y)
  | _, _, _ => none

theorem tags : Tags const cmp x (fun b => if b = c!"A" then 0 else 1) where
  const := by
    intro v hv
    cases hv with
    | head => rfl
    | tail _ hv =>
      cases hv with
      | head => rfl
      | tail _ hv => cases hv
  eq := by
    intro v hv u hu
    rcases List.mem_cons.mp hv with rfl | hv
    · rcases List.mem_cons.mp hu with rfl | hu
      · rfl
      · cases List.mem_singleton.mp hu; rfl
    · cases List.mem_singleton.mp hv
      rcases List.mem_cons.mp hu with rfl | hu
      · rfl
      · cases List.mem_singleton.mp hu; rfl
  ne := by
    intro v hv u hu
    rcases List.mem_cons.mp hv with rfl | hv
    · rcases List.mem_cons.mp hu with rfl | hu
      · rfl
      · cases List.mem_singleton.mp hu; rfl
    · cases List.mem_singleton.mp hv
      rcases List.mem_cons.mp hu with rfl | hu
      · rfl
      · cases List.mem_singleton.mp hu; rfl

/-- `B(5)` and `B(6)` are not equal, `B(5)` and `A` neither. -/
example : ∃ t k, headerText env bindings = some t ∧ Has t k ∧ k.head = .op .eq c!"E" c!"other" ∧
    k.result (.within c!"other" (fun f => if f = c!"tag" then some 1 else some 5) (fun f => if f = c!"tag" then some 1 else some 6)
      0 0 const cmp) = some false ∧
    k.result (.within c!"other" (fun f => if f = c!"tag" then some 1 else some 5) (fun f => if f = c!"tag" then some 0 else none)
      0 0 const cmp) = some false ∧
    k.result (.within c!"other" (fun f => if f = c!"tag" then some 1 else some 5) (fun f => if f = c!"tag" then some 1 else some 5)
      0 0 const cmp) = some true := by
  obtain ⟨t, ht⟩ := text
  obtain ⟨k, h1, h2, h3⟩ := C72_enum_eq_partial (enumCase ht) rfl comparable
  have hB : vB ∈ x.variants := .tail _ (.head _)
  have hA : vA ∈ x.variants := .head _
  refine ⟨t, k, ht, h1, h2, ?_, ?_, ?_⟩
  · exact (h3 Nat _ _ 0 0 _ _ _ tags _ hB _ hB rfl rfl).2 rfl 5 6 false rfl rfl rfl
  · exact (h3 Nat _ _ 0 0 _ _ _ tags _ hB _ hA rfl rfl).1 (by decide)
  · exact (h3 Nat _ _ 0 0 _ _ _ tags _ hB _ hB rfl rfl).2 rfl 5 5 true rfl rfl rfl

/-- The other functions of the enum. -/
example : ∃ t, headerText env bindings = some t ∧
    (∃ k, Has t k ∧ k.head = .op .ne c!"E" c!"other") ∧ (∃ k, Has t k ∧ k.head = .test c!"IsB") ∧
    (∃ k, Has t k ∧ k.head = .dtor c!"E" ∧
      k.acts (.plain (fun f => if f = c!"tag" then some 1 else none) const cmp) = some [.destroy c!"b" c!"B_Body"] ∧
      k.acts (.plain (fun f => if f = c!"tag" then some 0 else none) const cmp) = some []) ∧
    (∃ k, Has t k ∧ k.head = .copyCtor c!"E" c!"other" c!"tag") := by
  obtain ⟨t, ht⟩ := text
  have hB : vB ∈ x.variants := .tail _ (.head _)
  have hA : vA ∈ x.variants := .head _
  have hw : ∀ v ∈ x.variants, ∀ n s i j, v.body = .body n s i j → Word s.exportName ∧ n ≠ c!"case" ∧ n ≠ c!"default" := by
    intro v hv n s i j hb
    cases hv with
    | head => cases hb
    | tail _ hv =>
      cases hv with
      | head => cases hb; exact ⟨word_of (by decide), by decide, by decide⟩
      | tail _ hv => cases hv
  obtain ⟨k1, a1, b1, _⟩ := C72_enum_ne_partial (enumCase ht) rfl rfl comparable
  obtain ⟨k2, a2, b2, _⟩ := C72_is_partial (enumCase ht) rfl hB
  obtain ⟨k3, a3, b3, c3⟩ := C72_destructor_partial (enumCase ht) rfl hw
  obtain ⟨k4, a4, b4, _⟩ := C72_copy_partial (enumCase ht) rfl fun v hv n s i j h => (hw v hv n s i j h).1
  exact ⟨t, ht, ⟨k1, a1, b1⟩, ⟨k2, a2, b2⟩, ⟨k3, a3, b3, c3 Nat _ _ _ _ tags _ hB rfl, c3 Nat _ _ _ _ tags _ hA rfl⟩, ⟨k4, a4, b4⟩⟩

/-- An enum with an array as data, for which `==` is asked, does not get it. -/
def arrayBody : StructItem := { body with fields := [{ name := c!"_0", ty := .array i32 (.value c!"4") }] }
def vC : EnumVariant := { name := c!"C", exportName := c!"C", body := .body c!"c" arrayBody false true }
def withArray : EnumItem := { x with variants := [vA, vB, vC] }

example : enumDataFunctions cfg withArray = enumDataFunctions cfg { withArray with annotations := switchOff withArray.annotations .eq } :=
  C72_enum_only fun h => (h vC (.tail _ (.tail _ (.head _))) _ _ _ _ rfl).2 _ (.head _) (.array ..)

/-- A struct with two fields has no `<`. -/
example : derivedOps cfg s = derivedOps cfg { s with annotations := switchOff s.annotations .lt } := by
  refine C72_struct_only fun h => ?_
  obtain ⟨f, hf, _⟩ := h
  cases hf

end CxxCases

/-! ## Where the claims fail -/

namespace CxxCases

/-- `struct T { other: i32 }` -/
def named : StructItem := { path := c!"T", exportName := c!"T", fields := [{ name := c!"other", ty := i32 }] }

/-- The data of a variant with one field of no size, in an enum with the tag in the data. -/
def tagOnly : StructItem :=
  { path := c!"B_Body", exportName := c!"B_Body", fields := [{ name := c!"tag", ty := .path c!"Tag" c!"Tag" [] none }]
    isEnumVariantBody := true, hasTagField := true }
def vT : EnumVariant := { name := c!"B", exportName := c!"B", body := .body c!"b" tagOnly false true }
def tagInside : EnumItem :=
  { path := c!"E", exportName := c!"E", tag := some c!"Tag", repr := { style := .rust, ty := some (.b8, false) }, variants := [vT] }

/-- An enum of which only the enum is annotated. -/
def annotated : EnumItem := { x with annotations := { entries := [(c!"derive-eq", .bool true)] } }

theorem has_of {t a m b : Str} {k : Member} (h : t = a ++ (m ++ b)) (hr : (lex m).bind readMember = some k) : Has t k :=
  ⟨a, m, b, h, hr⟩

/-- `w` is nowhere in `t`. -/
def absent (w : Str) : Str → Bool
  | [] => w.isEmpty == false
  | c :: t => !w.isPrefixOf (c :: t) && absent w t

theorem absent_infix {w : Str} : ∀ {t : Str}, absent w t = true → ¬w <:+: t
  | [], h, hi => by
    rw [List.infix_nil.mp hi] at h
    exact absurd h (by decide)
  | c :: t, h, hi => by
    simp only [absent, Bool.and_eq_true, Bool.not_eq_true'] at h
    rcases List.infix_cons_iff.mp hi with hp | hi
    · rw [List.isPrefixOf_iff_prefix.mpr hp] at h
      exact absurd h.1 (by decide)
    · exact absent_infix h.2 hi

def namedBefore : Str := c!"struct T {\n  int32_t other;\n\n  "
def namedEq : Str := c!"bool operator==(const T& other) const {\n    return other == other.other;\n  }"
def namedAfter : Str := c!"\n  bool operator!=(const T& other) const {\n    return other != other.other;\n  }\n  bool operator<(const T& other) const {\n    return other < other.other;\n  }\n};\n"

def tagBefore : Str := c!"union E {\n  enum class Tag : uint8_t {\n    B,\n  };\n\n  struct B_Body {\n    Tag tag;\n\n    "
def tagEq : Str := c!"bool operator==(const B_Body& other) const {\n      return ;\n    }"
def tagAfter : Str := c!"\n    bool operator!=(const B_Body& other) const {\n      return ;\n    }\n    bool operator<(const B_Body& other) const {\n      return ;\n    }\n  };\n\n  struct {\n    Tag tag;\n  };\n  B_Body b;\n\n  static E B() {\n    E result;\n    result.tag = Tag::B;\n    return result;\n  }\n\n  bool IsB() const {\n    return tag == Tag::B;\n  }\n\n  bool operator==(const E& other) const {\n    if (tag != other.tag) {\n      return false;\n    }\n    switch (tag) {\n      case Tag::B: return b == other.b;\n\n    }\n    return true;\n  }\n\n  bool operator!=(const E& other) const {\n    return !(*this == other);\n  }\n\n  ~E() {\n    switch (tag) {\n      case Tag::B: b.~B_Body(); break;\n\n    }\n  }\n\n  E(const E& other)\n   : tag(other.tag) {\n    switch (tag) {\n      case Tag::B: ::new (&b) (B_Body)(other.b); break;\n\n    }\n  }\n};\n"

def annotatedBefore : Str := c!"struct E {\n  enum class Tag {\n    A,\n    B,\n  };\n\n  struct B_Body {\n    int32_t _0;\n  };\n\n  Tag tag;\n  union {\n    B_Body b;\n  };\n\n  "
def annotatedEq : Str := c!"bool operator==(const E& other) const {\n    if (tag != other.tag) {\n      return false;\n    }\n    switch (tag) {\n      case Tag::B: return b == other.b;\n      default: break;\n    }\n    return true;\n  }"
def annotatedAfter : Str := c!"\n};\n"

end CxxCases

open CxxCases

/-- **C72 fails for a field with the name of the parameter.**  `struct T { other: i32 }` gets
`bool operator==(const T& other) const { return other == other.other; }`, which compares the parameter with its own
field: the fields of the two objects differ, but if a `T` that holds 2 compares equal to 2, the result is `true`. -/
theorem C72_parameter_refuted : ∃ t k, headerText env ⟨[], [], [.struct named], []⟩ = some t ∧ Has t k ∧
    k.head = .op .eq c!"T" c!"other" ∧
    k.result (.within c!"other" (fun f => if f = c!"other" then some 1 else none) (fun f => if f = c!"other" then some 2 else none)
      1 2 (fun _ _ => none) (fun _ x y => some (x == y))) = some true :=
  ⟨namedBefore ++ (namedEq ++ namedAfter), ⟨.op .eq c!"T" c!"other", [.simple (.ret ⟨false, [[⟨.name c!"other", .eq, .member c!"other" c!"other"⟩]]⟩)]⟩,
    by decide +kernel, has_of rfl (by decide +kernel), rfl, by decide⟩

/-- **C72 fails for data that consists of a tag.**  The operators that are derived for it have nothing to compare, and
`return ;` is left: no function that can be read. -/
theorem C72_tag_refuted : ∃ t a m b, headerText env ⟨[], [], [.enum tagInside], []⟩ = some t ∧ t = a ++ (m ++ b) ∧
    (∃ ls, lex m = some ls ∧ [.word c!"bool", .word c!"operator", .punct '=', .punct '=', .punct '(', .word c!"const",
      .word c!"B_Body", .punct '&', .word c!"other", .punct ')', .word c!"const", .punct '{', .word c!"return", .punct ';'] <+: ls) ∧
    (lex m).bind readMember = none :=
  ⟨tagBefore ++ (tagEq ++ tagAfter), tagBefore, tagEq, tagAfter, by decide +kernel, rfl,
    ⟨_, rfl, ⟨[.punct '}'], by decide +kernel⟩⟩, by decide +kernel⟩

/-- **C72 fails for enums that are annotated.**  With `derive-eq` on the enum its `==` compares the data, for which no
operator is declared. -/
theorem C72_annotation_refuted : ∃ t k, headerText { cfg := { language := .cxx, noIncludes := true } } ⟨[], [], [.enum annotated], []⟩ = some t ∧
    Has t k ∧ k.head = .op .eq c!"E" c!"other" ∧
    Stmt.switch (.name c!"tag") [.label (some (.konst c!"Tag" c!"B")), .stmt (.ret ⟨false, [[⟨.name c!"b", .eq, .member c!"other" c!"b"⟩]]⟩),
      .label none, .stmt .brk] ∈ k.body ∧
    ¬c!"const B_Body&" <:+: t :=
  ⟨annotatedBefore ++ (annotatedEq ++ annotatedAfter), ⟨.op .eq c!"E" c!"other", [
      .cond ⟨false, [[⟨.name c!"tag", .ne, .member c!"other" c!"tag"⟩]]⟩ [.retLit false],
      .switch (.name c!"tag") [.label (some (.konst c!"Tag" c!"B")), .stmt (.ret ⟨false, [[⟨.name c!"b", .eq, .member c!"other" c!"b"⟩]]⟩),
        .label none, .stmt .brk], .simple (.retLit true)]⟩,
    by decide +kernel, has_of rfl (by decide +kernel), rfl, .tail _ (.head _), absent_infix (by decide +kernel)⟩

end Cbindgen
