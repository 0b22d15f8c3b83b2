import Verif.Props.Keywords

/-! # Cases for C14 and C35, and programs for which they are false -/

namespace Cbindgen

open RefSpec LibSpec

theorem Library.generate_of {c : LibConfig}
    {order : List (Str × Annotations) → List (Str × Annotations)} {fuel : Nat} {l l' : Library}
    {b : Bindings} (hp : l.prepare c order fuel = .ok l') (hb : l'.collect c = some b) :
    l.generate c order fuel = .ok b := by
  unfold Library.generate
  rw [hp]
  dsimp only
  rw [hb]

theorem mem_sortItems_single (x : Container) : x ∈ sortItems [x] := by
  rw [mem_sortItems]; simp

/-! ## C14 -/

/-- The prefix `P`, and `A` renamed to `Z`. -/
def renameConfig (lang : Language) (f : CaseFns) : LibConfig :=
  { language := lang, caseFns := f, export_ := { pre := some c!"P", rename := [(c!"A", c!"Z")] } }

/-- `struct A { next: *mut A }` -/
def refA : StructItem :=
  { path := c!"A", exportName := c!"A",
    fields := [{ name := c!"next", ty := .ptr (.path c!"A" c!"A" [] none) false true false }] }

/-- `fn f(a: *mut A)` -/
def refF : FuncItem :=
  { path := c!"f", ret := .prim .void,
    args := [{ name := some c!"a", ty := .ptr (.path c!"A" c!"A" [] none) false true false }] }

def refLibrary : Library := { structs := [(c!"A", .single refA)], functions := [refF] }

theorem refLibrary_plain : refLibrary.Plain where
  constants x hx := by simp [refLibrary, ItemMap.toVec] at hx
  globals x hx := by simp [refLibrary, ItemMap.toVec] at hx
  enums x hx := by simp [refLibrary, ItemMap.toVec] at hx
  structs x hx := by
    simp only [refLibrary, ItemMap.toVec, List.flatMap_cons, List.flatMap_nil, ItemValue.items,
      List.append_nil, List.mem_singleton] at hx
    subst hx
    refine ⟨rfl, rfl, fun p hp => by simp [refA] at hp, ?_, fun k hk => by simp [refA] at hk⟩
    intro f hf
    simp only [refA, List.mem_singleton] at hf
    subst hf
    exact ⟨rfl, rfl, trivial⟩
  unions x hx := by simp [refLibrary, ItemMap.toVec] at hx
  opaqueItems x hx := by simp [refLibrary, ItemMap.toVec] at hx
  typedefs x hx := by simp [refLibrary, ItemMap.toVec] at hx
  functions x hx := by
    simp only [refLibrary, List.mem_singleton] at hx
    subst hx
    refine ⟨trivial, ?_⟩
    intro a ha
    simp only [refF, List.mem_singleton] at ha
    subst ha
    exact ⟨rfl, rfl, trivial⟩

/-- The struct after renaming. -/
def refA' : StructItem :=
  { path := c!"A", exportName := c!"PZ",
    fields := [{ name := c!"next",
                 ty := .ptr (.path c!"A" c!"PZ" [] (some .struct)) false true false }] }

/-- A case for C14 and C35: the definition and the references are written `PZ`. -/
example (f : CaseFns) : ∃ b, refLibrary.generate (renameConfig .c f) id 1 = .ok b ∧
    .struct refA' ∈ b.items ∧ ItemMentions (.struct refA') c!"A" c!"PZ" ∧
    ItemWrites (.struct refA') c!"A" (some .struct) ∧ definedAs (.struct refA') = some .struct ∧
    ∃ x ∈ b.functions, FuncMentions x c!"A" c!"PZ" := by
  refine ⟨_, Library.generate_of (l' := _) rfl rfl, mem_sortItems_single _, ?_, ?_, rfl, ?_⟩
  · exact .inl ⟨_, List.mem_cons_self, .ptr (.here _ _ _ _), by simp [IsParam, refA']⟩
  · exact ⟨_, List.mem_cons_self, .ptr (.here _ _ _ _)⟩
  · exact ⟨_, List.mem_cons_self, .inr ⟨_, List.mem_cons_self, .ptr (.here _ _ _ _)⟩⟩

/-- The hypotheses of `C35_keywords_partial` hold of it. -/
example (f : CaseFns) : ∃ l₁, (((refLibrary.transferAnnotations id).simplify (renameConfig .c f)).sortFunctions
      (renameConfig .c f)).expand (renameConfig .c f) 1 = .ok l₁ ∧ Uniform l₁.types ∧
      ∀ x ∈ l₁.types, Ordinary x := by
  refine ⟨refLibrary, rfl, ?_, ?_⟩
  · intro x hx y hy _
    simp [refLibrary, Library.types, ItemMap.toVec, ItemValue.items] at hx hy
    subst hx; subst hy; rfl
  · intro x hx
    simp [refLibrary, Library.types, ItemMap.toVec, ItemValue.items] at hx
    subst hx
    simp [Ordinary, refA]

/-- `struct G<T> { x: T }` with `const N: *const T = 0 as *const T;` -/
def genericConst : StructItem :=
  { path := c!"G", exportName := c!"G", genericParams := [{ name := c!"T" }],
    fields := [{ name := c!"x", ty := .path c!"T" c!"T" [] none }],
    assocConsts :=
      [{ path := c!"NG", exportName := c!"N", associatedTo := some c!"G",
         ty := .ptr (.path c!"T" c!"T" [] none) true true false,
         value := .cast (.ptr (.path c!"T" c!"T" [] none) true true false) (.expr c!"0") }] }

/-- `fn f(a: *mut G<u32>)` -/
def genericConstF : FuncItem :=
  { path := c!"f", ret := .prim .void,
    args := [{ name := some c!"a",
               ty := .ptr (.path c!"G" c!"G" [.type (.prim (.integer true false .b32))] none)
                 false true false }] }

def genericConstLibrary : Library :=
  { structs := [(c!"G", .single genericConst)], functions := [genericConstF] }

/-- C14 is false: in C++, the generic parameter in the type of an associated constant of a generic struct
gets the prefix. -/
theorem C14_parameter_prefixed (f : CaseFns) :
    ∃ b, genericConstLibrary.generate (renameConfig .cxx f) id 1 = .ok b ∧
      ∃ x, .struct x ∈ b.items ∧ ∃ k ∈ x.assocConsts, Mentions k.ty c!"T" c!"PT" ∧
        IsParam x.genericParams c!"T" := by
  refine ⟨_, Library.generate_of (l' := _) rfl rfl, _, mem_sortItems_single _, _, List.mem_cons_self,
    .ptr (.here _ _ _ _), _, List.mem_cons_self, rfl⟩

/-- `#[repr(transparent)] enum E { A(u32) }` as it is loaded. -/
def transparentEnum : EnumItem :=
  { path := c!"E", exportName := c!"E", repr := { style := .transparent }, tag := some c!"Tag",
    variants :=
      [{ name := c!"A", exportName := c!"A",
         body := .body c!"a"
           (StructItem.new c!"A_Body" []
             [{ name := c!"tag", ty := .path c!"Tag" c!"Tag" [] none },
              { name := c!"a", ty := .prim (.integer true false .b32) }]
             true true none false none {} []) true true }] }

def transparentEnumLibrary : Library :=
  { enums := [(c!"E", .single transparentEnum)],
    functions :=
      [{ path := c!"f", ret := .prim .void,
         args := [{ name := some c!"a", ty := .path c!"E" c!"E" [] none }] }] }

/-- C14 is false: the variants of a transparent enum start with a field of type `Tag`, and the tag is
`E_Tag`. -/
theorem C14_transparent_tag (f : CaseFns) :
    ∃ b, transparentEnumLibrary.generate (plainConfig .c f) id 1 = .ok b ∧
      ∃ x, .enum x ∈ b.items ∧ x.tag = some c!"E_Tag" ∧ ∃ v ∈ x.variants, ∃ m s i ic fld fs,
        v.body = .body m s i ic ∧ s.fields = fld :: fs ∧ fld.ty = .path c!"Tag" c!"Tag" [] none := by
  refine ⟨_, Library.generate_of (l' := _) rfl rfl, _, mem_sortItems_single _, rfl, _,
    List.mem_cons_self, _, _, _, _, _, _, rfl, rfl, rfl⟩

/-- `#[repr(u8)] enum E { A(u32) }` as it is loaded. -/
def taggedEnum : EnumItem :=
  { transparentEnum with repr := { style := .rust, ty := some (.b8, false) } }

/-- A case for `C14_tag_partial`. -/
example (f : CaseFns) :
    ∃ b, Library.generate (plainConfig .c f) id 1
        { enums := [(c!"E", .single taggedEnum)],
          functions := transparentEnumLibrary.functions } = .ok b ∧
      ∃ x, .enum x ∈ b.items ∧ x.tag = some c!"E_Tag" ∧ x.repr.style = .rust := by
  refine ⟨_, Library.generate_of (l' := _) rfl rfl, _, mem_sortItems_single _, rfl, rfl⟩

/-! ## C35 -/

/-- `const K: *const A = 0 as *const A;` and `struct A`, `fn f(a: *mut A)` -/
def castKeyword : Library :=
  { refLibrary with
    constants := [(c!"K", .single
      { path := c!"K", exportName := c!"K", ty := .ptr (.path c!"A" c!"A" [] none) true true false,
        value := .cast (.ptr (.path c!"A" c!"A" [] none) true true false) (.expr c!"0") })] }

/-- C35 is false: in the value of a constant, the reference has no keyword. -/
theorem C35_constant_without_keyword (f : CaseFns) :
    ∃ b, castKeyword.generate (plainConfig .c f) id 1 = .ok b ∧
      ∃ x ∈ b.items, definedAs x = some .struct ∧ ∃ k ∈ b.constants, ∃ t v, k.value = .cast t v ∧
        Writes t x.path none := by
  refine ⟨_, Library.generate_of (l' := _) rfl rfl, _, mem_sortItems_single _, rfl, _,
    List.mem_cons_self, _, _, rfl, .ptr (.here _ _ _ _)⟩

/-- `#[repr(C, u8)] enum E { A }` and `fn f(a: E)` -/
def sizedEnum : Library :=
  { enums := [(c!"E", .single
      { path := c!"E", exportName := c!"E", repr := { style := .c, ty := some (.b8, false) },
        variants := [{ name := c!"A", exportName := c!"A" }] })],
    functions := transparentEnumLibrary.functions }

/-- C35 is false: the enum is a typedef of `uint8_t`, the reference is `enum E`. -/
theorem C35_sized_enum (f : CaseFns) :
    ∃ b, sizedEnum.generate (plainConfig .c f) id 1 = .ok b ∧
      ∃ x ∈ b.items, definedAs x = none ∧ ∃ y ∈ b.functions, FuncWrites y x.path (some .enum) := by
  refine ⟨_, Library.generate_of (l' := _) rfl rfl, _, mem_sortItems_single _, rfl, _,
    List.mem_cons_self, .inr ⟨_, List.mem_cons_self, .here _ _ _ _⟩⟩

/-- `#[cfg(a)] struct S { x: u32 }`, `#[cfg(b)] #[repr(transparent)] struct S { x: u32 }` and
`fn f(a: S)`. -/
def cfgKinds : Library :=
  { structs := ItemMap.insertAll []
      [{ path := c!"S", exportName := c!"S", cfg := some (.boolean c!"a"),
         fields := [{ name := c!"x", ty := .prim (.integer true false .b32) }] },
       { path := c!"S", exportName := c!"S", cfg := some (.boolean c!"b"), isTransparent := true,
         fields := [{ name := c!"x", ty := .prim (.integer true false .b32) }] }],
    functions :=
      [{ path := c!"f", ret := .prim .void,
         args := [{ name := some c!"a", ty := .path c!"S" c!"S" [] none }] }] }

/-- C35 is false: one of two conditional definitions is a typedef, and the reference is `struct S`. -/
theorem C35_conditional_kinds (f : CaseFns) :
    ∃ b, cfgKinds.generate (plainConfig .c f) id 1 = .ok b ∧
      ∃ x ∈ b.items, definedAs x = none ∧ ∃ y ∈ b.functions, FuncWrites y x.path (some .struct) := by
  refine ⟨_, Library.generate_of (l' := _) rfl rfl, _,
    (mem_sortItems _ _).2 (List.mem_cons_of_mem _ List.mem_cons_self), rfl, _,
    List.mem_cons_self, .inr ⟨_, List.mem_cons_self, .here _ _ _ _⟩⟩

end Cbindgen
