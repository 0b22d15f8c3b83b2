import Verif.Props.Termination

/-!
# Cases for C16 and C55, and programs for which they are false
-/

namespace Cbindgen

open RefSpec MonoSpec SubstSpec LibSpec

def tyU32 : Ty := .prim (.integer true false .b32)

def plainPath (n : Str) (gs : List Ty) : Ty := .path n n (gs.map .type) none

def ptrTo (t : Ty) : Ty := .ptr t false true false

/-- A function `name(a: t)`. -/
def funcOf (name : Str) (t : Ty) : FuncItem :=
  { path := name, ret := .prim .void, args := [{ name := some c!"a", ty := t }] }

/-- `struct G<T> { x: T, next: *mut G<T>, h: *mut H<T, u32> }` -/
def monoG : StructItem :=
  { path := c!"G", exportName := c!"G", genericParams := [{ name := c!"T" }],
    fields :=
      [{ name := c!"x", ty := plainPath c!"T" [] },
       { name := c!"next", ty := ptrTo (plainPath c!"G" [plainPath c!"T" []]) },
       { name := c!"h", ty := ptrTo (plainPath c!"H" [plainPath c!"T" [], tyU32]) }] }

/-- `struct H<A, B> { a: A, b: B }` -/
def monoH : StructItem :=
  { path := c!"H", exportName := c!"H", genericParams := [{ name := c!"A" }, { name := c!"B" }],
    fields := [{ name := c!"a", ty := plainPath c!"A" [] }, { name := c!"b", ty := plainPath c!"B" [] }] }

/-- With `fn f(a: *mut G<u32>)`. -/
def monoLibrary : Library :=
  { structs := [(c!"G", .single monoG), (c!"H", .single monoH)],
    functions := [funcOf c!"f" (ptrTo (plainPath c!"G" [tyU32]))] }

theorem wf_single {α : Type} [Item α] {p : Str} {x : α} (h : Item.path x = p)
    (hc : Item.cfg x = none) : ItemMap.WF [(p, ItemValue.single x)] := by
  refine ⟨by simp, ?_⟩
  intro kv hkv
  simp only [List.mem_singleton] at hkv
  subst hkv
  exact ⟨h, by rw [hc]; rfl⟩

theorem wf_nil {α : Type} [Item α] : ItemMap.WF ([] : ItemMap α) := ⟨by simp, by simp⟩

theorem monoLibrary_wf : monoLibrary.WF := by
  refine ⟨wf_nil, wf_nil, wf_nil, ⟨by decide, ?_⟩, wf_nil, wf_nil, wf_nil⟩
  intro kv hkv
  simp only [monoLibrary, List.mem_cons, List.not_mem_nil, or_false] at hkv
  rcases hkv with rfl | rfl <;> exact ⟨rfl, rfl⟩

theorem monoLibrary_plain : monoLibrary.Plain where
  constants x hx := by simp [monoLibrary, ItemMap.toVec] at hx
  globals x hx := by simp [monoLibrary, ItemMap.toVec] at hx
  enums x hx := by simp [monoLibrary, ItemMap.toVec] at hx
  structs x hx := by
    simp only [monoLibrary, ItemMap.toVec, List.flatMap_cons, List.flatMap_nil, ItemValue.items,
      List.append_nil, List.cons_append, List.nil_append, List.mem_cons, List.not_mem_nil,
      or_false] at hx
    rcases hx with rfl | rfl
    · refine ⟨rfl, rfl, fun p hp => ?_, ?_, fun k hk => by simp [monoG] at hk⟩
      · simp only [monoG, List.mem_singleton] at hp
        subst hp; simp
      · intro f hf
        simp only [monoG, List.mem_cons, List.not_mem_nil, or_false] at hf
        rcases hf with rfl | rfl | rfl <;>
          simp [plainPath, ptrTo, RefSpec.Plain, PlainArgs, PlainArg, tyU32]
    · refine ⟨rfl, rfl, fun p hp => ?_, ?_, fun k hk => by simp [monoH] at hk⟩
      · simp only [monoH, List.mem_cons, List.not_mem_nil, or_false] at hp
        rcases hp with rfl | rfl <;> simp
      · intro f hf
        simp only [monoH, List.mem_cons, List.not_mem_nil, or_false] at hf
        rcases hf with rfl | rfl <;>
          simp [plainPath, RefSpec.Plain, PlainArgs]
  unions x hx := by simp [monoLibrary, ItemMap.toVec] at hx
  opaqueItems x hx := by simp [monoLibrary, ItemMap.toVec] at hx
  typedefs x hx := by simp [monoLibrary, ItemMap.toVec] at hx
  functions x hx := by
    simp only [monoLibrary, List.mem_singleton] at hx
    subst hx
    refine ⟨trivial, ?_⟩
    intro a ha
    simp only [funcOf, List.mem_singleton] at ha
    subst ha
    simp [plainPath, ptrTo, RefSpec.Plain, PlainArgs, PlainArg, tyU32]

theorem monoLibrary_types : monoLibrary.types = [.struct monoG, .struct monoH] := rfl

theorem monoLibrary_bodies : monoLibrary.BodiesPlain := by
  intro x hx
  simp [monoLibrary, ItemMap.toVec] at hx

theorem monoLibrary_data : monoLibrary.NoGenericData := by
  intro x hx _ y hy
  rw [monoLibrary_types] at hx
  subst hy
  simp at hx

theorem monoLibrary_single (c : LibConfig) (p : Str) (items : List Container)
    (h : monoLibrary.getItems c p = some items) : items.length = 1 := by
  rcases Library.getItems_cases h with ⟨_, xs, hg, rfl⟩ | ⟨_, xs, hg, rfl⟩ | ⟨_, xs, hg, rfl⟩ |
    ⟨_, xs, hg, rfl⟩ | ⟨_, xs, hg, rfl⟩
  · simp [monoLibrary, ItemMap.getItems] at hg
  · simp only [monoLibrary, ItemMap.getItems, List.lookup_cons, List.lookup_nil] at hg
    cases h1 : p == c!"G" <;> cases h2 : p == c!"H" <;> simp [h1, h2, ItemValue.items] at hg <;>
      subst hg <;> rfl
  · simp [monoLibrary, ItemMap.getItems] at hg
  · simp [monoLibrary, ItemMap.getItems] at hg
  · simp [monoLibrary, ItemMap.getItems] at hg

theorem monoLibrary_passedOn : ∀ x ∈ monoLibrary.types, x.isGeneric → ∀ n gs, ItemUses x n gs →
    ∀ g ∈ gs, PassedOn x.paramNames g := by
  intro x hx _ n gs hu g hg
  rw [monoLibrary_types] at hx
  simp only [List.mem_cons, List.not_mem_nil, or_false] at hx
  rcases hx with rfl | rfl
  · obtain ⟨f, hf, hu⟩ := hu
    simp only [monoG, List.mem_cons, List.not_mem_nil, or_false] at hf
    rcases hf with rfl | rfl | rfl
    · cases hu with
      | here h => simp at h
    · cases hu with
      | ptr hu =>
        cases hu with
        | here _ =>
          simp only [List.map_cons, List.map_nil, List.mem_singleton] at hg
          subst hg
          exact .inl ⟨c!"T", c!"T", none, by simp [Container.paramNames, Container.params, monoG], rfl⟩
    · cases hu with
      | ptr hu =>
        cases hu with
        | here _ =>
          simp only [List.map_cons, List.map_nil, List.mem_cons, List.not_mem_nil, or_false] at hg
          rcases hg with rfl | rfl
          · exact .inl ⟨c!"T", c!"T", none, by simp [Container.paramNames, Container.params, monoG], rfl⟩
          · refine .inr fun n hn => ?_
            cases hn with
            | type hn => cases hn
  · obtain ⟨f, hf, hu⟩ := hu
    simp only [monoH, List.mem_cons, List.not_mem_nil, or_false] at hf
    rcases hf with rfl | rfl <;>
      cases hu with
      | here h => simp at h

/-- The instance `G_u32`. -/
def monoG' : StructItem :=
  { path := c!"G_u32", exportName := c!"G_u32",
    fields :=
      [{ name := c!"x", ty := tyU32 },
       { name := c!"next", ty := ptrTo (plainPath c!"G_u32" []) },
       { name := c!"h", ty := ptrTo (plainPath c!"H_u32__u32" []) }] }

/-- The instance `H_u32__u32`. -/
def monoH' : StructItem :=
  { path := c!"H_u32__u32", exportName := c!"H_u32__u32",
    fields := [{ name := c!"a", ty := tyU32 }, { name := c!"b", ty := tyU32 }] }

/-- A case for C16: a recursive generic struct. -/
example (f : CaseFns) : monoLibrary.instantiateMonomorphs (plainConfig .c f) 3 =
    .ok { structs := [(c!"H_u32__u32", .single monoH'), (c!"G_u32", .single monoG')],
          functions := [funcOf c!"f" (ptrTo (plainPath c!"G_u32" []))] } := rfl

/-- The hypotheses of the theorems on C16 hold of it. -/
example (f : CaseFns) : monoLibrary.WF ∧ monoLibrary.Plain ∧ monoLibrary.BodiesPlain ∧
    monoLibrary.NoGenericData ∧ ∀ p items, monoLibrary.getItems (plainConfig .c f) p = some items →
      items.length = 1 :=
  ⟨monoLibrary_wf, monoLibrary_plain, monoLibrary_bodies, monoLibrary_data, monoLibrary_single _⟩

/-- A case for C55. -/
example (f : CaseFns) : ∃ k, ∀ fuel, k < fuel →
    monoLibrary.instantiateMonomorphs (plainConfig .c f) fuel ≠ .error .fuel :=
  C55_ends_partial (by simp [plainConfig]) monoLibrary_wf monoLibrary_plain monoLibrary_data
    (by rw [monoLibrary_types]; decide) monoLibrary_passedOn

/-! ## Programs for which C16 is false -/

/-- `struct Foo<T> { x: T }` -/
def genericFoo (name : Str) : StructItem :=
  { path := name, exportName := name, genericParams := [{ name := c!"T" }],
    fields := [{ name := c!"x", ty := plainPath c!"T" [] }] }

/-- `static X: Foo<u32>` -/
def staticX : StaticItem := { path := c!"X", exportName := c!"X", ty := plainPath c!"Foo" [tyU32] }

def staticLibrary : Library :=
  { structs := [(c!"Foo", .single (genericFoo c!"Foo"))],
    globals := [(c!"X", .single staticX)] }

/-- C16 is false for statics: their types are not looked at, and `Foo` is not defined in the header. -/
theorem C16_static (f : CaseFns) : ∃ b, staticLibrary.generate (plainConfig .c f) id 1 = .ok b ∧
    (staticLibrary.getItems (plainConfig .c f) c!"Foo").isSome = true ∧ (∀ x, x ∉ b.items) ∧
    ∃ x ∈ b.globals, Uses x.ty c!"Foo" [.type tyU32] := by
  refine ⟨_, Library.generate_of (l' := _) rfl rfl, rfl, ?_, ?_⟩
  · intro x hx
    have := (mem_sortItems _ _).1 hx
    simp at this
  · exact ⟨_, List.mem_cons_self, .here (List.cons_ne_nil _ _)⟩

/-- `struct Foo<T> { x: T }`, `struct Foo_u32<T> { x: T }`, `fn f(a: Foo<u32>)` -/
def nameTakenLibrary : Library :=
  { structs := [(c!"Foo", .single (genericFoo c!"Foo")),
      (c!"Foo_u32", .single (genericFoo c!"Foo_u32"))],
    functions := [funcOf c!"f" (plainPath c!"Foo" [tyU32])] }

/-- C16 is false if a generic definition has the name of an instance: the instance is not added, and the
generic definition is removed. -/
theorem C16_name_taken (f : CaseFns) :
    nameTakenLibrary.instantiateMonomorphs (plainConfig .c f) 2 =
      .ok { functions := [funcOf c!"f" (plainPath c!"Foo_u32" [])] } := rfl

/-- `enum E<T> { A(*mut S<T>) }` -/
def twiceE : EnumItem :=
  { path := c!"E", exportName := c!"E", genericParams := [{ name := c!"T" }],
    repr := { style := .c }, tag := some c!"Tag",
    variants :=
      [{ name := c!"A", exportName := c!"A",
         body := .body c!"a"
           (StructItem.new c!"A_Body" [{ name := c!"T" }]
             [{ name := c!"a", ty := ptrTo (plainPath c!"S" [plainPath c!"T" []]) }]
             false true none false none {} []) true true }] }

/-- `struct S<T> { e: *mut E<T> }` -/
def twiceS : StructItem :=
  { path := c!"S", exportName := c!"S", genericParams := [{ name := c!"T" }],
    fields := [{ name := c!"e", ty := ptrTo (plainPath c!"E" [plainPath c!"T" []]) }] }

/-- With `fn f(a: *mut E<u32>)`. -/
def twiceLibrary : Library :=
  { enums := [(c!"E", .single twiceE)], structs := [(c!"S", .single twiceS)],
    functions := [funcOf c!"f" (ptrTo (plainPath c!"E" [tyU32]))] }

/-- C16 is false for enums: the bodies of the variants are instantiated before the enum is known, so an
enum that is reached again from there is instantiated twice. -/
theorem C16_twice (f : CaseFns) : ∃ m, followAll (follow (plainConfig .c f)
      (twiceLibrary.getItems (plainConfig .c f)) 9) twiceLibrary.monoUses {} = .ok m ∧
    m.enums.map (·.path) = [c!"E_u32", c!"E_u32"] ∧
    m.structs.map (·.path) = [c!"A_Body_u32", c!"S_u32", c!"A_Body_u32"] :=
  ⟨_, rfl, rfl, rfl⟩

/-! ## Programs for which C55 is false -/

/-- `enum List<T> { Nil, Cons(T, *mut List<T>) }` -/
def listE : EnumItem :=
  { path := c!"List", exportName := c!"List", genericParams := [{ name := c!"T" }],
    repr := { style := .c }, tag := some c!"Tag",
    variants :=
      [{ name := c!"Nil", exportName := c!"Nil" },
       { name := c!"Cons", exportName := c!"Cons",
         body := .body c!"cons"
           (StructItem.new c!"Cons_Body" [{ name := c!"T" }]
             [{ name := c!"_0", ty := plainPath c!"T" [] },
              { name := c!"_1", ty := ptrTo (plainPath c!"List" [plainPath c!"T" []]) }]
             false true none false none {} []) true true }] }

/-- With `fn f(a: *mut List<u32>)`. -/
def listLibrary : Library :=
  { enums := [(c!"List", .single listE)],
    functions := [funcOf c!"f" (ptrTo (plainPath c!"List" [tyU32]))] }

theorem list_follow (f : CaseFns) (n : Nat) : ∀ st : Monos,
    st.find (plainPath c!"List" [tyU32]) = none →
    follow (plainConfig .c f) (listLibrary.getItems (plainConfig .c f)) n
      (c!"List", c!"List", [.type tyU32], none) st = .error .fuel := by
  induction n with
  | zero => intro st _; rfl
  | succ n ih =>
    intro st hst
    have hg : listLibrary.getItems (plainConfig .c f) c!"List" = some [.enum listE] := rfl
    have h1 : st.find (GUse.ty (c!"List", c!"List", [.type tyU32], none)) = none := hst
    simp only [follow, h1, hg, Option.isSome_none, Bool.false_eq_true, if_false, foldlM_single,
      Container.instantiate, EnumItem.instantiate]
    have hb : listE.bodies = [StructItem.new c!"Cons_Body" [{ name := c!"T" }]
             [{ name := c!"_0", ty := plainPath c!"T" [] },
              { name := c!"_1", ty := ptrTo (plainPath c!"List" [plainPath c!"T" []]) }]
             false true none false none {} []] := rfl
    rw [hb]
    have hcall : callOrPanic listE.genericParams [.type tyU32] = .ok [(c!"T", .type tyU32)] := rfl
    rw [hcall]
    simp only [bind, Except.bind, foldlM_single, StructItem.instantiate]
    have hcall2 : callOrPanic (StructItem.new c!"Cons_Body" [{ name := c!"T" }]
             [{ name := c!"_0", ty := plainPath c!"T" [] },
              { name := c!"_1", ty := ptrTo (plainPath c!"List" [plainPath c!"T" []]) }]
             false true none false none {} []).genericParams [.type tyU32] =
               .ok [(c!"T", .type tyU32)] := rfl
    rw [hcall2]
    simp only
    have hu : ∀ fol st', followAll fol (StructItem.specialize (plainConfig .c f) [GArg.type tyU32]
        [(c!"T", .type tyU32)] (StructItem.new c!"Cons_Body" [{ name := c!"T" }]
             [{ name := c!"_0", ty := plainPath c!"T" [] },
              { name := c!"_1", ty := ptrTo (plainPath c!"List" [plainPath c!"T" []]) }]
             false true none false none {} [])).monoUses st' =
        fol (c!"List", c!"List", [.type tyU32], none) st' := by
      intro fol st'
      have : (StructItem.specialize (plainConfig .c f) [GArg.type tyU32]
        [(c!"T", .type tyU32)] (StructItem.new c!"Cons_Body" [{ name := c!"T" }]
             [{ name := c!"_0", ty := plainPath c!"T" [] },
              { name := c!"_1", ty := ptrTo (plainPath c!"List" [plainPath c!"T" []]) }]
             false true none false none {} [])).monoUses =
          [(c!"List", c!"List", [.type tyU32], none)] := rfl
      rw [this]
      simp only [followAll, foldlM_single]
    rw [hu, ih]
    exact hst

/-- C55 is false: monomorphisation does not end for a recursive generic enum. -/
theorem C55_enum_diverges (f : CaseFns) (fuel : Nat) :
    listLibrary.instantiateMonomorphs (plainConfig .c f) fuel = .error .fuel := by
  have hu : listLibrary.monoUses = [(c!"List", c!"List", [.type tyU32], none)] := rfl
  unfold Library.instantiateMonomorphs
  rw [hu]
  simp only [followAll, foldlM_single, list_follow f fuel {} rfl]
  rfl

/-- `struct P<T> { next: *mut P<*mut T> }` -/
def growS : StructItem :=
  { path := c!"P", exportName := c!"P", genericParams := [{ name := c!"T" }],
    fields := [{ name := c!"next", ty := ptrTo (plainPath c!"P" [ptrTo (plainPath c!"T" [])]) }] }

/-- With `fn f(a: *mut P<u32>)`. -/
def growLibrary : Library :=
  { structs := [(c!"P", .single growS)],
    functions := [funcOf c!"f" (ptrTo (plainPath c!"P" [tyU32]))] }

/-- The number of pointers around the argument. -/
def ptrDepth : Ty → Nat
  | .ptr t _ _ _ => ptrDepth t + 1
  | _ => 0

/-- The number of pointers around the argument of `P`. -/
def growDepth : Ty → Nat
  | .path _ _ [.type t] _ => ptrDepth t
  | _ => 0

theorem grow_follow (f : CaseFns) (n : Nat) : ∀ (t : Ty) (st : Monos),
    (∀ e ∈ st.repl, growDepth e.1 < ptrDepth t) →
    follow (plainConfig .c f) (growLibrary.getItems (plainConfig .c f)) n
      (c!"P", c!"P", [.type t], none) st = .error .fuel := by
  induction n with
  | zero => intro t st _; rfl
  | succ n ih =>
    intro t st hst
    have hg : growLibrary.getItems (plainConfig .c f) c!"P" = some [.struct growS] := rfl
    have h1 : st.find (GUse.ty (c!"P", c!"P", [.type t], none)) = none := by
      rw [Monos.find_none_iff]
      intro h
      obtain ⟨e, he, h⟩ := List.mem_map.1 h
      have := hst e he
      rw [h] at this
      simp [GUse.ty, growDepth] at this
    simp only [follow, h1, hg, Option.isSome_none, Bool.false_eq_true, if_false, foldlM_single,
      Container.instantiate, StructItem.instantiate]
    have hcall : callOrPanic growS.genericParams [.type t] = .ok [(c!"T", .type t)] := rfl
    rw [hcall]
    simp only [bind, Except.bind]
    have hu : ∀ fol st', followAll fol (StructItem.specialize (plainConfig .c f) [GArg.type t]
        [(c!"T", .type t)] growS).monoUses st' =
        fol (c!"P", c!"P", [.type (ptrTo t)], none) st' := by
      intro fol st'
      have : (StructItem.specialize (plainConfig .c f) [GArg.type t]
        [(c!"T", .type t)] growS).monoUses = [(c!"P", c!"P", [.type (ptrTo t)], none)] := rfl
      rw [this]
      simp only [followAll, foldlM_single]
    rw [hu, ih]
    intro e he
    simp only [Monos.insertRepl, List.mem_cons] at he
    rcases he with rfl | he
    · simp [growDepth, Ty.newPath, ptrTo, ptrDepth]
    · have := hst e he
      simp only [ptrTo, ptrDepth]
      omega

/-- C55 is false: monomorphisation does not end if arguments grow. -/
theorem C55_growing_diverges (f : CaseFns) (fuel : Nat) :
    growLibrary.instantiateMonomorphs (plainConfig .c f) fuel = .error .fuel := by
  have hu : growLibrary.monoUses = [(c!"P", c!"P", [.type tyU32], none)] := rfl
  unfold Library.instantiateMonomorphs
  rw [hu]
  simp only [followAll, foldlM_single, grow_follow f fuel tyU32 {} (by simp)]
  rfl

end Cbindgen
