import Verif.Lemmas.MonoTable
import Verif.Lemmas.Shape
import Verif.Props.Keywords

/-! # C16: the generic uses of a C header -/

namespace Cbindgen

open RefSpec MonoSpec LibSpec

/-- One function on all types of a definition. -/
def Container.mapTys (g : Ty → Ty) : Container → Container
  | .enum x => .enum (x.mapTys g)
  | .struct x => .struct (x.mapTys g)
  | .union x => .union (x.mapTys g)
  | .opaque x => .opaque x
  | .typedef x => .typedef (x.mapTys g)

/-- The definition has parameters. -/
def Container.isGeneric (x : Container) : Prop := x.params ≠ []

theorem Container.mapTys_path (g : Ty → Ty) (x : Container) : (x.mapTys g).path = x.path := by
  cases x <;> rfl

theorem Container.specialize_params (c : LibConfig) (gs : List GArg) (m : List (Str × GArg))
    (x : Container) : (x.specialize c gs m).params = [] := by
  cases x <;> rfl

theorem Container.specialize_path (c : LibConfig) (gs : List GArg) (m : List (Str × GArg))
    (x : Container) : (x.specialize c gs m).path = c.manglePath x.path gs := by
  cases x <;> rfl

/-- The bodies of the variants of an enum that is not generic are not generic. -/
def Library.BodiesPlain (l : Library) : Prop :=
  ∀ x ∈ l.enums.toVec, x.genericParams = [] → ∀ b, BodyOf x b → b.genericParams = []

/-! ## Tables of definitions -/

theorem insertMonos_eq (l : Library) (m : Monos) : l.insertMonos m =
    { l with
      structs := ItemMap.exchange (fun x => !x.genericParams.isEmpty) l.structs m.structs
      unions := ItemMap.exchange (fun x => !x.genericParams.isEmpty) l.unions m.unions
      opaqueItems := ItemMap.exchange (fun x => !x.genericParams.isEmpty) l.opaqueItems m.opaques
      typedefs := ItemMap.exchange (fun x => !x.genericParams.isEmpty) l.typedefs m.typedefs
      enums := ItemMap.exchange (fun x => !x.genericParams.isEmpty) l.enums m.enums } := rfl

theorem mem_types {l : Library} {x : Container} : x ∈ l.types ↔
    (∃ y ∈ l.structs.toVec, .struct y = x) ∨ (∃ y ∈ l.enums.toVec, .enum y = x) ∨
      (∃ y ∈ l.unions.toVec, .union y = x) ∨ (∃ y ∈ l.typedefs.toVec, .typedef y = x) ∨
      (∃ y ∈ l.opaqueItems.toVec, .opaque y = x) := by
  simp only [Library.types, List.mem_append, List.mem_map]
  grind

theorem mem_all {m : Monos} {x : Container} : x ∈ m.all ↔
    (∃ y ∈ m.structs, .struct y = x) ∨ (∃ y ∈ m.enums, .enum y = x) ∨
      (∃ y ∈ m.unions, .union y = x) ∨ (∃ y ∈ m.typedefs, .typedef y = x) ∨
      (∃ y ∈ m.opaques, .opaque y = x) := by
  simp only [Monos.all, List.mem_append, List.mem_map]
  grind

theorem types_old {l : Library} (hwf : l.WF) (m : Monos) {x : Container} (hx : x ∈ l.types)
    (hg : ¬ x.isGeneric) : x ∈ (l.insertMonos m).types := by
  rw [mem_types] at hx ⊢
  rw [insertMonos_eq]
  have hg : x.params = [] := Decidable.of_not_not hg
  rcases hx with ⟨y, hy, rfl⟩ | ⟨y, hy, rfl⟩ | ⟨y, hy, rfl⟩ | ⟨y, hy, rfl⟩ | ⟨y, hy, rfl⟩ <;>
    simp only [Container.params] at hg
  · exact .inl ⟨y, ItemMap.exchange_old hwf.structs hy (by simp [hg]), rfl⟩
  · exact .inr (.inl ⟨y, ItemMap.exchange_old hwf.enums hy (by simp [hg]), rfl⟩)
  · exact .inr (.inr (.inl ⟨y, ItemMap.exchange_old hwf.unions hy (by simp [hg]), rfl⟩))
  · exact .inr (.inr (.inr (.inl ⟨y, ItemMap.exchange_old hwf.typedefs hy (by simp [hg]), rfl⟩)))
  · exact .inr (.inr (.inr (.inr ⟨y, ItemMap.exchange_old hwf.opaqueItems hy (by simp [hg]), rfl⟩)))

theorem types_cases {l : Library} (hwf : l.WF) {m : Monos} {x : Container}
    (hx : x ∈ (l.insertMonos m).types) : ¬ x.isGeneric ∧ (x ∈ l.types ∨ x ∈ m.all) := by
  rw [mem_types, insertMonos_eq] at hx
  rw [mem_types, mem_all]
  unfold Container.isGeneric
  rcases hx with ⟨y, hy, rfl⟩ | ⟨y, hy, rfl⟩ | ⟨y, hy, rfl⟩ | ⟨y, hy, rfl⟩ | ⟨y, hy, rfl⟩
  · obtain ⟨h1, h2⟩ := ItemMap.exchange_cases hwf.structs hy
    refine ⟨by simpa [Container.params] using h1, ?_⟩
    rcases h2 with h | h <;> simp [h]
  · obtain ⟨h1, h2⟩ := ItemMap.exchange_cases hwf.enums hy
    refine ⟨by simpa [Container.params] using h1, ?_⟩
    rcases h2 with h | h <;> simp [h]
  · obtain ⟨h1, h2⟩ := ItemMap.exchange_cases hwf.unions hy
    refine ⟨by simpa [Container.params] using h1, ?_⟩
    rcases h2 with h | h <;> simp [h]
  · obtain ⟨h1, h2⟩ := ItemMap.exchange_cases hwf.typedefs hy
    refine ⟨by simpa [Container.params] using h1, ?_⟩
    rcases h2 with h | h <;> simp [h]
  · obtain ⟨h1, h2⟩ := ItemMap.exchange_cases hwf.opaqueItems hy
    refine ⟨by simpa [Container.params] using h1, ?_⟩
    rcases h2 with h | h <;> simp [h]

theorem types_defined {l : Library} (hwf : l.WF) {m : Monos} (hm : ∀ y ∈ m.all, ¬ y.isGeneric)
    {y : Container} (hy : y ∈ m.all)
    (hn : ∀ z ∈ l.types, z.path = y.path → ¬ z.isGeneric) :
    ∃ z ∈ (l.insertMonos m).types, z.path = y.path := by
  simp only [mem_types, insertMonos_eq]
  have hm' : ∀ y ∈ m.all, y.params = [] := fun y hy => Decidable.of_not_not (hm y hy)
  have hn' : ∀ z ∈ l.types, z.path = y.path → z.params = [] :=
    fun z hz e => Decidable.of_not_not (hn z hz e)
  rcases mem_all.1 hy with ⟨x, hx, rfl⟩ | ⟨x, hx, rfl⟩ | ⟨x, hx, rfl⟩ | ⟨x, hx, rfl⟩ | ⟨x, hx, rfl⟩
  · obtain ⟨z, hz, e⟩ := ItemMap.exchange_defined (generic := fun x => !x.genericParams.isEmpty)
      hwf.structs (fun y hy => by simpa [Container.params] using hm' (.struct y) (mem_all.2 (by simp [hy]))) hx
      (fun z hz e => by simpa [Container.params] using hn' (.struct z) (mem_types.2 (by simp [hz])) e)
    exact ⟨.struct z, by simp [hz], e⟩
  · obtain ⟨z, hz, e⟩ := ItemMap.exchange_defined (generic := fun x => !x.genericParams.isEmpty)
      hwf.enums (fun y hy => by simpa [Container.params] using hm' (.enum y) (mem_all.2 (by simp [hy]))) hx
      (fun z hz e => by simpa [Container.params] using hn' (.enum z) (mem_types.2 (by simp [hz])) e)
    exact ⟨.enum z, by simp [hz], e⟩
  · obtain ⟨z, hz, e⟩ := ItemMap.exchange_defined (generic := fun x => !x.genericParams.isEmpty)
      hwf.unions (fun y hy => by simpa [Container.params] using hm' (.union y) (mem_all.2 (by simp [hy]))) hx
      (fun z hz e => by simpa [Container.params] using hn' (.union z) (mem_types.2 (by simp [hz])) e)
    exact ⟨.union z, by simp [hz], e⟩
  · obtain ⟨z, hz, e⟩ := ItemMap.exchange_defined (generic := fun x => !x.genericParams.isEmpty)
      hwf.typedefs (fun y hy => by simpa [Container.params] using hm' (.typedef y) (mem_all.2 (by simp [hy]))) hx
      (fun z hz e => by simpa [Container.params] using hn' (.typedef z) (mem_types.2 (by simp [hz])) e)
    exact ⟨.typedef z, by simp [hz], e⟩
  · obtain ⟨z, hz, e⟩ := ItemMap.exchange_defined (generic := fun x => !x.genericParams.isEmpty)
      hwf.opaqueItems (fun y hy => by simpa [Container.params] using hm' (.opaque y) (mem_all.2 (by simp [hy]))) hx
      (fun z hz e => by simpa [Container.params] using hn' (.opaque z) (mem_types.2 (by simp [hz])) e)
    exact ⟨.opaque z, by simp [hz], e⟩

theorem types_new {l : Library} (hwf : l.WF) {m : Monos} (hm : ∀ y ∈ m.all, ¬ y.isGeneric)
    {y : Container} (hy : y ∈ m.all) (hn : ∀ z ∈ l.types, z.path ≠ y.path)
    (hu : ∀ z ∈ m.all, z.path = y.path → z = y) : y ∈ (l.insertMonos m).types := by
  simp only [mem_types, insertMonos_eq]
  have hm' : ∀ y ∈ m.all, y.params = [] := fun y hy => Decidable.of_not_not (hm y hy)
  rcases mem_all.1 hy with ⟨x, hx, rfl⟩ | ⟨x, hx, rfl⟩ | ⟨x, hx, rfl⟩ | ⟨x, hx, rfl⟩ | ⟨x, hx, rfl⟩
  · refine .inl ⟨x, ItemMap.exchange_new hwf.structs
      (fun y hy => by simpa [Container.params] using hm' (.struct y) (mem_all.2 (by simp [hy]))) hx
      (fun z hz => hn (.struct z) (mem_types.2 (by simp [hz]))) (fun z hz e => ?_), rfl⟩
    simpa using hu (.struct z) (mem_all.2 (by simp [hz])) e
  · refine .inr (.inl ⟨x, ItemMap.exchange_new hwf.enums
      (fun y hy => by simpa [Container.params] using hm' (.enum y) (mem_all.2 (by simp [hy]))) hx
      (fun z hz => hn (.enum z) (mem_types.2 (by simp [hz]))) (fun z hz e => ?_), rfl⟩)
    simpa using hu (.enum z) (mem_all.2 (by simp [hz])) e
  · refine .inr (.inr (.inl ⟨x, ItemMap.exchange_new hwf.unions
      (fun y hy => by simpa [Container.params] using hm' (.union y) (mem_all.2 (by simp [hy]))) hx
      (fun z hz => hn (.union z) (mem_types.2 (by simp [hz]))) (fun z hz e => ?_), rfl⟩))
    simpa using hu (.union z) (mem_all.2 (by simp [hz])) e
  · refine .inr (.inr (.inr (.inl ⟨x, ItemMap.exchange_new hwf.typedefs
      (fun y hy => by simpa [Container.params] using hm' (.typedef y) (mem_all.2 (by simp [hy]))) hx
      (fun z hz => hn (.typedef z) (mem_types.2 (by simp [hz]))) (fun z hz e => ?_), rfl⟩)))
    simpa using hu (.typedef z) (mem_all.2 (by simp [hz])) e
  · refine .inr (.inr (.inr (.inr ⟨x, ItemMap.exchange_new hwf.opaqueItems
      (fun y hy => by simpa [Container.params] using hm' (.opaque y) (mem_all.2 (by simp [hy]))) hx
      (fun z hz => hn (.opaque z) (mem_types.2 (by simp [hz]))) (fun z hz e => ?_), rfl⟩)))
    simpa using hu (.opaque z) (mem_all.2 (by simp [hz])) e

theorem types_manglePaths (l : Library) (find : Ty → Option Str) :
    (l.manglePaths find).types = l.types.map (Container.mapTys (Ty.manglePaths find)) := by
  simp [Library.types, Library.manglePaths, ItemMap.toVec_mapItems, Function.comp_def,
    Container.mapTys]

/-! ## Uses -/

theorem itemUses_mapTys {g : Ty → Ty} {n : Str} {gs : List GArg} {Q : Prop}
    (hg : ∀ t, Uses (g t) n gs → Uses t n gs ∧ Q) {x : Container} (h : ItemUses (x.mapTys g) n gs) :
    ItemUses x n gs ∧ Q := by
  have hf : ∀ k (fs : List Field), (∃ f ∈ (fs.map (Field.mapTy g)).drop k, Uses f.ty n gs) →
      (∃ f ∈ fs.drop k, Uses f.ty n gs) ∧ Q := by
    rintro k fs ⟨f, hf, hu⟩
    rw [← List.map_drop] at hf
    obtain ⟨f', hf', rfl⟩ := List.mem_map.1 hf
    exact ⟨⟨f', hf', (hg _ hu).1⟩, (hg _ hu).2⟩
  cases x with
  | struct x => exact hf 0 _ h
  | union x => exact hf 0 _ h
  | typedef x => exact hg _ h
  | «opaque» x => exact h.elim
  | enum x =>
    obtain ⟨v, hv, m, b, i, ic, hb, hu⟩ := h
    obtain ⟨v', hv', rfl⟩ := List.mem_map.1 hv
    cases hvb : v'.body with
    | empty a => simp [EnumVariant.mapTys, VBody.mapTys, hvb] at hb
    | body m' b' i' ic' =>
      simp only [EnumVariant.mapTys, VBody.mapTys, hvb, VBody.body.injEq] at hb
      obtain ⟨_, rfl, _⟩ := hb
      have := hf _ _ hu
      exact ⟨⟨v', hv', m', b', i', ic', hvb, this.1⟩, this.2⟩

theorem funcUses_mapTys {g : Ty → Ty} {n : Str} {gs : List GArg} {Q : Prop}
    (hg : ∀ t, Uses (g t) n gs → Uses t n gs ∧ Q) {x : FuncItem} (h : FuncUses (x.mapTys g) n gs) :
    FuncUses x n gs ∧ Q := by
  rcases h with h | ⟨a, ha, h⟩
  · exact ⟨.inl (hg _ h).1, (hg _ h).2⟩
  · obtain ⟨a', ha', rfl⟩ := List.mem_map.1 ha
    exact ⟨.inr ⟨a', ha', (hg _ h).1⟩, (hg _ h).2⟩

theorem fields_monoUses {fs : List Field} {n : Str} {gs : List GArg} {f : Field} (hf : f ∈ fs)
    (h : Uses f.ty n gs) : ∃ e k, (n, e, gs, k) ∈ fs.flatMap fun f => f.ty.genericUses := by
  obtain ⟨e, k, h⟩ := (mem_genericUses _).2 h
  exact ⟨e, k, List.mem_flatMap.2 ⟨f, hf, h⟩⟩

theorem struct_monoUses {x : StructItem} (hx : x.genericParams = []) {n : Str} {gs : List GArg}
    {f : Field} (hf : f ∈ x.fields) (h : Uses f.ty n gs) : ∃ e k, (n, e, gs, k) ∈ x.monoUses := by
  simp only [StructItem.monoUses, hx, List.isEmpty_nil, if_true]
  exact fields_monoUses hf h

/-- The uses in a definition that is not generic are followed. -/
theorem itemUses_monoUses {x : Container} (hx : ¬ x.isGeneric)
    (hb : ∀ y, x = .enum y → ∀ b, BodyOf y b → b.genericParams = []) {n : Str} {gs : List GArg}
    (h : ItemUses x n gs) : ∃ e k, (n, e, gs, k) ∈ x.monoUses := by
  have hx : x.params = [] := Decidable.of_not_not hx
  cases x with
  | struct x =>
    obtain ⟨f, hf, h⟩ := h
    exact struct_monoUses hx hf h
  | union x =>
    obtain ⟨f, hf, h⟩ := h
    simp only [Container.params] at hx
    simp only [Container.monoUses, UnionItem.monoUses, hx, List.isEmpty_nil, if_true]
    exact fields_monoUses hf h
  | typedef x =>
    simp only [Container.params] at hx
    simp only [Container.monoUses, TypedefItem.monoUses, hx, List.isEmpty_nil, if_true]
    exact (mem_genericUses _).2 h
  | «opaque» x => exact h.elim
  | enum x =>
    simp only [Container.params] at hx
    simp only [Container.monoUses, EnumItem.monoUses, hx, List.isEmpty_nil, if_true]
    obtain ⟨v, hv, m, b, i, ic, hvb, f, hf, h⟩ := h
    obtain ⟨e, k, h⟩ := struct_monoUses (hb x rfl b ⟨v, hv, m, i, ic, hvb⟩) (List.mem_of_mem_drop hf) h
    refine ⟨e, k, List.mem_flatMap.2 ⟨v, hv, ?_⟩⟩
    simp only [EnumVariant.monoUses, hvb]
    exact h

theorem funcUses_monoUses {x : FuncItem} {n : Str} {gs : List GArg} (h : FuncUses x n gs) :
    ∃ e k, (n, e, gs, k) ∈ x.monoUses := by
  simp only [FuncItem.monoUses, List.mem_append, List.mem_flatMap]
  rcases h with h | ⟨a, ha, h⟩
  · obtain ⟨e, k, h⟩ := (mem_genericUses _).2 h
    exact ⟨e, k, .inl h⟩
  · obtain ⟨e, k, h⟩ := (mem_genericUses _).2 h
    exact ⟨e, k, .inr ⟨a, ha, h⟩⟩

theorem monoUses_types {l : Library} {x : Container} (hx : x ∈ l.types) {u : GUse}
    (hu : u ∈ x.monoUses) : u ∈ l.monoUses := by
  simp only [Library.monoUses, List.mem_append, List.mem_flatMap]
  rcases mem_types.1 hx with ⟨y, hy, rfl⟩ | ⟨y, hy, rfl⟩ | ⟨y, hy, rfl⟩ | ⟨y, hy, rfl⟩ | ⟨y, hy, rfl⟩
  · exact .inl (.inl (.inl (.inl ⟨y, hy, hu⟩)))
  · exact .inl (.inl (.inr ⟨y, hy, hu⟩))
  · exact .inl (.inl (.inl (.inr ⟨y, hy, hu⟩)))
  · exact .inl (.inr ⟨y, hy, hu⟩)
  · simp [Container.monoUses] at hu

theorem monoUses_func {l : Library} {x : FuncItem} (hx : x ∈ l.functions) {u : GUse}
    (hu : u ∈ x.monoUses) : u ∈ l.monoUses := by
  simp only [Library.monoUses, List.mem_append, List.mem_flatMap]
  exact .inr ⟨x, hx, hu⟩

theorem specialize_bodies {c : LibConfig} {gs : List GArg} {m : List (Str × GArg)} {x : Container}
    (y : EnumItem) (h : x.specialize c gs m = .enum y) (b : StructItem) (hb : BodyOf y b) :
    b.genericParams = [] := by
  cases x with
  | enum x =>
    simp only [Container.specialize, Container.enum.injEq] at h
    subst h
    obtain ⟨v, hv, m', i, ic, hb⟩ := hb
    obtain ⟨v', hv', rfl⟩ := List.mem_map.1 hv
    cases hvb : v'.body with
    | empty a => simp [EnumVariant.specialize, EnumVariant.new, VBody.specialize, hvb] at hb
    | body m'' b' i' ic' =>
      simp only [EnumVariant.specialize, EnumVariant.new, VBody.specialize, hvb, VBody.body.injEq] at hb
      obtain ⟨_, rfl, _⟩ := hb
      rfl
  | struct x => simp [Container.specialize] at h
  | union x => simp [Container.specialize] at h
  | «opaque» x => simp [Container.specialize] at h
  | typedef x => simp [Container.specialize] at h

/-! ## The types of the library -/

theorem fields_mapTy_congr {P : Ty → Prop} {g g' : Ty → Ty} (hg : ∀ t, P t → g t = g' t)
    {fs : List Field} (h : ∀ f ∈ fs, P f.ty) : fs.map (Field.mapTy g) = fs.map (Field.mapTy g') := by
  apply List.map_congr_left
  intro f hf
  simp only [Field.mapTy, hg _ (h f hf)]

theorem mapTys_congr {P : Ty → Prop} {c : LibConfig} {g g' : Ty → Ty} (hg : ∀ t, P t → g t = g' t)
    {x : Container} (h : (before P c).Of x) : x.mapTys g = x.mapTys g' := by
  cases x with
  | struct x => simp only [Container.mapTys, StructItem.mapTys, fields_mapTy_congr hg h.2.2.1]
  | union x => simp only [Container.mapTys, UnionItem.mapTys, fields_mapTy_congr hg h.2.2]
  | typedef x => simp only [Container.mapTys, TypedefItem.mapTys, hg _ h.2.2]
  | «opaque» x => rfl
  | enum x =>
    simp only [Container.mapTys, EnumItem.mapTys]
    congr 2
    apply List.map_congr_left
    intro v hv
    cases hvb : v.body with
    | empty a => simp [EnumVariant.mapTys, VBody.mapTys, hvb]
    | body m b i ic =>
      have := ((h.2.2 v hv).1 _ _ _ _ hvb).2.2.1
      simp only [EnumVariant.mapTys, VBody.mapTys, hvb, StructItem.mapTys, fields_mapTy_congr hg this]

theorem funcMapTys_congr {P : Ty → Prop} {c : LibConfig} {g g' : Ty → Ty}
    (hg : ∀ t, P t → g t = g' t) {x : FuncItem} (h : (before P c).func x) :
    x.mapTys g = x.mapTys g' := by
  simp only [FuncItem.mapTys, hg _ h.1]
  congr 1
  apply List.map_congr_left
  intro a ha
  simp only [FnArg.mapTy, hg _ (h.2 a ha)]

/-! ## The theorem -/

/-- The library `l'` is the library `l` with all generic uses of known definitions replaced by `name`. -/
structure Instantiated (c : LibConfig) (l l' : Library) (name : Str → List GArg → Option Str) :
    Prop where
  /-- What is still generic is unknown. -/
  resolved : ∀ x ∈ l'.types, ∀ n gs, ItemUses x n gs → l.getItems c n = none
  resolvedFunctions : ∀ x ∈ l'.functions, ∀ n gs, FuncUses x n gs → l.getItems c n = none
  /-- Functions and definitions without parameters are kept, with their uses replaced. -/
  functions : l'.functions = l.functions.map (FuncItem.mapTys (replaced name))
  kept : ∀ x ∈ l.types, ¬ x.isGeneric → x.mapTys (replaced name) ∈ l'.types
  /-- All others are instances of definitions, with their uses replaced; none has parameters. -/
  cases : ∀ y ∈ l'.types, ¬ y.isGeneric ∧ ((∃ x ∈ l.types, y = x.mapTys (replaced name)) ∨
    ∃ x gs m, Defined (l.getItems c) x ∧ x.call gs = some m ∧
      name x.path gs = some (c.manglePath x.path gs) ∧
      y = (x.specialize c gs m).mapTys (replaced name))
  /-- The name of a use is the mangled one. -/
  names : ∀ n gs p, name n gs = some p → p = c.manglePath n gs ∧
    ∃ x, Defined (l.getItems c) x ∧ x.path = n
  /-- The name is defined, unless it is the name of another generic definition. -/
  defined : ∀ n gs p, name n gs = some p → (∀ z ∈ l.types, z.path = p → ¬ z.isGeneric) →
    ∃ y ∈ l'.types, y.path = p
  /-- If nothing else has the name, it is defined as the instance. -/
  instances : ∀ n gs p x, name n gs = some p → (∀ z ∈ l.types, z.path ≠ p) →
    (∀ n' gs', name n' gs' = some p → n' = n ∧ gs' = gs) →
    (∀ z, Defined (l.getItems c) z → z.path = n → z = x) →
    ∃ m, x.call gs = some m ∧ (x.specialize c gs m).mapTys (replaced name) ∈ l'.types

theorem Library.Every.types {I : ItemPred} {l : Library} (h : l.Every I) {x : Container}
    (hx : x ∈ l.types) : I.Of x := by
  rcases mem_types.1 hx with ⟨y, hy, rfl⟩ | ⟨y, hy, rfl⟩ | ⟨y, hy, rfl⟩ | ⟨y, hy, rfl⟩ | ⟨y, hy, rfl⟩
  · exact h.structs y hy
  · exact h.enums y hy
  · exact h.unions y hy
  · exact h.typedefs y hy
  · exact h.opaqueItems y hy

theorem Library.definitions {c : LibConfig} (hc : c.language ≠ .cxx) {l : Library} (hwf : l.WF)
    (hp : l.Every (before RefSpec.Plain c)) : Definitions c (l.getItems c) where
  items _ _ h := Library.getItems_path hwf h
  uses x gs m hd hgs hm w hw := by
    obtain ⟨p, items, hg, z, hz, hx⟩ := hd
    have hx := (before_mono hc).parts z (hp.getItems hg z hz) x hx
    exact (before_mono hc).uses _
      ((before_mono hc).spec x (p, p, gs, none) m hx ⟨rfl, rfl, hgs⟩ hm) w hw

/-- What a library is after its generic uses were followed. -/
theorem instantiated {c : LibConfig} (hc : c.language ≠ .cxx) {l l' : Library} (hwf : l.WF)
    (hp : l.Every (before RefSpec.Plain c)) (hb : l.BodiesPlain) {fuel : Nat}
    (h : l.instantiateMonomorphs c fuel = .ok l') : ∃ name, Instantiated c l l' name := by
  obtain ⟨m, hm, rfl⟩ := Library.instantiateMonomorphs_ok h
  have hd := Library.definitions hc hwf hp
  have hus := hp.monoUses (before_mono hc)
  obtain ⟨hg, hh⟩ := followAll_grows hd hus hm
  have hI := hp.monos (before_mono hc) hm
  refine ⟨fun n gs => m.find (Ty.newPath n gs), ?_⟩
  have hcongr : ∀ x, (before RefSpec.Plain c).Of x →
      x.mapTys (Ty.manglePaths m.find) = x.mapTys (replaced fun n gs => m.find (Ty.newPath n gs)) :=
    fun x hx => mapTys_congr (P := RefSpec.Plain) (c := c) (manglePaths_eq m.find) hx
  have hplain : ∀ x ∈ (l.insertMonos m).types, (before RefSpec.Plain c).Of x :=
    fun x hx => (hp.insertMonos hI).types hx
  have hall : ∀ y ∈ m.all, (∃ x gs, InstanceOf c (l.getItems c) y x gs ∧
      (Ty.newPath x.path gs, y.path) ∈ m.repl) ∧ ∀ w ∈ y.monoUses, Handled (l.getItems c) w m := by
    intro y hy
    rcases hg.monos y hy with h | h
    · simp [Monos.all] at h
    · exact h
  have hent : ∀ e ∈ m.repl, ∃ x gs y, InstanceOf c (l.getItems c) y x gs ∧
      e = (Ty.newPath x.path gs, y.path) ∧ y ∈ m.all := by
    intro e he
    rcases hg.entries e he with h | h
    · simp at h
    · exact h
  have hfind : ∀ n gs p, m.find (Ty.newPath n gs) = some p → ∃ x y, x.path = n ∧
      InstanceOf c (l.getItems c) y x gs ∧ y ∈ m.all ∧ y.path = p ∧ p = c.manglePath n gs := by
    intro n gs p hf
    have hmem : (Ty.newPath n gs, p) ∈ m.repl := by
      unfold Monos.find at hf
      rw [List.lookup_eq_some_iff] at hf
      obtain ⟨a, b, e, _⟩ := hf
      rw [e]; simp
    obtain ⟨x, gs', y, h1, h2, h3⟩ := hent _ hmem
    simp only [Ty.newPath, Prod.mk.injEq, Ty.path.injEq] at h2
    obtain ⟨⟨rfl, _, rfl, _⟩, rfl⟩ := h2
    obtain ⟨m', _, e⟩ := h1.eq
    exact ⟨x, y, rfl, h1, h3, rfl, by rw [e, Container.specialize_path]⟩
  have hng : ∀ y ∈ m.all, ¬ y.isGeneric := by
    intro y hy
    obtain ⟨⟨x, gs, h1, _⟩, _⟩ := hall y hy
    obtain ⟨m', _, rfl⟩ := h1.eq
    intro hgen
    exact hgen (Container.specialize_params ..)
  have hrep : ∀ y ∈ m.all, ∃ x gs, InstanceOf c (l.getItems c) y x gs ∧
      m.find (Ty.newPath x.path gs) = some (c.manglePath x.path gs) := by
    intro y hy
    obtain ⟨⟨x, gs, h1, h2⟩, _⟩ := hall y hy
    refine ⟨x, gs, h1, ?_⟩
    cases hf : m.find (Ty.newPath x.path gs) with
    | none =>
      unfold Monos.find at hf
      rw [List.lookup_eq_none_iff] at hf
      exact absurd (hf _ h2) (by simp)
    | some p =>
      obtain ⟨_, _, _, _, _, _, e⟩ := hfind _ _ _ hf
      rw [e]
  have huses : ∀ n e gs k, PlainUse (n, e, gs, k) → Handled (l.getItems c) (n, e, gs, k) m →
      m.find (Ty.newPath n gs) = none → l.getItems c n = none := by
    intro n e gs k hu hH hn
    rcases hH with hH | hH
    · rw [hu.ty_eq] at hH
      simp only [hn, Option.isSome_none, Bool.false_eq_true] at hH
    · exact hH
  constructor
  · intro y hy n gs hu
    rw [types_manglePaths] at hy
    obtain ⟨x, hx, rfl⟩ := List.mem_map.1 hy
    rw [hcongr x (hplain x hx)] at hu
    obtain ⟨hu, hn⟩ := itemUses_mapTys (fun t ht => uses_replaced t ht) hu
    obtain ⟨hxg, hx' | hx'⟩ := types_cases hwf hx
    · obtain ⟨e, k, hmu⟩ := itemUses_monoUses hxg (fun z ez b hbz => by
        subst ez
        rcases mem_types.1 hx' with ⟨y, hy, e⟩ | ⟨y, hy, e⟩ | ⟨y, hy, e⟩ | ⟨y, hy, e⟩ | ⟨y, hy, e⟩
        · cases e
        · cases e; exact hb z hy (Decidable.of_not_not hxg) b hbz
        · cases e
        · cases e
        · cases e) hu
      have hmu := monoUses_types hx' hmu
      exact huses n e gs k (hus _ hmu) (hh _ hmu) hn
    · obtain ⟨⟨z, gs', h1, _⟩, h2⟩ := hall x hx'
      obtain ⟨m', hm', rfl⟩ := h1.eq
      obtain ⟨e, k, hmu⟩ := itemUses_monoUses hxg (fun y hy b hb => specialize_bodies y hy b hb) hu
      exact huses n e gs k (hd.uses z gs' m' h1.defined h1.plain hm' _ hmu) (h2 _ hmu) hn
  · intro y hy n gs hu
    obtain ⟨x, hx, rfl⟩ := List.mem_map.1 hy
    have hx : x ∈ l.functions := hx
    rw [funcMapTys_congr (c := c) (manglePaths_eq m.find) (hp.functions x hx)] at hu
    obtain ⟨hu, hn⟩ := funcUses_mapTys (fun t ht => uses_replaced t ht) hu
    obtain ⟨e, k, hmu⟩ := funcUses_monoUses hu
    have hmu := monoUses_func hx hmu
    exact huses n e gs k (hus _ hmu) (hh _ hmu) hn
  · apply List.map_congr_left
    intro x hx
    exact funcMapTys_congr (c := c) (manglePaths_eq m.find) (hp.functions x hx)
  · intro x hx hgen
    rw [types_manglePaths, ← hcongr x (hp.types hx)]
    exact List.mem_map.2 ⟨x, types_old hwf m hx hgen, rfl⟩
  · intro y hy
    rw [types_manglePaths] at hy
    obtain ⟨x, hx, rfl⟩ := List.mem_map.1 hy
    obtain ⟨hxg, hx'⟩ := types_cases hwf hx
    refine ⟨?_, ?_⟩
    · cases x <;> exact hxg
    · rw [hcongr x (hplain x hx)]
      rcases hx' with hx' | hx'
      · exact .inl ⟨x, hx', rfl⟩
      · obtain ⟨z, gs, h1, h2⟩ := hrep x hx'
        obtain ⟨m', hm', rfl⟩ := h1.eq
        exact .inr ⟨z, gs, m', h1.defined, hm', h2, rfl⟩
  · intro n gs p hf
    obtain ⟨x, y, h1, h2, h3, h4, h5⟩ := hfind n gs p hf
    exact ⟨h5, x, h2.defined, h1⟩
  · intro n gs p hf hno
    obtain ⟨x, y, h1, h2, h3, h4, h5⟩ := hfind n gs p hf
    subst h4
    obtain ⟨z, hz, e⟩ := types_defined hwf hng h3 hno
    rw [types_manglePaths]
    exact ⟨_, List.mem_map.2 ⟨z, hz, rfl⟩, by rw [Container.mapTys_path]; exact e⟩
  · intro n gs p x hf hno hinj huniq
    obtain ⟨x', y, h1, h2, h3, h4, h5⟩ := hfind n gs p hf
    have hx' : x' = x := huniq x' h2.defined h1
    subst hx'
    obtain ⟨m', hm', e⟩ := h2.eq
    refine ⟨m', hm', ?_⟩
    have hy : y ∈ (l.insertMonos m).types := by
      refine types_new hwf hng h3 (by rw [h4]; exact hno) ?_
      intro z hz hzp
      obtain ⟨w, gs', hw, hwf'⟩ := hrep z hz
      obtain ⟨m'', hm'', ez⟩ := hw.eq
      have : c.manglePath w.path gs' = p := by
        rw [← h4, ← hzp, ez, Container.specialize_path]
      rw [this] at hwf'
      obtain ⟨e1, rfl⟩ := hinj _ _ hwf'
      have : w = x' := huniq w hw.defined e1
      subst this
      rw [hm'] at hm''
      cases hm''
      rw [ez, e]
    rw [types_manglePaths, ← e, ← hcongr y (hplain y hy)]
    exact List.mem_map.2 ⟨y, hy, rfl⟩

/-- **C16 (partial).** If monomorphisation succeeds, there is one name for each generic use of a known
definition, the mangled one; the functions and the definitions without parameters are kept with all these
uses replaced by their names, at any depth of pointers, arrays and function pointers; all other definitions
are instances of generic ones, treated likewise; no definition with parameters and no generic use of a
known definition remains.  The name of a use is defined, unless a generic definition has that name too, see
`C16_name_taken`; it is defined as the instance if nothing else has the name.  Missing: statics, see
`C16_static`, and instances are not made only once, see `C16_twice`. -/
theorem C16_instantiated_partial {c : LibConfig} (hc : c.language ≠ .cxx) {l l' : Library} (hwf : l.WF)
    (hp : l.Plain) (hb : l.BodiesPlain) {fuel : Nat} (h : l.instantiateMonomorphs c fuel = .ok l') :
    ∃ name, Instantiated c l l' name :=
  instantiated hc hwf (hp.every c) hb h

/-! ## The bindings -/

theorem uses_resolve (find : Str → Option DeclKind) {t t' : Ty} {n : Str} {gs : List GArg}
    (h : Uses t' n gs) : t' = t.resolve find → Uses t n gs := by
  induction h generalizing t with
  | here hne =>
    intro ht; cases t <;> simp only [Ty.resolve, Ty.path.injEq, reduceCtorEq] at ht
    obtain ⟨rfl, _, rfl, rfl⟩ := ht; exact .here hne
  | ptr _ ih =>
    intro ht; cases t <;> simp only [Ty.resolve, Ty.ptr.injEq, reduceCtorEq] at ht
    exact .ptr (ih ht.1)
  | array _ ih =>
    intro ht; cases t <;> simp only [Ty.resolve, Ty.array.injEq, reduceCtorEq] at ht
    exact .array (ih ht.1)
  | ret _ ih =>
    intro ht; cases t <;> simp only [Ty.resolve, Ty.fnptr.injEq, reduceCtorEq] at ht
    exact .ret (ih ht.1)
  | arg ha _ ih =>
    intro ht; cases t <;> simp only [Ty.resolve, Ty.fnptr.injEq, reduceCtorEq] at ht
    obtain ⟨_, h2, _⟩ := ht
    rw [h2, FArg.resolveList_eq] at ha
    obtain ⟨⟨a, t⟩, ha, e⟩ := List.mem_map.1 ha
    simp only [FArg.resolve, FArg.mk.injEq] at e
    exact .arg ha (ih e.2.symm)

theorem uses_rename (ren : Str → Str) (ps : List GParam) {t t' : Ty} {n : Str} {gs : List GArg}
    (h : Uses t' n gs) : t' = t.rename ren ps → ∃ gs', Uses t n gs' := by
  induction h generalizing t with
  | here hne =>
    intro ht; cases t <;> simp only [Ty.rename, Ty.path.injEq, reduceCtorEq] at ht
    obtain ⟨rfl, _, rfl, rfl⟩ := ht
    refine ⟨_, .here ?_⟩
    intro e
    exact hne (by rw [e]; rfl)
  | ptr _ ih =>
    intro ht; cases t <;> simp only [Ty.rename, Ty.ptr.injEq, reduceCtorEq] at ht
    obtain ⟨gs', h⟩ := ih ht.1
    exact ⟨gs', .ptr h⟩
  | array _ ih =>
    intro ht; cases t <;> simp only [Ty.rename, Ty.array.injEq, reduceCtorEq] at ht
    obtain ⟨gs', h⟩ := ih ht.1
    exact ⟨gs', .array h⟩
  | ret _ ih =>
    intro ht; cases t <;> simp only [Ty.rename, Ty.fnptr.injEq, reduceCtorEq] at ht
    obtain ⟨gs', h⟩ := ih ht.1
    exact ⟨gs', .ret h⟩
  | arg ha _ ih =>
    intro ht; cases t <;> simp only [Ty.rename, Ty.fnptr.injEq, reduceCtorEq] at ht
    obtain ⟨_, h2, _⟩ := ht
    rw [h2, FArg.renameList_eq] at ha
    obtain ⟨⟨a, u⟩, ha, e⟩ := List.mem_map.1 ha
    simp only [FArg.rename, FArg.mk.injEq] at e
    obtain ⟨gs', h⟩ := ih e.2.symm
    exact ⟨gs', .arg ha h⟩

/-- `P` holds of all types of definitions and functions, of tags aside. -/
def defTys (P : Ty → Prop) : ItemPred := { allTys P with static := fun _ => True }

theorem defTys_renames {P : Ty → Prop} {c : LibConfig} (hP : ∀ t ps, P t → P (t.rename c.ren ps)) :
    (defTys P).Renames (defTys P) c :=
  { allTys_renames hP with static := fun _ _ => trivial }

theorem defTys_mapTys {P Q : Ty → Prop} {g : Ty → Ty} (hg : ∀ t, P t → Q (g t)) :
    (defTys P).MapTys (defTys Q) g where
  const _ _ := trivial
  static _ _ := trivial
  enum x h := by
    intro v hv m b i ic hb f hf
    obtain ⟨v', hv', rfl⟩ := List.mem_map.1 hv
    cases hvb : v'.body with
    | empty a => simp [EnumVariant.mapTys, VBody.mapTys, hvb] at hb
    | body m' b' i' ic' =>
      simp only [EnumVariant.mapTys, VBody.mapTys, hvb, VBody.body.injEq] at hb
      obtain ⟨_, rfl, _⟩ := hb
      simp only [StructItem.mapTys, ← List.map_drop] at hf
      obtain ⟨f', hf', rfl⟩ := List.mem_map.1 hf
      exact hg _ (h v' hv' _ _ _ _ hvb f' hf')
  struct x h := fields_mapTy hg h
  union x h := fields_mapTy hg h
  «opaque» _ _ := trivial
  typedef _ h := hg _ h
  func x h := ⟨hg _ h.1, by
    intro a ha
    obtain ⟨a', ha', rfl⟩ := List.mem_map.1 ha
    exact hg _ (h.2 a' ha')⟩

/-- The uses of an item are in its types. -/
theorem defTys_iff {P : Ty → Prop} {n : Str} {gs : List GArg} {x : Container} (h : (defTys P).Of x)
    (hu : ItemUses x n gs) : ∃ t, P t ∧ Uses t n gs := by
  cases x with
  | enum x =>
    obtain ⟨v, hv, m, b, i, ic, hb, f, hf, hu⟩ := hu
    exact ⟨f.ty, h v hv m b i ic hb f hf, hu⟩
  | struct x =>
    obtain ⟨f, hf, hu⟩ := hu
    exact ⟨f.ty, h f hf, hu⟩
  | union x =>
    obtain ⟨f, hf, hu⟩ := hu
    exact ⟨f.ty, h f hf, hu⟩
  | «opaque» x => exact hu.elim
  | typedef x => exact ⟨x.aliased, h, hu⟩

/-- The uses of a library as a predicate on its types. -/
theorem resolved_defTys {l : Library} {K : Str → Prop}
    (h1 : ∀ x ∈ l.types, ∀ n gs, ItemUses x n gs → K n)
    (h2 : ∀ x ∈ l.functions, ∀ n gs, FuncUses x n gs → K n) :
    l.Every (defTys fun t => ∀ n gs, Uses t n gs → K n) where
  constants _ _ := trivial
  globals _ _ := trivial
  enums x hx := fun v hv m b i ic hb f hf n gs hu =>
    h1 (.enum x) (mem_types.2 (by simp [hx])) n gs ⟨v, hv, m, b, i, ic, hb, f, hf, hu⟩
  structs x hx := fun f hf n gs hu => h1 (.struct x) (mem_types.2 (by simp [hx])) n gs ⟨f, hf, hu⟩
  unions x hx := fun f hf n gs hu => h1 (.union x) (mem_types.2 (by simp [hx])) n gs ⟨f, hf, hu⟩
  opaqueItems _ _ := trivial
  typedefs x hx := fun n gs hu => h1 (.typedef x) (mem_types.2 (by simp [hx])) n gs hu
  functions x hx := ⟨fun n gs hu => h2 x hx n gs (.inl hu),
    fun a ha n gs hu => h2 x hx n gs (.inr ⟨a, ha, hu⟩)⟩

/-- Enums without parameters have bodies without parameters. -/
def plainBodies : ItemPred := { anyItem with
  enum := fun x => x.genericParams = [] → ∀ b, BodyOf x b → b.genericParams = [] }

theorem plainBodies_mapTys (g : Ty → Ty) : plainBodies.MapTys plainBodies g where
  const _ _ := trivial
  static _ _ := trivial
  enum x h hx b hb := by
    obtain ⟨v, hv, m, i, ic, hb⟩ := hb
    obtain ⟨v', hv', rfl⟩ := List.mem_map.1 hv
    cases hvb : v'.body with
    | empty a => simp [EnumVariant.mapTys, VBody.mapTys, hvb] at hb
    | body m' b' i' ic' =>
      simp only [EnumVariant.mapTys, VBody.mapTys, hvb, VBody.body.injEq] at hb
      obtain ⟨_, rfl, _⟩ := hb
      exact h hx b' ⟨v', hv', m', i', ic', hvb⟩
  struct _ _ := trivial
  union _ _ := trivial
  «opaque» _ _ := trivial
  typedef _ _ := trivial
  func _ _ := trivial

/-- **C16 (partial).** No definition and no function of a header in C or Cython contains a generic use of a
definition that is known in the library.  Missing: statics, see `C16_static`. -/
theorem C16_header_partial {c : LibConfig} (hc : c.language ≠ .cxx)
    {order : List (Str × Annotations) → List (Str × Annotations)} {fuel : Nat} {l : Library}
    {b : Bindings} (hwf : l.WF) (hp : l.Plain) (hb : l.BodiesPlain)
    (h : l.generate c order fuel = .ok b) :
    (∀ x ∈ b.items, ∀ n gs, ItemUses x n gs → l.getItems c n = none) ∧
    ∀ x ∈ b.functions, ∀ n gs, FuncUses x n gs → l.getItems c n = none := by
  obtain ⟨l', hl', _⟩ := Library.generate_ok h
  obtain ⟨l₁, h1, h2⟩ := Library.prepare_ok hl'
  have hs := l.simplified_shape c order
  have hp₀ : (((l.transferAnnotations order).simplify c).sortFunctions c).Every
      (before RefSpec.Plain c) :=
    (((hp.every c).transferAnnotations (before_ignores _ c) order).simplify
      (before_mapTys (plain_simplify c.language) c)).sortFunctions
  have hb₀ : (((l.transferAnnotations order).simplify c).sortFunctions c).BodiesPlain := by
    have hb' : l.Every plainBodies :=
      ⟨fun _ _ => trivial, fun _ _ => trivial, hb, fun _ _ => trivial, fun _ _ => trivial,
        fun _ _ => trivial, fun _ _ => trivial, fun _ _ => trivial⟩
    exact (((hb'.transferAnnotations ⟨fun _ _ h => h, fun _ _ _ => trivial, fun _ _ _ => trivial,
      fun _ _ _ => trivial, fun _ _ _ => trivial⟩ order).simplify
        (plainBodies_mapTys _)).sortFunctions).enums
  have hwf₀ := hs.wf hwf
  unfold Library.expand at h1
  rw [if_neg hc] at h1
  obtain ⟨name, hi⟩ := instantiated hc hwf₀ hp₀ hb₀ h1
  have he : l₁.Every (defTys fun t => ∀ n gs, Uses t n gs → l.getItems c n = none) :=
    resolved_defTys (fun x hx n gs hu => hs.getItems_none c (hi.resolved x hx n gs hu))
      (fun x hx n gs hu => hs.getItems_none c (hi.resolvedFunctions x hx n gs hu))
  have hf : l'.Every (defTys fun t => ∀ n gs, Uses t n gs → l.getItems c n = none) := by
    unfold Library.finish at h2
    refine Library.Every.renameItems (defTys_renames ?_) ?_ h2
    · intro t ps ht n gs hu
      obtain ⟨gs', hu⟩ := uses_rename _ _ hu rfl
      exact ht n gs' hu
    · split
      · by_cases hg : c.generateTag = true
        · exact he.removeExcluded.resolveDeclTypes hg
            (defTys_mapTys fun t ht n gs hu => ht n gs (uses_resolve _ hu rfl))
        · unfold Library.resolveDeclTypes
          rw [if_neg hg]
          exact he.removeExcluded
      · exact he.removeExcluded
  have hbi := hf.collected hl' h
  refine ⟨?_, ?_⟩
  · intro x hx n gs hu
    obtain ⟨t, ht, hu⟩ := defTys_iff (hbi.items x hx) hu
    exact ht n gs hu
  · intro x hx n gs hu
    rcases hu with hu | ⟨a, ha, hu⟩
    · exact (hbi.functions x hx).1 n gs hu
    · exact (hbi.functions x hx).2 a ha n gs hu

end Cbindgen
