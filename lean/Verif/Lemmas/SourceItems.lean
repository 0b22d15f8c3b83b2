import Verif.Lemmas.SourceTables
import Verif.Lemmas.MonoOnce

/-!
# From the tables of types to the types of the bindings (C64)
-/

namespace Cbindgen

open ItemMap

/-! ## Renaming a table -/

open LibSpec

namespace ItemMap
variable {α : Type} [Item α]

omit [Item α] in
theorem mapValueM_items {f : α → Option α} {v v' : ItemValue α} (h : mapValueM f v = some v') :
    (∀ y, y ∈ v'.items ↔ ∃ x ∈ v.items, f x = some y) ∧ ∀ x ∈ v.items, ∃ y, f x = some y := by
  cases v with
  | single x =>
    have h : (f x).map ItemValue.single = some v' := h
    rw [Option.map_eq_some_iff] at h
    obtain ⟨y, hy, rfl⟩ := h
    simp [ItemValue.items, hy, eq_comm]
  | cfg xs =>
    have h : (xs.mapM f).map ItemValue.cfg = some v' := h
    rw [Option.map_eq_some_iff] at h
    obtain ⟨ys, hy, rfl⟩ := h
    exact ⟨mem_mapM_iff hy, mapM_total hy⟩

theorem mapValueM_shape {f : α → Option α} (hf : ∀ x y, f x = some y → Item.path y = Item.path x ∧ Item.cfg y = Item.cfg x)
    {v v' : ItemValue α} (h : mapValueM f v = some v') :
    mapValue (fun x => (Item.path x, Item.cfg x)) v' = mapValue (fun x => (Item.path x, Item.cfg x)) v := by
  cases v with
  | single x =>
    have h : (f x).map ItemValue.single = some v' := h
    rw [Option.map_eq_some_iff] at h
    obtain ⟨y, hy, rfl⟩ := h
    simp [mapValue, hf _ _ hy]
  | cfg xs =>
    have h : (xs.mapM f).map ItemValue.cfg = some v' := h
    rw [Option.map_eq_some_iff] at h
    obtain ⟨ys, hy, rfl⟩ := h
    simp only [mapValue, ItemValue.cfg.injEq]
    clear h
    induction xs generalizing ys with
    | nil =>
      simp only [List.mapM_nil, Option.pure_def, Option.some.injEq] at hy
      subst hy
      rfl
    | cons x xs ih =>
      rw [List.mapM_cons] at hy
      simp only [Option.bind_eq_bind, Option.bind_eq_some_iff, Option.pure_def, Option.some.injEq] at hy
      obtain ⟨z, hz, zs, hzs, rfl⟩ := hy
      simp [hf _ _ hz, ih zs hzs]

omit [Item α] in
theorem mapItemsM_cons {f : α → Option α} {kv : Str × ItemValue α} {m m' : ItemMap α}
    (h : mapItemsM f (kv :: m) = some m') : ∃ v m'', mapValueM f kv.2 = some v ∧ mapItemsM f m = some m'' ∧ m' = (kv.1, v) :: m'' := by
  unfold mapItemsM at h
  rw [List.mapM_cons] at h
  simp only [Option.bind_eq_bind, Option.bind_eq_some_iff, Option.pure_def, Option.some.injEq, Option.map_eq_some_iff] at h
  obtain ⟨z, ⟨v, hv, rfl⟩, zs, hzs, rfl⟩ := h
  exact ⟨v, zs, hv, hzs, rfl⟩

omit [Item α] in
theorem mapItemsM_iff {f : α → Option α} : ∀ {m m' : ItemMap α}, mapItemsM f m = some m' →
    (∀ y, y ∈ m'.toVec ↔ ∃ x ∈ m.toVec, f x = some y) ∧ ∀ x ∈ m.toVec, ∃ y, f x = some y
  | [], m', h => by
    simp only [mapItemsM, List.mapM_nil, Option.pure_def, Option.some.injEq] at h
    subst h
    simp [toVec]
  | kv :: m, m', h => by
    obtain ⟨v, m'', h1, h2, rfl⟩ := mapItemsM_cons h
    obtain ⟨h3, h4⟩ := mapValueM_items h1
    obtain ⟨h5, h6⟩ := mapItemsM_iff h2
    constructor
    · intro y
      rw [toVec_cons, toVec_cons, List.mem_append, h3, h5]
      constructor
      · rintro (⟨x, hx, e⟩ | ⟨x, hx, e⟩)
        · exact ⟨x, List.mem_append.2 (Or.inl hx), e⟩
        · exact ⟨x, List.mem_append.2 (Or.inr hx), e⟩
      · rintro ⟨x, hx, e⟩
        rcases List.mem_append.1 hx with hx | hx
        · exact Or.inl ⟨x, hx, e⟩
        · exact Or.inr ⟨x, hx, e⟩
    · intro x hx
      rw [toVec_cons, List.mem_append] at hx
      rcases hx with hx | hx
      · exact h4 x hx
      · exact h6 x hx

theorem mapItemsM_shape {f : α → Option α} (hf : ∀ x y, f x = some y → Item.path y = Item.path x ∧ Item.cfg y = Item.cfg x) :
    ∀ {m m' : ItemMap α}, mapItemsM f m = some m' → shape m' = shape m
  | [], m', h => by
    simp only [mapItemsM, List.mapM_nil, Option.pure_def, Option.some.injEq] at h
    subst h
    rfl
  | kv :: m, m', h => by
    obtain ⟨v, m'', h1, h2, rfl⟩ := mapItemsM_cons h
    have := mapItemsM_shape hf h2
    obtain ⟨k, w⟩ := kv
    unfold shape at this ⊢
    rw [mapItems_cons, mapItems_cons, this, mapValueM_shape hf h1]

/-- The renamed table. -/
theorem renamed {f : α → Option α} (hf : ∀ x y, f x = some y → Item.path y = Item.path x ∧ Item.cfg y = Item.cfg x)
    {m m' : ItemMap α} (hw : WF m) (h : mapItemsM f m = some m') :
    (∀ y, y ∈ m'.rebuild.toVec ↔ ∃ x ∈ m.toVec, f x = some y) ∧ ∀ x ∈ m.toVec, ∃ y, f x = some y := by
  rw [rebuild_wf ((wf_shape _).1 (by rw [mapItemsM_shape hf h]; exact (wf_shape _).2 hw))]
  exact mapItemsM_iff h

theorem getItems_mem {m : ItemMap α} (hw : WF m) {x : α} (h : x ∈ m.toVec) : ∃ xs, m.getItems (Item.path x) = some xs ∧ x ∈ xs := by
  rw [wf_eq_tableOf hw, mem_tableOf] at h
  refine ⟨kept m.toVec (Item.path x), ?_, h⟩
  rw [wf_eq_tableOf hw, getItems_tableOf, ← wf_eq_tableOf hw]
  rw [if_pos (List.mem_map.2 ⟨x, (mem_kept h).1, rfl⟩)]

end ItemMap

/-! ## Renaming types -/

/-- Rename a definition; `none` is a panic. -/
def Container.renameFor (c : LibConfig) : Container → Option Container
  | .enum x => (x.renameFor c).map .enum
  | .struct x => (x.renameFor c).map .struct
  | .union x => (x.renameFor c).map .union
  | .opaque x => some (.opaque (x.renameFor c))
  | .typedef x => some (.typedef (x.renameFor c))

theorem struct_rename_keeps {c : LibConfig} {x y : StructItem} (h : x.renameFor c = some y) : y.path = x.path ∧ y.cfg = x.cfg := by
  unfold StructItem.renameFor at h
  rw [Option.map_eq_some_iff] at h
  obtain ⟨_, _, rfl⟩ := h
  exact ⟨rfl, rfl⟩

theorem union_rename_keeps {c : LibConfig} {x y : UnionItem} (h : x.renameFor c = some y) : y.path = x.path ∧ y.cfg = x.cfg := by
  unfold UnionItem.renameFor at h
  rw [Option.map_eq_some_iff] at h
  obtain ⟨_, _, rfl⟩ := h
  exact ⟨rfl, rfl⟩

theorem enum_tag_keeps {c : LibConfig} {x y : EnumItem} (h : x.renameTag c = some y) : y.path = x.path ∧ y.cfg = x.cfg := by
  unfold EnumItem.renameTag at h
  split at h
  · dsimp only at h
    split at h
    · rw [Option.map_eq_some_iff] at h
      obtain ⟨_, _, rfl⟩ := h
      exact ⟨rfl, rfl⟩
    · cases h
      exact ⟨rfl, rfl⟩
  · cases h
    exact ⟨rfl, rfl⟩

theorem enum_rename_keeps {c : LibConfig} {x y : EnumItem} (h : x.renameFor c = some y) : y.path = x.path ∧ y.cfg = x.cfg := by
  unfold EnumItem.renameFor at h
  simp only [Option.bind_eq_bind, Option.bind_eq_some_iff, Option.pure_def, Option.some.injEq] at h
  obtain ⟨z, hz, _, _, _, _, rfl⟩ := h
  exact (enum_tag_keeps hz : z.path = _ ∧ z.cfg = _)

theorem renameItems_types {c : LibConfig} {l l' : Library} (hw : l.WF) (h : l.renameItems c = some l') :
    (∀ y, y ∈ l'.types ↔ ∃ x ∈ l.types, x.renameFor c = some y) ∧ ∀ x ∈ l.types, ∃ y, x.renameFor c = some y := by
  unfold Library.renameItems at h
  simp only [Option.bind_eq_bind, Option.bind_eq_some_iff, Option.pure_def, Option.some.injEq] at h
  obtain ⟨ss, hss, us, hus, es, hes, fs, _, rfl⟩ := h
  obtain ⟨s1, s2⟩ := renamed (fun _ _ => struct_rename_keeps) hw.structs hss
  obtain ⟨u1, u2⟩ := renamed (fun _ _ => union_rename_keeps) hw.unions hus
  obtain ⟨e1, e2⟩ := renamed (fun _ _ => enum_rename_keeps) hw.enums hes
  have o1 : (l.opaqueItems.mapItems (OpaqueItem.renameFor c)).rebuild.toVec = l.opaqueItems.toVec.map (OpaqueItem.renameFor c) := by
    rw [rebuild_wf (wf_mapItems (OpaqueItem.renameFor c) (fun _ => rfl) (fun _ => rfl) hw.opaqueItems), toVec_mapItems]
  have t1 : (l.typedefs.mapItems (TypedefItem.renameFor c)).rebuild.toVec = l.typedefs.toVec.map (TypedefItem.renameFor c) := by
    rw [rebuild_wf (wf_mapItems (TypedefItem.renameFor c) (fun _ => rfl) (fun _ => rfl) hw.typedefs), toVec_mapItems]
  constructor
  · intro y
    simp only [mem_types, s1, u1, e1, o1, t1, List.mem_map]
    constructor
    · rintro (⟨z, ⟨x, hx, e⟩, rfl⟩ | ⟨z, ⟨x, hx, e⟩, rfl⟩ | ⟨z, ⟨x, hx, e⟩, rfl⟩ | ⟨z, ⟨x, hx, rfl⟩, rfl⟩ | ⟨z, ⟨x, hx, rfl⟩, rfl⟩)
      · exact ⟨.struct x, by simp [hx], by simp [Container.renameFor, e]⟩
      · exact ⟨.enum x, by simp [hx], by simp [Container.renameFor, e]⟩
      · exact ⟨.union x, by simp [hx], by simp [Container.renameFor, e]⟩
      · exact ⟨.typedef x, by simp [hx], rfl⟩
      · exact ⟨.opaque x, by simp [hx], rfl⟩
    · rintro ⟨x, ⟨z, hz, rfl⟩ | ⟨z, hz, rfl⟩ | ⟨z, hz, rfl⟩ | ⟨z, hz, rfl⟩ | ⟨z, hz, rfl⟩, e⟩ <;>
        simp only [Container.renameFor, Option.map_eq_some_iff, Option.some.injEq] at e
      · obtain ⟨w, hw, rfl⟩ := e
        exact Or.inl ⟨w, ⟨z, hz, hw⟩, rfl⟩
      · obtain ⟨w, hw, rfl⟩ := e
        exact Or.inr (Or.inl ⟨w, ⟨z, hz, hw⟩, rfl⟩)
      · obtain ⟨w, hw, rfl⟩ := e
        exact Or.inr (Or.inr (Or.inl ⟨w, ⟨z, hz, hw⟩, rfl⟩))
      · subst e
        exact Or.inr (Or.inr (Or.inr (Or.inl ⟨_, ⟨z, hz, rfl⟩, rfl⟩)))
      · subst e
        exact Or.inr (Or.inr (Or.inr (Or.inr ⟨_, ⟨z, hz, rfl⟩, rfl⟩)))
  · intro x hx
    rcases mem_types.1 hx with ⟨y, hy, rfl⟩ | ⟨y, hy, rfl⟩ | ⟨y, hy, rfl⟩ | ⟨y, hy, rfl⟩ | ⟨y, hy, rfl⟩
    · obtain ⟨z, hz⟩ := s2 y hy
      exact ⟨.struct z, by simp [Container.renameFor, hz]⟩
    · obtain ⟨z, hz⟩ := e2 y hy
      exact ⟨.enum z, by simp [Container.renameFor, hz]⟩
    · obtain ⟨z, hz⟩ := u2 y hy
      exact ⟨.union z, by simp [Container.renameFor, hz]⟩
    · exact ⟨_, rfl⟩
    · exact ⟨_, rfl⟩

theorem Container.renameFor_keeps {c : LibConfig} {x y : Container} (h : x.renameFor c = some y) :
    y.path = x.path ∧ y.type = x.type := by
  cases x <;> simp only [Container.renameFor, Option.map_eq_some_iff, Option.some.injEq] at h
  · obtain ⟨z, hz, rfl⟩ := h
    exact ⟨(enum_rename_keeps hz).1, rfl⟩
  · obtain ⟨z, hz, rfl⟩ := h
    exact ⟨(struct_rename_keeps hz).1, rfl⟩
  · obtain ⟨z, hz, rfl⟩ := h
    exact ⟨(union_rename_keeps hz).1, rfl⟩
  · subst h
    exact ⟨rfl, rfl⟩
  · subst h
    exact ⟨rfl, rfl⟩

/-! ## The other steps -/

theorem Container.mapTys_type (g : Ty → Ty) (x : Container) : (x.mapTys g).type = x.type := by cases x <;> rfl

theorem Container.mapTys_params (g : Ty → Ty) (x : Container) : (x.mapTys g).params = x.params := by cases x <;> rfl

theorem types_simplify (c : LibConfig) (l : Library) :
    (l.simplify c).types = l.types.map (Container.mapTys (Ty.simplify c.language)) := by
  simp [Library.types, Library.simplify, toVec_mapItems, Function.comp_def, Container.mapTys]

theorem types_resolve (c : LibConfig) (l : Library) : (l.resolveDeclTypes c).types =
    if c.generateTag then l.types.map (Container.mapTys (Ty.resolve (Resolver.typeFor l.resolver))) else l.types := by
  unfold Library.resolveDeclTypes
  cases c.generateTag with
  | false => rfl
  | true => simp [Library.types, toVec_mapItems, Function.comp_def, Container.mapTys]

theorem types_removeExcluded (c : LibConfig) (l : Library) (x : Container) :
    x ∈ (l.removeExcluded c).types ↔ x ∈ l.types ∧ x.path ∉ c.export_.exclude := by
  simp only [mem_types, Library.removeExcluded, toVec_filter, List.mem_filter]
  constructor
  · rintro (⟨y, ⟨hy, h⟩, rfl⟩ | ⟨y, ⟨hy, h⟩, rfl⟩ | ⟨y, ⟨hy, h⟩, rfl⟩ | ⟨y, ⟨hy, h⟩, rfl⟩ | ⟨y, ⟨hy, h⟩, rfl⟩) <;>
      exact ⟨by simp [hy], by simpa [Container.path] using h⟩
  · rintro ⟨⟨y, hy, rfl⟩ | ⟨y, hy, rfl⟩ | ⟨y, hy, rfl⟩ | ⟨y, hy, rfl⟩ | ⟨y, hy, rfl⟩, h⟩ <;>
      simp only [Container.path] at h <;> simp [hy, h]

theorem insertMonos_wf {l : Library} (h : l.WF) (m : Monos) : (l.insertMonos m).WF := by
  rw [insertMonos_eq]
  exact ⟨h.constants, h.globals, wf_filter _ (wf_insertAll h.enums _), wf_filter _ (wf_insertAll h.structs _),
    wf_filter _ (wf_insertAll h.unions _), wf_filter _ (wf_insertAll h.opaqueItems _), wf_filter _ (wf_insertAll h.typedefs _)⟩

theorem manglePaths_wf {l : Library} (h : l.WF) (find : Ty → Option Str) : (l.manglePaths find).WF :=
  ⟨h.constants, h.globals, wf_mapItems (EnumItem.mapTys _) (fun _ => rfl) (fun _ => rfl) h.enums,
    wf_mapItems (StructItem.mapTys _) (fun _ => rfl) (fun _ => rfl) h.structs, wf_mapItems (UnionItem.mapTys _) (fun _ => rfl) (fun _ => rfl) h.unions,
    h.opaqueItems, wf_mapItems (TypedefItem.mapTys _) (fun _ => rfl) (fun _ => rfl) h.typedefs⟩

theorem removeExcluded_wf {l : Library} (h : l.WF) (c : LibConfig) : (l.removeExcluded c).WF :=
  ⟨wf_filter _ h.constants, wf_filter _ h.globals, wf_filter _ h.enums, wf_filter _ h.structs, wf_filter _ h.unions,
    wf_filter _ h.opaqueItems, wf_filter _ h.typedefs⟩

theorem resolveDeclTypes_wf {l : Library} (h : l.WF) (c : LibConfig) : (l.resolveDeclTypes c).WF := by
  unfold Library.resolveDeclTypes
  split
  · exact ⟨h.constants, wf_mapItems (StaticItem.mapTys _) (fun _ => rfl) (fun _ => rfl) h.globals, wf_mapItems (EnumItem.mapTys _) (fun _ => rfl) (fun _ => rfl) h.enums,
      wf_mapItems (StructItem.mapTys _) (fun _ => rfl) (fun _ => rfl) h.structs, wf_mapItems (UnionItem.mapTys _) (fun _ => rfl) (fun _ => rfl) h.unions,
      h.opaqueItems, wf_mapItems (TypedefItem.mapTys _) (fun _ => rfl) (fun _ => rfl) h.typedefs⟩
  · exact h

/-- Instances have mangled names. -/
theorem monos_path {c : LibConfig} {l : Library} {n : Nat} {m : Monos}
    (hm : followAll (follow c (l.getItems c) n) l.monoUses {} = .ok m) :
    ∀ y ∈ m.all, ∃ q vs, vs ≠ [] ∧ y.path = c.manglePath q vs := by
  refine followAll_ind (I := fun m => ∀ y ∈ m.all, ∃ q vs, vs ≠ [] ∧ y.path = c.manglePath q vs)
    (V := fun u => u.2.2.1 ≠ []) (H := fun _ => True) ?_ ?_ ?_ ?_ ?_ ?_ hm
  · intros; trivial
  · exact fun x u m _ _ _ w hw => monoUses_ne hw
  · exact fun x u m st _ _ _ hi => hi
  · intro x u m st _ hu hm hi y hy
    rcases Monos.mem_push.1 hy with hy | rfl
    · exact hi y hy
    · exact ⟨x.path, u.2.2.1, hu, Container.specialize_path ..⟩
  · intro u hu
    simp only [Library.monoUses, List.mem_append, List.mem_flatMap] at hu
    rcases hu with (((⟨x, _, hu⟩ | ⟨x, _, hu⟩) | ⟨x, _, hu⟩) | ⟨x, _, hu⟩) | ⟨x, _, hu⟩
    · exact monoUses_ne (x := .struct x) hu
    · exact monoUses_ne (x := .union x) hu
    · exact monoUses_ne (x := .enum x) hu
    · exact monoUses_ne (x := .typedef x) hu
    · simp only [FuncItem.monoUses, List.mem_append, List.mem_flatMap] at hu
      rcases hu with hu | ⟨a, _, hu⟩ <;> exact genericUses_ne hu
  · intro y hy
    simp [Monos.all] at hy

/-! ## All steps -/

/-- A definition after all steps of the library stage for C. -/
def Container.final (c : LibConfig) (find : Ty → Option Str) (tag : Str → Option DeclKind) (x : Container) : Option Container :=
  let g := (x.mapTys (Ty.simplify c.language)).mapTys (Ty.manglePaths find)
  (if c.generateTag then g.mapTys (Ty.resolve tag) else g).renameFor c

theorem Container.final_keeps {c : LibConfig} {find : Ty → Option Str} {tag : Str → Option DeclKind} {x y : Container}
    (h : x.final c find tag = some y) : y.path = x.path ∧ y.type = x.type := by
  unfold Container.final at h
  obtain ⟨h1, h2⟩ := Container.renameFor_keeps h
  rw [h1, h2]
  split <;> simp [Container.mapTys_path, Container.mapTys_type]

/-- The steps after generic uses were followed. -/
def Container.finish (c : LibConfig) (find : Ty → Option Str) (tag : Str → Option DeclKind) (x : Container) : Option Container :=
  let g := x.mapTys (Ty.manglePaths find)
  (if c.generateTag then g.mapTys (Ty.resolve tag) else g).renameFor c

theorem Container.finish_keeps {c : LibConfig} {find : Ty → Option Str} {tag : Str → Option DeclKind} {x y : Container}
    (h : x.finish c find tag = some y) : y.path = x.path ∧ y.type = x.type := by
  unfold Container.finish at h
  obtain ⟨h1, h2⟩ := Container.renameFor_keeps h
  rw [h1, h2]
  split <;> simp [Container.mapTys_path, Container.mapTys_type]

/-- The types before the collection of dependencies, from those after generic uses were followed. -/
theorem types_final_by {c : LibConfig} {order : List (Str × Annotations) → List (Str × Annotations)} {fuel : Nat}
    {l l₁ l' : Library} (hc : c.language = .c) (hw : l.WF) (htr : l.transferAnnotations order = l)
    (h : l.prepare c order fuel = .ok l')
    (he : (((l.transferAnnotations order).simplify c).sortFunctions c).expand c fuel = .ok l₁) :
    ∃ m, followAll (follow c (((l.simplify c).sortFunctions c).getItems c) fuel) ((l.simplify c).sortFunctions c).monoUses {} = .ok m ∧
      (∀ y, y ∈ l'.types ↔ ∃ w ∈ (((l.simplify c).sortFunctions c).insertMonos m).types, w.path ∉ c.export_.exclude ∧
        w.finish c m.find (Resolver.typeFor (l₁.removeExcluded c).resolver) = some y) ∧
      ∀ w ∈ (((l.simplify c).sortFunctions c).insertMonos m).types, w.path ∉ c.export_.exclude →
        ∃ y ∈ l'.types, w.finish c m.find (Resolver.typeFor (l₁.removeExcluded c).resolver) = some y := by
  obtain ⟨l₂, hl₂, hfin⟩ := Library.prepare_ok h
  rw [he] at hl₂
  cases hl₂
  rw [Library.finish_eq, if_pos hc] at hfin
  have hsw := (Library.simplified_shape c order l).wf hw
  rw [htr] at he hsw
  have hcx : c.language ≠ .cxx := by rw [hc]; decide
  unfold Library.expand at he
  rw [if_neg hcx] at he
  obtain ⟨m, hm, rfl⟩ := Library.instantiateMonomorphs_ok he
  refine ⟨m, hm, ?_⟩
  have hw1 := insertMonos_wf hsw m
  have hw2 := manglePaths_wf hw1 m.find
  have hw3 := removeExcluded_wf hw2 c
  have hw4 := resolveDeclTypes_wf hw3 c
  obtain ⟨r1, r2⟩ := renameItems_types hw4 hfin
  have step : ∀ z, z ∈ (((((l.simplify c).sortFunctions c).insertMonos m).manglePaths m.find).removeExcluded c).types ↔
      ∃ w ∈ (((l.simplify c).sortFunctions c).insertMonos m).types, w.path ∉ c.export_.exclude ∧
        z = w.mapTys (Ty.manglePaths m.find) := by
    intro z
    rw [types_removeExcluded, types_manglePaths, List.mem_map]
    constructor
    · rintro ⟨⟨w, hw, rfl⟩, hx⟩
      rw [Container.mapTys_path] at hx
      exact ⟨w, hw, hx, rfl⟩
    · rintro ⟨w, hw, hx, rfl⟩
      rw [Container.mapTys_path]
      exact ⟨⟨w, hw, rfl⟩, hx⟩
  have step2 : ∀ y, y ∈ l'.types ↔ ∃ w ∈ (((l.simplify c).sortFunctions c).insertMonos m).types, w.path ∉ c.export_.exclude ∧
      (if c.generateTag then (w.mapTys (Ty.manglePaths m.find)).mapTys (Ty.resolve (Resolver.typeFor
        (((((l.simplify c).sortFunctions c).insertMonos m).manglePaths m.find).removeExcluded c).resolver))
        else w.mapTys (Ty.manglePaths m.find)).renameFor c = some y := by
    intro y
    rw [r1, types_resolve]
    constructor
    · rintro ⟨z, hz, e⟩
      split at hz
      · rename_i hg
        rw [List.mem_map] at hz
        obtain ⟨z', hz', rfl⟩ := hz
        obtain ⟨w, hw, hx, rfl⟩ := (step z').1 hz'
        exact ⟨w, hw, hx, by rw [if_pos hg]; exact e⟩
      · rename_i hg
        obtain ⟨w, hw, hx, rfl⟩ := (step z).1 hz
        exact ⟨w, hw, hx, by rw [if_neg hg]; exact e⟩
    · rintro ⟨w, hw, hx, e⟩
      have hz := (step _).2 ⟨w, hw, hx, rfl⟩
      by_cases hg : c.generateTag = true
      · rw [if_pos hg] at e ⊢
        exact ⟨_, List.mem_map.2 ⟨_, hz, rfl⟩, e⟩
      · rw [if_neg hg] at e ⊢
        exact ⟨_, hz, e⟩
  refine ⟨step2, ?_⟩
  intro w hw' hex
  have hz := (step _).2 ⟨_, hw', hex, rfl⟩
  have hz' : (if c.generateTag then (w.mapTys (Ty.manglePaths m.find)).mapTys
      (Ty.resolve (Resolver.typeFor
        (((((l.simplify c).sortFunctions c).insertMonos m).manglePaths m.find).removeExcluded c).resolver))
      else w.mapTys (Ty.manglePaths m.find)) ∈
      ((((((l.simplify c).sortFunctions c).insertMonos m).manglePaths m.find).removeExcluded c).resolveDeclTypes c).types := by
    rw [types_resolve]
    by_cases hg : c.generateTag = true
    · rw [if_pos hg, if_pos hg]
      exact List.mem_map.2 ⟨_, hz, rfl⟩
    · rw [if_neg hg, if_neg hg]
      exact hz
  obtain ⟨y, hy⟩ := r2 _ hz'
  exact ⟨y, (r1 y).2 ⟨_, hz', hy⟩, hy⟩

/-- The types before the collection of dependencies. -/
theorem types_final {c : LibConfig} {order : List (Str × Annotations) → List (Str × Annotations)} {fuel : Nat}
    {l l₁ l' : Library} (hc : c.language = .c) (hw : l.WF) (htr : l.transferAnnotations order = l)
    (h : l.prepare c order fuel = .ok l')
    (he : (((l.transferAnnotations order).simplify c).sortFunctions c).expand c fuel = .ok l₁) :
    ∃ find, (∀ y ∈ l'.types, (∃ x ∈ l.types, x.params = [] ∧ x.path ∉ c.export_.exclude ∧
          x.final c find (Resolver.typeFor (l₁.removeExcluded c).resolver) = some y) ∨
        ∃ q vs, vs ≠ [] ∧ y.path = c.manglePath q vs) ∧
      ∀ x ∈ l.types, x.params = [] → x.path ∉ c.export_.exclude →
        ∃ y ∈ l'.types, x.final c find (Resolver.typeFor (l₁.removeExcluded c).resolver) = some y := by
  obtain ⟨m, hm, h1, h2⟩ := types_final_by hc hw htr h he
  have hsw := (Library.simplified_shape c order l).wf hw
  rw [htr] at hsw
  refine ⟨m.find, ?_⟩
  have hst : ((l.simplify c).sortFunctions c).types = l.types.map (Container.mapTys (Ty.simplify c.language)) := types_simplify c l
  constructor
  · intro y hy
    obtain ⟨w, hw, hx, e⟩ := (h1 y).1 hy
    obtain ⟨hng, hw' | hw'⟩ := types_cases hsw hw
    · left
      rw [hst, List.mem_map] at hw'
      obtain ⟨x, hx', rfl⟩ := hw'
      refine ⟨x, hx', ?_, ?_, e⟩
      · have : (x.mapTys (Ty.simplify c.language)).params = [] := Decidable.of_not_not hng
        rwa [Container.mapTys_params] at this
      · rwa [Container.mapTys_path] at hx
    · right
      obtain ⟨q, vs, h1, h2⟩ := monos_path hm w hw'
      exact ⟨q, vs, h1, by rw [(Container.finish_keeps e).1, ← h2]⟩
  · intro x hx hp hex
    exact h2 _ (types_old hsw m (by rw [hst]; exact List.mem_map.2 ⟨x, hx, rfl⟩)
        (fun h => h (by rw [Container.mapTys_params]; exact hp))) (by rw [Container.mapTys_path]; exact hex)

/-! ## Finding -/

theorem findItems_none {α : Type} [Item α] {c : LibConfig} {t : ItemType} {mk : α → Container} {m : ItemMap α} (hw : WF m) {p : Str}
    (h : ∀ x ∈ m.toVec, Item.path x ≠ p) : findItems c t mk m p = none := by
  unfold findItems
  split
  · cases hg : m.getItems p with
    | none => rfl
    | some xs =>
      obtain ⟨hne, hp⟩ := path_of_getItems hw hg
      obtain ⟨x, hx⟩ := List.exists_mem_of_ne_nil _ hne
      exact absurd (hp x hx) (h x (mem_toVec_of_getItems hg hx))
  · rfl

theorem findItems_own {α : Type} [Item α] {c : LibConfig} {t : ItemType} {mk : α → Container} {m : ItemMap α} (hw : WF m)
    (hg : c.export_.shouldGenerate t = true) {x : α} (h : x ∈ m.toVec) :
    ∃ its, findItems c t mk m (Item.path x) = some its ∧ mk x ∈ its := by
  obtain ⟨xs, h1, h2⟩ := getItems_mem hw h
  exact ⟨xs.map mk, by simp [findItems, hg, h1], List.mem_map.2 ⟨x, h2, rfl⟩⟩

/-- A type is found under its name, if the types of this name are of one kind. -/
theorem getItems_own {c : LibConfig} {l : Library} (hw : l.WF) {x : Container} (hx : x ∈ l.types)
    (hk : ∀ y ∈ l.types, y.path = x.path → y.type = x.type) (hg : c.export_.shouldGenerate x.type = true) :
    ∃ its, l.getItems c x.path = some its ∧ x ∈ its := by
  have hs : x.type ≠ .structs → findItems c .structs .struct l.structs x.path = none := fun hn =>
    findItems_none hw.structs (fun y hy e => hn (hk (.struct y) (mem_types.2 (by simp [hy])) e).symm)
  have he : x.type ≠ .enums → findItems c .enums .enum l.enums x.path = none := fun hn =>
    findItems_none hw.enums (fun y hy e => hn (hk (.enum y) (mem_types.2 (by simp [hy])) e).symm)
  have hu : x.type ≠ .unions → findItems c .unions .union l.unions x.path = none := fun hn =>
    findItems_none hw.unions (fun y hy e => hn (hk (.union y) (mem_types.2 (by simp [hy])) e).symm)
  have ho : x.type ≠ .opaqueItems → findItems c .opaqueItems .opaque l.opaqueItems x.path = none := fun hn =>
    findItems_none hw.opaqueItems (fun y hy e => hn (hk (.opaque y) (mem_types.2 (by simp [hy])) e).symm)
  unfold Library.getItems
  rcases mem_types.1 hx with ⟨y, hy, rfl⟩ | ⟨y, hy, rfl⟩ | ⟨y, hy, rfl⟩ | ⟨y, hy, rfl⟩ | ⟨y, hy, rfl⟩
  · obtain ⟨its, h1, h2⟩ := findItems_own (t := .structs) (mk := .struct) hw.structs hg hy
    exact ⟨its, by rw [he nofun, show (Container.struct y).path = Item.path y from rfl, h1]; rfl, h2⟩
  · obtain ⟨its, h1, h2⟩ := findItems_own (t := .enums) (mk := .enum) hw.enums hg hy
    exact ⟨its, by rw [show (Container.enum y).path = Item.path y from rfl, h1]; rfl, h2⟩
  · obtain ⟨its, h1, h2⟩ := findItems_own (t := .unions) (mk := .union) hw.unions hg hy
    exact ⟨its, by rw [he nofun, hs nofun, show (Container.union y).path = Item.path y from rfl, h1]; rfl, h2⟩
  · obtain ⟨its, h1, h2⟩ := findItems_own (t := .typedefs) (mk := .typedef) hw.typedefs hg hy
    exact ⟨its, by rw [he nofun, hs nofun, hu nofun, ho nofun, show (Container.typedef y).path = Item.path y from rfl, h1]; rfl, h2⟩
  · obtain ⟨its, h1, h2⟩ := findItems_own (t := .opaqueItems) (mk := .opaque) hw.opaqueItems hg hy
    exact ⟨its, by rw [he nofun, hs nofun, hu nofun, show (Container.opaque y).path = Item.path y from rfl, h1]; rfl, h2⟩

/-! ## Annotations of aliases -/

theorem mapAccum_same {α σ : Type} {f : σ → α → σ × α} {s : σ} : ∀ {xs : List α}, (∀ x ∈ xs, f s x = (s, x)) → mapAccum f s xs = (s, xs)
  | [], _ => rfl
  | x :: xs, h => by
    simp only [mapAccum, h x (by simp), mapAccum_same (xs := xs) (fun y hy => h y (by simp [hy]))]

theorem table_mapAccum_same {α σ : Type} {f : σ → α → σ × α} {s : σ} : ∀ {m : ItemMap α}, (∀ x ∈ m.toVec, f s x = (s, x)) →
    ItemMap.mapAccum f s m = (s, m)
  | [], _ => rfl
  | (k, .single x) :: m, h => by
    have h1 := h x (by simp [toVec_cons, ItemValue.items])
    have h2 := table_mapAccum_same (m := m) (fun y hy => h y (by simp [toVec_cons, hy]))
    simp only [ItemMap.mapAccum, h1, h2]
  | (k, .cfg xs) :: m, h => by
    have h1 := mapAccum_same (f := f) (s := s) (xs := xs) (fun y hy => h y (by simp [toVec_cons, ItemValue.items, hy]))
    have h2 := table_mapAccum_same (m := m) (fun y hy => h y (by simp [toVec_cons, hy]))
    simp only [ItemMap.mapAccum, h1, h2]

theorem transfer_none {order : List (Str × Annotations) → List (Str × Annotations)} (ho : order [] = []) {l : Library}
    (h : ∀ x ∈ l.typedefs.toVec, x.annotations.isEmpty = true) : l.transferAnnotations order = l := by
  unfold Library.transferAnnotations
  rw [table_mapAccum_same (fun x hx => by simp [TypedefItem.takeAnnotations, h x hx])]
  simp [ho]

end Cbindgen
