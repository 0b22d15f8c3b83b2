import Verif.Lemmas.Deps

/-!
# The tables of a library through the stages of `Library::generate`
-/

namespace Cbindgen

open LibSpec

namespace ItemMap

variable {α : Type} [Item α]

theorem wf_rebuild (m : ItemMap α) : WF (rebuild m) := by
  unfold rebuild
  rw [insertAll_nil]
  exact wf_tableOf _

theorem mem_kept {xs : List α} {p : Str} {x : α} (h : x ∈ kept xs p) : x ∈ xs ∧ Item.path x = p := by
  unfold kept at h
  cases hf : xs.filter (fun x => Item.path x = p) with
  | nil => rw [hf] at h; simp at h
  | cons y ys =>
    rw [hf] at h
    have hmem : x ∈ y :: ys := by
      cases hy : (Item.cfg y).isSome
      · simp [hy] at h
        simp [h]
      · simp only [hy, ↓reduceIte] at h
        rcases List.mem_cons.1 h with h | h
        · simp [h]
        · simp [(List.mem_filter.1 h).1]
    rw [← hf, List.mem_filter] at hmem
    exact ⟨hmem.1, by simpa using hmem.2⟩

theorem mem_rebuild {m : ItemMap α} {x : α} (h : x ∈ (rebuild m).toVec) : x ∈ m.toVec := by
  unfold rebuild at h
  rw [insertAll_nil, toVec_tableOf, List.mem_flatMap] at h
  obtain ⟨p, _, hp⟩ := h
  exact (mem_kept hp).1

/-- An item found under a name has that name. -/
theorem path_of_getItems {m : ItemMap α} (h : WF m) {p : Str} {xs : List α}
    (hg : m.getItems p = some xs) : xs ≠ [] ∧ ∀ x ∈ xs, Item.path x = p := by
  unfold getItems at hg
  cases hl : m.lookup p with
  | none => rw [hl] at hg; simp at hg
  | some v =>
    rw [hl, Option.map_some, Option.some.injEq] at hg
    have hm : (p, v) ∈ m := by
      rw [List.lookup_eq_some_iff] at hl
      obtain ⟨a, b, e, _⟩ := hl
      rw [e]; simp
    have := h.2 _ hm
    subst hg
    cases v with
    | cfg ys => exact ⟨this.1, fun x hx => (this.2 x hx).1⟩
    | single y =>
      refine ⟨by simp [ItemValue.items], ?_⟩
      intro x hx
      simp only [ItemValue.items, List.mem_singleton] at hx
      subst hx
      exact this.1

omit [Item α] in
theorem mem_toVec_of_getItems {m : ItemMap α} {p : Str} {xs : List α}
    (hg : m.getItems p = some xs) {x : α} (hx : x ∈ xs) : x ∈ m.toVec := by
  unfold getItems at hg
  cases hl : m.lookup p with
  | none => rw [hl] at hg; simp at hg
  | some v =>
    rw [hl, Option.map_some, Option.some.injEq] at hg
    rw [List.lookup_eq_some_iff] at hl
    obtain ⟨a, b, e, _⟩ := hl
    unfold toVec
    rw [List.mem_flatMap]
    exact ⟨(p, v), by rw [e]; simp, by rw [hg]; exact hx⟩

omit [Item α] in
theorem key_of_getItems {m : ItemMap α} {p : Str} (h : (m.getItems p).isSome = true) :
    p ∈ m.map Prod.fst := by
  by_cases hm : p ∈ m.map Prod.fst
  · exact hm
  · unfold getItems at h
    rw [lookup_none_of_not_mem hm] at h
    simp at h

omit [Item α] in
theorem mapM_some_mem {β : Type} {f : α → Option β} : ∀ {xs : List α} {ys : List β},
    xs.mapM f = some ys → ∀ y ∈ ys, ∃ x ∈ xs, f x = some y
  | [], ys, h, y, hy => by
    simp at h
    subst h
    simp at hy
  | x :: xs, ys, h, y, hy => by
    rw [List.mapM_cons] at h
    cases hx : f x with
    | none => rw [hx] at h; simp at h
    | some z =>
      rw [hx] at h
      cases hxs : xs.mapM f with
      | none => rw [hxs] at h; simp at h
      | some zs =>
        rw [hxs] at h
        simp at h
        subst h
        rcases List.mem_cons.1 hy with rfl | hy
        · exact ⟨x, by simp, hx⟩
        · obtain ⟨x', hx', e⟩ := mapM_some_mem hxs y hy
          exact ⟨x', by simp [hx'], e⟩

omit [Item α] in
theorem mem_mapItemsM {f : α → Option α} {m m' : ItemMap α} (h : m.mapItemsM f = some m') {y : α}
    (hy : y ∈ m'.toVec) : ∃ x ∈ m.toVec, f x = some y := by
  unfold toVec at hy ⊢
  rw [List.mem_flatMap] at hy
  obtain ⟨kv, hkv, hy⟩ := hy
  unfold mapItemsM at h
  obtain ⟨kv', hkv', e⟩ := mapM_some_mem h kv hkv
  cases hv : mapValueM f kv'.2 with
  | none => rw [hv] at e; simp at e
  | some v =>
    rw [hv] at e
    simp only [Option.map_some, Option.some.injEq] at e
    subst e
    cases hk : kv'.2 with
    | single x =>
      rw [hk] at hv
      have hv : (f x).map ItemValue.single = some v := hv
      cases hx : f x with
      | none => rw [hx] at hv; simp at hv
      | some z =>
        rw [hx] at hv
        simp at hv
        subst hv
        simp only [ItemValue.items, List.mem_singleton] at hy
        subst hy
        exact ⟨x, List.mem_flatMap.2 ⟨kv', hkv', by simp [hk, ItemValue.items]⟩, hx⟩
    | cfg xs =>
      rw [hk] at hv
      have hv : (xs.mapM f).map ItemValue.cfg = some v := hv
      cases hx : xs.mapM f with
      | none => rw [hx] at hv; simp at hv
      | some zs =>
        rw [hx] at hv
        simp at hv
        subst hv
        obtain ⟨x, hxm, e⟩ := mapM_some_mem hx y hy
        exact ⟨x, List.mem_flatMap.2 ⟨kv', hkv', by simpa [hk, ItemValue.items] using hxm⟩, e⟩

end ItemMap

/-- All tables come from insertions. -/
structure Library.WF (l : Library) : Prop where
  constants : ItemMap.WF l.constants
  globals : ItemMap.WF l.globals
  enums : ItemMap.WF l.enums
  structs : ItemMap.WF l.structs
  unions : ItemMap.WF l.unions
  opaqueItems : ItemMap.WF l.opaqueItems
  typedefs : ItemMap.WF l.typedefs

theorem Library.renameItems_wf {c : LibConfig} {l l' : Library} (h : l.renameItems c = some l') :
    l'.WF := by
  unfold Library.renameItems at h
  simp only [Option.bind_eq_bind, Option.bind_eq_some_iff] at h
  obtain ⟨ss, _, us, _, es, _, fs, _, h⟩ := h
  simp only [Option.pure_def, Option.some.injEq] at h
  subst h
  constructor <;> exact ItemMap.wf_rebuild _

/-! ## The names of the items -/

/-- The names of all items of a library. -/
structure Library.All (P : Str → Prop) (l : Library) : Prop where
  constants : ∀ x ∈ l.constants.toVec, P x.path
  globals : ∀ x ∈ l.globals.toVec, P x.path
  enums : ∀ x ∈ l.enums.toVec, P x.path
  structs : ∀ x ∈ l.structs.toVec, P x.path
  unions : ∀ x ∈ l.unions.toVec, P x.path
  opaqueItems : ∀ x ∈ l.opaqueItems.toVec, P x.path
  typedefs : ∀ x ∈ l.typedefs.toVec, P x.path
  functions : ∀ x ∈ l.functions, P x.path

theorem Library.removeExcluded_all (c : LibConfig) (l : Library) :
    (l.removeExcluded c).All (fun n => n ∉ c.export_.exclude) := by
  constructor <;> intro x hx <;>
    simp only [Library.removeExcluded, ItemMap.toVec_filter, List.mem_filter, Bool.not_eq_true',
      List.contains_eq_mem, decide_eq_false_iff_not] at hx <;> exact hx.2

theorem all_map {α : Type} {P : Str → Prop} {path : α → Str} {f : α → α} {xs : List α}
    (hf : ∀ x, path (f x) = path x) (h : ∀ x ∈ xs, P (path x)) : ∀ x ∈ xs.map f, P (path x) := by
  intro x hx
  obtain ⟨y, hy, rfl⟩ := List.mem_map.1 hx
  rw [hf]
  exact h y hy

theorem Library.resolveDeclTypes_all {P : Str → Prop} {c : LibConfig} {l : Library} (h : l.All P) :
    (l.resolveDeclTypes c).All P := by
  unfold Library.resolveDeclTypes
  split
  · constructor
    · exact h.constants
    · rw [ItemMap.toVec_mapItems]; exact all_map (fun _ => rfl) h.globals
    · rw [ItemMap.toVec_mapItems]; exact all_map (fun _ => rfl) h.enums
    · rw [ItemMap.toVec_mapItems]; exact all_map (fun _ => rfl) h.structs
    · rw [ItemMap.toVec_mapItems]; exact all_map (fun _ => rfl) h.unions
    · exact h.opaqueItems
    · rw [ItemMap.toVec_mapItems]; exact all_map (fun _ => rfl) h.typedefs
    · exact all_map (fun _ => rfl) h.functions
  · exact h

theorem StructItem.renameFor_path {c : LibConfig} {x y : StructItem} (h : x.renameFor c = some y) :
    y.path = x.path ∧ y.cfg = x.cfg := by
  unfold StructItem.renameFor at h
  rw [Option.map_eq_some_iff] at h
  obtain ⟨r, _, rfl⟩ := h
  exact ⟨rfl, rfl⟩

theorem UnionItem.renameFor_path {c : LibConfig} {x y : UnionItem} (h : x.renameFor c = some y) :
    y.path = x.path ∧ y.cfg = x.cfg := by
  unfold UnionItem.renameFor at h
  rw [Option.map_eq_some_iff] at h
  obtain ⟨r, _, rfl⟩ := h
  exact ⟨rfl, rfl⟩

theorem EnumItem.renameTag_path {c : LibConfig} {x y : EnumItem} (h : x.renameTag c = some y) :
    y.path = x.path ∧ y.cfg = x.cfg ∧ y.exportName = x.exportName := by
  unfold EnumItem.renameTag at h
  dsimp only at h
  split at h
  · split at h
    · rw [Option.map_eq_some_iff] at h
      obtain ⟨vs, _, rfl⟩ := h
      exact ⟨rfl, rfl, rfl⟩
    · simp only [Option.some.injEq] at h
      subst h
      exact ⟨rfl, rfl, rfl⟩
  · simp only [Option.some.injEq] at h
    subst h
    exact ⟨rfl, rfl, rfl⟩

theorem EnumItem.renameFor_path {c : LibConfig} {x y : EnumItem} (h : x.renameFor c = some y) :
    y.path = x.path ∧ y.cfg = x.cfg ∧ y.exportName = c.ren x.exportName := by
  unfold EnumItem.renameFor at h
  simp only [Option.bind_eq_bind, Option.bind_eq_some_iff] at h
  obtain ⟨x', hx', vs, _, r, _, h⟩ := h
  simp only [Option.pure_def, Option.some.injEq] at h
  have := EnumItem.renameTag_path hx'
  subst h
  exact this

theorem FuncItem.renameFor_path {c : LibConfig} {x y : FuncItem} (h : x.renameFor c = some y) :
    y.path = x.path ∧ y.cfg = x.cfg := by
  unfold FuncItem.renameFor at h
  simp only [Option.bind_eq_bind, Option.bind_eq_some_iff] at h
  obtain ⟨r, _, as, _, h⟩ := h
  simp only [Option.pure_def, Option.some.injEq] at h
  subst h
  exact ⟨rfl, rfl⟩

theorem Library.renameItems_all {P : Str → Prop} {c : LibConfig} {l l' : Library} (h : l.All P)
    (hr : l.renameItems c = some l') : l'.All P := by
  unfold Library.renameItems at hr
  simp only [Option.bind_eq_bind, Option.bind_eq_some_iff] at hr
  obtain ⟨ss, hss, us, hus, es, hes, fs, hfs, hr⟩ := hr
  simp only [Option.pure_def, Option.some.injEq] at hr
  subst hr
  constructor
  · intro x hx
    have := ItemMap.mem_rebuild hx
    rw [ItemMap.toVec_mapItems] at this
    exact all_map (path := ConstItem.path) (f := ConstItem.renameFor c) (fun _ => rfl) h.constants x this
  · intro x hx
    have := ItemMap.mem_rebuild hx
    rw [ItemMap.toVec_mapItems] at this
    exact all_map (path := StaticItem.path) (f := StaticItem.renameFor c) (fun _ => rfl) h.globals x this
  · intro x hx
    obtain ⟨y, hy, e⟩ := ItemMap.mem_mapItemsM hes (ItemMap.mem_rebuild hx)
    rw [(EnumItem.renameFor_path e).1]
    exact h.enums y hy
  · intro x hx
    obtain ⟨y, hy, e⟩ := ItemMap.mem_mapItemsM hss (ItemMap.mem_rebuild hx)
    rw [(StructItem.renameFor_path e).1]
    exact h.structs y hy
  · intro x hx
    obtain ⟨y, hy, e⟩ := ItemMap.mem_mapItemsM hus (ItemMap.mem_rebuild hx)
    rw [(UnionItem.renameFor_path e).1]
    exact h.unions y hy
  · intro x hx
    have := ItemMap.mem_rebuild hx
    rw [ItemMap.toVec_mapItems] at this
    exact all_map (path := OpaqueItem.path) (f := OpaqueItem.renameFor c) (fun _ => rfl) h.opaqueItems x this
  · intro x hx
    have := ItemMap.mem_rebuild hx
    rw [ItemMap.toVec_mapItems] at this
    exact all_map (path := TypedefItem.path) (f := TypedefItem.renameFor c) (fun _ => rfl) h.typedefs x this
  · intro x hx
    obtain ⟨y, hy, e⟩ := ItemMap.mapM_some_mem hfs x hx
    rw [(FuncItem.renameFor_path e).1]
    exact h.functions y hy

/-! ## The stages -/

theorem Library.finish_eq (c : LibConfig) (l : Library) :
    l.finish c = Library.renameItems c
      (if c.language = .c then (l.removeExcluded c).resolveDeclTypes c else l.removeExcluded c) := rfl

/-- The stages of `prepare`. -/
theorem Library.prepare_ok {c : LibConfig}
    {order : List (Str × Annotations) → List (Str × Annotations)} {fuel : Nat} {l l' : Library}
    (h : l.prepare c order fuel = .ok l') :
    ∃ l₂, (((l.transferAnnotations order).simplify c).sortFunctions c).expand c fuel = .ok l₂ ∧
      l₂.finish c = some l' := by
  unfold Library.prepare at h
  split at h
  · simp at h
  · rename_i l₂ hl₂
    refine ⟨l₂, hl₂, ?_⟩
    split at h
    · rename_i l₃ hl₃
      simp only [Except.ok.injEq] at h
      subst h
      exact hl₃
    · simp at h

theorem Library.prepare_wf {c : LibConfig}
    {order : List (Str × Annotations) → List (Str × Annotations)} {fuel : Nat} {l l' : Library}
    (h : l.prepare c order fuel = .ok l') : l'.WF := by
  obtain ⟨_, _, hr⟩ := Library.prepare_ok h
  exact Library.renameItems_wf hr

theorem Library.prepare_excluded {c : LibConfig}
    {order : List (Str × Annotations) → List (Str × Annotations)} {fuel : Nat} {l l' : Library}
    (h : l.prepare c order fuel = .ok l') : l'.All (fun n => n ∉ c.export_.exclude) := by
  obtain ⟨l₂, _, hr⟩ := Library.prepare_ok h
  rw [Library.finish_eq] at hr
  have h1 := Library.removeExcluded_all c l₂
  refine Library.renameItems_all ?_ hr
  split
  · exact Library.resolveDeclTypes_all h1
  · exact h1

theorem Library.generate_ok {c : LibConfig}
    {order : List (Str × Annotations) → List (Str × Annotations)} {fuel : Nat} {l : Library}
    {b : Bindings} (h : l.generate c order fuel = .ok b) :
    ∃ l', l.prepare c order fuel = .ok l' ∧ l'.collect c = some b := by
  unfold Library.generate at h
  split at h
  · simp at h
  · rename_i l' hl'
    refine ⟨l', hl', ?_⟩
    split at h
    · rename_i b' hb'
      simp only [Except.ok.injEq] at h
      subst h
      exact hb'
    · simp at h

/-! ## `Library::get_items` -/

/-- The names under which types can be found. -/
def Library.keys (l : Library) : List Str :=
  l.enums.map Prod.fst ++ l.structs.map Prod.fst ++ l.unions.map Prod.fst ++
    l.opaqueItems.map Prod.fst ++ l.typedefs.map Prod.fst

theorem Library.keys_length (l : Library) : l.keys.length = l.depth := by
  simp [Library.keys, Library.depth, Nat.add_assoc]

theorem findItems_some {α : Type} {c : LibConfig} {t : ItemType} {mk : α → Container}
    {m : ItemMap α} {p : Str} {its : List Container} (h : findItems c t mk m p = some its) :
    c.export_.shouldGenerate t = true ∧ ∃ xs, m.getItems p = some xs ∧ its = xs.map mk := by
  unfold findItems at h
  split at h
  · rename_i hg
    rw [Option.map_eq_some_iff] at h
    obtain ⟨xs, hx, rfl⟩ := h
    exact ⟨hg, xs, hx, rfl⟩
  · simp at h

/-- What was found comes from one of the tables. -/
theorem Library.getItems_cases {c : LibConfig} {l : Library} {p : Str} {its : List Container}
    (h : l.getItems c p = some its) :
    (c.export_.shouldGenerate .enums = true ∧
        ∃ xs, l.enums.getItems p = some xs ∧ its = xs.map .enum) ∨
    (c.export_.shouldGenerate .structs = true ∧
        ∃ xs, l.structs.getItems p = some xs ∧ its = xs.map .struct) ∨
    (c.export_.shouldGenerate .unions = true ∧
        ∃ xs, l.unions.getItems p = some xs ∧ its = xs.map .union) ∨
    (c.export_.shouldGenerate .opaqueItems = true ∧
        ∃ xs, l.opaqueItems.getItems p = some xs ∧ its = xs.map .opaque) ∨
    (c.export_.shouldGenerate .typedefs = true ∧
        ∃ xs, l.typedefs.getItems p = some xs ∧ its = xs.map .typedef) := by
  unfold Library.getItems at h
  cases h1 : findItems c .enums .enum l.enums p with
  | some r => rw [h1] at h; simp at h; subst h; exact .inl (findItems_some h1)
  | none =>
  cases h2 : findItems c .structs .struct l.structs p with
  | some r => rw [h1, h2] at h; simp at h; subst h; exact .inr (.inl (findItems_some h2))
  | none =>
  cases h3 : findItems c .unions .union l.unions p with
  | some r =>
    rw [h1, h2, h3] at h; simp at h; subst h
    exact .inr (.inr (.inl (findItems_some h3)))
  | none =>
  cases h4 : findItems c .opaqueItems .opaque l.opaqueItems p with
  | some r =>
    rw [h1, h2, h3, h4] at h; simp at h; subst h
    exact .inr (.inr (.inr (.inl (findItems_some h4))))
  | none =>
    rw [h1, h2, h3, h4] at h; simp at h
    exact .inr (.inr (.inr (.inr (findItems_some h))))

theorem Library.getItems_key {c : LibConfig} {l : Library} {p : Str}
    (h : (l.getItems c p).isSome = true) : p ∈ l.keys := by
  obtain ⟨its, hits⟩ := Option.isSome_iff_exists.1 h
  unfold Library.keys
  simp only [List.mem_append]
  rcases Library.getItems_cases hits with ⟨_, xs, hx, _⟩ | ⟨_, xs, hx, _⟩ | ⟨_, xs, hx, _⟩ |
    ⟨_, xs, hx, _⟩ | ⟨_, xs, hx, _⟩ <;> have := ItemMap.key_of_getItems (by rw [hx]; rfl) <;>
    simp [this]

/-- In tables that come from insertions, an item is found under its own name. -/
theorem Library.getItems_path {c : LibConfig} {l : Library} (hwf : l.WF) {p : Str}
    {its : List Container} (h : l.getItems c p = some its) :
    its ≠ [] ∧ ∀ x ∈ its, x.path = p := by
  rcases Library.getItems_cases h with ⟨_, xs, hx, rfl⟩ | ⟨_, xs, hx, rfl⟩ | ⟨_, xs, hx, rfl⟩ |
    ⟨_, xs, hx, rfl⟩ | ⟨_, xs, hx, rfl⟩
  all_goals
    first
      | have := ItemMap.path_of_getItems hwf.enums hx
      | have := ItemMap.path_of_getItems hwf.structs hx
      | have := ItemMap.path_of_getItems hwf.unions hx
      | have := ItemMap.path_of_getItems hwf.opaqueItems hx
      | have := ItemMap.path_of_getItems hwf.typedefs hx
    refine ⟨by simpa using this.1, ?_⟩
    intro x hx
    obtain ⟨y, hy, rfl⟩ := List.mem_map.1 hx
    exact this.2 y hy

theorem Library.All.getItems {P : Str → Prop} {c : LibConfig} {l : Library} (ha : l.All P) {p : Str}
    {its : List Container} (h : l.getItems c p = some its) : ∀ x ∈ its, P x.path := by
  intro x hxm
  rcases Library.getItems_cases h with ⟨_, xs, hx, rfl⟩ | ⟨_, xs, hx, rfl⟩ | ⟨_, xs, hx, rfl⟩ |
    ⟨_, xs, hx, rfl⟩ | ⟨_, xs, hx, rfl⟩ <;> obtain ⟨y, hy, rfl⟩ := List.mem_map.1 hxm <;>
    have := ItemMap.mem_toVec_of_getItems hx hy
  · exact ha.enums y this
  · exact ha.structs y this
  · exact ha.unions y this
  · exact ha.opaqueItems y this
  · exact ha.typedefs y this

/-! ## The order of the items -/

theorem flatMap_split {α β : Type} (f : α → List β) : ∀ {ps : List α} {a : List β} {x : β}
    {b : List β}, ps.flatMap f = a ++ x :: b →
    ∃ pa p pb u v, ps = pa ++ p :: pb ∧ f p = u ++ x :: v ∧ a = pa.flatMap f ++ u
  | [], a, x, b, h => by simp at h
  | p :: ps, a, x, b, h => by
    rw [List.flatMap_cons, List.append_eq_append_iff] at h
    rcases h with ⟨c, hc, hd⟩ | ⟨c, hc, hd⟩
    · obtain ⟨pa, q, pb, u, v, e1, e2, e3⟩ := flatMap_split f hd
      exact ⟨p :: pa, q, pb, u, v, by simp [e1], e2, by simp [hc, e3]⟩
    · cases c with
      | nil =>
        simp at hd
        have hd' : ps.flatMap f = [] ++ x :: b := by simpa using hd.symm
        obtain ⟨pa, q, pb, u, v, e1, e2, e3⟩ := flatMap_split f hd'
        refine ⟨p :: pa, q, pb, u, v, by simp [e1], e2, ?_⟩
        have e3' := e3.symm
        simp only [List.append_eq_nil_iff] at e3'
        simp only [List.append_nil] at hc
        rw [List.flatMap_cons, List.append_assoc, ← e3, List.append_nil, hc]
      | cons y c =>
        simp at hd
        obtain ⟨rfl, hd⟩ := hd
        exact ⟨[], p, ps, a, c, by simp, hc, by simp⟩

end Cbindgen
