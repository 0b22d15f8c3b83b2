import Verif.Lemmas.Mono

/-!
# What holds of every item of a library, through the stages of `Library::generate`
-/

namespace Cbindgen

/-- A predicate for each kind of item. -/
structure ItemPred where
  const : ConstItem → Prop
  static : StaticItem → Prop
  enum : EnumItem → Prop
  struct : StructItem → Prop
  union : UnionItem → Prop
  «opaque» : OpaqueItem → Prop
  typedef : TypedefItem → Prop
  func : FuncItem → Prop

/-- The predicate holds of an item that defines a type. -/
def ItemPred.Of (I : ItemPred) : Container → Prop
  | .enum x => I.enum x
  | .struct x => I.struct x
  | .union x => I.union x
  | .opaque x => I.opaque x
  | .typedef x => I.typedef x

/-- The predicate holds of every item. -/
structure Library.Every (I : ItemPred) (l : Library) : Prop where
  constants : ∀ x ∈ l.constants.toVec, I.const x
  globals : ∀ x ∈ l.globals.toVec, I.static x
  enums : ∀ x ∈ l.enums.toVec, I.enum x
  structs : ∀ x ∈ l.structs.toVec, I.struct x
  unions : ∀ x ∈ l.unions.toVec, I.union x
  opaqueItems : ∀ x ∈ l.opaqueItems.toVec, I.opaque x
  typedefs : ∀ x ∈ l.typedefs.toVec, I.typedef x
  functions : ∀ x ∈ l.functions, I.func x

/-- The predicate holds of every result. -/
structure Bindings.Every (I : ItemPred) (b : Bindings) : Prop where
  constants : ∀ x ∈ b.constants, I.const x
  globals : ∀ x ∈ b.globals, I.static x
  items : ∀ x ∈ b.items, I.Of x
  functions : ∀ x ∈ b.functions, I.func x

theorem Library.Every.getItems {I : ItemPred} {c : LibConfig} {l : Library} (ha : l.Every I) {p : Str}
    {its : List Container} (h : l.getItems c p = some its) : ∀ x ∈ its, I.Of x := by
  intro x hxm
  rcases Library.getItems_cases h with ⟨_, xs, hx, rfl⟩ | ⟨_, xs, hx, rfl⟩ | ⟨_, xs, hx, rfl⟩ |
    ⟨_, xs, hx, rfl⟩ | ⟨_, xs, hx, rfl⟩ <;> obtain ⟨y, hy, rfl⟩ := List.mem_map.1 hxm <;>
    have := ItemMap.mem_toVec_of_getItems hx hy
  · exact ha.enums y this
  · exact ha.structs y this
  · exact ha.unions y this
  · exact ha.opaqueItems y this
  · exact ha.typedefs y this

/-! ## Tables -/

theorem every_map {α : Type} {P Q : α → Prop} {f : α → α} {xs : List α} (hf : ∀ x, P x → Q (f x))
    (h : ∀ x ∈ xs, P x) : ∀ x ∈ xs.map f, Q x := by
  intro x hx
  obtain ⟨y, hy, rfl⟩ := List.mem_map.1 hx
  exact hf y (h y hy)

theorem every_mapItems {α : Type} {P Q : α → Prop} {f : α → α} {m : ItemMap α}
    (hf : ∀ x, P x → Q (f x)) (h : ∀ x ∈ m.toVec, P x) : ∀ x ∈ (m.mapItems f).toVec, Q x := by
  rw [ItemMap.toVec_mapItems]; exact every_map hf h

theorem every_mapValue {α : Type} {P : α → Prop} {f : α → α} (hf : ∀ x, P x → P (f x))
    (v : ItemValue α) (h : ∀ x ∈ v.items, P x) : ∀ x ∈ (ItemMap.mapValue f v).items, P x := by
  cases v with
  | cfg xs => exact every_map hf h
  | single x =>
    intro y hy
    simp only [ItemMap.mapValue, ItemValue.items, List.mem_singleton] at hy
    subst hy
    exact hf x (h x (by simp [ItemValue.items]))

theorem toVec_cons {α : Type} (kv : Str × ItemValue α) (m : ItemMap α) :
    ItemMap.toVec (kv :: m) = kv.2.items ++ ItemMap.toVec m := by
  simp [ItemMap.toVec]

theorem every_mapItemsAt {α : Type} {P : α → Prop} {f : α → α} (hf : ∀ x, P x → P (f x)) (p : Str) :
    ∀ (m : ItemMap α), (∀ x ∈ m.toVec, P x) → ∀ x ∈ (m.mapItemsAt p f).toVec, P x
  | [], h => h
  | (k, v) :: m, h => by
    rw [toVec_cons] at h
    simp only [List.mem_append] at h
    simp only [ItemMap.mapItemsAt]
    split
    · rw [toVec_cons]
      intro x hx
      rcases List.mem_append.1 hx with hx | hx
      · exact every_mapValue hf v (fun x hx => h x (.inl hx)) x hx
      · exact h x (.inr hx)
    · rw [toVec_cons]
      intro x hx
      rcases List.mem_append.1 hx with hx | hx
      · exact h x (.inl hx)
      · exact every_mapItemsAt hf p m (fun x hx => h x (.inr hx)) x hx

theorem every_mapAccum {α σ : Type} {P : α → Prop} {f : σ → α → σ × α}
    (hf : ∀ s x, P x → P (f s x).2) : ∀ (xs : List α) (s : σ), (∀ x ∈ xs, P x) →
      ∀ x ∈ (mapAccum f s xs).2, P x
  | [], _, h => h
  | x :: xs, s, h => by
    intro y hy
    simp only [mapAccum, List.mem_cons] at hy
    rcases hy with rfl | hy
    · exact hf s x (h x (by simp))
    · exact every_mapAccum hf xs _ (fun z hz => h z (by simp [hz])) y hy

theorem every_mapAccum_table {α σ : Type} {P : α → Prop} {f : σ → α → σ × α}
    (hf : ∀ s x, P x → P (f s x).2) : ∀ (m : ItemMap α) (s : σ), (∀ x ∈ m.toVec, P x) →
      ∀ x ∈ (m.mapAccum f s).2.toVec, P x
  | [], _, h => h
  | (k, .cfg xs) :: m, s, h => by
    rw [toVec_cons] at h
    intro y hy
    simp only [ItemMap.mapAccum] at hy
    rw [toVec_cons] at hy
    rcases List.mem_append.1 hy with hy | hy
    · exact every_mapAccum hf xs s (fun z hz => h z (by simp [ItemValue.items, hz])) y hy
    · exact every_mapAccum_table hf m _ (fun z hz => h z (by simp [hz])) y hy
  | (k, .single x) :: m, s, h => by
    rw [toVec_cons] at h
    intro y hy
    simp only [ItemMap.mapAccum] at hy
    rw [toVec_cons] at hy
    rcases List.mem_append.1 hy with hy | hy
    · simp only [ItemValue.items, List.mem_singleton] at hy
      subst hy
      exact hf s x (h x (by simp [ItemValue.items]))
    · exact every_mapAccum_table hf m _ (fun z hz => h z (by simp [hz])) y hy

theorem every_push {α : Type} {P : α → Prop} {p : Str} {x : α} (hx : P x) : ∀ (m : ItemMap α),
    (∀ y ∈ m.toVec, P y) → ∀ y ∈ (m.push p x).toVec, P y
  | [], h => h
  | (k, v) :: m, h => by
    rw [toVec_cons] at h
    intro y hy
    simp only [ItemMap.push] at hy
    split at hy
    · cases v with
      | cfg xs =>
        simp only at hy
        rw [toVec_cons] at hy
        simp only [ItemValue.items, List.mem_append, List.mem_singleton] at hy
        rcases hy with (hy | rfl) | hy
        · exact h y (by simp [ItemValue.items, hy])
        · exact hx
        · exact h y (by simp [hy])
      | single z => exact h y (by rwa [toVec_cons] at hy)
    · rw [toVec_cons] at hy
      rcases List.mem_append.1 hy with hy | hy
      · exact h y (by simp [hy])
      · exact every_push hx m (fun z hz => h z (by simp [hz])) y hy

theorem toVec_append {α : Type} (m m' : ItemMap α) :
    ItemMap.toVec (m ++ m') = ItemMap.toVec m ++ ItemMap.toVec m' := by
  simp [ItemMap.toVec]

theorem every_tryInsert {α : Type} [Item α] {P : α → Prop} {x : α} (hx : P x) (m : ItemMap α)
    (h : ∀ y ∈ m.toVec, P y) : ∀ y ∈ (m.tryInsert x).1.toVec, P y := by
  have h1 : ∀ v : ItemValue α, v.items = [x] → ∀ y ∈ ItemMap.toVec (m ++ [(Item.path x, v)]), P y := by
    intro v hv y hy
    rw [toVec_append, toVec_cons] at hy
    simp only [hv, ItemMap.toVec, List.flatMap_nil, List.append_nil, List.mem_append,
      List.mem_singleton] at hy
    rcases hy with hy | rfl
    · exact h y hy
    · exact hx
  unfold ItemMap.tryInsert
  split
  · exact every_push hx m h
  · exact h
  · exact h1 _ rfl
  · exact h1 _ rfl

theorem every_insertAll {α : Type} [Item α] {P : α → Prop} : ∀ (xs : List α) (m : ItemMap α),
    (∀ x ∈ xs, P x) → (∀ y ∈ m.toVec, P y) → ∀ y ∈ (m.insertAll xs).toVec, P y
  | [], m, _, h => h
  | x :: xs, m, hx, h =>
    every_insertAll xs _ (fun y hy => hx y (by simp [hy])) (every_tryInsert (hx x (by simp)) m h)

theorem every_filter {α : Type} {P : α → Prop} (drop : α → Bool) (m : ItemMap α)
    (h : ∀ y ∈ m.toVec, P y) : ∀ y ∈ (m.filter drop).toVec, P y := by
  rw [ItemMap.toVec_filter]
  intro y hy
  exact h y (List.mem_filter.1 hy).1

/-! ## Annotations -/

/-- The predicate does not look at annotations. -/
structure ItemPred.IgnoresAnnotations (I : ItemPred) : Prop where
  enum : ∀ x a, I.enum x → I.enum { x with annotations := a }
  struct : ∀ x a, I.struct x → I.struct { x with annotations := a }
  union : ∀ x a, I.union x → I.union { x with annotations := a }
  «opaque» : ∀ x a, I.opaque x → I.opaque { x with annotations := a }
  typedef : ∀ x a, I.typedef x → I.typedef { x with annotations := a }

theorem every_give {α : Type} [Annotated α] {P : α → Prop} (hP : ∀ x a, P x → P (Annotated.set x a))
    (a : Annotations) : ∀ x, P x → P (giveAnnotations a x) := by
  intro x hx
  unfold giveAnnotations
  split
  · exact hP x a hx
  · exact hx

theorem Library.Every.giveOne {I : ItemPred} (hI : I.IgnoresAnnotations) {l : Library} (h : l.Every I)
    (pa : Str × Annotations) : (l.giveOne pa).Every I := by
  obtain ⟨h1, h2, h3, h4, h5, h6, h7, h8⟩ := h
  unfold Library.giveOne
  dsimp only
  split
  · exact ⟨h1, h2, every_mapItemsAt (every_give hI.enum pa.2) _ _ h3, h4, h5, h6, h7, h8⟩
  · split
    · exact ⟨h1, h2, h3, every_mapItemsAt (every_give hI.struct pa.2) _ _ h4, h5, h6, h7, h8⟩
    · split
      · exact ⟨h1, h2, h3, h4, every_mapItemsAt (every_give hI.union pa.2) _ _ h5, h6, h7, h8⟩
      · split
        · exact ⟨h1, h2, h3, h4, h5, every_mapItemsAt (every_give hI.opaque pa.2) _ _ h6, h7, h8⟩
        · exact ⟨h1, h2, h3, h4, h5, h6, every_mapItemsAt (every_give hI.typedef pa.2) _ _ h7, h8⟩

theorem Library.Every.transferAnnotations {I : ItemPred} (hI : I.IgnoresAnnotations) {l : Library}
    (h : l.Every I) (order : List (Str × Annotations) → List (Str × Annotations)) :
    (l.transferAnnotations order).Every I := by
  unfold Library.transferAnnotations
  have h0 : ({ l with typedefs := (l.typedefs.mapAccum TypedefItem.takeAnnotations []).2 } :
      Library).Every I := by
    obtain ⟨h1, h2, h3, h4, h5, h6, h7, h8⟩ := h
    refine ⟨h1, h2, h3, h4, h5, h6, every_mapAccum_table ?_ _ _ h7, h8⟩
    intro s x hx
    unfold TypedefItem.takeAnnotations
    split
    · exact hx
    · split
      · exact hx
      · split
        · exact hx
        · exact hI.typedef x _ hx
  have : ∀ (ps : List (Str × Annotations)) (l : Library), l.Every I → (ps.foldl Library.giveOne l).Every I := by
    intro ps
    induction ps with
    | nil => intro l h; exact h
    | cons p ps ih => intro l h; exact ih _ (h.giveOne hI p)
  exact this _ _ h0

/-! ## One function on all types -/

/-- From one predicate to another by a function on all types. -/
structure ItemPred.MapTys (I J : ItemPred) (g : Ty → Ty) : Prop where
  const : ∀ x, I.const x → J.const x
  static : ∀ x, I.static x → J.static (x.mapTys g)
  enum : ∀ x, I.enum x → J.enum (x.mapTys g)
  struct : ∀ x, I.struct x → J.struct (x.mapTys g)
  union : ∀ x, I.union x → J.union (x.mapTys g)
  «opaque» : ∀ x, I.opaque x → J.opaque x
  typedef : ∀ x, I.typedef x → J.typedef (x.mapTys g)
  func : ∀ x, I.func x → J.func (x.mapTys g)

theorem Library.Every.simplify {I J : ItemPred} {c : LibConfig}
    (hI : I.MapTys J (Ty.simplify c.language)) {l : Library} (h : l.Every I) :
    (l.simplify c).Every J := by
  obtain ⟨h1, h2, h3, h4, h5, h6, h7, h8⟩ := h
  exact ⟨fun x hx => hI.const x (h1 x hx), every_mapItems hI.static h2, every_mapItems hI.enum h3,
    every_mapItems hI.struct h4, every_mapItems hI.union h5, fun x hx => hI.opaque x (h6 x hx),
    every_mapItems hI.typedef h7, every_map hI.func h8⟩

theorem Library.Every.sortFunctions {I : ItemPred} {c : LibConfig} {l : Library} (h : l.Every I) :
    (l.sortFunctions c).Every I := by
  obtain ⟨h1, h2, h3, h4, h5, h6, h7, h8⟩ := h
  refine ⟨h1, h2, h3, h4, h5, h6, h7, ?_⟩
  intro x hx
  refine h8 x ?_
  revert hx
  simp only [Library.sortFunctions, sortIf]
  split
  · exact fun hx => (List.mergeSort_perm _ _).mem_iff.1 hx
  · exact id

theorem Library.Every.manglePaths {I J : ItemPred} {find : Ty → Option Str}
    (hI : I.MapTys J (Ty.manglePaths find)) (hs : ∀ x, I.static x → J.static x) {l : Library}
    (h : l.Every I) : (l.manglePaths find).Every J := by
  obtain ⟨h1, h2, h3, h4, h5, h6, h7, h8⟩ := h
  exact ⟨fun x hx => hI.const x (h1 x hx), fun x hx => hs x (h2 x hx), every_mapItems hI.enum h3,
    every_mapItems hI.struct h4, every_mapItems hI.union h5, fun x hx => hI.opaque x (h6 x hx),
    every_mapItems hI.typedef h7, every_map hI.func h8⟩

theorem Library.Every.removeExcluded {I : ItemPred} {c : LibConfig} {l : Library} (h : l.Every I) :
    (l.removeExcluded c).Every I := by
  obtain ⟨h1, h2, h3, h4, h5, h6, h7, h8⟩ := h
  exact ⟨every_filter _ _ h1, every_filter _ _ h2, every_filter _ _ h3, every_filter _ _ h4,
    every_filter _ _ h5, every_filter _ _ h6, every_filter _ _ h7,
    fun x hx => h8 x (List.mem_filter.1 hx).1⟩

theorem Library.Every.resolveDeclTypes {I J : ItemPred} {c : LibConfig} {l : Library}
    (hc : c.generateTag = true)
    (hI : I.MapTys J (Ty.resolve (Resolver.typeFor l.resolver))) (h : l.Every I) :
    (l.resolveDeclTypes c).Every J := by
  obtain ⟨h1, h2, h3, h4, h5, h6, h7, h8⟩ := h
  unfold Library.resolveDeclTypes
  rw [if_pos hc]
  exact ⟨fun x hx => hI.const x (h1 x hx), every_mapItems hI.static h2, every_mapItems hI.enum h3,
    every_mapItems hI.struct h4, every_mapItems hI.union h5, fun x hx => hI.opaque x (h6 x hx),
    every_mapItems hI.typedef h7, every_map hI.func h8⟩

/-! ## Renaming -/

/-- From one predicate to another by renaming. -/
structure ItemPred.Renames (I J : ItemPred) (c : LibConfig) : Prop where
  const : ∀ x, I.const x → J.const (x.renameFor c)
  static : ∀ x, I.static x → J.static (x.renameFor c)
  enum : ∀ x y, I.enum x → x.renameFor c = some y → J.enum y
  struct : ∀ x y, I.struct x → x.renameFor c = some y → J.struct y
  union : ∀ x y, I.union x → x.renameFor c = some y → J.union y
  «opaque» : ∀ x, I.opaque x → J.opaque (x.renameFor c)
  typedef : ∀ x, I.typedef x → J.typedef (x.renameFor c)
  func : ∀ x y, I.func x → x.renameFor c = some y → J.func y

theorem Library.Every.renameItems {I J : ItemPred} {c : LibConfig} (hI : I.Renames J c)
    {l l' : Library} (h : l.Every I) (hr : l.renameItems c = some l') : l'.Every J := by
  obtain ⟨h1, h2, h3, h4, h5, h6, h7, h8⟩ := h
  unfold Library.renameItems at hr
  simp only [Option.bind_eq_bind, Option.bind_eq_some_iff] at hr
  obtain ⟨ss, hss, us, hus, es, hes, fs, hfs, hr⟩ := hr
  simp only [Option.pure_def, Option.some.injEq] at hr
  subst hr
  refine ⟨fun x hx => every_mapItems hI.const h1 x (ItemMap.mem_rebuild hx),
    fun x hx => every_mapItems hI.static h2 x (ItemMap.mem_rebuild hx), ?_, ?_, ?_,
    fun x hx => every_mapItems hI.opaque h6 x (ItemMap.mem_rebuild hx),
    fun x hx => every_mapItems hI.typedef h7 x (ItemMap.mem_rebuild hx), ?_⟩
  · intro x hx
    obtain ⟨y, hy, e⟩ := ItemMap.mem_mapItemsM hes (ItemMap.mem_rebuild hx)
    exact hI.enum y x (h3 y hy) e
  · intro x hx
    obtain ⟨y, hy, e⟩ := ItemMap.mem_mapItemsM hss (ItemMap.mem_rebuild hx)
    exact hI.struct y x (h4 y hy) e
  · intro x hx
    obtain ⟨y, hy, e⟩ := ItemMap.mem_mapItemsM hus (ItemMap.mem_rebuild hx)
    exact hI.union y x (h5 y hy) e
  · intro x hx
    obtain ⟨y, hy, e⟩ := ItemMap.mapM_some_mem hfs x hx
    exact hI.func y x (h8 y hy) e

/-! ## Monomorphs -/

/-- The predicate holds of every monomorph. -/
def Monos.Every (I : ItemPred) (st : Monos) : Prop := ∀ x ∈ st.all, I.Of x

/-- The predicate is kept by instantiation with valid arguments. -/
structure ItemPred.Mono (I : ItemPred) (c : LibConfig) (V : GUse → Prop) : Prop where
  parts : ∀ x, I.Of x → ∀ y ∈ x.parts, I.Of y
  uses : ∀ x, I.Of x → ∀ u ∈ x.monoUses, V u
  funcUses : ∀ x, I.func x → ∀ u ∈ x.monoUses, V u
  spec : ∀ x u m, I.Of x → V u → x.call u.2.2.1 = some m → I.Of (x.specialize c u.2.2.1 m)

theorem Library.Every.monoUses {I : ItemPred} {c : LibConfig} {V : GUse → Prop} (hI : I.Mono c V)
    {l : Library} (h : l.Every I) : ∀ u ∈ l.monoUses, V u := by
  intro u hu
  simp only [Library.monoUses, List.mem_append, List.mem_flatMap] at hu
  rcases hu with (((⟨x, hx, hu⟩ | ⟨x, hx, hu⟩) | ⟨x, hx, hu⟩) | ⟨x, hx, hu⟩) | ⟨x, hx, hu⟩
  · exact hI.uses (.struct x) (h.structs x hx) u hu
  · exact hI.uses (.union x) (h.unions x hx) u hu
  · exact hI.uses (.enum x) (h.enums x hx) u hu
  · exact hI.uses (.typedef x) (h.typedefs x hx) u hu
  · exact hI.funcUses x (h.functions x hx) u hu

theorem Library.Every.monos {I : ItemPred} {c : LibConfig} {V : GUse → Prop} (hI : I.Mono c V)
    {l : Library} (h : l.Every I) {n : Nat} {m : Monos}
    (hm : followAll (follow c (l.getItems c) n) l.monoUses {} = .ok m) : m.Every I := by
  refine followAll_ind (I := Monos.Every I) (V := V) (H := I.Of) ?_ ?_ ?_ ?_ (h.monoUses hI) ?_ hm
  · exact fun p items hg x hx => hI.parts x (h.getItems hg x hx)
  · exact fun x u m hx hu hm => hI.uses _ (hI.spec x u m hx hu hm)
  · exact fun x u m st _ _ _ hi => hi
  · intro x u m st hx hu hm hi y hy
    rcases Monos.mem_push.1 hy with hy | rfl
    · exact hi y hy
    · exact hI.spec x u m hx hu hm
  · intro x hx
    simp [Monos.all] at hx

theorem Library.Every.insertMonos {I : ItemPred} {l : Library} (h : l.Every I) {m : Monos}
    (hm : m.Every I) : (l.insertMonos m).Every I := by
  obtain ⟨h1, h2, h3, h4, h5, h6, h7, h8⟩ := h
  exact ⟨h1, h2,
    every_filter _ _ (every_insertAll _ _
      (fun x hx => hm (.enum x) (by simp [Monos.all, hx])) h3),
    every_filter _ _ (every_insertAll _ _
      (fun x hx => hm (.struct x) (by simp [Monos.all, hx])) h4),
    every_filter _ _ (every_insertAll _ _
      (fun x hx => hm (.union x) (by simp [Monos.all, hx])) h5),
    every_filter _ _ (every_insertAll _ _
      (fun x hx => hm (.opaque x) (by simp [Monos.all, hx])) h6),
    every_filter _ _ (every_insertAll _ _
      (fun x hx => hm (.typedef x) (by simp [Monos.all, hx])) h7), h8⟩

/-- The shape of the library after `instantiate_monomorphs`. -/
theorem Library.instantiateMonomorphs_ok {c : LibConfig} {n : Nat} {l l' : Library}
    (h : l.instantiateMonomorphs c n = .ok l') :
    ∃ m, followAll (follow c (l.getItems c) n) l.monoUses {} = .ok m ∧
      l' = (l.insertMonos m).manglePaths m.find := by
  unfold Library.instantiateMonomorphs at h
  simp only [bind, Except.bind] at h
  split at h
  · simp at h
  · rename_i m hm
    simp only [pure, Except.pure, Except.ok.injEq] at h
    exact ⟨m, hm, h.symm⟩

theorem Library.Every.expand {I : ItemPred} {c : LibConfig} {V : GUse → Prop}
    (hI : c.language ≠ .cxx → I.Mono c V)
    (hM : c.language ≠ .cxx → ∀ find, I.MapTys I (Ty.manglePaths find)) {l l' : Library}
    (h : l.Every I) {n : Nat} (he : l.expand c n = .ok l') : l'.Every I := by
  unfold Library.expand at he
  split at he
  · simp only [Except.ok.injEq] at he
    subst he; exact h
  · rename_i hc
    obtain ⟨m, hm, rfl⟩ := Library.instantiateMonomorphs_ok he
    exact (h.insertMonos (h.monos (hI hc) hm)).manglePaths (hM hc m.find) fun _ hx => hx

/-! ## Collection -/

theorem mem_sortIf {α : Type} (k : SortKey) (path : α → Str) (xs : List α) (x : α) :
    x ∈ sortIf k path xs ↔ x ∈ xs := by
  cases k
  · exact (List.mergeSort_perm _ _).mem_iff
  · exact Iff.rfl

end Cbindgen
