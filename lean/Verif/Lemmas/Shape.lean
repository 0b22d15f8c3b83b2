import Verif.Lemmas.Every

/-!
# Names and conditions of the items of a library do not change before monomorphisation
-/

namespace Cbindgen

instance : Item (Str × Option Cfg) := ⟨Prod.fst, Prod.snd⟩

namespace ItemMap

variable {α : Type}

theorem mapItems_cons {β : Type} (f : α → β) (k : Str) (v : ItemValue α) (m : ItemMap α) :
    mapItems f ((k, v) :: m) = (k, mapValue f v) :: mapItems f m := rfl

theorem mapValue_congr {β γ : Type} {f : α → γ} {g : β → γ} {h : α → β} (e : ∀ x, g (h x) = f x)
    (v : ItemValue α) : mapValue g (mapValue h v) = mapValue f v := by
  cases v <;> simp [mapValue, e]

variable [Item α]

/-- The names and conditions of a table. -/
def shape (m : ItemMap α) : ItemMap (Str × Option Cfg) := m.mapItems fun x => (Item.path x, Item.cfg x)

/-- The function keeps names and conditions. -/
def Keeps (f : α → α) : Prop := ∀ x, (Item.path (f x), Item.cfg (f x)) = (Item.path x, Item.cfg x)

theorem shape_mapItems {f : α → α} (hf : Keeps f) (m : ItemMap α) : shape (m.mapItems f) = shape m := by
  induction m with
  | nil => rfl
  | cons kv m ih =>
    obtain ⟨k, v⟩ := kv
    unfold shape at ih ⊢
    rw [mapItems_cons, mapItems_cons, mapItems_cons, ih, mapValue_congr (fun x => hf x)]

theorem shape_mapItemsAt {f : α → α} (hf : Keeps f) (p : Str) (m : ItemMap α) :
    shape (m.mapItemsAt p f) = shape m := by
  induction m with
  | nil => rfl
  | cons kv m ih =>
    obtain ⟨k, v⟩ := kv
    unfold shape at ih ⊢
    simp only [mapItemsAt]
    split
    · rw [mapItems_cons, mapItems_cons, mapValue_congr (fun x => hf x)]
    · rw [mapItems_cons, mapItems_cons, ih]

theorem map_mapAccum {σ : Type} {f : σ → α → σ × α}
    (hf : ∀ s x, (Item.path (f s x).2, Item.cfg (f s x).2) = (Item.path x, Item.cfg x)) :
    ∀ (s : σ) (xs : List α), ((Cbindgen.mapAccum f s xs).2.map fun x => (Item.path x, Item.cfg x)) =
      xs.map fun x => (Item.path x, Item.cfg x)
  | _, [] => rfl
  | s, x :: xs => by
    simp only [Cbindgen.mapAccum, List.map_cons, hf, map_mapAccum hf]

theorem shape_mapAccum {σ : Type} {f : σ → α → σ × α}
    (hf : ∀ s x, (Item.path (f s x).2, Item.cfg (f s x).2) = (Item.path x, Item.cfg x)) :
    ∀ (s : σ) (m : ItemMap α), shape (mapAccum f s m).2 = shape m
  | _, [] => rfl
  | s, (k, .cfg xs) :: m => by
    have ih := fun s => shape_mapAccum hf s m
    unfold shape at ih ⊢
    simp only [mapAccum, mapItems_cons, ih, mapValue, map_mapAccum hf]
  | s, (k, .single x) :: m => by
    have ih := fun s => shape_mapAccum hf s m
    unfold shape at ih ⊢
    simp only [mapAccum, mapItems_cons, ih, mapValue, hf]

theorem wf_shape (m : ItemMap α) : WF (shape m) ↔ WF m := by
  unfold WF shape mapItems
  rw [List.map_map]
  have : (Prod.fst ∘ fun kv : Str × ItemValue α =>
      (kv.1, mapValue (fun x => (Item.path x, Item.cfg x)) kv.2)) = Prod.fst := rfl
  rw [this]
  refine and_congr Iff.rfl ?_
  simp only [List.mem_map]
  have hv : ∀ k (v : ItemValue α),
      WFValue k (mapValue (fun x => (Item.path x, Item.cfg x)) v) ↔ WFValue k v := by
    intro k v
    cases v with
    | single x => exact Iff.rfl
    | cfg xs =>
      simp only [WFValue, mapValue, ne_eq, List.map_eq_nil_iff, List.mem_map]
      refine and_congr Iff.rfl ⟨fun h x hx => h _ ⟨x, hx, rfl⟩, ?_⟩
      rintro h _ ⟨x, hx, rfl⟩
      exact h x hx
  constructor
  · intro h kv hkv
    exact (hv kv.1 kv.2).1 (h _ ⟨kv, hkv, rfl⟩)
  · rintro h _ ⟨kv, hkv, rfl⟩
    exact (hv kv.1 kv.2).2 (h kv hkv)

theorem getItems_shape (m : ItemMap α) (p : Str) :
    ((shape m).getItems p).isSome = (m.getItems p).isSome := by
  unfold shape
  rw [getItems_mapItems]
  simp

end ItemMap

open ItemMap

/-- The tables of types have the same names and conditions, and the other tables too. -/
structure Library.SameShape (l l' : Library) : Prop where
  constants : shape l'.constants = shape l.constants
  globals : shape l'.globals = shape l.globals
  enums : shape l'.enums = shape l.enums
  structs : shape l'.structs = shape l.structs
  unions : shape l'.unions = shape l.unions
  opaqueItems : shape l'.opaqueItems = shape l.opaqueItems
  typedefs : shape l'.typedefs = shape l.typedefs

theorem Library.SameShape.trans {a b c : Library} (h : a.SameShape b) (h' : b.SameShape c) :
    a.SameShape c :=
  ⟨h'.1.trans h.1, h'.2.trans h.2, h'.3.trans h.3, h'.4.trans h.4, h'.5.trans h.5, h'.6.trans h.6,
    h'.7.trans h.7⟩

theorem Library.SameShape.wf {l l' : Library} (h : l.SameShape l') (hwf : l.WF) : l'.WF where
  constants := (wf_shape _).1 (h.constants ▸ (wf_shape _).2 hwf.constants)
  globals := (wf_shape _).1 (h.globals ▸ (wf_shape _).2 hwf.globals)
  enums := (wf_shape _).1 (h.enums ▸ (wf_shape _).2 hwf.enums)
  structs := (wf_shape _).1 (h.structs ▸ (wf_shape _).2 hwf.structs)
  unions := (wf_shape _).1 (h.unions ▸ (wf_shape _).2 hwf.unions)
  opaqueItems := (wf_shape _).1 (h.opaqueItems ▸ (wf_shape _).2 hwf.opaqueItems)
  typedefs := (wf_shape _).1 (h.typedefs ▸ (wf_shape _).2 hwf.typedefs)

theorem isSome_findItems {α : Type} [Item α] (c : LibConfig) (t : ItemType) (mk : α → Container)
    {m m' : ItemMap α} (h : shape m' = shape m) (p : Str) :
    (findItems c t mk m' p).isSome = (findItems c t mk m p).isSome := by
  unfold findItems
  split
  · rw [Option.isSome_map, Option.isSome_map, ← getItems_shape, h, getItems_shape]
  · rfl

theorem Library.SameShape.getItems {l l' : Library} (h : l.SameShape l') (c : LibConfig) (p : Str) :
    (l'.getItems c p).isSome = (l.getItems c p).isSome := by
  have ho : ∀ {a a' : Option (List Container)} {b b' : Option (List Container)},
      a.isSome = a'.isSome → b.isSome = b'.isSome → (a <|> b).isSome = (a' <|> b').isSome := by
    intro a a' b b' h1 h2
    cases a <;> cases a' <;> simp_all
  exact ho (isSome_findItems c _ _ h.enums p) (ho (isSome_findItems c _ _ h.structs p)
    (ho (isSome_findItems c _ _ h.unions p) (ho (isSome_findItems c _ _ h.opaqueItems p)
      (isSome_findItems c _ _ h.typedefs p))))

theorem Library.SameShape.getItems_none {l l' : Library} (h : l.SameShape l') (c : LibConfig) {p : Str}
    (hn : l'.getItems c p = none) : l.getItems c p = none := by
  have := h.getItems c p
  rw [hn] at this
  cases hl : l.getItems c p with
  | none => rfl
  | some x => rw [hl] at this; simp at this

theorem keeps_give {α : Type} [Item α] [Annotated α]
    (h : ∀ (x : α) a, (Item.path (Annotated.set x a), Item.cfg (Annotated.set x a)) =
      (Item.path x, Item.cfg x)) (a : Annotations) : Keeps (giveAnnotations (α := α) a) := by
  intro x
  unfold giveAnnotations
  split
  · exact h x a
  · rfl

theorem Library.giveOne_shape (l : Library) (pa : Str × Annotations) : l.SameShape (l.giveOne pa) := by
  unfold Library.giveOne
  have h1 := shape_mapItemsAt (keeps_give (α := EnumItem) (fun _ _ => rfl) pa.2) pa.1 l.enums
  have h2 := shape_mapItemsAt (keeps_give (α := StructItem) (fun _ _ => rfl) pa.2) pa.1 l.structs
  have h3 := shape_mapItemsAt (keeps_give (α := UnionItem) (fun _ _ => rfl) pa.2) pa.1 l.unions
  have h4 := shape_mapItemsAt (keeps_give (α := OpaqueItem) (fun _ _ => rfl) pa.2) pa.1 l.opaqueItems
  have h5 := shape_mapItemsAt (keeps_give (α := TypedefItem) (fun _ _ => rfl) pa.2) pa.1 l.typedefs
  dsimp only
  split
  · exact ⟨rfl, rfl, h1, rfl, rfl, rfl, rfl⟩
  split
  · exact ⟨rfl, rfl, rfl, h2, rfl, rfl, rfl⟩
  split
  · exact ⟨rfl, rfl, rfl, rfl, h3, rfl, rfl⟩
  split
  · exact ⟨rfl, rfl, rfl, rfl, rfl, h4, rfl⟩
  · exact ⟨rfl, rfl, rfl, rfl, rfl, rfl, h5⟩

theorem Library.transferAnnotations_shape
    (order : List (Str × Annotations) → List (Str × Annotations)) (l : Library) :
    l.SameShape (l.transferAnnotations order) := by
  unfold Library.transferAnnotations
  have h0 : l.SameShape { l with typedefs := (l.typedefs.mapAccum TypedefItem.takeAnnotations []).2 } := by
    refine ⟨rfl, rfl, rfl, rfl, rfl, rfl, shape_mapAccum ?_ _ _⟩
    intro s x
    unfold TypedefItem.takeAnnotations
    split
    · rfl
    split
    · rfl
    split <;> rfl
  have : ∀ (ps : List (Str × Annotations)) (l' : Library), l.SameShape l' →
      l.SameShape (ps.foldl Library.giveOne l') := by
    intro ps
    induction ps with
    | nil => intro l' h; exact h
    | cons p ps ih => intro l' h; exact ih _ (h.trans (l'.giveOne_shape p))
  exact this _ _ h0

theorem Library.simplify_shape (c : LibConfig) (l : Library) : l.SameShape (l.simplify c) where
  constants := rfl
  globals := shape_mapItems (f := StaticItem.mapTys _) (fun _ => rfl) _
  enums := shape_mapItems (f := EnumItem.mapTys _) (fun _ => rfl) _
  structs := shape_mapItems (f := StructItem.mapTys _) (fun _ => rfl) _
  unions := shape_mapItems (f := UnionItem.mapTys _) (fun _ => rfl) _
  opaqueItems := rfl
  typedefs := shape_mapItems (f := TypedefItem.mapTys _) (fun _ => rfl) _

/-- The library before monomorphisation has the names and conditions of the loaded one. -/
theorem Library.simplified_shape (c : LibConfig)
    (order : List (Str × Annotations) → List (Str × Annotations)) (l : Library) :
    l.SameShape (((l.transferAnnotations order).simplify c).sortFunctions c) :=
  ((l.transferAnnotations_shape order).trans (Library.simplify_shape c _)).trans
    ⟨rfl, rfl, rfl, rfl, rfl, rfl, rfl⟩

end Cbindgen
