import Verif.Lemmas.SourceRuns
import Verif.Props.Monomorphs

/-!
# From what is taken to the tables of types (C64)
-/

namespace Cbindgen

/-- The table of a definition. -/
def Container.type : Container → ItemType
  | .enum _ => .enums
  | .struct _ => .structs
  | .union _ => .unions
  | .opaque _ => .opaqueItems
  | .typedef _ => .typedefs

/-- The condition of a definition. -/
def Container.cfg : Container → Option Cfg
  | .enum x => x.cfg
  | .struct x => x.cfg
  | .union x => x.cfg
  | .opaque x => x.cfg
  | .typedef x => x.cfg

/-- The annotations agree but for the mark of `bitflags!`. -/
structure Annotations.Alike (a b : Annotations) : Prop where
  entries : ∀ n, n ≠ c!"internal-derive-bitflags" → b.entries.lookup n = a.entries.lookup n
  mustUse : b.mustUse = a.mustUse
  deprecated : b.deprecated = a.deprecated
  empty : a.isEmpty = false → b.isEmpty = false

theorem Annotations.Alike.refl (a : Annotations) : a.Alike a := ⟨fun _ _ => rfl, rfl, rfl, id⟩

theorem Annotations.Alike.trans {a b d : Annotations} (h : a.Alike b) (h' : b.Alike d) : a.Alike d :=
  ⟨fun n hn => (h'.entries n hn).trans (h.entries n hn), h'.mustUse.trans h.mustUse, h'.deprecated.trans h.deprecated,
    fun e => h'.empty (h.empty e)⟩

theorem Annotations.Alike.flag (a : Annotations) (v : AnnValue) : a.Alike (a.addDefault c!"internal-derive-bitflags" v) := by
  unfold Annotations.addDefault
  split
  · exact .refl a
  · refine ⟨fun n hn => ?_, rfl, rfl, fun _ => rfl⟩
    have : (n == c!"internal-derive-bitflags") = false := by simpa using hn
    simp [List.lookup, this]

/-- The definitions agree but for the constants of a struct and the mark of `bitflags!`. -/
inductive Container.Alike : Container → Container → Prop
  | refl (x : Container) : Alike x x
  | struct {x : StructItem} {a : Annotations} {ks : List ConstItem} : x.annotations.Alike a →
      Alike (.struct x) (.struct { x with annotations := a, assocConsts := ks })

theorem Container.Alike.trans {x y z : Container} (h : x.Alike y) (h' : y.Alike z) : x.Alike z := by
  cases h with
  | refl => exact h'
  | struct h1 =>
    cases h' with
    | refl => exact .struct h1
    | struct h2 => exact .struct (h1.trans h2)

theorem Container.Alike.same {x y : Container} (h : x.Alike y) : y.path = x.path ∧ y.type = x.type := by
  cases h <;> exact ⟨rfl, rfl⟩

theorem Container.Alike.cfg {x y : Container} (h : x.Alike y) : y.cfg = x.cfg := by
  cases h <;> rfl

/-! ## Tables -/

namespace ItemMap
variable {α : Type} [Item α]

theorem mem_tryInsert {m : ItemMap α} {x y : α} (h : y ∈ (m.tryInsert x).1.toVec) : y ∈ m.toVec ∨ y = x :=
  every_tryInsert (P := fun y => y ∈ m.toVec ∨ y = x) (Or.inr rfl) m (fun _ h => Or.inl h) y h

theorem tryInsert_eq (m : ItemMap α) (x : α) : (m.tryInsert x).1 = m.insertAll [x] := rfl

theorem insertAll_keeps {m : ItemMap α} (hw : WF m) {y : α} (h : y ∈ m.toVec) (xs : List α) : y ∈ (m.insertAll xs).toVec := by
  rw [mem_insertAll hw]
  rw [wf_eq_tableOf hw, mem_tableOf] at h
  exact kept_append h

theorem insertAll_adds {m : ItemMap α} (hw : WF m) {x : α} {xs : List α} (h : x ∈ xs) :
    ∃ y ∈ (m.insertAll xs).toVec, Item.path y = Item.path x := by
  obtain ⟨y, hy⟩ := exists_kept (xs := toVec m ++ xs) (List.mem_append.2 (Or.inr h))
  have := (mem_kept hy).2
  exact ⟨y, (mem_insertAll hw xs).2 (by rw [this]; exact hy), this⟩

/-- Definitions of the same name are all added if all have conditions. -/
theorem insertAll_all {m : ItemMap α} (hw : WF m) {x : α} {xs : List α} (h : x ∈ xs)
    (hc : ∀ y, y ∈ m.toVec ∨ y ∈ xs → Item.path y = Item.path x → (Item.cfg y).isSome = true) : x ∈ (m.insertAll xs).toVec := by
  rw [mem_insertAll hw]
  unfold LibSpec.kept
  have h1 : ∀ y ∈ (m.toVec ++ xs).filter (fun y => Item.path y = Item.path x), (Item.cfg y).isSome = true := by
    intro y hy
    rw [List.mem_filter, List.mem_append] at hy
    exact hc y hy.1 (by simpa using hy.2)
  have h2 : x ∈ (m.toVec ++ xs).filter (fun y => Item.path y = Item.path x) := by simp [h]
  cases hf : (m.toVec ++ xs).filter (fun y => Item.path y = Item.path x) with
  | nil => rw [hf] at h2; simp at h2
  | cons y ys =>
    rw [hf] at h1 h2
    simp only [h1 y (by simp), if_true]
    rcases List.mem_cons.1 h2 with rfl | h2
    · simp
    · exact List.mem_cons.2 (Or.inr (List.mem_filter.2 ⟨h2, h1 x (by simp [h2])⟩))

omit [Item α] in
theorem mapItemsAt_keeps {f : α → α} {p : Str} : ∀ {m : ItemMap α} {x : α}, x ∈ m.toVec →
    x ∈ (m.mapItemsAt p f).toVec ∨ f x ∈ (m.mapItemsAt p f).toVec
  | [], x, h => by simp [toVec] at h
  | (k, v) :: m, x, h => by
    rw [toVec_cons] at h
    simp only [mapItemsAt]
    split
    · rw [toVec_cons]
      rcases List.mem_append.1 h with h | h
      · right
        refine List.mem_append.2 (Or.inl ?_)
        cases v with
        | cfg xs => exact List.mem_map.2 ⟨x, h, rfl⟩
        | single y =>
          simp only [ItemValue.items, List.mem_singleton] at h
          subst h
          simp [mapValue, ItemValue.items]
      · exact Or.inl (List.mem_append.2 (Or.inr h))
    · rw [toVec_cons]
      rcases List.mem_append.1 h with h | h
      · exact Or.inl (List.mem_append.2 (Or.inl h))
      · rcases mapItemsAt_keeps (f := f) (p := p) h with h | h
        · exact Or.inl (List.mem_append.2 (Or.inr h))
        · exact Or.inr (List.mem_append.2 (Or.inr h))

theorem wf_mapItemsAt {f : α → α} (hf : Keeps f) (p : Str) {m : ItemMap α} (h : WF m) : WF (m.mapItemsAt p f) :=
  (wf_shape _).1 (by rw [shape_mapItemsAt hf]; exact (wf_shape _).2 h)

end ItemMap

open ItemMap

/-! ## Steps -/

/-- One step of loading: the definitions `new` are added. -/
structure Step (l l' : Library) (new : List Container) : Prop where
  sound : ∀ x ∈ l'.types, (∃ y ∈ l.types, y.Alike x) ∨ ∃ y ∈ new, y.Alike x
  keeps : ∀ x ∈ l.types, ∃ y ∈ l'.types, x.Alike y
  adds : ∀ y ∈ new, ∃ x ∈ l'.types, x.path = y.path ∧ x.type = y.type
  all : ∀ y ∈ new, (∀ z, z ∈ l.types ∨ z ∈ new → z.path = y.path → z.type = y.type → z.cfg.isSome = true) →
    ∃ x ∈ l'.types, y.Alike x
  wf : l'.WF

theorem Step.refl {l : Library} (h : l.WF) : Step l l [] :=
  ⟨fun x hx => Or.inl ⟨x, hx, .refl x⟩, fun x hx => ⟨x, hx, .refl x⟩, by simp, by simp, h⟩

theorem Step.trans {a b d : Library} {xs ys : List Container} (h : Step a b xs) (h' : Step b d ys) : Step a d (xs ++ ys) := by
  refine ⟨?_, ?_, ?_, ?_, h'.wf⟩
  · intro x hx
    rcases h'.sound x hx with ⟨y, hy, h1⟩ | ⟨y, hy, h1⟩
    · rcases h.sound y hy with ⟨z, hz, h2⟩ | ⟨z, hz, h2⟩
      · exact Or.inl ⟨z, hz, h2.trans h1⟩
      · exact Or.inr ⟨z, by simp [hz], h2.trans h1⟩
    · exact Or.inr ⟨y, by simp [hy], h1⟩
  · intro x hx
    obtain ⟨y, hy, h1⟩ := h.keeps x hx
    obtain ⟨z, hz, h2⟩ := h'.keeps y hy
    exact ⟨z, hz, h1.trans h2⟩
  · intro y hy
    rcases List.mem_append.1 hy with hy | hy
    · obtain ⟨x, hx, h1, h2⟩ := h.adds y hy
      obtain ⟨z, hz, h3⟩ := h'.keeps x hx
      exact ⟨z, hz, h3.same.1.trans h1, h3.same.2.trans h2⟩
    · exact h'.adds y hy
  · intro y hy hc
    rcases List.mem_append.1 hy with hy | hy
    · obtain ⟨x, hx, h1⟩ := h.all y hy fun z hz => hc z (hz.imp_right fun hz => List.mem_append.2 (Or.inl hz))
      obtain ⟨z, hz, h3⟩ := h'.keeps x hx
      exact ⟨z, hz, h1.trans h3⟩
    · refine h'.all y hy fun z hz e1 e2 => ?_
      rcases hz with hz | hz
      · rcases h.sound z hz with ⟨w, hw, h1⟩ | ⟨w, hw, h1⟩
        · rw [h1.cfg]
          exact hc w (Or.inl hw) (h1.same.1.symm.trans e1) (h1.same.2.symm.trans e2)
        · rw [h1.cfg]
          exact hc w (Or.inr (List.mem_append.2 (Or.inl hw))) (h1.same.1.symm.trans e1) (h1.same.2.symm.trans e2)
      · exact hc z (Or.inr (List.mem_append.2 (Or.inr hz))) e1 e2

/-- The other tables and the functions do not matter. -/
theorem Step.of_types {l l' : Library} (h : l'.types = l.types) (hw : l'.WF) : Step l l' [] :=
  ⟨fun x hx => Or.inl ⟨x, h ▸ hx, .refl x⟩, fun x hx => ⟨x, h ▸ hx, .refl x⟩, by simp, by simp, hw⟩

/-- Put definitions into the tables. -/
theorem Step.insert {l : Library} (h : l.WF) (ss : List StructItem) (es : List EnumItem) (us : List UnionItem)
    (ts : List TypedefItem) (os : List OpaqueItem) {l' : Library} (h1 : l'.structs = l.structs.insertAll ss)
    (h2 : l'.enums = l.enums.insertAll es) (h3 : l'.unions = l.unions.insertAll us)
    (h4 : l'.typedefs = l.typedefs.insertAll ts) (h5 : l'.opaqueItems = l.opaqueItems.insertAll os)
    (h6 : WF l'.constants) (h7 : WF l'.globals) :
    Step l l' (ss.map .struct ++ es.map .enum ++ us.map .union ++ ts.map .typedef ++ os.map .opaque) := by
  have key : ∀ {α : Type} [Item α] {m : ItemMap α} {xs : List α} {x : α}, x ∈ (m.insertAll xs).toVec →
      x ∈ m.toVec ∨ x ∈ xs := by
    intro α _ m xs x hx
    exact every_insertAll (P := fun x => x ∈ m.toVec ∨ x ∈ xs) xs m (fun _ h => Or.inr h) (fun _ h => Or.inl h) x hx
  refine ⟨?_, ?_, ?_, ?_, ⟨h6, h7, h2 ▸ wf_insertAll h.enums es, h1 ▸ wf_insertAll h.structs ss, h3 ▸ wf_insertAll h.unions us,
    h5 ▸ wf_insertAll h.opaqueItems os, h4 ▸ wf_insertAll h.typedefs ts⟩⟩
  · intro x hx
    simp only [mem_types, h1, h2, h3, h4, h5] at hx
    rcases hx with ⟨y, hy, rfl⟩ | ⟨y, hy, rfl⟩ | ⟨y, hy, rfl⟩ | ⟨y, hy, rfl⟩ | ⟨y, hy, rfl⟩ <;>
      exact (key hy).imp (fun hy => ⟨_, mem_types.2 (by simp [hy]), .refl _⟩) (fun hy => ⟨_, by simp [hy], .refl _⟩)
  · intro x hx
    refine ⟨x, ?_, .refl x⟩
    rw [mem_types] at hx ⊢
    rw [h1, h2, h3, h4, h5]
    rcases hx with ⟨y, hy, rfl⟩ | ⟨y, hy, rfl⟩ | ⟨y, hy, rfl⟩ | ⟨y, hy, rfl⟩ | ⟨y, hy, rfl⟩
    · simp [insertAll_keeps h.structs hy]
    · simp [insertAll_keeps h.enums hy]
    · simp [insertAll_keeps h.unions hy]
    · simp [insertAll_keeps h.typedefs hy]
    · simp [insertAll_keeps h.opaqueItems hy]
  · intro y hy
    simp only [List.mem_append, List.mem_map] at hy
    rcases hy with (((⟨x, hx, rfl⟩ | ⟨x, hx, rfl⟩) | ⟨x, hx, rfl⟩) | ⟨x, hx, rfl⟩) | ⟨x, hx, rfl⟩
    · obtain ⟨z, hz, e⟩ := insertAll_adds h.structs hx
      exact ⟨.struct z, mem_types.2 (by simp [h1, hz]), e, rfl⟩
    · obtain ⟨z, hz, e⟩ := insertAll_adds h.enums hx
      exact ⟨.enum z, mem_types.2 (by simp [h2, hz]), e, rfl⟩
    · obtain ⟨z, hz, e⟩ := insertAll_adds h.unions hx
      exact ⟨.union z, mem_types.2 (by simp [h3, hz]), e, rfl⟩
    · obtain ⟨z, hz, e⟩ := insertAll_adds h.typedefs hx
      exact ⟨.typedef z, mem_types.2 (by simp [h4, hz]), e, rfl⟩
    · obtain ⟨z, hz, e⟩ := insertAll_adds h.opaqueItems hx
      exact ⟨.opaque z, mem_types.2 (by simp [h5, hz]), e, rfl⟩
  · intro y hy hc
    refine ⟨y, ?_, .refl y⟩
    simp only [List.mem_append, List.mem_map] at hy
    rw [mem_types, h1, h2, h3, h4, h5]
    rcases hy with (((⟨x, hx, rfl⟩ | ⟨x, hx, rfl⟩) | ⟨x, hx, rfl⟩) | ⟨x, hx, rfl⟩) | ⟨x, hx, rfl⟩
    · have := insertAll_all h.structs hx fun y hy e => hc (.struct y) (hy.imp (fun hy => mem_types.2 (by simp [hy])) (fun hy => by simp [hy])) e rfl
      simp [this]
    · have := insertAll_all h.enums hx fun y hy e => hc (.enum y) (hy.imp (fun hy => mem_types.2 (by simp [hy])) (fun hy => by simp [hy])) e rfl
      simp [this]
    · have := insertAll_all h.unions hx fun y hy e => hc (.union y) (hy.imp (fun hy => mem_types.2 (by simp [hy])) (fun hy => by simp [hy])) e rfl
      simp [this]
    · have := insertAll_all h.typedefs hx fun y hy e => hc (.typedef y) (hy.imp (fun hy => mem_types.2 (by simp [hy])) (fun hy => by simp [hy])) e rfl
      simp [this]
    · have := insertAll_all h.opaqueItems hx fun y hy e => hc (.opaque y) (hy.imp (fun hy => mem_types.2 (by simp [hy])) (fun hy => by simp [hy])) e rfl
      simp [this]

/-- Change the structs of a name. -/
theorem Step.change {l : Library} (h : l.WF) (p : Str) {f : StructItem → StructItem}
    (hf : ∀ x, (Container.struct x).Alike (.struct (f x))) : Step l { l with structs := l.structs.mapItemsAt p f } [] := by
  have hk : Keeps f := by
    intro x
    have := hf x
    generalize f x = z at this
    cases this <;> rfl
  refine ⟨?_, ?_, by simp, by simp, ⟨h.constants, h.globals, h.enums, wf_mapItemsAt hk p h.structs, h.unions, h.opaqueItems, h.typedefs⟩⟩
  · intro x hx
    left
    rw [mem_types] at hx
    rcases hx with ⟨y, hy, rfl⟩ | hx
    · have := every_mapItemsAt (P := fun y => ∃ x ∈ l.structs.toVec, (Container.struct x).Alike (.struct y))
        (fun x ⟨z, hz, e⟩ => ⟨z, hz, e.trans (hf x)⟩) p l.structs (fun x hx => ⟨x, hx, .refl _⟩) y hy
      obtain ⟨x, hx, e⟩ := this
      exact ⟨_, mem_types.2 (by simp [hx]), e⟩
    · exact ⟨x, mem_types.2 (Or.inr hx), .refl x⟩
  · intro x hx
    rw [mem_types] at hx
    rcases hx with ⟨y, hy, rfl⟩ | hx
    · rcases mapItemsAt_keeps (f := f) (p := p) hy with hy | hy
      · exact ⟨_, mem_types.2 (Or.inl ⟨y, hy, rfl⟩), .refl _⟩
      · exact ⟨_, mem_types.2 (Or.inl ⟨_, hy, rfl⟩), hf y⟩
    · exact ⟨x, mem_types.2 (Or.inr hx), .refl x⟩

/-- Other descriptions of what is added. -/
theorem Step.of_new {l l' : Library} {xs ys : List Container} (h : Step l l' xs) (h1 : ∀ x ∈ xs, ∃ y ∈ ys, y.Alike x)
    (h2 : ∀ y ∈ ys, ∃ x ∈ xs, x.path = y.path ∧ x.type = y.type)
    (h3 : ∀ y ∈ ys, (∀ z ∈ ys, z.path = y.path → z.type = y.type → z.cfg.isSome = true) → ∃ x ∈ xs, y.Alike x) : Step l l' ys := by
  refine ⟨?_, h.keeps, ?_, ?_, h.wf⟩
  · intro x hx
    rcases h.sound x hx with h3 | ⟨y, hy, e⟩
    · exact Or.inl h3
    · obtain ⟨z, hz, e'⟩ := h1 y hy
      exact Or.inr ⟨z, hz, e'.trans e⟩
  · intro y hy
    obtain ⟨x, hx, e1, e2⟩ := h2 y hy
    obtain ⟨z, hz, e3, e4⟩ := h.adds x hx
    exact ⟨z, hz, e3.trans e1, e4.trans e2⟩
  · intro y hy hc
    obtain ⟨x, hx, e⟩ := h3 y hy fun z hz => hc z (Or.inr hz)
    obtain ⟨w, hw, e'⟩ := h.all x hx fun z hz e1 e2 => by
      rcases hz with hz | hz
      · exact hc z (Or.inl hz) (e1.trans e.same.1) (e2.trans e.same.2)
      · obtain ⟨v, hv, ev⟩ := h1 z hz
        rw [ev.cfg]
        exact hc v (Or.inr hv) ((ev.same.1.symm.trans e1).trans e.same.1) ((ev.same.2.symm.trans e2).trans e.same.2)
    exact ⟨w, hw, e.trans e'⟩

/-! ## Loading -/

/-- The definition that an item becomes: it is opaque if it does not load. -/
def loadedAs (r : LoadM Container) (o : LoadM OpaqueItem) : Option Container :=
  match r with
  | .ok x => some x
  | .error .err =>
    match o with
    | .ok o => some (.opaque o)
    | .error _ => none
  | .error .panic => none

/-- The definition that a struct becomes. -/
def SynStruct.container (c : LoadConfig) (m : Option Cfg) (s : SynStruct) : Option Container :=
  loadedAs ((s.load c m).map .struct) (loadOpaque (unraw s.ident) s.generics s.attrs m)

/-- The definition that is loaded. -/
def Taken.container (c : LoadConfig) : Taken × Option Cfg → Option Container
  | (.struct s, m) => s.container c m
  | (.union s, m) => loadedAs ((s.load c m).map .union) (loadOpaque (unraw s.ident) s.generics s.attrs m)
  | (.enum s, m) => loadedAs ((s.load c m).map .enum) (loadOpaque (unraw s.ident) s.generics s.attrs m)
  | (.alias s, m) => loadedAs ((s.load m).map .typedef) (loadOpaque (unraw s.ident) s.generics s.attrs m)
  | (.bitflags b, m) => b.structItem.bind (SynStruct.container c m)
  | _ => none

theorem Step.opaque {l : Library} (h : l.WF) (o : OpaqueItem) :
    Step l { l with opaqueItems := (l.opaqueItems.tryInsert o).1 } [.opaque o] :=
  Step.insert h [] [] [] [] [o] rfl rfl rfl rfl rfl h.constants h.globals

theorem addOpaque_step {l l' : Library} {i : Str} {gs : List SynGenericParam} {as : List SAttr} {m : Option Cfg}
    (hw : l.WF) (h : l.addOpaque i gs as m = some l') : ∃ o, loadOpaque (unraw i) gs as m = .ok o ∧ Step l l' [.opaque o] := by
  unfold Library.addOpaque at h
  split at h
  · rename_i o ho
    cases h
    exact ⟨o, ho, Step.opaque hw o⟩
  · cases h

theorem loadStruct_step {c : LoadConfig} {l l' : Library} {s : SynStruct} {m : Option Cfg} (hw : l.WF)
    (h : l.loadStruct c m s = some l') : Step l l' (s.container c m).toList := by
  unfold Library.loadStruct at h
  unfold SynStruct.container loadedAs
  split at h
  · rename_i x hx
    cases h
    rw [hx]
    exact Step.insert hw [x] [] [] [] [] rfl rfl rfl rfl rfl hw.constants hw.globals
  · rename_i hx
    obtain ⟨o, ho, hs⟩ := addOpaque_step hw h
    simp only [hx, ho, Except.map]
    exact hs
  · cases h

theorem loadAssocConst_step {c : LoadConfig} {l l' : Library} {p : Str} {s : SynConst} {m : Option Cfg} (hw : l.WF)
    (h : l.loadAssocConst c m p s = some l') : Step l l' [] := by
  unfold Library.loadAssocConst at h
  split at h
  · rename_i k _
    split at h
    · cases h
      exact Step.of_types rfl ⟨wf_insertAll hw.constants [k], hw.globals, hw.enums, hw.structs, hw.unions, hw.opaqueItems,
        hw.typedefs⟩
    · cases h
      exact Step.change hw p (fun x => .struct (.refl _))
  · cases h
    exact Step.refl hw
  · cases h

theorem loadAll_step {α : Type} {f : Library → α → Option Library} {new : α → List Container}
    (hf : ∀ l x l', l.WF → f l x = some l' → Step l l' (new x)) : ∀ {xs : List α} {l l' : Library}, l.WF →
    loadAll f l xs = some l' → Step l l' (xs.flatMap new)
  | [], l, l', hw, h => by cases h; exact Step.refl hw
  | x :: xs, l, l', hw, h => by
    simp only [loadAll] at h
    split at h
    · rename_i l₁ h1
      have := hf _ _ _ hw h1
      exact this.trans (loadAll_step hf this.wf h)
    · cases h

theorem loadAssocs_step {c : LoadConfig} {l l' : Library} {t : SynTy} {ks : List SynConst} {m : Option Cfg} (hw : l.WF)
    (h : l.loadAssocs c m t ks = some l') : Step l l' [] := by
  unfold Library.loadAssocs at h
  split at h
  · cases h
    exact Step.refl hw
  · have := loadAll_step (new := fun _ => []) (fun _ _ _ hw h => loadAssocConst_step hw h) hw h
    rw [List.flatMap_eq_nil_iff.2 (by simp)] at this
    exact this

theorem load_step {c : LoadConfig} {l l' : Library} {x : Taken × Option Cfg} (hw : l.WF) (h : Taken.load c l x = some l') :
    Step l l' (Taken.container c x).toList := by
  obtain ⟨t, m⟩ := x
  cases t with
  | fn path owner ext f =>
    simp only [Taken.load, Library.loadFn] at h
    split at h
    · cases h
      exact Step.of_types rfl ⟨hw.constants, hw.globals, hw.enums, hw.structs, hw.unions, hw.opaqueItems, hw.typedefs⟩
    · cases h
      exact Step.refl hw
    · cases h
  | const k =>
    simp only [Taken.load, Library.loadConst] at h
    split at h
    · cases h
      exact Step.of_types rfl ⟨wf_insertAll hw.constants [_], hw.globals, hw.enums, hw.structs, hw.unions, hw.opaqueItems,
        hw.typedefs⟩
    · cases h
      exact Step.refl hw
    · cases h
  | static p s =>
    simp only [Taken.load, Library.loadStatic] at h
    split at h
    · cases h
      exact Step.of_types rfl ⟨hw.constants, wf_insertAll hw.globals [_], hw.enums, hw.structs, hw.unions, hw.opaqueItems,
        hw.typedefs⟩
    · cases h
      exact Step.refl hw
    · cases h
  | struct s => exact loadStruct_step hw h
  | union s =>
    simp only [Taken.load, Library.loadUnion] at h
    simp only [Taken.container, loadedAs]
    split at h
    · rename_i x hx
      cases h
      rw [hx]
      exact Step.insert hw [] [] [x] [] [] rfl rfl rfl rfl rfl hw.constants hw.globals
    · rename_i hx
      obtain ⟨o, ho, hs⟩ := addOpaque_step hw h
      simp only [hx, ho, Except.map]
      exact hs
    · cases h
  | enum s =>
    simp only [Taken.load, Library.loadEnum] at h
    simp only [Taken.container, loadedAs]
    split at h
    · rename_i x hx
      cases h
      rw [hx]
      exact Step.insert hw [] [x] [] [] [] rfl rfl rfl rfl rfl hw.constants hw.globals
    · rename_i hx
      obtain ⟨o, ho, hs⟩ := addOpaque_step hw h
      simp only [hx, ho, Except.map]
      exact hs
    · cases h
  | alias s =>
    simp only [Taken.load, Library.loadAlias] at h
    simp only [Taken.container, loadedAs]
    split at h
    · rename_i x hx
      cases h
      rw [hx]
      exact Step.insert hw [] [] [] [x] [] rfl rfl rfl rfl rfl hw.constants hw.globals
    · rename_i hx
      obtain ⟨o, ho, hs⟩ := addOpaque_step hw h
      simp only [hx, ho, Except.map]
      exact hs
    · cases h
  | bitflags b =>
    simp only [Taken.load, Library.loadBitflags] at h
    simp only [Taken.container]
    split at h
    · cases h
    · rename_i l₁ h1
      have h2 : Step l l₁ (b.structItem.bind (SynStruct.container c m)).toList := by
        cases hs : b.structItem with
        | none => rw [hs] at h1; cases h1; exact Step.refl hw
        | some s => rw [hs] at h1; exact loadStruct_step hw h1
      have h3 : Step l₁ (l₁.markFlags (unraw b.name)) [] := Step.change h2.wf _ (fun x => .struct (.flag _ _))
      have := h2.trans (h3.trans (loadAssocs_step h3.wf h))
      simpa using this
  | assoc r k => exact loadAssocConst_step hw h

theorem loadTaken_step {c : LoadConfig} {l l' : Library} {ts : List (Taken × Option Cfg)} (hw : l.WF)
    (h : loadTaken c l ts = some l') : Step l l' (ts.filterMap (Taken.container c)) := by
  have := loadAll_step (new := fun x => (Taken.container c x).toList) (fun _ _ _ hw h => load_step hw h) hw h
  have e : ∀ xs : List (Taken × Option Cfg), xs.filterMap (Taken.container c) = xs.flatMap fun x => (Taken.container c x).toList := by
    intro xs
    induction xs with
    | nil => rfl
    | cons x xs ih =>
      rw [List.flatMap_cons, ← ih]
      cases hx : Taken.container c x with
      | none => rw [List.filterMap_cons_none hx]; rfl
      | some y => rw [List.filterMap_cons_some hx]; rfl
  rw [e]
  exact this

theorem empty_wf : ({} : Library).WF :=
  ⟨wf_tableOf [], wf_tableOf [], wf_tableOf [], wf_tableOf [], wf_tableOf [], wf_tableOf [], wf_tableOf []⟩

theorem empty_types {x : Container} (h : x ∈ ({} : Library).types) : False := by
  simp [mem_types, toVec] at h

theorem extendWith_step {l r : Library} (hw : l.WF) : Step l (l.extendWith r) r.types := by
  refine (Step.insert hw r.structs.toVec r.enums.toVec r.unions.toVec r.typedefs.toVec r.opaqueItems.toVec rfl rfl rfl rfl rfl
    (wf_insertAll hw.constants _) (wf_insertAll hw.globals _)).of_new ?_ ?_ ?_
  · intro x hx
    refine ⟨x, ?_, .refl x⟩
    rw [mem_types]
    simpa [or_assoc, eq_comm] using hx
  · intro x hx
    refine ⟨x, ?_, rfl, rfl⟩
    rw [mem_types] at hx
    simpa [or_assoc, eq_comm] using hx
  · intro x hx _
    refine ⟨x, ?_, .refl x⟩
    rw [mem_types] at hx
    simpa [or_assoc, eq_comm] using hx

theorem run_step {c : LoadConfig} {l : Library} {r : Run} (hw : l.WF) (h : loadTaken c {} r.1 = some r.2) :
    Step l (l.extendWith r.2) (r.1.filterMap (Taken.container c)) := by
  have h1 := loadTaken_step empty_wf h
  refine (extendWith_step hw).of_new ?_ h1.adds ?_
  · intro x hx
    rcases h1.sound x hx with ⟨y, hy, _⟩ | h2
    · exact (empty_types hy).elim
    · exact h2
  · intro y hy hc
    exact h1.all y hy fun z hz => hz.elim (fun hz => (empty_types hz).elim) (hc z)

theorem extendAll_step {c : LoadConfig} : ∀ {rs : List Run} {l : Library}, l.WF → (∀ r ∈ rs, loadTaken c {} r.1 = some r.2) →
    Step l (extendAll l rs) (rs.flatMap fun r => r.1.filterMap (Taken.container c))
  | [], l, hw, _ => Step.refl hw
  | r :: rs, l, hw, h => by
    have h1 := run_step (l := l) hw (h r (by simp))
    exact h1.trans (extendAll_step h1.wf (fun r hr => h r (by simp [hr])))

/-! ## The tables of the sources -/

/-- The types of the standard library that are known. -/
def stdOpaque (t : Str × List Str) : OpaqueItem :=
  { path := t.1, exportName := t.1, genericParams := t.2.map fun p => { name := p } }

theorem std_step (b : Bool) : Step {} (if b then Library.addStdTypes {} else {})
    (if b then stdTypes.map (fun t => .opaque (stdOpaque t)) else []) := by
  cases b
  · exact Step.refl empty_wf
  · have := Step.insert empty_wf [] [] [] [] (stdTypes.map stdOpaque) (l' := Library.addStdTypes {}) rfl rfl rfl rfl rfl
      empty_wf.constants empty_wf.globals
    rw [List.map_map] at this
    exact this

/-- The types of the tables are those of the items of the sources. -/
theorem build_types {pc : ParseConfig} {c : LoadConfig} {fuel : Nat} {i : Inputs} {l : Library}
    (h : buildLibrary pc c fuel i = .ok l) (hp : SrcSpec.InputsPlain i) (ho : SrcSpec.OnePath pc i) :
    l.WF ∧
    (∀ x ∈ l.types, (∃ t m cs y, SrcSpec.Given pc i t cs ∧ ParserSpec.GuardIs (Taken.guard (t, m)) cs ∧
        Taken.container c (t, m) = some y ∧ y.Alike x) ∨
      (i.stdTypes = true ∧ ∃ t ∈ stdTypes, x = .opaque (stdOpaque t))) ∧
    (∀ t cs, SrcSpec.Given pc i t cs → ∃ m, ParserSpec.GuardIs (Taken.guard (t, m)) cs ∧
      ∀ y, Taken.container c (t, m) = some y → (∃ x ∈ l.types, x.path = y.path ∧ x.type = y.type) ∧
        ((∀ t' m' cs' y', SrcSpec.Given pc i t' cs' → ParserSpec.GuardIs (Taken.guard (t', m')) cs' →
            Taken.container c (t', m') = some y' → y'.path = y.path → y'.type = y.type → y'.cfg.isSome = true) →
          (i.stdTypes = true → ∀ s ∈ stdTypes, y.path ≠ s.1) → ∃ x ∈ l.types, y.Alike x)) := by
  obtain ⟨rs, rfl, hr⟩ := build_runs h
  have h1 := (std_step i.stdTypes).trans (extendAll_step (std_step i.stdTypes).wf hr.loaded)
  refine ⟨h1.wf, ?_, ?_⟩
  · intro x hx
    rcases h1.sound x hx with ⟨y, hy, _⟩ | ⟨y, hy, e⟩
    · exact (empty_types hy).elim
    · rcases List.mem_append.1 hy with hy | hy
      · right
        split at hy
        · rename_i hs
          simp only [List.mem_map] at hy
          obtain ⟨t, ht, rfl⟩ := hy
          cases e
          exact ⟨hs, t, ht, rfl⟩
        · simp at hy
      · left
        simp only [List.mem_flatMap, List.mem_filterMap] at hy
        obtain ⟨r, hr1, ⟨t, m⟩, ht, hy⟩ := hy
        obtain ⟨cs, h2, h3⟩ := hr.sound hp hr1 ht
        exact ⟨t, m, cs, y, h2, h3, hy, e⟩
  · intro t cs ht
    obtain ⟨r, hr1, m, hm, hg⟩ := hr.complete hp ho ht
    refine ⟨m, hg, fun y hy => ?_⟩
    have hnew : y ∈ (if i.stdTypes = true then stdTypes.map (fun t => Container.opaque (stdOpaque t)) else []) ++
        rs.flatMap fun r => r.1.filterMap (Taken.container c) := by
      simp only [List.mem_append, List.mem_flatMap, List.mem_filterMap]
      exact Or.inr ⟨r, hr1, _, hm, hy⟩
    refine ⟨h1.adds y hnew, fun hc hstd => h1.all y hnew fun z hz e1 e2 => ?_⟩
    rcases hz with hz | hz
    · exact (empty_types hz).elim
    · rcases List.mem_append.1 hz with hz | hz
      · exfalso
        split at hz
        · rename_i hs
          simp only [List.mem_map] at hz
          obtain ⟨s, hs', rfl⟩ := hz
          exact hstd hs s hs' e1.symm
        · simp at hz
      · simp only [List.mem_flatMap, List.mem_filterMap] at hz
        obtain ⟨r', hr', ⟨t', m'⟩, ht', hy'⟩ := hz
        obtain ⟨cs', h2, h3⟩ := hr.sound hp hr' ht'
        exact hc t' m' cs' z h2 h3 hy' e1 e2

end Cbindgen
