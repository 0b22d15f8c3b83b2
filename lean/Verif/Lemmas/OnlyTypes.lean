import Verif.Spec.OnlyTypes
import Verif.Lemmas.Loaded
import Verif.Props.SourceDefs
import Verif.Lemmas.SourceCxxEnums

/-!
# Where the names of definitions come from (C82)
-/

namespace Cbindgen
open CSpec HeadSpec LexSpec ItemMap
open SrcSpec hiding Reaches Given Plain

/-- The structs of the variants. -/
def Container.bodies : Container → List StructItem
  | .enum x => x.bodies
  | _ => []

/-- An enum with data. -/
def Container.hasTag : Container → Bool
  | .enum x => x.tag.isSome
  | _ => false

/-- A struct that starts with a tag. -/
def Container.inner : Container → Bool
  | .struct x => x.hasTagField
  | _ => false

/-- A definition with its names before they are changed: `ids` are those of the structs of its variants. -/
structure Fresh (q : Str) (ids : List Str) (data : Bool) (k : ItemType) (g : Option Cfg) (ex : Bool) (x : Container) : Prop where
  path : x.path = q
  name : x.exportName = q
  type : x.type = k
  cfg : x.cfg = g
  exported : x.annotations.shouldExport = ex
  tag : x.hasTag = true → data = true
  outer : x.inner = false
  bodies : ∀ b ∈ x.bodies, b.path ∈ ids ∧ b.exportName = b.path

theorem mem_bodies {x : EnumItem} {b : StructItem} : b ∈ x.bodies ↔ ∃ v ∈ x.variants, ∃ n i ic, v.body = .body n b i ic := by
  unfold EnumItem.bodies
  rw [List.mem_filterMap]
  constructor
  · rintro ⟨v, hv, h⟩
    refine ⟨v, hv, ?_⟩
    split at h
    · cases h
    · rename_i n b' i ic e
      cases h
      exact ⟨n, i, ic, e⟩
  · rintro ⟨v, hv, n, i, ic, e⟩
    exact ⟨v, hv, by rw [e]⟩

section
variable {q : Str} {ids : List Str} {data ex : Bool} {k : ItemType} {g : Option Cfg} {x y : Container}

theorem Fresh.map (h : Fresh q ids data k g ex x) (f : Ty → Ty) : Fresh q ids data k g ex (x.mapTys f) := by
  obtain ⟨h1, h2, h3, h4, h5, h6, h7, h8⟩ := h
  cases x with
  | enum x =>
    refine ⟨h1, h2, h3, h4, h5, h6, h7, ?_⟩
    intro b hb
    obtain ⟨v, hv, n, i, ic, e⟩ := mem_bodies.1 hb
    obtain ⟨w, hw, rfl⟩ := List.mem_map.1 hv
    simp only [EnumVariant.mapTys] at e
    cases hwb : w.body with
    | empty a => rw [hwb] at e; cases e
    | body n' b' i' ic' =>
      rw [hwb] at e
      cases e
      exact h8 b' (mem_bodies.2 ⟨w, hw, _, _, _, hwb⟩)
  | struct => exact ⟨h1, h2, h3, h4, h5, h6, h7, h8⟩
  | union => exact ⟨h1, h2, h3, h4, h5, h6, h7, h8⟩
  | «opaque» => exact ⟨h1, h2, h3, h4, h5, h6, h7, h8⟩
  | typedef => exact ⟨h1, h2, h3, h4, h5, h6, h7, h8⟩

theorem Fresh.alike (h : Fresh q ids data k g ex x) (e : x.Alike y) : Fresh q ids data k g ex y := by
  cases e with
  | refl => exact h
  | struct ha =>
    obtain ⟨h1, h2, h3, h4, h5, h6, h7, h8⟩ := h
    exact ⟨h1, h2, h3, h4, by rw [← h5]; exact ha.export, h6, h7, h8⟩

theorem Fresh.specialize (h : Fresh q ids data k g ex x) (c : LibConfig) (vs : List GArg) (m : List (Str × GArg)) :
    Fresh (c.manglePath q vs) (ids.map fun s => c.manglePath s vs) data k g ex (x.specialize c vs m) := by
  obtain ⟨h1, h2, h3, h4, h5, h6, h7, h8⟩ := h
  cases x with
  | enum x =>
    refine ⟨?_, ?_, h3, h4, h5, h6, h7, ?_⟩
    · rw [← h1]; rfl
    · rw [← h1]; rfl
    · intro b hb
      obtain ⟨v, hv, n, i, ic, e⟩ := mem_bodies.1 hb
      obtain ⟨w, hw, rfl⟩ := List.mem_map.1 hv
      simp only [EnumVariant.specialize, EnumVariant.new] at e
      cases hwb : w.body with
      | empty a => rw [hwb] at e; cases e
      | body n' b' i' ic' =>
        rw [hwb] at e
        cases e
        exact ⟨List.mem_map.2 ⟨_, (h8 b' (mem_bodies.2 ⟨w, hw, _, _, _, hwb⟩)).1, rfl⟩, rfl⟩
  | struct => exact ⟨by rw [← h1]; rfl, by rw [← h1]; rfl, h3, h4, h5, h6, h7, nofun⟩
  | union => exact ⟨by rw [← h1]; rfl, by rw [← h1]; rfl, h3, h4, h5, h6, h7, nofun⟩
  | «opaque» => exact ⟨by rw [← h1]; rfl, by rw [← h1]; rfl, h3, h4, h5, h6, h7, nofun⟩
  | typedef => exact ⟨by rw [← h1]; rfl, by rw [← h1]; rfl, h3, h4, h5, h6, h7, nofun⟩

/-! ## Loading -/

theorem manglePath_nil (c : LibConfig) (s : Str) : c.manglePath s [] = s := by
  simp [LibConfig.manglePath, mangleName, GArg.mangleTail]

/-- The structs of the variants of an item. -/
def bodyIds : Taken → List Str
  | .enum s => (s.variants.filter fun v => hasFields v.fields).map fun v => v.ident ++ c!"_Body"
  | _ => []

def dataOfTaken : Taken → Bool
  | .enum s => withData s
  | _ => false

theorem loadedAs_cases {r : LoadM Container} {o : LoadM OpaqueItem} {y : Container} (h : loadedAs r o = some y) :
    r = .ok y ∨ ∃ z, o = .ok z ∧ y = .opaque z := by
  unfold loadedAs at h
  split at h
  · cases h; exact Or.inl rfl
  · split at h
    · cases h; exact Or.inr ⟨_, rfl, rfl⟩
    · cases h
  · cases h

theorem loadOpaque_fresh {p : Str} {gs : List SynGenericParam} {as : List SAttr} {m : Option Cfg} {z : OpaqueItem}
    (h : loadOpaque p gs as m = .ok z) (ids : List Str) (data : Bool) :
    ∃ ex, Fresh p ids data .opaqueItems (Cfg.append m (loadCfg as)) ex (.opaque z) ∧ ∀ a, Annotations.load as = .ok a → a.shouldExport = ex := by
  simp only [loadOpaque, bind, Except.bind] at h
  repeat (split at h; · cases h)
  cases h
  refine ⟨_, ⟨rfl, rfl, rfl, rfl, rfl, nofun, rfl, nofun⟩, ?_⟩
  intro a ha
  show _ = Annotations.shouldExport (match Annotations.load as with
    | .ok a => a
    | .error _ => {})
  rw [ha]

theorem struct_fresh {c : LoadConfig} {m : Option Cfg} {s : SynStruct} {y : Container} (h : s.container c m = some y) :
    ∃ k ex, Fresh (unraw s.ident) [] false k (Cfg.append m (loadCfg s.attrs)) ex y ∧ (k = .structs ∨ k = .opaqueItems) ∧
      ∀ a, Annotations.load s.attrs = .ok a → a.shouldExport = ex := by
  rcases loadedAs_cases h with h | ⟨z, h', rfl⟩
  · obtain ⟨z, hz, rfl⟩ := map_ok h
    simp only [SynStruct.load, bind, Except.bind] at hz
    repeat (split at hz; · cases hz)
    cases hz
    refine ⟨.structs, _, ⟨rfl, rfl, rfl, rfl, rfl, nofun, rfl, nofun⟩, Or.inl rfl, ?_⟩
    intro a ha
    simp_all [StructItem.new, Container.annotations]
  · obtain ⟨ex, h1, h2⟩ := loadOpaque_fresh h' [] false
    exact ⟨_, ex, h1, Or.inr rfl, h2⟩

theorem loadBody_ids {c : LoadConfig} {rule : RenameRule} {t : Bool} {sp id : Str} {ps : List GParam} {a : Annotations} {fs : SynFields}
    {n : Str} {b : StructItem} {i ic : Bool} (h : fs.loadBody c rule t sp id ps a = .ok (.body n b i ic)) :
    hasFields fs = true ∧ b.path = id ++ c!"_Body" ∧ b.exportName = b.path := by
  cases fs with
  | unit => cases h
  | named fs =>
    simp only [SynFields.loadBody, variantBody, bind, Except.bind] at h
    split at h
    · cases h
    · cases h; exact ⟨rfl, rfl, rfl⟩
  | unnamed fs =>
    simp only [SynFields.loadBody, variantBody, bind, Except.bind] at h
    split at h
    · cases h
    · cases h; exact ⟨rfl, rfl, rfl⟩

theorem loadVariant_ids {c : LoadConfig} {t : Bool} {ps : List GParam} {m : Option Cfg} {sp : Str} {ea : Annotations} {v : SynVariant}
    {w : EnumVariant} (h : v.load c t ps m sp ea = .ok w) {n : Str} {b : StructItem} {i ic : Bool} (hb : w.body = .body n b i ic) :
    hasFields v.fields = true ∧ b.path = v.ident ++ c!"_Body" ∧ b.exportName = b.path := by
  simp only [SynVariant.load, bind, Except.bind] at h
  split at h
  · cases h
  split at h
  · cases h
  split at h
  · cases h
  split at h
  · cases h
  · rename_i hl
    cases h
    simp only [EnumVariant.new] at hb
    rw [hb] at hl
    exact loadBody_ids hl

theorem enum_fresh {c : LoadConfig} {m : Option Cfg} {s : SynEnum} {z : EnumItem} (h : s.load c m = .ok z) :
    ∃ ex, Fresh (unraw s.ident) (bodyIds (.enum s)) (withData s) .enums (Cfg.append m (loadCfg s.attrs)) ex (.enum z) ∧
      ∀ a, Annotations.load s.attrs = .ok a → a.shouldExport = ex := by
  simp only [SynEnum.load, bind, Except.bind] at h
  split at h
  · cases h
  split at h
  · cases h
  split at h
  · cases h
  split at h
  · cases h
  rename_i a ha
  split at h
  · cases h
  rename_i vs hvs
  cases h
  have hbody : ∀ w ∈ vs, ∀ n b i ic, w.body = .body n b i ic →
      ∃ v ∈ s.variants, hasFields v.fields = true ∧ b.path = v.ident ++ c!"_Body" ∧ b.exportName = b.path := by
    intro w hw n b i ic hb
    obtain ⟨v, hv, e⟩ := tryMap_mem hvs w hw
    exact ⟨v, hv, loadVariant_ids e hb⟩
  refine ⟨_, ⟨rfl, rfl, rfl, rfl, rfl, ?_, rfl, ?_⟩, ?_⟩
  · intro ht
    simp only [Container.hasTag] at ht
    split at ht
    · rename_i hany
      obtain ⟨w, hw, hne⟩ := List.any_eq_true.1 hany
      cases hwb : w.body with
      | empty a => rw [hwb] at hne; cases hne
      | body n b i ic =>
        obtain ⟨v, hv, hf, _⟩ := hbody w hw n b i ic hwb
        exact List.any_eq_true.2 ⟨v, hv, hf⟩
    · cases ht
  · intro b hb
    obtain ⟨w, hw, n, i, ic, e⟩ := mem_bodies.1 hb
    simp only [List.mem_append] at hw
    rcases hw with (hw | hw) | hw
    · obtain ⟨v, hv, hf, hp, hn⟩ := hbody w hw n b i ic e
      exact ⟨List.mem_map.2 ⟨v, List.mem_filter.2 ⟨hv, hf⟩, hp.symm⟩, hn⟩
    · obtain ⟨t, _, rfl⟩ := List.mem_map.1 hw
      cases e
    · split at hw
      · rw [List.mem_singleton.1 hw] at e
        cases e
      · cases hw
  · intro a' ha'
    rw [ha] at ha'
    cases ha'
    rfl

/-- What is loaded for an item. -/
theorem container_fresh {c : LoadConfig} {t : Taken} {m : Option Cfg} (h : Taken.container c (t, m) = some y) :
    ∃ q k ex, typeName t = some q ∧ Fresh q (bodyIds t) (dataOfTaken t) k (Taken.guard (t, m)) ex y ∧
      (kindOf t = some k ∨ k = .opaqueItems) ∧ ∀ a, Annotations.load (typeAttrs t) = .ok a → a.shouldExport = ex := by
  cases t with
  | struct s =>
    obtain ⟨k, ex, h1, h2, h3⟩ := struct_fresh h
    exact ⟨_, k, ex, rfl, h1, h2.imp (fun e => by rw [e]; rfl) id, h3⟩
  | union s =>
    rcases loadedAs_cases h with h | ⟨z, h', rfl⟩
    · obtain ⟨z, hz, rfl⟩ := map_ok h
      simp only [SynUnion.load, bind, Except.bind] at hz
      repeat (split at hz; · cases hz)
      cases hz
      refine ⟨_, .unions, _, rfl, ⟨rfl, rfl, rfl, rfl, rfl, nofun, rfl, nofun⟩, Or.inl rfl, ?_⟩
      intro a ha
      simp_all [Container.annotations, typeAttrs]
    · obtain ⟨ex, h1, h2⟩ := loadOpaque_fresh h' [] false
      exact ⟨_, _, ex, rfl, h1, Or.inr rfl, h2⟩
  | enum s =>
    rcases loadedAs_cases h with h | ⟨z, h', rfl⟩
    · obtain ⟨z, hz, rfl⟩ := map_ok h
      obtain ⟨ex, h1, h2⟩ := enum_fresh hz
      exact ⟨_, _, ex, rfl, h1, Or.inl rfl, h2⟩
    · obtain ⟨ex, h1, h2⟩ := loadOpaque_fresh h' (bodyIds (.enum s)) (withData s)
      exact ⟨_, _, ex, rfl, h1, Or.inr rfl, h2⟩
  | alias s =>
    rcases loadedAs_cases h with h | ⟨z, h', rfl⟩
    · obtain ⟨z, hz, rfl⟩ := map_ok h
      simp only [SynAlias.load, bind, Except.bind] at hz
      split at hz
      · cases hz
      split at hz
      · cases hz
      split at hz
      · cases hz
      split at hz
      · cases hz
      cases hz
      refine ⟨_, .typedefs, _, rfl, ⟨rfl, rfl, rfl, rfl, rfl, nofun, rfl, nofun⟩, Or.inl rfl, ?_⟩
      intro a ha
      simp_all [Container.annotations, typeAttrs]
    · obtain ⟨ex, h1, h2⟩ := loadOpaque_fresh h' [] false
      exact ⟨_, _, ex, rfl, h1, Or.inr rfl, h2⟩
  | bitflags b =>
    simp only [Taken.container, Option.bind_eq_some_iff] at h
    obtain ⟨s, hs, h⟩ := h
    obtain ⟨k, ex, h1, h2, h3⟩ := struct_fresh h
    have ha : b.struct.getD [] = s.attrs := by
      simp only [SynBitflags.structItem, Option.map_eq_some_iff] at hs
      obtain ⟨w, hw, rfl⟩ := hs
      rw [hw]
      rfl
    refine ⟨_, k, ex, by rw [typeName, hs]; rfl, ?_, h2.imp (fun e => by rw [e]; rfl) id, ?_⟩
    · rw [show Taken.guard (.bitflags b, m) = Cfg.append m (loadCfg s.attrs) by rw [Taken.guard, show Taken.attrs (.bitflags b) = s.attrs from ha]]
      exact h1
    · rw [typeAttrs, ha]
      exact h3
  | fn => cases h
  | const => cases h
  | static => cases h
  | assoc => cases h

/-! ## Changing names -/

/-- A definition with the names of the header. -/
structure Renamed (c : LibConfig) (q : Str) (ids : List Str) (data : Bool) (k : ItemType) (g : Option Cfg) (ex : Bool) (z : Container) :
    Prop where
  path : z.path = q
  name : z.exportName = c.ren q
  type : z.type = k
  cfg : z.cfg = g
  exported : z.annotations.shouldExport = ex
  tag : ∀ e, z = .enum e → e.tag = none ∨ (data = true ∧ (c.language ≠ .cxx → e.tag = some (c.ren q ++ c!"_Tag")))
  bodies : c.language ≠ .cxx → ∀ b ∈ z.bodies, ∃ id ∈ ids, ∃ lead, (lead = [] ∨ lead = c.ren q ++ c.variantSep) ∧
    b.exportName = lead ++ c.ren id

theorem setTag_body {t : Str} {v w : EnumVariant} (h : v.setTag t = some w) {n : Str} {b : StructItem} {i ic : Bool}
    (hb : w.body = .body n b i ic) : ∃ b', v.body = .body n b' i ic ∧ b.exportName = b'.exportName := by
  unfold EnumVariant.setTag at h
  split at h
  · rename_i e
    cases h
    rw [e] at hb
    cases hb
  · rename_i e
    simp only [Option.map_eq_some_iff] at h
    obtain ⟨fs, _, rfl⟩ := h
    cases hb
    exact ⟨_, e, rfl⟩

theorem mapM_mem {α β : Type} {f : α → Option β} {xs : List α} {ys : List β} (h : xs.mapM f = some ys) {y : β} (hy : y ∈ ys) :
    ∃ x ∈ xs, f x = some y := by
  have := pairs_mapM h
  clear h
  induction this with
  | nil => cases hy
  | cons h1 _ ih =>
    rcases List.mem_cons.1 hy with rfl | hy
    · exact ⟨_, by simp, h1⟩
    · obtain ⟨x, hx, e⟩ := ih hy
      exact ⟨x, by simp [hx], e⟩

theorem renameTag_body {c : LibConfig} {x y : EnumItem} (h : x.renameTag c = some y) :
    y.path = x.path ∧ y.exportName = x.exportName ∧ y.cfg = x.cfg ∧ y.annotations = x.annotations ∧ y.tag.isSome = x.tag.isSome ∧
      (c.language ≠ .cxx → x.tag.isSome = true → y.tag = some (x.exportName ++ c!"_Tag")) ∧
      ∀ w ∈ y.variants, ∀ n b i ic, w.body = .body n b i ic → ∃ v ∈ x.variants, ∃ b', v.body = .body n b' i ic ∧ b.exportName = b'.exportName := by
  unfold EnumItem.renameTag at h
  split at h
  · rename_i hc
    simp only at h
    split at h
    · simp only [Option.map_eq_some_iff] at h
      obtain ⟨vs, hvs, rfl⟩ := h
      refine ⟨rfl, rfl, rfl, rfl, by rw [hc.2]; rfl, fun _ _ => rfl, ?_⟩
      intro w hw n b i ic hb
      obtain ⟨v, hv, e⟩ := mapM_mem hvs hw
      obtain ⟨b', h1, h2⟩ := setTag_body e hb
      exact ⟨v, hv, b', h1, h2⟩
    · cases h
      exact ⟨rfl, rfl, rfl, rfl, by rw [hc.2]; rfl, fun _ _ => rfl, fun w hw n b i ic hb => ⟨w, hw, b, hb, rfl⟩⟩
  · rename_i hc
    cases h
    exact ⟨rfl, rfl, rfl, rfl, rfl, fun h1 h2 => absurd ⟨h1, h2⟩ hc, fun w hw n b i ic hb => ⟨w, hw, b, hb, rfl⟩⟩

theorem struct_rename_name {c : LibConfig} {x y : StructItem} (h : x.renameFor c = some y) (hc : c.language ≠ .cxx ∨ x.hasTagField = false) :
    y.exportName = c.ren x.exportName ∧ y.annotations = x.annotations := by
  unfold StructItem.renameFor at h
  simp only [Option.map_eq_some_iff] at h
  obtain ⟨r, _, rfl⟩ := h
  refine ⟨?_, rfl⟩
  show (if _ then _ else _) = _
  rw [if_neg]
  rintro ⟨h1, h2⟩
  rcases hc with hc | hc
  · exact hc h2
  · rw [hc] at h1; cases h1

theorem renameBody_body {c : LibConfig} (hc : c.language ≠ .cxx) {v w : EnumVariant} (h : v.renameBody c = some w) {n : Str} {b : StructItem}
    {i ic : Bool} (hb : w.body = .body n b i ic) : ∃ n' b', v.body = .body n' b' i ic ∧ b.exportName = c.ren b'.exportName := by
  unfold EnumVariant.renameBody at h
  split at h
  · cases h; cases hb
  · rename_i e
    simp only [Option.map_eq_some_iff] at h
    obtain ⟨b', hb', rfl⟩ := h
    cases hb
    exact ⟨_, _, e, (struct_rename_name hb' (Or.inl hc)).1⟩

theorem prefixName_body {p : Str} {v : EnumVariant} {n : Str} {b : StructItem} {i ic : Bool} (hb : (v.prefixName p).body = .body n b i ic) :
    ∃ b', v.body = .body n b' i ic ∧ b.exportName = p ++ b'.exportName := by
  unfold EnumVariant.prefixName at hb
  simp only at hb
  split at hb
  · cases hb
  · rename_i e
    cases hb
    exact ⟨_, e, rfl⟩

theorem applyRule_body {f : CaseFns} {en : Str} {r : RenameRule} {v : EnumVariant} {n : Str} {b : StructItem} {i ic : Bool}
    (hb : (v.applyRule f en r).body = .body n b i ic) : ∃ n', v.body = .body n' b i ic := by
  unfold EnumVariant.applyRule EnumVariant.new at hb
  simp only at hb
  split at hb
  · cases hb
  · rename_i e
    cases hb
    exact ⟨_, e⟩

theorem Fresh.rename_enum {x : EnumItem} (h : Fresh q ids data k g ex (.enum x)) {c : LibConfig} {z : Container}
    (hz : (Container.enum x).renameFor c = some z) : Renamed c q ids data k g ex z := by
  obtain ⟨h1, h2, h3, h4, h5, h6, h7, h8⟩ := h
  have k1 := (Container.renameFor_keeps hz).1
  have k2 := (Container.renameFor_keeps hz).2
  have k3 := Container.renameFor_cfg hz
  simp only [Container.renameFor, Option.map_eq_some_iff] at hz
  obtain ⟨y, hy, rfl⟩ := hz
  unfold EnumItem.renameFor at hy
  simp only [Option.bind_eq_bind, Option.bind_eq_some_iff, Option.pure_def, Option.some.injEq] at hy
  obtain ⟨y₁, e1, vs, e2, rule, e3, rfl⟩ := hy
  obtain ⟨j1, j2, j3, j4, j5, j6, j7⟩ := renameTag_body e1
  have hname : y₁.exportName = c.ren q := by rw [j2, ← h2]; rfl
  refine ⟨k1.trans h1, hname, k2.trans h3, k3.trans h4, ?_, ?_, ?_⟩
  · rw [← h5]; exact congrArg _ j4
  · intro e he
    cases he
    have hy₁ : y₁.tag.isSome = x.tag.isSome := j5
    cases ht : x.tag.isSome with
    | false =>
      left
      rw [ht] at hy₁
      simpa using hy₁
    | true =>
      right
      refine ⟨h6 ht, fun hc => ?_⟩
      show y₁.tag = _
      rw [j6 hc ht, ← h2]
      rfl
  · intro hc b hb
    obtain ⟨w, hw, n, i, ic, e⟩ := mem_bodies.1 hb
    have base : ∀ w ∈ vs, ∀ n b i ic, w.body = .body n b i ic → ∃ id ∈ ids, b.exportName = c.ren id := by
      intro w hw n b i ic e
      obtain ⟨v, hv, e'⟩ := mapM_mem e2 hw
      obtain ⟨n', b', e4, e5⟩ := renameBody_body hc e' e
      obtain ⟨u, hu, b'', e6, e7⟩ := j7 v hv n' b' i ic e4
      obtain ⟨g1, g2⟩ := h8 b'' (mem_bodies.2 ⟨u, hu, _, _, _, e6⟩)
      exact ⟨_, g1, by rw [e5, e7, g2]⟩
    have lead : ∀ w ∈ (if (y₁.annotations.bool c!"prefix-with-name").getD c.prefixWithName then
        vs.map (EnumVariant.prefixName (y₁.exportName ++ c.variantSep)) else vs), ∀ n b i ic, w.body = .body n b i ic →
        ∃ id ∈ ids, ∃ lead, (lead = [] ∨ lead = c.ren q ++ c.variantSep) ∧ b.exportName = lead ++ c.ren id := by
      intro w hw n b i ic e
      split at hw
      · obtain ⟨v, hv, rfl⟩ := List.mem_map.1 hw
        obtain ⟨b', e4, e5⟩ := prefixName_body e
        obtain ⟨id, g1, g2⟩ := base v hv _ _ _ _ e4
        exact ⟨id, g1, _, Or.inr rfl, by rw [e5, g2, hname]⟩
      · obtain ⟨id, g1, g2⟩ := base w hw _ _ _ _ e
        exact ⟨id, g1, [], Or.inl rfl, g2⟩
    simp only at hw
    split at hw
    · obtain ⟨v, hv, rfl⟩ := List.mem_map.1 hw
      obtain ⟨n', e4⟩ := applyRule_body e
      exact lead v hv _ _ _ _ e4
    · exact lead w hw _ _ _ _ e

theorem Fresh.rename (h : Fresh q ids data k g ex x) {c : LibConfig} {z : Container} (hz : x.renameFor c = some z) :
    Renamed c q ids data k g ex z := by
  obtain ⟨h1, h2, h3, h4, h5, h6, h7, h8⟩ := h
  have k1 := (Container.renameFor_keeps hz).1
  have k2 := (Container.renameFor_keeps hz).2
  have k3 := Container.renameFor_cfg hz
  cases x with
  | struct x =>
    simp only [Container.renameFor, Option.map_eq_some_iff] at hz
    obtain ⟨y, hy, rfl⟩ := hz
    obtain ⟨j1, j2⟩ := struct_rename_name hy (Or.inr h7)
    exact ⟨k1.trans h1, by rw [← h2]; exact j1, k2.trans h3, k3.trans h4, by rw [← h5]; exact congrArg _ j2, (fun _ h => by cases h), (fun _ _ h => absurd h List.not_mem_nil)⟩
  | union x =>
    simp only [Container.renameFor, UnionItem.renameFor, Option.map_eq_some_iff] at hz
    obtain ⟨y, ⟨r, _, rfl⟩, rfl⟩ := hz
    exact ⟨k1.trans h1, by rw [← h2]; rfl, k2.trans h3, k3.trans h4, h5, (fun _ h => by cases h), (fun _ _ h => absurd h List.not_mem_nil)⟩
  | «opaque» x =>
    simp only [Container.renameFor, Option.some.injEq] at hz
    cases hz
    exact ⟨k1.trans h1, by rw [← h2]; rfl, k2.trans h3, k3.trans h4, h5, (fun _ h => by cases h), (fun _ _ h => absurd h List.not_mem_nil)⟩
  | typedef x =>
    simp only [Container.renameFor, Option.some.injEq] at hz
    subst hz
    have e1 : (x.renameFor c).exportName = c.ren x.exportName := rfl
    have e2 : (x.renameFor c).annotations = x.annotations := rfl
    generalize x.renameFor c = y at *
    exact ⟨k1.trans h1, by rw [← h2]; exact e1, k2.trans h3, k3.trans h4, by rw [← h5]; exact congrArg _ e2, (fun _ h => by cases h), (fun _ _ h => absurd h List.not_mem_nil)⟩
  | enum x => exact Fresh.rename_enum ⟨h1, h2, h3, h4, h5, h6, h7, h8⟩ hz

/-! ## Instances -/

theorem start_ne {l : Library} : ∀ u ∈ l.monoUses, u.2.2.1 ≠ [] := by
  intro u hu
  simp only [Library.monoUses, List.mem_append, List.mem_flatMap] at hu
  rcases hu with (((⟨x, _, hu⟩ | ⟨x, _, hu⟩) | ⟨x, _, hu⟩) | ⟨x, _, hu⟩) | ⟨x, _, hu⟩
  · exact monoUses_ne (x := .struct x) hu
  · exact monoUses_ne (x := .union x) hu
  · exact monoUses_ne (x := .enum x) hu
  · exact monoUses_ne (x := .typedef x) hu
  · simp only [FuncItem.monoUses, List.mem_append, List.mem_flatMap] at hu
    rcases hu with hu | ⟨a, _, hu⟩ <;> exact genericUses_ne hu

/-- Instances are instances of definitions, or of the structs of their variants. -/
theorem monos_from {c : LibConfig} {l : Library} {n : Nat} {m : Monos}
    (hm : followAll (follow c (l.getItems c) n) l.monoUses {} = .ok m) :
    ∀ y ∈ m.all, ∃ x ∈ l.types, ∃ z ∈ x.parts, ∃ vs σ, vs ≠ [] ∧ y = z.specialize c vs σ := by
  refine followAll_ind (I := fun m => ∀ y ∈ m.all, ∃ x ∈ l.types, ∃ z ∈ x.parts, ∃ vs σ, vs ≠ [] ∧ y = z.specialize c vs σ)
    (V := fun u => u.2.2.1 ≠ []) (H := fun z => ∃ x ∈ l.types, z ∈ x.parts) ?_ ?_ ?_ ?_ ?_ ?_ hm
  · exact fun p items hp x hx z hz => ⟨x, Library.types_of_getItems hp hx, hz⟩
  · exact fun x u m _ _ _ w hw => monoUses_ne hw
  · exact fun x u m st _ _ _ hi => hi
  · intro z u m st hz hu hm hi y hy
    rcases Monos.mem_push.1 hy with hy | rfl
    · exact hi y hy
    · obtain ⟨x, hx, hz⟩ := hz
      exact ⟨x, hx, z, hz, u.2.2.1, m, hu, rfl⟩
  · exact start_ne
  · intro y hy
    simp [Monos.all] at hy

theorem Library.generated_of_getItems {c : LibConfig} {l : Library} {p : Str} {items : List Container}
    (h : l.getItems c p = some items) {x : Container} (hx : x ∈ items) : c.export_.shouldGenerate x.type = true := by
  rcases Library.getItems_cases h with ⟨hg, xs, _, rfl⟩ | ⟨hg, xs, _, rfl⟩ | ⟨hg, xs, _, rfl⟩ |
    ⟨hg, xs, _, rfl⟩ | ⟨hg, xs, _, rfl⟩ <;> obtain ⟨y, hy, rfl⟩ := List.mem_map.1 hx <;> exact hg

end

end Cbindgen
