import Verif.Spec.OnlyEnumerators
import Verif.Lemmas.OnlyConsts
import Verif.Props.SourceEnums

/-!
# Where the variants of enums come from (C85)
-/

namespace Cbindgen
open ItemMap
open SrcSpec hiding Reaches Given Plain Declares

/-- A variant that was loaded, by its name and condition. -/
inductive VariantOf (lc : LoadConfig) (s : SynEnum) (a : Annotations) (m : Option Cfg) : Str → Option Cfg → Prop
  | variant {v : SynVariant} : v ∈ s.variants → VariantOf lc s a m (unraw v.ident) (Cfg.append m (loadCfg v.attrs))
  | more {n} : n ∈ moreNames lc a → VariantOf lc s a m n none

/-- An enum comes from the sources. -/
structure EnumFrom (G : SynEnum → Option Cfg → Prop) (c : LibConfig) (s : SynEnum) (m : Option Cfg) (vs : List GArg) (x : EnumItem) :
    Prop where
  given : G s m
  annotations : Annotations.load s.attrs = .ok x.annotations
  path : x.path = c.manglePath (unraw s.ident) vs
  cfg : x.cfg = Cfg.append m (loadCfg s.attrs)

/-- The variants of an enum before renaming. -/
def variantsBefore (G : SynEnum → Option Cfg → Prop) (lc : LoadConfig) (c : LibConfig) : ItemPred where
  const _ := True
  static _ := True
  enum x := x.exportName = x.path ∧ ∃ s m vs, EnumFrom G c s m vs x ∧ (x.genericParams ≠ [] → vs = []) ∧ ∀ v ∈ x.variants, v.exportName = v.name ∧
    ∃ q, VariantOf lc s x.annotations m q v.cfg ∧ v.name = c.manglePath q vs
  struct _ := True
  union _ := True
  «opaque» _ := True
  typedef _ := True
  func _ := True

/-- The variants of an enum after renaming. -/
def variantsAfter (G : SynEnum → Option Cfg → Prop) (lc : LoadConfig) (c : LibConfig) : ItemPred where
  const _ := True
  static _ := True
  enum x := ∃ s m vs rule, EnumFrom G c s m vs x ∧ x.annotations.ruleOr c.renameVariants = some rule ∧ ∀ v ∈ x.variants,
    ∃ q, VariantOf lc s x.annotations m q v.cfg ∧ v.exportName = enumeratorName c x.annotations rule x.path (c.manglePath q vs)
  struct _ := True
  union _ := True
  «opaque» _ := True
  typedef _ := True
  func _ := True

section
variable {G : SynEnum → Option Cfg → Prop} {lc : LoadConfig} {c : LibConfig} {l l' : Library}

theorem enum_load_variants {s : SynEnum} {m : Option Cfg} {x : EnumItem} (hG : G s m) (h : s.load lc m = .ok x) :
    (variantsBefore G lc c).enum x := by
  simp only [SynEnum.load, bind, Except.bind] at h
  split at h
  · cases h
  split at h
  · cases h
  split at h
  · cases h
  split at h
  · cases h
  rename_i a ha
  split at h
  · cases h
  rename_i vs hvs
  cases h
  refine ⟨rfl, s, m, [], ⟨hG, ha, (manglePath_nil _ _).symm, rfl⟩, fun _ => rfl, fun w hw => ?_⟩
  simp only [manglePath_nil]
  simp only [List.mem_append] at hw
  rcases hw with (hw | hw) | hw
  · obtain ⟨v, hv, h⟩ := tryMap_mem hvs w hw
    simp only [SynVariant.load, bind, Except.bind] at h
    split at h
    · cases h
    split at h
    · cases h
    split at h
    · cases h
    split at h
    · cases h
    cases h
    exact ⟨rfl, _, .variant hv, rfl⟩
  · obtain ⟨t, ht, rfl⟩ := List.mem_map.1 hw
    exact ⟨rfl, t, .more (List.mem_append.2 (Or.inl ht)), rfl⟩
  · split at hw
    · rename_i hs
      rw [List.mem_singleton.1 hw]
      refine ⟨rfl, _, .more (List.mem_append.2 (Or.inr ?_)), rfl⟩
      unfold LoadConfig.sentinel at hs
      rw [if_pos hs]
      exact List.mem_singleton.2 rfl
    · cases hw

theorem variants_addOpaque {i : Str} {gs : List SynGenericParam} {as : List SAttr} {m : Option Cfg}
    (hl : l.Every (variantsBefore G lc c)) (h : l.addOpaque i gs as m = some l') : l'.Every (variantsBefore G lc c) := by
  unfold Library.addOpaque at h
  split at h
  · cases h
    exact { hl with opaqueItems := fun _ _ => trivial }
  · cases h

theorem variants_loadStruct {s : SynStruct} {m : Option Cfg} (hl : l.Every (variantsBefore G lc c)) (h : l.loadStruct lc m s = some l') :
    l'.Every (variantsBefore G lc c) := by
  unfold Library.loadStruct at h
  split at h
  · cases h
    exact { hl with structs := fun _ _ => trivial }
  · exact variants_addOpaque hl h
  · cases h

theorem variants_loadAssoc {p : Str} {s : SynConst} {m : Option Cfg}
    (hl : l.Every (variantsBefore G lc c)) (h : l.loadAssocConst lc m p s = some l') : l'.Every (variantsBefore G lc c) := by
  unfold Library.loadAssocConst at h
  split at h
  · split at h
    · cases h
      exact { hl with constants := fun _ _ => trivial }
    · cases h
      exact { hl with structs := fun _ _ => trivial }
  · cases h; exact hl
  · cases h

theorem variants_loadAssocs {p : Str} {m : Option Cfg} : ∀ {ks : List SynConst} {l l' : Library},
    l.Every (variantsBefore G lc c) → loadAll (fun l k => l.loadAssocConst lc m p k) l ks = some l' → l'.Every (variantsBefore G lc c)
  | [], l, l', hl, h => by cases h; exact hl
  | s :: ks, l, l', hl, h => by
    simp only [loadAll] at h
    split at h
    · rename_i l₁ h1
      exact variants_loadAssocs (variants_loadAssoc hl h1) h
    · cases h

theorem variants_loadOne {x : Taken × Option Cfg} (hG : ∀ s, x.1 = .enum s → G s x.2)
    (hl : l.Every (variantsBefore G lc c)) (h : Taken.load lc l x = some l') : l'.Every (variantsBefore G lc c) := by
  obtain ⟨t, m⟩ := x
  cases t with
  | fn path owner ext f =>
    simp only [Taken.load, Library.loadFn] at h
    split at h
    · cases h; exact { hl with functions := fun _ _ => trivial }
    · cases h; exact hl
    · cases h
  | const k =>
    simp only [Taken.load, Library.loadConst] at h
    split at h
    · cases h; exact { hl with constants := fun _ _ => trivial }
    · cases h; exact hl
    · cases h
  | static p s =>
    simp only [Taken.load, Library.loadStatic] at h
    split at h
    · cases h; exact { hl with globals := fun _ _ => trivial }
    · cases h; exact hl
    · cases h
  | struct s => exact variants_loadStruct hl h
  | union s =>
    simp only [Taken.load, Library.loadUnion] at h
    split at h
    · cases h; exact { hl with unions := fun _ _ => trivial }
    · exact variants_addOpaque hl h
    · cases h
  | enum s =>
    simp only [Taken.load, Library.loadEnum] at h
    split at h
    · rename_i x hx
      cases h
      exact { hl with enums := every_tryInsert (P := (variantsBefore G lc c).enum) (enum_load_variants (hG s rfl) hx) _ hl.enums }
    · exact variants_addOpaque hl h
    · cases h
  | alias s =>
    simp only [Taken.load, Library.loadAlias] at h
    split at h
    · cases h; exact { hl with typedefs := fun _ _ => trivial }
    · exact variants_addOpaque hl h
    · cases h
  | bitflags b =>
    simp only [Taken.load, Library.loadBitflags] at h
    split at h
    · cases h
    rename_i l₁ h1
    have h2 : l₁.Every (variantsBefore G lc c) := by
      cases hs : b.structItem with
      | none => rw [hs] at h1; cases h1; exact hl
      | some s =>
        rw [hs] at h1
        exact variants_loadStruct hl h1
    have h3 : (l₁.markFlags (unraw b.name)).Every (variantsBefore G lc c) := { h2 with structs := fun _ _ => trivial }
    unfold Library.loadAssocs at h
    split at h
    · cases h; exact h3
    · exact variants_loadAssocs h3 h
  | assoc r k => exact variants_loadAssoc hl h

theorem variants_loadTaken : ∀ {ts : List (Taken × Option Cfg)} {l l' : Library}, (∀ t ∈ ts, ∀ s, t.1 = .enum s → G s t.2) →
    l.Every (variantsBefore G lc c) → loadTaken lc l ts = some l' → l'.Every (variantsBefore G lc c)
  | [], l, l', _, hl, h => by cases h; exact hl
  | t :: ts, l, l', hG, hl, h => by
    simp only [loadTaken, loadAll] at h
    split at h
    · rename_i l₁ h1
      exact variants_loadTaken (fun t ht => hG t (by simp [ht])) (variants_loadOne (hG t (by simp)) hl h1) h
    · cases h

end

/-- An enum of the sources, in a module with a condition. -/
def EnumGiven (pc : ParseConfig) (i : Inputs) (s : SynEnum) (m : Option Cfg) : Prop :=
  ∃ cs, SrcSpec.Given pc i (.enum s) cs ∧ ParserSpec.GuardIs (Cfg.append m (loadCfg s.attrs)) cs

/-- The variants of the enums are those of the sources. -/
theorem variants_sound {pc : ParseConfig} {lc : LoadConfig} {fuel : Nat} {i : Inputs} {l : Library} (c : LibConfig)
    (h : buildLibrary pc lc fuel i = .ok l) (hp : SrcSpec.InputsPlain i) : l.Every (variantsBefore (EnumGiven pc i) lc c) := by
  obtain ⟨rs, rfl, hr⟩ := build_runs h
  refine every_extendAll ?_ fun r hr1 => ?_
  · cases i.stdTypes with
    | false => exact every_nil
    | true => exact { every_nil with opaqueItems := fun _ _ => trivial }
  · refine variants_loadTaken (fun ⟨t, m⟩ ht s hs => ?_) every_nil (hr.loaded r hr1)
    obtain ⟨cs, h2, h3⟩ := hr.sound hp hr1 ht
    cases hs
    exact ⟨cs, h2, h3⟩

/-! ## The library stage -/

section
variable {G : SynEnum → Option Cfg → Prop} {lc : LoadConfig} {c : LibConfig}

theorem variantsBefore_mapTys (g : Ty → Ty) : (variantsBefore G lc c).MapTys (variantsBefore G lc c) g where
  const _ h := h
  static _ h := h
  enum x h := by
    obtain ⟨h1, s, m, vs, h2, h0, h3⟩ := h
    refine ⟨h1, s, m, vs, ⟨h2.given, h2.annotations, h2.path, h2.cfg⟩, h0, fun v hv => ?_⟩
    obtain ⟨w, hw, rfl⟩ := List.mem_map.1 hv
    exact h3 w hw
  struct _ h := h
  union _ h := h
  «opaque» _ h := h
  typedef _ h := h
  func _ h := h

theorem variantsBefore_mono : (variantsBefore G lc c).Mono c fun _ => True where
  parts x hx y hy := by
    cases x with
    | enum x =>
      simp only [Container.parts, List.mem_append, List.mem_map, List.mem_singleton] at hy
      rcases hy with ⟨b, hb, rfl⟩ | rfl
      · trivial
      · exact hx
    | struct x => simp only [Container.parts, List.mem_singleton] at hy; subst hy; exact hx
    | union x => simp only [Container.parts, List.mem_singleton] at hy; subst hy; exact hx
    | «opaque» x => simp only [Container.parts, List.mem_singleton] at hy; subst hy; exact hx
    | typedef x => simp only [Container.parts, List.mem_singleton] at hy; subst hy; exact hx
  uses _ _ _ _ := trivial
  funcUses _ _ _ _ := trivial
  spec x u t hx _ ht := by
    cases x with
    | enum x =>
      obtain ⟨h1, s, m, vs, h2, h0, h3⟩ := hx
      have hv : ∃ vs', ∀ n, c.manglePath (c.manglePath n vs) u.2.2.1 = c.manglePath n vs' := by
        by_cases hp : x.genericParams = []
        · have : u.2.2.1 = [] := by
            simp only [Container.call, callParams, hp] at ht
            split at ht
            · cases ht
            · rename_i hl
              simpa using hl
          exact ⟨vs, fun n => by rw [this, manglePath_nil]⟩
        · exact ⟨u.2.2.1, fun n => by rw [h0 hp, manglePath_nil]⟩
      obtain ⟨vs', hv⟩ := hv
      refine ⟨rfl, s, m, vs', ⟨h2.given, h2.annotations, ?_, h2.cfg⟩, fun h => absurd rfl h, fun v hv' => ?_⟩
      · show c.manglePath x.path _ = _
        rw [h2.path, hv]
      · obtain ⟨w, hw, rfl⟩ := List.mem_map.1 hv'
        obtain ⟨_, q, h4, h5⟩ := h3 w hw
        refine ⟨rfl, q, h4, ?_⟩
        show c.manglePath w.name _ = _
        rw [h5, hv]
    | struct x => trivial
    | union x => trivial
    | «opaque» x => trivial
    | typedef x => trivial

theorem renameTag_variants {x y : EnumItem} (h : x.renameTag c = some y) :
    y.path = x.path ∧ y.exportName = x.exportName ∧ y.annotations = x.annotations ∧ y.cfg = x.cfg ∧
      ∀ w ∈ y.variants, ∃ v ∈ x.variants, w.exportName = v.exportName ∧ w.cfg = v.cfg := by
  unfold EnumItem.renameTag at h
  split at h
  · simp only at h
    split at h
    · simp only [Option.map_eq_some_iff] at h
      obtain ⟨ws, hws, rfl⟩ := h
      refine ⟨rfl, rfl, rfl, rfl, fun w hw => ?_⟩
      obtain ⟨v, hv, e⟩ := mapM_mem hws hw
      refine ⟨v, hv, ?_⟩
      unfold EnumVariant.setTag at e
      split at e
      · cases e; exact ⟨rfl, rfl⟩
      · simp only [Option.map_eq_some_iff] at e
        obtain ⟨fs, _, rfl⟩ := e
        exact ⟨rfl, rfl⟩
    · cases h
      exact ⟨rfl, rfl, rfl, rfl, fun w hw => ⟨w, hw, rfl, rfl⟩⟩
  · cases h
    exact ⟨rfl, rfl, rfl, rfl, fun w hw => ⟨w, hw, rfl, rfl⟩⟩

theorem renameBody_variant {v w : EnumVariant} (h : v.renameBody c = some w) : w.exportName = escape v.exportName ∧ w.cfg = v.cfg := by
  unfold EnumVariant.renameBody at h
  split at h
  · cases h; exact ⟨rfl, rfl⟩
  · simp only [Option.map_eq_some_iff] at h
    obtain ⟨b, _, rfl⟩ := h
    exact ⟨rfl, rfl⟩

theorem variantsBefore_renames : (variantsBefore G lc c).Renames (variantsAfter G lc c) c where
  const _ h := h
  static _ h := h
  enum x y h hy := by
    obtain ⟨h1, s, m, as, h2, _, h3⟩ := h
    unfold EnumItem.renameFor at hy
    simp only [Option.bind_eq_bind, Option.bind_eq_some_iff, Option.pure_def, Option.some.injEq] at hy
    obtain ⟨y₁, e1, vs, e2, rule, e3, rfl⟩ := hy
    obtain ⟨t1, t2, t3, t4, t5⟩ := renameTag_variants e1
    simp only at t1 t2 t3 t4 t5
    refine ⟨s, m, as, rule, ⟨h2.given, ?_, ?_, ?_⟩, e3, ?_⟩
    · exact t3 ▸ h2.annotations
    · exact t1 ▸ h2.path
    · exact t4 ▸ h2.cfg
    have base : ∀ w ∈ vs, ∃ q, VariantOf lc s y₁.annotations m q w.cfg ∧ w.exportName = escape (c.manglePath q as) := by
      intro w hw
      obtain ⟨v, hv, e⟩ := mapM_mem e2 hw
      obtain ⟨u, hu, g1, g2⟩ := t5 v hv
      obtain ⟨g3, g4⟩ := renameBody_variant e
      obtain ⟨g5, q, g6, g7⟩ := h3 u hu
      exact ⟨q, by rw [g4, g2, t3]; exact g6, by rw [g3, g1, g5, g7]⟩
    have hn : y₁.exportName = c.ren y₁.path := by rw [t2, t1, h1]
    have lead : ∀ w ∈ (if (y₁.annotations.bool c!"prefix-with-name").getD c.prefixWithName then
        vs.map (EnumVariant.prefixName (y₁.exportName ++ c.variantSep)) else vs),
        ∃ q, VariantOf lc s y₁.annotations m q w.cfg ∧
          w.exportName = (enumLead c y₁.annotations y₁.path).getD [] ++ escape (c.manglePath q as) := by
      intro w hw
      unfold enumLead
      split at hw
      · rename_i hp
        obtain ⟨v, hv, rfl⟩ := List.mem_map.1 hw
        obtain ⟨q, g1, g2⟩ := base v hv
        refine ⟨q, g1, ?_⟩
        rw [if_pos hp, ← hn]
        show _ ++ v.exportName = _
        rw [g2]
        rfl
      · rename_i hp
        obtain ⟨q, g1, g2⟩ := base w hw
        refine ⟨q, g1, ?_⟩
        rw [if_neg hp, g2]
        rfl
    intro w hw
    unfold enumeratorName variantName
    simp only at hw ⊢
    split at hw
    · rename_i r hr
      obtain ⟨v, hv, rfl⟩ := List.mem_map.1 hw
      obtain ⟨q, g1, g2⟩ := lead v hv
      refine ⟨q, g1, ?_⟩
      rw [hr, ← g2, ← hn]
      rfl
    · rename_i hr
      obtain ⟨q, g1, g2⟩ := lead w hw
      refine ⟨q, g1, ?_⟩
      rw [hr]
      exact g2
  struct _ _ _ _ := trivial
  union _ _ _ _ := trivial
  «opaque» _ h := h
  typedef _ h := h
  func _ _ _ _ := trivial

/-- The variants of the enums of the bindings. -/
theorem variants_final {order : List (Str × Annotations) → List (Str × Annotations)} {fuel : Nat}
    {l : Library} {b : Bindings} (h : l.Every (variantsBefore G lc c)) (ht : l.transferAnnotations order = l)
    (hg : l.generate c order fuel = .ok b) : b.Every (variantsAfter G lc c) := by
  obtain ⟨l', hl', _⟩ := Library.generate_ok hg
  obtain ⟨l₁, h1, h2⟩ := Library.prepare_ok hl'
  rw [ht] at h1
  have h3 : l₁.Every (variantsBefore G lc c) := Library.Every.expand (fun _ => variantsBefore_mono) (fun _ f => variantsBefore_mapTys _)
    (h.simplify (variantsBefore_mapTys _)).sortFunctions h1
  refine Library.Every.collected ?_ hl' hg
  unfold Library.finish at h2
  refine Library.Every.renameItems variantsBefore_renames ?_ h2
  split
  · by_cases hg : c.generateTag = true
    · exact h3.removeExcluded.resolveDeclTypes hg (variantsBefore_mapTys _)
    · unfold Library.resolveDeclTypes
      rw [if_neg hg]
      exact h3.removeExcluded
  · exact h3.removeExcluded

end

end Cbindgen
