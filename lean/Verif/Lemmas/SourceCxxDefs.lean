import Verif.Lemmas.SourceCxxEnums

/-!
# The definitions of source files in the bindings for C++ (C76, C77)
-/

namespace Cbindgen
open CSpec HeadSpec LexSpec ItemMap
open SrcSpec hiding Reaches Given Plain

/-! ## Definitions -/

theorem struct_load_params {lc : LoadConfig} {s : SynStruct} {style : ReprStyle} {al : Option ReprAlign} {a : Annotations}
    {fields : List Field} {vs : List GParam} (hg : loadParams s.generics = .ok vs) (hl : LayoutIs lc s.attrs style al)
    (hs : style = .c ∨ style = .transparent)
    (ha : Annotations.load s.attrs = .ok a) (hf : s.fields.load (unraw s.ident) = .ok fields) (m : Option Cfg) :
    s.load lc m = .ok (StructItem.new (unraw s.ident) vs fields false false al (decide (style = .transparent))
      (Cfg.append m (loadCfg s.attrs)) a (loadDoc s.attrs)) := by
  obtain ⟨⟨r, h1, h2, rfl⟩, h3⟩ := hl
  have h4 : structStyle r.style = .ok (decide (style = .transparent)) := by
    rw [h2]
    rcases hs with rfl | rfl <;> rfl
  simp only [SynStruct.load, h1, h4, h3, hf, hg, ha, bind, Except.bind]

theorem union_load_params {lc : LoadConfig} {s : SynUnion} {al : Option ReprAlign} {a : Annotations}
    {fields : List Field} {vs : List GParam} (hg : loadParams s.generics = .ok vs) (hl : LayoutIs lc s.attrs .c al)
    (ha : Annotations.load s.attrs = .ok a) (hf : trySkipMap (SynField.load (unraw s.ident)) s.fields = .ok fields) (m : Option Cfg) :
    s.load lc m = .ok { path := unraw s.ident, exportName := unraw s.ident, genericParams := vs, fields,
                        tupleUnion := false, alignment := al, cfg := Cfg.append m (loadCfg s.attrs),
                        annotations := a, doc := loadDoc s.attrs } := by
  obtain ⟨⟨r, h1, h2, rfl⟩, h3⟩ := hl
  have h4 : unionStyle r.style = .ok () := by rw [h2]; rfl
  simp only [SynUnion.load, h1, h4, h3, hf, hg, ha, bind, Except.bind]

theorem alias_load_params {s : SynAlias} {a : Annotations} {ty : Ty} {vs : List GParam} (hg : loadParams s.generics = .ok vs)
    (ha : Annotations.load s.attrs = .ok a) (ht : s.ty.load = .ok (some ty)) (m : Option Cfg) :
    s.load m = .ok { path := unraw s.ident, exportName := unraw s.ident, genericParams := vs, aliased := ty,
                     cfg := Cfg.append m (loadCfg s.attrs), annotations := a, doc := loadDoc s.attrs } := by
  simp only [SynAlias.load, ht, hg, ha, bind, Except.bind]

theorem structItem_generics {b : SynBitflags} {s : SynStruct} (h : b.structItem = some s) : s.generics = [] := by
  cases hb : b.struct with
  | none => simp [SynBitflags.structItem, hb] at h
  | some as =>
    simp only [SynBitflags.structItem, hb, Option.map_some, Option.some.injEq] at h
    subst h
    rfl

theorem structOf_mentionsX {t : Taken} {s : SynStruct} {x : Str} (h : structOf t = some s) (hm : CxxDefMentions t x) :
    (∃ f ∈ listOf s.fields, CxxMentions (some (unraw s.ident)) f.ty x) ∧ x ∉ genericNames s.generics := by
  cases hm with
  | struct h1 h2 h3 => cases h; exact ⟨⟨_, h1, h2⟩, h3⟩
  | union h1 h2 => cases h
  | alias h2 => cases h
  | enum => cases h

/-- What a definition that C++ can have is loaded as. -/
structure LoadedAsX (t : Taken) (m : Option Cfg) (y : Container) : Prop where
  kind : kindOf t = some y.type
  cfg : y.cfg = Taken.guard (t, m)
  tag : y.NoTag
  plain : y.type = .enums → y.params = []
  uses : ∀ x, CxxDefMentions t x → (∃ ty ∈ y.ownTys, LibSpec.TyUses (ty.simplify .cxx) x) ∧ ¬ LibSpec.IsParam y.params x

theorem declarable_containerX {lc : LoadConfig} {t : Taken} (h : CxxDeclarable lc t) (m : Option Cfg) :
    ∃ y, Taken.container lc (t, m) = some y ∧ LoadedAsX t m y := by
  cases h with
  | @struct _ s style al a E ps name rust ms hs hg hl hst ha ho hm =>
    obtain ⟨d, he⟩ := EnvForX.any E
    obtain ⟨fields, h1, _⟩ := members_okX he ho hm
    obtain ⟨vs, g1, g2, _⟩ := generics_ok hg
    obtain ⟨k1, k2, k3, _⟩ := structOf_container (lc := lc) hs m
    refine ⟨.struct (StructItem.new (unraw s.ident) vs fields false false al (decide (style = .transparent))
      (Cfg.append m (loadCfg s.attrs)) a (loadDoc s.attrs)), ?_, k3, k2.symm, rfl, (by rintro ⟨⟩), ?_⟩
    · rw [k1, SynStruct.container, struct_load_params g1 hl hst ha ((fields_load _ _).trans h1)]
      rfl
    · intro x hmx
      obtain ⟨⟨f, hf, hfx⟩, hnp⟩ := structOf_mentionsX hs hmx
      obtain ⟨g, hg, hu⟩ := fields_usesX h1 hf hfx
      refine ⟨⟨g.ty, List.mem_map.2 ⟨g, hg, rfl⟩, hu⟩, ?_⟩
      rw [isParam_names]
      show x ∉ vs.map GParam.name
      rw [g2]
      exact hnp
  | @union s al a E ps name rust ms hg hl ha ho hm =>
    obtain ⟨d, he⟩ := EnvForX.any E
    obtain ⟨fields, h1, _⟩ := members_okX he ho hm
    obtain ⟨vs, g1, g2, _⟩ := generics_ok hg
    refine ⟨.union { path := unraw s.ident, exportName := unraw s.ident, genericParams := vs, fields, tupleUnion := false, alignment := al,
                     cfg := Cfg.append m (loadCfg s.attrs), annotations := a, doc := loadDoc s.attrs },
      loadedAs_ok (by rw [union_load_params g1 hl ha h1]; rfl), rfl, rfl, trivial, (by rintro ⟨⟩), ?_⟩
    intro x hmx
    cases hmx with
    | union hf hfx hnp =>
      obtain ⟨g, hg, hu⟩ := fields_usesX h1 hf hfx
      refine ⟨⟨g.ty, List.mem_map.2 ⟨g, hg, rfl⟩, hu⟩, ?_⟩
      rw [isParam_names]
      show x ∉ vs.map GParam.name
      rw [g2]
      exact hnp
  | @alias s a E ps u hg ha ho hu =>
    obtain ⟨d, he⟩ := EnvForX.any E
    obtain ⟨ty, h1, h2⟩ := xtype_ok he hu
    obtain ⟨vs, g1, g2, _⟩ := generics_ok hg
    refine ⟨.typedef { path := unraw s.ident, exportName := unraw s.ident, genericParams := vs, aliased := ty,
                       cfg := Cfg.append m (loadCfg s.attrs), annotations := a, doc := loadDoc s.attrs },
      loadedAs_ok (by rw [alias_load_params g1 ha h1]; rfl), rfl, rfl, trivial, (by rintro ⟨⟩), ?_⟩
    intro x hmx
    cases hmx with
    | alias hm hnp =>
      obtain ⟨ty', e, hu⟩ := mentions_usesX hm _ h1
      cases e
      refine ⟨⟨ty, by simp [Container.ownTys], hu⟩, ?_⟩
      rw [isParam_names]
      show x ∉ vs.map GParam.name
      rw [g2]
      exact hnp
  | @enum s r a rule V rust hg hr ha hl hrl ho har hv =>
    have hE := fun r => EnvForX.any (V.types r)
    obtain ⟨vs, ws, h1, h2, h3, h4⟩ := enum_load_okX (d := fun r => (hE r).choose) (ren := fun r => (V.types r).name) hg hr ha hl hrl
      (fun r => (hE r).choose_spec) ho har hv m
    have hin : ∀ v ∈ s.variants, hasFields v.fields = true →
        (r.style != .c) = ((if withData s then some c!"Tag" else none).isSome && decide (r.style = .rust)) := by
      intro v hv hf
      have : withData s = true := List.any_eq_true.2 ⟨v, hv, hf⟩
      rw [this]
      rcases hr.style with h | ⟨h, _⟩ <;> rw [h] <;> rfl
    refine ⟨.enum ⟨unraw s.ident, unraw s.ident, [], r, vs ++ ws, if withData s then some c!"Tag" else none,
        Cfg.append m (loadCfg s.attrs), a, loadDoc s.attrs⟩, loadedAs_ok (by rw [h1]; rfl), rfl, rfl, ?_, fun _ => rfl, ?_⟩
    · intro w hw
      rcases List.mem_append.1 hw with hw | hw
      · obtain ⟨v, hv, hL⟩ := h2.mem_right hw
        exact (body_taggedX hL (hin v hv)).1
      · exact (more_tagged (h4 w hw) _).1
    · intro x hmx
      cases hmx with
      | enum hv hf hm =>
        obtain ⟨w, hw, hL⟩ := h2.mem hv
        obtain ⟨ty, hty, hu⟩ := (body_taggedX hL (hin _ hv)).2 x _ hf hm
        exact ⟨⟨ty, List.mem_flatMap.2 ⟨w, List.mem_append.2 (Or.inl hw), hty⟩, hu⟩, notParam x⟩

theorem LoadedAsX.alike {t : Taken} {m : Option Cfg} {y x : Container} (h : LoadedAsX t m y) (ha : y.Alike x) : LoadedAsX t m x := by
  cases ha with
  | refl => exact h
  | struct ha => exact ⟨h.kind, h.cfg, h.tag, h.plain, h.uses⟩

/-! ## The library stage -/

section
variable {c : LibConfig}

theorem Container.finalX_keeps {x y : Container} (h : x.finalX c = some y) : y.path = x.path ∧ y.type = x.type ∧ y.cfg = x.cfg := by
  unfold Container.finalX at h
  obtain ⟨h1, h2⟩ := Container.renameFor_keeps h
  rw [h1, h2, Container.renameFor_cfg h]
  simp [Container.mapTys_path, Container.mapTys_type, Container.mapTys_cfg]

theorem types_finalX {order : List (Str × Annotations) → List (Str × Annotations)} {fuel : Nat} {l l' : Library}
    (hc : c.language = .cxx) (hw : l.WF) (htr : l.transferAnnotations order = l) (hl' : l.prepare c order fuel = .ok l') :
    (∀ y, y ∈ l'.types ↔ ∃ x ∈ l.types, x.path ∉ c.export_.exclude ∧ x.finalX c = some y) ∧
      ∀ x ∈ l.types, x.path ∉ c.export_.exclude → ∃ y ∈ l'.types, x.finalX c = some y := by
  obtain ⟨l₂, hl₂, hfin⟩ := Library.prepare_ok hl'
  have hsw := (Library.simplified_shape c order l).wf hw
  unfold Library.expand at hl₂
  rw [if_pos hc] at hl₂
  cases hl₂
  rw [htr] at hsw hfin
  rw [Library.finish_eq, if_neg (by rw [hc]; decide)] at hfin
  obtain ⟨r1, r2⟩ := renameItems_types (removeExcluded_wf hsw c) hfin
  have step : ∀ z, z ∈ (((l.simplify c).sortFunctions c).removeExcluded c).types ↔
      ∃ w ∈ l.types, w.path ∉ c.export_.exclude ∧ z = w.mapTys (Ty.simplify .cxx) := by
    intro z
    rw [types_removeExcluded, show ((l.simplify c).sortFunctions c).types = (l.simplify c).types from rfl, types_simplify, hc,
      List.mem_map]
    constructor
    · rintro ⟨⟨w, hw, rfl⟩, hx⟩
      rw [Container.mapTys_path] at hx
      exact ⟨w, hw, hx, rfl⟩
    · rintro ⟨w, hw, hx, rfl⟩
      rw [Container.mapTys_path]
      exact ⟨⟨w, hw, rfl⟩, hx⟩
  have h1 : ∀ y, y ∈ l'.types ↔ ∃ x ∈ l.types, x.path ∉ c.export_.exclude ∧ x.finalX c = some y := by
    intro y
    rw [r1]
    constructor
    · rintro ⟨z, hz, e⟩
      obtain ⟨w, h1, h2, rfl⟩ := (step z).1 hz
      exact ⟨w, h1, h2, e⟩
    · rintro ⟨w, h1, h2, e⟩
      exact ⟨_, (step _).2 ⟨w, h1, h2, rfl⟩, e⟩
  refine ⟨h1, fun x hx hex => ?_⟩
  obtain ⟨y, hy⟩ := r2 _ ((step _).2 ⟨x, hx, hex, rfl⟩)
  exact ⟨y, (h1 y).2 ⟨x, hx, hex, hy⟩, hy⟩

theorem final_structX {x : StructItem} {z : Container} (ht : x.hasTagField = false)
    (h : (Container.struct x).finalX c = some z) : ∃ x' rule, z = .struct x' ∧ x.annotations.ruleOr c.renameFields = some rule ∧
      x'.path = x.path ∧ x'.exportName = c.ren x.exportName ∧ x'.cfg = x.cfg ∧ x'.annotations = x.annotations ∧
      x'.alignment = x.alignment ∧ x'.isTransparent = x.isTransparent ∧ x'.hasTagField = false ∧
      x'.isEnumVariantBody = x.isEnumVariantBody ∧ x'.genericParams = x.genericParams ∧
      x'.fields = setFieldNames (x.fields.map (Field.mapTy (endTyX c x.genericParams)))
        (structFieldNames c.caseFns (x.annotations.list c!"field-names") rule (x.fields.map Field.name)) := by
  simp only [Container.finalX, Container.mapTys, Container.renameFor, StructItem.renameFor, Option.map_map, Option.map_eq_some_iff] at h
  obtain ⟨rule, hr, rfl⟩ := h
  refine ⟨_, rule, rfl, hr, rfl, ?_, rfl, rfl, rfl, rfl, ht, rfl, rfl, ?_⟩
  · simp [StructItem.mapTys, ht]
  · simp only [StructItem.mapTys, ht]
    have hn : (x.fields.map (Field.mapTy (Ty.simplify .cxx))).map Field.name = x.fields.map Field.name := by
      simp [Field.mapTy, Function.comp_def]
    have hf : x.fields.map (Field.mapTy (endTyX c x.genericParams)) =
        (x.fields.map (Field.mapTy (Ty.simplify .cxx))).map (Field.mapTy (Ty.rename c.ren x.genericParams)) := by
      simp [Field.mapTy, Function.comp_def, endTyX]
    rw [hn, hf]
    generalize x.fields.map (Field.mapTy (Ty.simplify .cxx)) = fs
    cases fs <;> rfl

theorem final_unionX {x : UnionItem} {z : Container}
    (h : (Container.union x).finalX c = some z) : ∃ x' rule, z = .union x' ∧ x.annotations.ruleOr c.renameFields = some rule ∧
      x'.path = x.path ∧ x'.exportName = c.ren x.exportName ∧ x'.cfg = x.cfg ∧ x'.annotations = x.annotations ∧
      x'.alignment = x.alignment ∧ x'.genericParams = x.genericParams ∧
      x'.fields = setFieldNames (x.fields.map (Field.mapTy (endTyX c x.genericParams)))
        (unionFieldNames c.caseFns (x.annotations.list c!"field-names") rule x.tupleUnion (x.fields.map Field.name)) := by
  simp only [Container.finalX, Container.mapTys, Container.renameFor, UnionItem.renameFor, Option.map_map, Option.map_eq_some_iff] at h
  obtain ⟨rule, hr, rfl⟩ := h
  refine ⟨_, rule, rfl, hr, rfl, rfl, rfl, rfl, rfl, rfl, ?_⟩
  simp only [UnionItem.mapTys]
  have hn : (x.fields.map (Field.mapTy (Ty.simplify .cxx))).map Field.name = x.fields.map Field.name := by
    simp [Field.mapTy, Function.comp_def]
  have hf : x.fields.map (Field.mapTy (endTyX c x.genericParams)) =
      (x.fields.map (Field.mapTy (Ty.simplify .cxx))).map (Field.mapTy (Ty.rename c.ren x.genericParams)) := by
    simp [Field.mapTy, Function.comp_def, endTyX]
  rw [hn, hf]

theorem final_aliasX {x : TypedefItem} {z : Container} (h : (Container.typedef x).finalX c = some z) :
    z = .typedef { x with exportName := c.ren x.exportName, aliased := endTyX c x.genericParams x.aliased } := by
  simp only [Container.finalX, Container.mapTys, Container.renameFor, Option.some.injEq] at h
  rw [← h]
  rfl

/-- A definition in the bindings uses what its types use. -/
theorem final_usesX {x z : Container} (hc : c.language = .cxx) (ht : x.NoTag) (hk : x.type = .enums → x.params = [])
    (h : x.finalX c = some z) {ty : Ty} (hty : ty ∈ x.ownTys) {n : Str} (hp : ¬ LibSpec.IsParam x.params n)
    (hu : LibSpec.TyUses (ty.simplify .cxx) n) : LibSpec.ItemUses z n := by
  have hend : LibSpec.TyUses (endTyX c x.params ty) n := rename_uses _ _ hu
  cases x with
  | struct x =>
    obtain ⟨x', rule, rfl, _, _, _, _, _, _, _, h1, _, h2, h3⟩ := final_structX ht h
    have : endTyX c x.genericParams ty ∈ x'.fields.map Field.ty := by
      rw [h3, setFieldNames_tys]
      obtain ⟨f, hf, rfl⟩ := List.mem_map.1 hty
      exact List.mem_map.2 ⟨_, List.mem_map.2 ⟨f, hf, rfl⟩, rfl⟩
    obtain ⟨g, hg, e⟩ := List.mem_map.1 this
    refine Or.inl ⟨g, ?_, by rw [e]; exact hend, by rw [h2]; exact hp⟩
    rw [h1]
    exact hg
  | union x =>
    obtain ⟨x', rule, rfl, _, _, _, _, _, _, h2, h3⟩ := final_unionX h
    have : endTyX c x.genericParams ty ∈ x'.fields.map Field.ty := by
      rw [h3, setFieldNames_tys]
      obtain ⟨f, hf, rfl⟩ := List.mem_map.1 hty
      exact List.mem_map.2 ⟨_, List.mem_map.2 ⟨f, hf, rfl⟩, rfl⟩
    obtain ⟨g, hg, e⟩ := List.mem_map.1 this
    exact ⟨g, hg, by rw [e]; exact hend, by rw [h2]; exact hp⟩
  | typedef x =>
    have := final_aliasX h
    subst this
    simp only [Container.ownTys, List.mem_singleton] at hty
    subst hty
    exact ⟨hend, hp⟩
  | enum x =>
    obtain ⟨x', rule, rfl, _, _, _, _, _, _, _, h8⟩ := final_enumX hc h
    obtain ⟨v, hv, hty⟩ := List.mem_flatMap.1 hty
    obtain ⟨w, hw, he⟩ := h8.mem hv
    obtain ⟨n', b, i, ic, e, hgp, f, hf, hfe⟩ := body_end_tysX he (ht v hv) hty
    rw [hk rfl] at hend
    exact ⟨w, hw, Or.inl ⟨n', b, i, ic, e, Or.inl ⟨f, hf, by rw [hfe]; exact hend, by rw [hgp]; exact notParam n⟩⟩⟩
  | «opaque» x => simp [Container.ownTys] at hty

end

/-! ## Both stages -/

/-- A run of both stages for C++; aliases have no annotations. -/
structure StagesX (pc : ParseConfig) (lc : LoadConfig) (fuel fuel' : Nat) (i : Inputs) (c : LibConfig)
    (order : List (Str × Annotations) → List (Str × Annotations)) (l : Library) (b : Bindings) : Prop where
  built : buildLibrary pc lc fuel i = .ok l
  plain : InputsPlain i
  onePath : OnePath pc i
  language : c.language = .cxx
  ordered : order [] = []
  bare : ∀ s cs a, SrcSpec.Given pc i (.alias s) cs → Annotations.load s.attrs = .ok a → a.isEmpty = true
  generated : l.generate c order fuel' = .ok b

section
variable {pc : ParseConfig} {lc : LoadConfig} {fuel fuel' : Nat} {i : Inputs} {c : LibConfig}
  {order : List (Str × Annotations) → List (Str × Annotations)} {l l' : Library} {b : Bindings}

/-- Nothing is moved from aliases to other definitions. -/
theorem StagesX.transfer (h : StagesX pc lc fuel fuel' i c order l b) : l.transferAnnotations order = l := by
  refine transfer_none h.ordered fun x hx => ?_
  rcases (build_types h.built h.plain h.onePath).2.1 (.typedef x) (mem_types.2 (by simp [hx])) with
    ⟨t, m, cs, y, h1, _, h2, h3⟩ | ⟨_, _, _, e⟩
  · cases h3
    obtain ⟨s, rfl, hs⟩ := container_typedef h2
    exact h.bare s cs _ h1 (alias_annotations hs)
  · cases e

/-- A definition that nothing else takes the place of is in the tables, and all of its name are of its kind. -/
theorem sole_foundX (h : StagesX pc lc fuel fuel' i c order l b) {t : Taken} {cs : List Cfg} {n : Str} (hS : CxxSole pc lc i c t cs n) :
    ∃ m y x, ParserSpec.GuardIs (Taken.guard (t, m)) cs ∧ Taken.container lc (t, m) = some y ∧ y.Alike x ∧ LoadedAsX t m x ∧
      x ∈ l.types ∧ x.path = n ∧ ∀ z ∈ l.types, z.path = n → z.type = x.type := by
  obtain ⟨_, hsound, hall⟩ := build_types h.built h.plain h.onePath
  have hkind : ∀ z ∈ l.types, z.path = n → kindOf t = some z.type := by
    intro z hz hzn
    rcases hsound z hz with ⟨t', m', cs', y', h1, h2, h3, h4⟩ | ⟨_, s, hs, rfl⟩
    · have hn' : typeName t' = some n := by rw [container_name h3, ← h4.same.1, hzn]
      rcases hS.others t' cs' h1 hn' with ⟨rfl, rfl⟩ | ⟨hd, hk, _, _⟩
      · obtain ⟨y, hy, hL⟩ := declarable_containerX hS.declarable m'
        rw [h3] at hy
        cases hy
        rw [hL.kind, h4.same.2]
      · obtain ⟨y, hy, hL⟩ := declarable_containerX hd m'
        rw [h3] at hy
        cases hy
        rw [← hk, hL.kind, h4.same.2]
    · exact absurd (hzn ▸ std_names s hs) hS.std
  have hex : ∃ m y x, ParserSpec.GuardIs (Taken.guard (t, m)) cs ∧ Taken.container lc (t, m) = some y ∧ y.Alike x ∧ x ∈ l.types := by
    obtain ⟨m, hg, ha⟩ := hall t cs hS.given
    obtain ⟨y, hy, hL⟩ := declarable_containerX hS.declarable m
    have hyn : y.path = n := by
      have := container_name hy
      rw [hS.name] at this
      exact (Option.some.inj this).symm
    by_cases hcf : CanFail cs
    · obtain ⟨x, hx, e⟩ := (ha y hy).2 (by
        intro t' m' cs' y' h1 h2 h3 h4 h5
        have hn' : typeName t' = some n := by rw [container_name h3, h4, hyn]
        rcases hS.others t' cs' h1 hn' with ⟨rfl, rfl⟩ | ⟨hd, hk, hcf', _⟩
        · obtain ⟨w, hw, hL'⟩ := declarable_containerX hS.declarable m'
          rw [h3] at hw
          cases hw
          rw [hL'.cfg]
          exact canFail_some h2 hcf
        · obtain ⟨w, hw, hL'⟩ := declarable_containerX hd m'
          rw [h3] at hw
          cases hw
          rw [hL'.cfg]
          exact canFail_some h2 hcf') (fun _ s hs e => hS.std (by rw [← hyn, e]; exact std_names s hs))
      exact ⟨m, y, x, hg, hy, e, hx⟩
    · obtain ⟨x, hx, hxp, _⟩ := (ha y hy).1
      rcases hsound x hx with ⟨t', m', cs', y', h1, h2, h3, h4⟩ | ⟨_, s, hs, rfl⟩
      · have hn' : typeName t' = some n := by rw [container_name h3, ← h4.same.1, hxp, hyn]
        rcases hS.others t' cs' h1 hn' with ⟨rfl, rfl⟩ | ⟨_, _, _, hcf'⟩
        · exact ⟨m', y', x, h2, h3, h4, hx⟩
        · exact absurd hcf' hcf
      · exact absurd (by rw [← hyn, ← hxp]; exact std_names s hs) hS.std
  obtain ⟨m, y, x, hg, hy, e, hx⟩ := hex
  obtain ⟨w, hw, hL⟩ := declarable_containerX hS.declarable m
  rw [hy] at hw
  cases hw
  have hxn : x.path = n := by
    have := container_name hy
    rw [hS.name] at this
    rw [e.same.1]
    exact (Option.some.inj this).symm
  refine ⟨m, y, x, hg, hy, e, hL.alike e, hx, hxn, fun z hz hzn => ?_⟩
  have h1 := hkind z hz hzn
  rw [hkind x hx hxn] at h1
  exact (Option.some.inj h1).symm

/-- It is also in the tables that the bindings are collected from. -/
theorem sole_preparedX (h : StagesX pc lc fuel fuel' i c order l b) (hl' : l.prepare c order fuel' = .ok l')
    {t : Taken} {cs : List Cfg} {n : Str} (hS : CxxSole pc lc i c t cs n) :
    ∃ m y x z its, ParserSpec.GuardIs (Taken.guard (t, m)) cs ∧ Taken.container lc (t, m) = some y ∧ y.Alike x ∧ LoadedAsX t m x ∧
      x.finalX c = some z ∧ z.path = n ∧ l'.getItems c n = some its ∧ z ∈ its := by
  obtain ⟨m, y, x, h1, h2, h3, h4, h5, h6, h7⟩ := sole_foundX h hS
  obtain ⟨h8, h9⟩ := types_finalX h.language (build_types h.built h.plain h.onePath).1 h.transfer hl'
  obtain ⟨z, hz, hf⟩ := h9 x h5 (by rw [h6]; exact hS.kept)
  obtain ⟨k1, k2, _⟩ := Container.finalX_keeps hf
  have hzn : z.path = n := k1.trans h6
  obtain ⟨its, h10, h11⟩ := getItems_own (c := c) (Library.prepare_wf hl') hz (by
    intro w hw e
    obtain ⟨x', hx', _, hf'⟩ := (h8 w).1 hw
    obtain ⟨j1, j2, _⟩ := Container.finalX_keeps hf'
    rw [j2, k2]
    exact h7 x' hx' (by rw [← j1, e, hzn])) (by
    rw [k2]
    exact hS.wanted _ h4.kind)
  exact ⟨m, y, x, z, its, h1, h2, h3, h4, hf, hzn, by rw [← hzn]; exact h10, h11⟩

theorem func_final_usesX {f f' : FuncItem} (h : f.finalX c = some f') (ha : f.annotations.list c!"ptrs-as-arrays" = none) {x : Str}
    (hu : LibSpec.TyUses (f.ret.simplify .cxx) x ∨ ∃ a ∈ f.args, LibSpec.TyUses (a.ty.simplify .cxx) x) : LibSpec.FuncUses f' x := by
  unfold FuncItem.finalX FuncItem.renameFor at h
  simp only [FuncItem.mapTys, ha, Option.bind_eq_bind, renameArgs, Option.pure_def, Option.bind_eq_some_iff, Option.some.injEq] at h
  obtain ⟨rule, _, _, rfl, rfl⟩ := h
  rcases hu with hu | ⟨a, haa, hu⟩
  · exact Or.inl (rename_uses _ _ hu)
  · exact Or.inr ⟨_, List.mem_map.2 ⟨_, List.mem_map.2 ⟨a, haa, rfl⟩, rfl⟩, rename_uses _ _ hu⟩

/-- What is needed and known is reached. -/
theorem needed_reachedX (h : StagesX pc lc fuel fuel' i c order l b) (hl' : l.prepare c order fuel' = .ok l')
    {n : Str} (hN : CxxNeeded pc lc i c n) : (l'.getItems c n).isSome = true →
    ∃ r, LibSpec.Root c.export_.inc l' r ∧ LibSpec.Known c l' r ∧ LibSpec.Reaches (l'.getItems c) r n := by
  induction hN with
  | asked hn =>
    intro hk
    exact ⟨_, Or.inr (Or.inr (Or.inr hn)), (C11_known c l' _).1 hk, .refl _⟩
  | @function path owner ext sf cs a E T n hgiven hex ha harr ho hT hm =>
    intro hk
    obtain ⟨d, he⟩ := EnvForX.any E
    obtain ⟨rs, hrs, hmem⟩ := mem_functions h.built
    obtain ⟨r, hr1, m, hr2, _⟩ := hrs.complete h.plain h.onePath hgiven
    obtain ⟨f, hf, hf1, _, _, hf4, _, hf5⟩ := xfn_ok he hT ha path ext m
    rw [ho] at hf
    have hfl := (hmem f).2 ⟨r, hr1, path, owner, ext, sf, m, hr2, hf⟩
    obtain ⟨h1, h2⟩ := functions_preparedX h.language hl'
    obtain ⟨f', hf'⟩ := h2 f hfl (by rw [hf1]; exact hex)
    have hfb := (h1 f').2 ⟨f, hfl, by rw [hf1]; exact hex, hf'⟩
    refine ⟨n, Or.inl ⟨f', hfb, ?_⟩, (C11_known c l' _).1 hk, .refl _⟩
    exact func_final_usesX hf' (by rw [hf4]; exact harr) (sig_usesX hm hf)
  | @variable_ path s cs a E u n hS hex ha ho hu hm =>
    intro hk
    obtain ⟨d, he⟩ := EnvForX.any E
    obtain ⟨ty, k1, k2⟩ := xtype_ok he hu
    obtain ⟨x, m, hx, _, hx2⟩ := statics_complete h.built h.plain h.onePath hS (static_load_ok k1 ha path)
    obtain ⟨j1, _, _, _, _, j6⟩ := static_load_keeps hx2
    rw [k1] at j6
    cases j6
    have hg := (globals_preparedX h.language hl' (build_types h.built h.plain h.onePath).1.globals _).2
      ⟨x, hx, by rw [j1]; exact hex, rfl⟩
    refine ⟨n, Or.inr (Or.inl ⟨_, hg, ?_⟩), (C11_known c l' _).1 hk, .refl _⟩
    obtain ⟨ty', hty', hu'⟩ := mentions_usesX hm _ k1
    cases hty'
    exact rename_uses c.ren [] hu'
  | @definition t cs m n hS _ hdm ih =>
    intro hk
    obtain ⟨md, y, x, z, its, _, _, _, h4, h5, h6, h7, h8⟩ := sole_preparedX h hl' hS
    obtain ⟨r, hr1, hr2, hr3⟩ := ih (by rw [h7]; rfl)
    obtain ⟨⟨ty, hty, hu⟩, hnp⟩ := h4.uses n hdm
    exact ⟨r, hr1, hr2, .step hr3 h7 h8 (final_usesX h.language h4.tag h4.plain h5 hty hnp hu) hk⟩

/-- The definition `t` named `n` is in the bindings. -/
def InItemsX (lc : LoadConfig) (c : LibConfig) (b : Bindings) (t : Taken) (cs : List Cfg) (n : Str) : Prop :=
  ∃ m y x z, ParserSpec.GuardIs (Taken.guard (t, m)) cs ∧ Taken.container lc (t, m) = some y ∧ y.Alike x ∧ LoadedAsX t m x ∧
    x.finalX c = some z ∧ z.path = n ∧ z ∈ b.items

/-- A definition that is needed and that nothing else takes the place of is in the bindings. -/
theorem sole_itemsX (h : StagesX pc lc fuel fuel' i c order l b) {t : Taken} {cs : List Cfg} {n : Str}
    (hS : CxxSole pc lc i c t cs n) (hN : CxxNeeded pc lc i c n) : InItemsX lc c b t cs n := by
  obtain ⟨l', hl', hb⟩ := C11_generate h.generated
  obtain ⟨m, y, x, z, its, h1, h2, h3, h4, h5, h6, h7, h8⟩ := sole_preparedX h hl' hS
  refine ⟨m, y, x, z, h1, h2, h3, h4, h5, h6, (hb z).2 ⟨⟨its, by rw [h6]; exact h7, h8⟩, ?_⟩⟩
  rw [h6]
  exact needed_reachedX h hl' hN (by rw [h7]; rfl)

end

end Cbindgen
