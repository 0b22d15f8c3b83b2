import Verif.Spec.Main
import Verif.Lemmas.SourceEnums
import Verif.Lemmas.SourceStatics
import Verif.Props.Library
import Verif.Props.Source

/-!
# From definitions in the sources to definitions in the bindings (C64)
-/

namespace Cbindgen
open CSpec HeadSpec LexSpec ItemMap
open SrcSpec hiding Reaches Given Plain

/-! ## Definitions -/

/-- The types of a definition. -/
def Container.ownTys : Container → List Ty
  | .struct x => x.fields.map Field.ty
  | .union x => x.fields.map Field.ty
  | .typedef x => [x.aliased]
  | .enum x => x.variants.flatMap fun v => v.body.ownTys
  | .opaque _ => []

theorem loadedAs_path {r : LoadM Container} {o : LoadM OpaqueItem} {p : Str} {y : Container} (h : loadedAs r o = some y)
    (h1 : ∀ x, r = .ok x → x.path = p) (h2 : ∀ x, o = .ok x → x.path = p) : y.path = p := by
  unfold loadedAs at h
  split at h
  · cases h; exact h1 _ rfl
  · split at h
    · cases h; exact h2 _ rfl
    · cases h
  · cases h

theorem loadOpaque_path {p : Str} {gs : List SynGenericParam} {as : List SAttr} {m : Option Cfg} {x : OpaqueItem}
    (h : loadOpaque p gs as m = .ok x) : x.path = p := by
  simp only [loadOpaque, bind, Except.bind] at h
  repeat (split at h; · cases h)
  cases h
  rfl

theorem map_ok {α β : Type} {r : LoadM α} {f : α → β} {y : β} (h : r.map f = .ok y) : ∃ x, r = .ok x ∧ f x = y := by
  cases r with
  | error e => cases h
  | ok x => cases h; exact ⟨x, rfl, rfl⟩

theorem struct_load_path {c : LoadConfig} {m : Option Cfg} {s : SynStruct} {x : StructItem} (h : s.load c m = .ok x) :
    x.path = unraw s.ident := by
  simp only [SynStruct.load, bind, Except.bind] at h
  repeat (split at h; · cases h)
  cases h
  rfl

theorem structContainer_path {c : LoadConfig} {m : Option Cfg} {s : SynStruct} {y : Container} (h : s.container c m = some y) :
    y.path = unraw s.ident := by
  refine loadedAs_path h ?_ fun x hx => loadOpaque_path hx
  intro x hx
  obtain ⟨z, hz, rfl⟩ := map_ok hx
  exact struct_load_path hz

theorem enum_load_path {c : LoadConfig} {m : Option Cfg} {s : SynEnum} {x : EnumItem} (h : s.load c m = .ok x) :
    x.path = unraw s.ident := by
  simp only [SynEnum.load, bind, Except.bind] at h
  repeat (split at h; · cases h)
  cases h
  rfl

/-- A definition has the name of its item. -/
theorem container_name {c : LoadConfig} {t : Taken} {m : Option Cfg} {y : Container} (h : Taken.container c (t, m) = some y) :
    typeName t = some y.path := by
  cases t with
  | struct s => rw [typeName, structContainer_path h]
  | union s =>
    simp only [Taken.container] at h
    rw [typeName, loadedAs_path h (p := unraw s.ident) ?_ fun x hx => loadOpaque_path hx]
    intro x hx
    obtain ⟨z, hz, rfl⟩ := map_ok hx
    simp only [SynUnion.load, bind, Except.bind] at hz
    repeat (split at hz; · cases hz)
    cases hz
    rfl
  | enum s =>
    simp only [Taken.container] at h
    rw [typeName, loadedAs_path h (p := unraw s.ident) ?_ fun x hx => loadOpaque_path hx]
    intro x hx
    obtain ⟨z, hz, rfl⟩ := map_ok hx
    exact enum_load_path hz
  | alias s =>
    simp only [Taken.container] at h
    rw [typeName, loadedAs_path h (p := unraw s.ident) ?_ fun x hx => loadOpaque_path hx]
    intro x hx
    obtain ⟨z, hz, rfl⟩ := map_ok hx
    simp only [SynAlias.load, bind, Except.bind] at hz
    split at hz
    · cases hz
    split at hz
    · cases hz
    repeat (split at hz; · cases hz)
    cases hz
    rfl
  | bitflags b =>
    simp only [Taken.container, Option.bind_eq_some_iff] at h
    obtain ⟨s, hs, h⟩ := h
    rw [typeName, hs, structContainer_path h]
    rfl
  | fn => cases h
  | const => cases h
  | static => cases h
  | assoc => cases h

theorem loadedAs_cfg {r : LoadM Container} {o : LoadM OpaqueItem} {p : Option Cfg} {y : Container} (h : loadedAs r o = some y)
    (h1 : ∀ x, r = .ok x → x.cfg = p) (h2 : ∀ x, o = .ok x → x.cfg = p) : y.cfg = p := by
  unfold loadedAs at h
  split at h
  · cases h; exact h1 _ rfl
  · split at h
    · cases h; exact h2 _ rfl
    · cases h
  · cases h

theorem loadOpaque_cfg {p : Str} {gs : List SynGenericParam} {as : List SAttr} {m : Option Cfg} {x : OpaqueItem}
    (h : loadOpaque p gs as m = .ok x) : x.cfg = Cfg.append m (loadCfg as) := by
  simp only [loadOpaque, bind, Except.bind] at h
  repeat (split at h; · cases h)
  cases h
  rfl

theorem structContainer_cfg {c : LoadConfig} {m : Option Cfg} {s : SynStruct} {y : Container} (h : s.container c m = some y) :
    y.cfg = Cfg.append m (loadCfg s.attrs) := by
  refine loadedAs_cfg h ?_ fun x hx => loadOpaque_cfg hx
  intro x hx
  obtain ⟨z, hz, rfl⟩ := map_ok hx
  simp only [SynStruct.load, bind, Except.bind] at hz
  repeat (split at hz; · cases hz)
  cases hz
  rfl

/-- A definition has the condition of its item. -/
theorem container_cfg {c : LoadConfig} {t : Taken} {m : Option Cfg} {y : Container} (h : Taken.container c (t, m) = some y) :
    y.cfg = Taken.guard (t, m) := by
  cases t with
  | struct s => exact structContainer_cfg h
  | union s =>
    simp only [Taken.container] at h
    refine loadedAs_cfg h ?_ fun x hx => loadOpaque_cfg hx
    intro x hx
    obtain ⟨z, hz, rfl⟩ := map_ok hx
    simp only [SynUnion.load, bind, Except.bind] at hz
    repeat (split at hz; · cases hz)
    cases hz
    rfl
  | enum s =>
    simp only [Taken.container] at h
    refine loadedAs_cfg h ?_ fun x hx => loadOpaque_cfg hx
    intro x hx
    obtain ⟨z, hz, rfl⟩ := map_ok hx
    simp only [SynEnum.load, bind, Except.bind] at hz
    repeat (split at hz; · cases hz)
    cases hz
    rfl
  | alias s =>
    simp only [Taken.container] at h
    refine loadedAs_cfg h ?_ fun x hx => loadOpaque_cfg hx
    intro x hx
    obtain ⟨z, hz, rfl⟩ := map_ok hx
    simp only [SynAlias.load, bind, Except.bind] at hz
    split at hz
    · cases hz
    split at hz
    · cases hz
    repeat (split at hz; · cases hz)
    cases hz
    rfl
  | bitflags b =>
    simp only [Taken.container, Option.bind_eq_some_iff] at h
    obtain ⟨s, hs, h⟩ := h
    have := structContainer_cfg h
    cases hb : b.struct with
    | none => simp [SynBitflags.structItem, hb] at hs
    | some as =>
      simp only [SynBitflags.structItem, hb, Option.map_some, Option.some.injEq] at hs
      subst hs
      rw [this, Taken.guard]
      simp [Taken.attrs, hb]
  | fn => cases h
  | const => cases h
  | static => cases h
  | assoc => cases h

theorem Container.renameFor_cfg {c : LibConfig} {x y : Container} (h : x.renameFor c = some y) : y.cfg = x.cfg := by
  cases x <;> simp only [Container.renameFor, Option.map_eq_some_iff, Option.some.injEq] at h
  · obtain ⟨z, hz, rfl⟩ := h; exact (enum_rename_keeps hz).2
  · obtain ⟨z, hz, rfl⟩ := h; exact (struct_rename_keeps hz).2
  · obtain ⟨z, hz, rfl⟩ := h; exact (union_rename_keeps hz).2
  · subst h; rfl
  · subst h; rfl

theorem Container.mapTys_cfg (g : Ty → Ty) (x : Container) : (x.mapTys g).cfg = x.cfg := by cases x <;> rfl

theorem Container.final_cfg {c : LibConfig} {find : Ty → Option Str} {tag : Str → Option DeclKind} {x y : Container}
    (h : x.final c find tag = some y) : y.cfg = x.cfg := by
  unfold Container.final at h
  rw [Container.renameFor_cfg h]
  split <;> simp [Container.mapTys_cfg]

theorem loadedAs_ok {r : LoadM Container} {o : LoadM OpaqueItem} {x : Container} (h : r = .ok x) : loadedAs r o = some x := by
  rw [h]; rfl

theorem struct_load_ok {lc : LoadConfig} {s : SynStruct} {style : ReprStyle} {al : Option ReprAlign} {a : Annotations}
    {fields : List Field} (hg : OnlyLifetimes s.generics) (hl : LayoutIs lc s.attrs style al) (hs : style = .c ∨ style = .transparent)
    (ha : Annotations.load s.attrs = .ok a) (hf : s.fields.load (unraw s.ident) = .ok fields) (m : Option Cfg) :
    s.load lc m = .ok (StructItem.new (unraw s.ident) [] fields false false al (decide (style = .transparent))
      (Cfg.append m (loadCfg s.attrs)) a (loadDoc s.attrs)) := by
  obtain ⟨⟨r, h1, h2, rfl⟩, h3⟩ := hl
  have h4 : structStyle r.style = .ok (decide (style = .transparent)) := by
    rw [h2]
    rcases hs with rfl | rfl <;> rfl
  simp only [SynStruct.load, h1, h4, h3, hf, onlyLifetimes_load hg, ha, bind, Except.bind]

theorem union_load_ok {lc : LoadConfig} {s : SynUnion} {al : Option ReprAlign} {a : Annotations}
    {fields : List Field} (hg : OnlyLifetimes s.generics) (hl : LayoutIs lc s.attrs .c al)
    (ha : Annotations.load s.attrs = .ok a) (hf : trySkipMap (SynField.load (unraw s.ident)) s.fields = .ok fields) (m : Option Cfg) :
    s.load lc m = .ok { path := unraw s.ident, exportName := unraw s.ident, genericParams := [], fields,
                        tupleUnion := false, alignment := al, cfg := Cfg.append m (loadCfg s.attrs),
                        annotations := a, doc := loadDoc s.attrs } := by
  obtain ⟨⟨r, h1, h2, rfl⟩, h3⟩ := hl
  have h4 : unionStyle r.style = .ok () := by rw [h2]; rfl
  simp only [SynUnion.load, h1, h4, h3, hf, onlyLifetimes_load hg, ha, bind, Except.bind]

theorem alias_load_ok {s : SynAlias} {a : Annotations} {ty : Ty} (hg : OnlyLifetimes s.generics)
    (ha : Annotations.load s.attrs = .ok a) (ht : s.ty.load = .ok (some ty)) (m : Option Cfg) :
    s.load m = .ok { path := unraw s.ident, exportName := unraw s.ident, genericParams := [], aliased := ty,
                     cfg := Cfg.append m (loadCfg s.attrs), annotations := a, doc := loadDoc s.attrs } := by
  simp only [SynAlias.load, ht, onlyLifetimes_load hg, ha, bind, Except.bind]

/-- No field of a struct is the tag of an enum, and the data of variants has a tag if it should. -/
def Container.NoTag : Container → Prop
  | .struct x => x.hasTagField = false
  | .enum x => ∀ v ∈ x.variants, v.body.Tagged (x.tag.isSome && decide (x.repr.style = .rust))
  | _ => True

theorem structOf_container {lc : LoadConfig} {t : Taken} {s : SynStruct} (h : structOf t = some s) (m : Option Cfg) :
    Taken.container lc (t, m) = s.container lc m ∧ Taken.guard (t, m) = Cfg.append m (loadCfg s.attrs) ∧
      kindOf t = some .structs ∧ typeName t = some (unraw s.ident) := by
  cases t with
  | struct s' => cases h; exact ⟨rfl, rfl, rfl, rfl⟩
  | bitflags b =>
    have h : b.structItem = some s := h
    refine ⟨by simp [Taken.container, h], ?_, rfl, by simp [typeName, h]⟩
    have : Taken.attrs (.bitflags b) = s.attrs := by
      cases hb : b.struct with
      | none => simp [SynBitflags.structItem, hb] at h
      | some as =>
        simp only [SynBitflags.structItem, hb, Option.map_some, Option.some.injEq] at h
        subst h
        simp [Taken.attrs, hb]
    rw [Taken.guard, this]
  | _ => cases h

theorem structOf_mentions {t : Taken} {s : SynStruct} {x : Str} (h : structOf t = some s) (hm : DefMentions t x) :
    ∃ f ∈ listOf s.fields, Mentions (some (unraw s.ident)) f.ty x := by
  cases hm with
  | struct h1 h2 => cases h; exact ⟨_, h1, h2⟩
  | union h1 h2 => cases h
  | alias h2 => cases h
  | enum => cases h

theorem body_tagged {V : EnumEnv} {d : RenameRule → DeclConfig} {rust : CfgSpec.Opt → Bool} {o : Str} {inl : Bool} {lc : LoadConfig}
    {ea : Annotations} {m : Option Cfg} {v : SynVariant} {w : EnumVariant} (h : VariantLoaded V d rust o inl lc ea m v w) {t : Bool}
    (ht : hasFields v.fields = true → inl = t) : w.body.Tagged t ∧ (∀ ty ∈ w.body.ownTys, (ty.simplify .c).Clean) ∧
      ∀ x, x ∉ stdNames → ∀ f ∈ listOf v.fields, Mentions (some o) f.ty x → ∃ ty ∈ w.body.ownTys, LibSpec.TyUses (ty.simplify .c) x := by
  obtain ⟨b, dl, ⟨arm, body, hi⟩, hb, hd, rfl⟩ := h
  cases hb _ _ hi with
  | unit h1 =>
    refine ⟨trivial, nofun, ?_⟩
    rw [h1]
    nofun
  | @data one fs a rl fields ps _ _ bb q1 q2 q3 q4 q5 q6 q7 q8 q9 q10 ic =>
    have hinl : inl = t := ht (by revert q2; cases v.fields <;> simp [hasFields])
    have hown : (VBody.body (V.arm (unraw v.ident)) (StructItem.new (v.ident ++ c!"_Body") []
          ((if inl then [tagField one] else []) ++ fields) inl true none false none (variantAnnotations ea a) []) bb ic).ownTys =
        fields.map Field.ty := by
      cases inl <;> rfl
    refine ⟨⟨hinl, rfl⟩, ?_, ?_⟩
    · show ∀ ty ∈ VBody.ownTys (VBody.body _ _ _ _), _
      rw [hown]
      intro ty hty
      obtain ⟨f, hf, rfl⟩ := List.mem_map.1 hty
      exact q6 f hf
    · show ∀ x, x ∉ stdNames → ∀ f ∈ _, _ → ∃ ty ∈ VBody.ownTys (VBody.body _ _ _ _), _
      rw [hown, q1]
      intro x hx f hf hm
      obtain ⟨g, hg, hu⟩ := payload_uses hx q5 hf hm
      exact ⟨g.ty, List.mem_map.2 ⟨g, hg, rfl⟩, hu⟩

theorem more_tagged {w : EnumVariant} (h : IsMore w) (t : Bool) : w.body.Tagged t ∧ w.body.ownTys = [] := by
  rw [h.2.2.1]
  exact ⟨trivial, rfl⟩

/-- What a definition that C can have is loaded as. -/
structure LoadedAs (t : Taken) (m : Option Cfg) (y : Container) : Prop where
  kind : kindOf t = some y.type
  params : y.params = []
  cfg : y.cfg = Taken.guard (t, m)
  tag : y.NoTag
  clean : ∀ ty ∈ y.ownTys, (ty.simplify .c).Clean
  uses : ∀ x, x ∉ stdNames → DefMentions t x → ∃ ty ∈ y.ownTys, LibSpec.TyUses (ty.simplify .c) x

theorem declarable_container {lc : LoadConfig} {t : Taken} (h : Declarable lc t) (m : Option Cfg) :
    ∃ y, Taken.container lc (t, m) = some y ∧ LoadedAs t m y := by
  cases h with
  | @struct _ s style al a E name rust ms hs hg hl hst ha ho hm =>
    obtain ⟨d, he⟩ := EnvFor.any E
    obtain ⟨fields, h1, h2, _⟩ := members_ok he ho hm
    obtain ⟨k1, k2, k3, _⟩ := structOf_container (lc := lc) hs m
    refine ⟨.struct (StructItem.new (unraw s.ident) [] fields false false al (decide (style = .transparent))
      (Cfg.append m (loadCfg s.attrs)) a (loadDoc s.attrs)), ?_, k3, rfl, k2.symm, rfl, ?_, ?_⟩
    · rw [k1, SynStruct.container, struct_load_ok hg hl hst ha ((fields_load _ _).trans h1)]
      rfl
    · intro ty hty
      obtain ⟨f, hf, rfl⟩ := List.mem_map.1 hty
      exact h2 f hf
    · intro x hx hmx
      obtain ⟨f, hf, hfx⟩ := structOf_mentions hs hmx
      obtain ⟨g, hg, hu⟩ := fields_uses hx h1 hf hfx
      exact ⟨g.ty, List.mem_map.2 ⟨g, hg, rfl⟩, hu⟩
  | @union s al a E name rust ms hg hl ha ho hm =>
    obtain ⟨d, he⟩ := EnvFor.any E
    obtain ⟨fields, h1, h2, _⟩ := members_ok he ho hm
    refine ⟨.union { path := unraw s.ident, exportName := unraw s.ident, genericParams := [], fields, tupleUnion := false, alignment := al,
                     cfg := Cfg.append m (loadCfg s.attrs), annotations := a, doc := loadDoc s.attrs },
      loadedAs_ok (by rw [union_load_ok hg hl ha h1]; rfl), rfl, rfl, rfl, trivial, ?_, ?_⟩
    · intro ty hty
      obtain ⟨f, hf, rfl⟩ := List.mem_map.1 hty
      exact h2 f hf
    · intro x hx hmx
      cases hmx with
      | union hf hfx =>
        obtain ⟨g, hg, hu⟩ := fields_uses hx h1 hf hfx
        exact ⟨g.ty, List.mem_map.2 ⟨g, hg, rfl⟩, hu⟩
  | @alias s a E u hg ha ho hu =>
    obtain ⟨d, he⟩ := EnvFor.any E
    obtain ⟨ty, h1, h2⟩ := ctype_ok he hu
    have hcl := h2.clean
    rw [ho] at hcl
    refine ⟨.typedef { path := unraw s.ident, exportName := unraw s.ident, genericParams := [], aliased := ty,
                       cfg := Cfg.append m (loadCfg s.attrs), annotations := a, doc := loadDoc s.attrs },
      loadedAs_ok (by rw [alias_load_ok hg ha h1]; rfl), rfl, rfl, rfl, trivial, ?_, ?_⟩
    · intro ty' hty
      simp only [Container.ownTys, List.mem_singleton] at hty
      subst hty
      exact hcl
    · intro x hx hmx
      cases hmx with
      | alias hm =>
        obtain ⟨ty', e, hu⟩ := mentions_uses hx hm _ h1
        cases e
        exact ⟨ty, by simp [Container.ownTys], hu⟩
  | @enum s r a rule V rust hg hr ha hl hrl ho har hv =>
    have hE := fun r => EnvFor.any (V.types r)
    obtain ⟨vs, ws, h1, h2, h3, h4⟩ := enum_load_ok (d := fun r => (hE r).choose) hg hr ha hl hrl (fun r => (hE r).choose_spec) ho har hv m
    have hin : ∀ v ∈ s.variants, hasFields v.fields = true →
        (r.style != .c) = ((if withData s then some c!"Tag" else none).isSome && decide (r.style = .rust)) := by
      intro v hv hf
      have : withData s = true := List.any_eq_true.2 ⟨v, hv, hf⟩
      rw [this]
      rcases hr.style with h | ⟨h, _⟩ <;> rw [h] <;> rfl
    have hmem : ∀ w ∈ vs, ∃ v ∈ s.variants, VariantLoaded V (fun r => (hE r).choose) rust (unraw s.ident) (r.style != .c) lc a m v w := by
      intro w hw
      exact h2.mem_right hw
    refine ⟨.enum ⟨unraw s.ident, unraw s.ident, [], r, vs ++ ws, if withData s then some c!"Tag" else none,
        Cfg.append m (loadCfg s.attrs), a, loadDoc s.attrs⟩, loadedAs_ok (by rw [h1]; rfl), rfl, rfl, rfl, ?_, ?_, ?_⟩
    · intro w hw
      rcases List.mem_append.1 hw with hw | hw
      · obtain ⟨v, hv, hL⟩ := hmem w hw
        exact (body_tagged hL (hin v hv)).1
      · exact (more_tagged (h4 w hw) _).1
    · intro ty hty
      simp only [Container.ownTys, List.mem_flatMap] at hty
      obtain ⟨w, hw, hty⟩ := hty
      rcases List.mem_append.1 hw with hw | hw
      · obtain ⟨v, hv, hL⟩ := hmem w hw
        exact (body_tagged hL (hin v hv)).2.1 ty hty
      · rw [(more_tagged (h4 w hw) true).2] at hty
        cases hty
    · intro x hx hmx
      cases hmx with
      | enum hv hf hm =>
        obtain ⟨w, hw, hL⟩ := h2.mem hv
        obtain ⟨ty, hty, hu⟩ := (body_tagged hL (hin _ hv)).2.2 x hx _ hf hm
        exact ⟨ty, List.mem_flatMap.2 ⟨w, List.mem_append.2 (Or.inl hw), hty⟩, hu⟩

theorem LoadedAs.alike {t : Taken} {m : Option Cfg} {y x : Container} (h : LoadedAs t m y) (ha : y.Alike x) : LoadedAs t m x := by
  cases ha with
  | refl => exact h
  | struct ha => exact ⟨h.kind, h.params, h.cfg, h.tag, h.clean, h.uses⟩

/-! ## The library stage -/

section
variable {c : LibConfig} {find : Ty → Option Str} {tag : Str → Option DeclKind}

theorem final_struct (hc : c.language = .c) {x : StructItem} {z : Container} (ht : x.hasTagField = false) (hp : x.genericParams = [])
    (h : (Container.struct x).final c find tag = some z) : ∃ x' rule, z = .struct x' ∧ x.annotations.ruleOr c.renameFields = some rule ∧
      x'.path = x.path ∧ x'.exportName = c.ren x.exportName ∧ x'.cfg = x.cfg ∧ x'.annotations = x.annotations ∧
      x'.alignment = x.alignment ∧ x'.isTransparent = x.isTransparent ∧ x'.hasTagField = false ∧ x'.genericParams = [] ∧
      x'.fields = setFieldNames (x.fields.map (Field.mapTy (endTy c find tag)))
        (structFieldNames c.caseFns (x.annotations.list c!"field-names") rule (x.fields.map Field.name)) := by
  have hg : (if c.generateTag then (((Container.struct x).mapTys (Ty.simplify c.language)).mapTys (Ty.manglePaths find)).mapTys (Ty.resolve tag)
      else ((Container.struct x).mapTys (Ty.simplify c.language)).mapTys (Ty.manglePaths find)) =
      .struct { x with fields := (if c.generateTag then (x.fields.map (Field.mapTy (Ty.simplify c.language))).map (Field.mapTy (Ty.manglePaths find)) |>.map (Field.mapTy (Ty.resolve tag))
        else (x.fields.map (Field.mapTy (Ty.simplify c.language))).map (Field.mapTy (Ty.manglePaths find))) } := by
    cases c.generateTag <;> rfl
  simp only [Container.final, hg, Container.renameFor, StructItem.renameFor, Option.map_map, Option.map_eq_some_iff] at h
  obtain ⟨rule, hr, rfl⟩ := h
  refine ⟨_, rule, rfl, hr, rfl, ?_, rfl, rfl, rfl, rfl, ht, hp, ?_⟩
  · simp [ht]
  · simp only [ht, hp]
    have hn : ∀ b : Bool, (if b then (x.fields.map (Field.mapTy (Ty.simplify c.language))).map (Field.mapTy (Ty.manglePaths find)) |>.map (Field.mapTy (Ty.resolve tag))
        else (x.fields.map (Field.mapTy (Ty.simplify c.language))).map (Field.mapTy (Ty.manglePaths find))).map Field.name = x.fields.map Field.name := by
      intro b
      cases b <;> simp [Field.mapTy, Function.comp_def]
    rw [hn]
    congr 1
    rw [← mapTys_end hc x.fields]
    generalize (if c.generateTag then _ else _ : List Field) = fs
    cases fs <;> rfl

theorem final_union (hc : c.language = .c) {x : UnionItem} {z : Container} (hp : x.genericParams = [])
    (h : (Container.union x).final c find tag = some z) : ∃ x' rule, z = .union x' ∧ x.annotations.ruleOr c.renameFields = some rule ∧
      x'.path = x.path ∧ x'.exportName = c.ren x.exportName ∧ x'.cfg = x.cfg ∧ x'.annotations = x.annotations ∧
      x'.alignment = x.alignment ∧ x'.genericParams = [] ∧
      x'.fields = setFieldNames (x.fields.map (Field.mapTy (endTy c find tag)))
        (unionFieldNames c.caseFns (x.annotations.list c!"field-names") rule x.tupleUnion (x.fields.map Field.name)) := by
  have hg : (if c.generateTag then (((Container.union x).mapTys (Ty.simplify c.language)).mapTys (Ty.manglePaths find)).mapTys (Ty.resolve tag)
      else ((Container.union x).mapTys (Ty.simplify c.language)).mapTys (Ty.manglePaths find)) =
      .union { x with fields := (if c.generateTag then (x.fields.map (Field.mapTy (Ty.simplify c.language))).map (Field.mapTy (Ty.manglePaths find)) |>.map (Field.mapTy (Ty.resolve tag))
        else (x.fields.map (Field.mapTy (Ty.simplify c.language))).map (Field.mapTy (Ty.manglePaths find))) } := by
    cases c.generateTag <;> rfl
  simp only [Container.final, hg, Container.renameFor, UnionItem.renameFor, Option.map_map, Option.map_eq_some_iff] at h
  obtain ⟨rule, hr, rfl⟩ := h
  refine ⟨_, rule, rfl, hr, rfl, rfl, rfl, rfl, rfl, hp, ?_⟩
  simp only [hp]
  have hn : ∀ b : Bool, (if b then (x.fields.map (Field.mapTy (Ty.simplify c.language))).map (Field.mapTy (Ty.manglePaths find)) |>.map (Field.mapTy (Ty.resolve tag))
      else (x.fields.map (Field.mapTy (Ty.simplify c.language))).map (Field.mapTy (Ty.manglePaths find))).map Field.name = x.fields.map Field.name := by
    intro b
    cases b <;> simp [Field.mapTy, Function.comp_def]
  rw [hn]
  congr 1
  exact mapTys_end hc x.fields

theorem final_alias (hc : c.language = .c) {x : TypedefItem} {z : Container} (hp : x.genericParams = [])
    (h : (Container.typedef x).final c find tag = some z) :
    z = .typedef { x with exportName := c.ren x.exportName, aliased := endTy c find tag x.aliased } := by
  have hg : (if c.generateTag then (((Container.typedef x).mapTys (Ty.simplify c.language)).mapTys (Ty.manglePaths find)).mapTys (Ty.resolve tag)
      else ((Container.typedef x).mapTys (Ty.simplify c.language)).mapTys (Ty.manglePaths find)) =
      .typedef { x with aliased := (if c.generateTag then Ty.resolve tag else id) ((x.aliased.simplify .c).manglePaths find) } := by
    rw [hc]
    cases c.generateTag <;> rfl
  simp only [Container.final, hg, Container.renameFor, Option.some.injEq] at h
  rw [← h]
  simp only [TypedefItem.renameFor, hp]
  rfl

theorem notParam (n : Str) : ¬ LibSpec.IsParam [] n := by rintro ⟨p, hp, _⟩; simp at hp

/-- A definition in the bindings uses what its types use. -/
theorem final_uses (hc : c.language = .c) {x z : Container} (hp : x.params = []) (ht : x.NoTag)
    (h : x.final c find tag = some z) {ty : Ty} (hty : ty ∈ x.ownTys) (hcl : (ty.simplify .c).Clean) {n : Str}
    (hu : LibSpec.TyUses (ty.simplify .c) n) : LibSpec.ItemUses z n := by
  have hend : LibSpec.TyUses (endTy c find tag ty) n := end_uses hcl hu
  cases x with
  | struct x =>
    obtain ⟨x', rule, rfl, _, _, _, _, _, _, _, h1, h2, h3⟩ := final_struct hc ht hp h
    have : endTy c find tag ty ∈ x'.fields.map Field.ty := by
      rw [h3, setFieldNames_tys]
      obtain ⟨f, hf, rfl⟩ := List.mem_map.1 hty
      exact List.mem_map.2 ⟨_, List.mem_map.2 ⟨f, hf, rfl⟩, rfl⟩
    obtain ⟨g, hg, e⟩ := List.mem_map.1 this
    refine Or.inl ⟨g, ?_, by rw [e]; exact hend, by rw [h2]; exact notParam n⟩
    rw [h1]
    exact hg
  | union x =>
    obtain ⟨x', rule, rfl, _, _, _, _, _, _, h2, h3⟩ := final_union hc hp h
    have : endTy c find tag ty ∈ x'.fields.map Field.ty := by
      rw [h3, setFieldNames_tys]
      obtain ⟨f, hf, rfl⟩ := List.mem_map.1 hty
      exact List.mem_map.2 ⟨_, List.mem_map.2 ⟨f, hf, rfl⟩, rfl⟩
    obtain ⟨g, hg, e⟩ := List.mem_map.1 this
    exact ⟨g, hg, by rw [e]; exact hend, by rw [h2]; exact notParam n⟩
  | typedef x =>
    have := final_alias hc hp h
    subst this
    simp only [Container.ownTys, List.mem_singleton] at hty
    subst hty
    exact ⟨hend, by rw [show x.genericParams = [] from hp]; exact notParam n⟩
  | enum x =>
    obtain ⟨x', rule, rfl, _, _, _, _, _, _, _, h8⟩ := final_enum hc h
    obtain ⟨v, hv, hty⟩ := List.mem_flatMap.1 hty
    obtain ⟨w, hw, he⟩ := h8.mem hv
    obtain ⟨n', b, i, ic, e, hgp, f, hf, hfe⟩ := body_end_tys he (by
      have := ht v hv
      unfold EnumItem.innerTag
      by_cases h9 : x.tag.isSome ∧ x.repr.style = .rust
      · rw [if_pos h9]
        simpa [h9.1, h9.2] using this
      · rw [if_neg h9]
        have h10 : (x.tag.isSome && decide (x.repr.style = .rust)) = false := by simpa using h9
        rwa [h10] at this) hty
    exact ⟨w, hw, Or.inl ⟨n', b, i, ic, e, Or.inl ⟨f, hf, by rw [hfe]; exact hend, by rw [hgp]; exact notParam n⟩⟩⟩
  | «opaque» x => simp [Container.ownTys] at hty

end

/-! ## Both stages -/

/-- A run of both stages for C; aliases have no annotations. -/
structure Stages (pc : ParseConfig) (lc : LoadConfig) (fuel fuel' : Nat) (i : Inputs) (c : LibConfig)
    (order : List (Str × Annotations) → List (Str × Annotations)) (l l₁ : Library) (b : Bindings) : Prop where
  built : buildLibrary pc lc fuel i = .ok l
  plain : InputsPlain i
  onePath : OnePath pc i
  language : c.language = .c
  ordered : order [] = []
  bare : ∀ s cs a, SrcSpec.Given pc i (.alias s) cs → Annotations.load s.attrs = .ok a → a.isEmpty = true
  generated : l.generate c order fuel' = .ok b
  expanded : (((l.transferAnnotations order).simplify c).sortFunctions c).expand c fuel' = .ok l₁

section
variable {pc : ParseConfig} {lc : LoadConfig} {fuel fuel' : Nat} {i : Inputs} {c : LibConfig}
  {order : List (Str × Annotations) → List (Str × Annotations)} {l l₁ l' : Library} {b : Bindings}

theorem std_names : ∀ s ∈ stdTypes, s.1 ∈ stdNames := by decide

theorem known_names : ∀ s ∈ stdTypes, s.1 ∈ MainSpec.knownTypes := by decide

theorem alias_annotations {s : SynAlias} {m : Option Cfg} {x : TypedefItem} (h : s.load m = .ok x) :
    Annotations.load s.attrs = .ok x.annotations := by
  simp only [SynAlias.load, bind, Except.bind] at h
  split at h
  · cases h
  split at h
  · cases h
  split at h
  · cases h
  split at h
  · cases h
  rename_i a ha
  cases h
  exact ha

theorem loadedAs_typedef {r : LoadM Container} {o : LoadM OpaqueItem} {x : TypedefItem} (h : loadedAs r o = some (.typedef x)) :
    r = .ok (.typedef x) := by
  unfold loadedAs at h
  split at h
  · cases h; rfl
  · split at h <;> cases h
  · cases h

theorem container_typedef {t : Taken} {m : Option Cfg} {x : TypedefItem} (h : Taken.container lc (t, m) = some (.typedef x)) :
    ∃ s, t = .alias s ∧ s.load m = .ok x := by
  cases t with
  | alias s =>
    obtain ⟨y, hy, e⟩ := map_ok (loadedAs_typedef h)
    cases e
    exact ⟨s, rfl, hy⟩
  | struct s =>
    obtain ⟨y, hy, e⟩ := map_ok (loadedAs_typedef h)
    cases e
  | union s =>
    obtain ⟨y, hy, e⟩ := map_ok (loadedAs_typedef h)
    cases e
  | enum s =>
    obtain ⟨y, hy, e⟩ := map_ok (loadedAs_typedef h)
    cases e
  | bitflags b =>
    simp only [Taken.container, Option.bind_eq_some_iff] at h
    obtain ⟨s, hs, h⟩ := h
    obtain ⟨y, hy, e⟩ := map_ok (loadedAs_typedef h)
    cases e
  | fn => cases h
  | const => cases h
  | static => cases h
  | assoc => cases h

/-- Nothing is moved from aliases to other definitions. -/
theorem Stages.transfer (h : Stages pc lc fuel fuel' i c order l l₁ b) : l.transferAnnotations order = l := by
  refine transfer_none h.ordered fun x hx => ?_
  rcases (build_types h.built h.plain h.onePath).2.1 (.typedef x) (mem_types.2 (by simp [hx])) with
    ⟨t, m, cs, y, h1, _, h2, h3⟩ | ⟨_, _, _, e⟩
  · cases h3
    obtain ⟨s, rfl, hs⟩ := container_typedef h2
    exact h.bare s cs _ h1 (alias_annotations hs)
  · cases e

/-- A definition that nothing else takes the place of is in the tables, and all of its name are of its kind. -/
theorem sole_found (h : Stages pc lc fuel fuel' i c order l l₁ b) {t : Taken} {cs : List Cfg} {n : Str} (hS : Sole pc lc i c t cs n) :
    ∃ m y x, ParserSpec.GuardIs (Taken.guard (t, m)) cs ∧ Taken.container lc (t, m) = some y ∧ y.Alike x ∧ LoadedAs t m x ∧
      x ∈ l.types ∧ x.path = n ∧ ∀ z ∈ l.types, z.path = n → z.type = x.type := by
  obtain ⟨_, hsound, hall⟩ := build_types h.built h.plain h.onePath
  have hkind : ∀ z ∈ l.types, z.path = n → kindOf t = some z.type := by
    intro z hz hzn
    rcases hsound z hz with ⟨t', m', cs', y', h1, h2, h3, h4⟩ | ⟨_, s, hs, rfl⟩
    · have hn' : typeName t' = some n := by rw [container_name h3, ← h4.same.1, hzn]
      rcases hS.others t' cs' h1 hn' with ⟨rfl, rfl⟩ | ⟨hd, hk, _, _⟩
      · obtain ⟨y, hy, hL⟩ := declarable_container hS.declarable m'
        rw [h3] at hy
        cases hy
        rw [hL.kind, h4.same.2]
      · obtain ⟨y, hy, hL⟩ := declarable_container hd m'
        rw [h3] at hy
        cases hy
        rw [← hk, hL.kind, h4.same.2]
    · exact absurd (hzn ▸ std_names s hs) hS.std
  have hex : ∃ m y x, ParserSpec.GuardIs (Taken.guard (t, m)) cs ∧ Taken.container lc (t, m) = some y ∧ y.Alike x ∧ x ∈ l.types := by
    obtain ⟨m, hg, ha⟩ := hall t cs hS.given
    obtain ⟨y, hy, hL⟩ := declarable_container hS.declarable m
    have hyn : y.path = n := by
      have := container_name hy
      rw [hS.name] at this
      exact (Option.some.inj this).symm
    by_cases hcf : CanFail cs
    · obtain ⟨x, hx, e⟩ := (ha y hy).2 (by
        intro t' m' cs' y' h1 h2 h3 h4 h5
        have hn' : typeName t' = some n := by rw [container_name h3, h4, hyn]
        rcases hS.others t' cs' h1 hn' with ⟨rfl, rfl⟩ | ⟨hd, hk, hcf', _⟩
        · obtain ⟨w, hw, hL'⟩ := declarable_container hS.declarable m'
          rw [h3] at hw
          cases hw
          rw [hL'.cfg]
          exact canFail_some h2 hcf
        · obtain ⟨w, hw, hL'⟩ := declarable_container hd m'
          rw [h3] at hw
          cases hw
          rw [hL'.cfg]
          exact canFail_some h2 hcf') (fun _ s hs e => hS.std (by rw [← hyn, e]; exact std_names s hs))
      exact ⟨m, y, x, hg, hy, e, hx⟩
    · obtain ⟨x, hx, hxp, _⟩ := (ha y hy).1
      rcases hsound x hx with ⟨t', m', cs', y', h1, h2, h3, h4⟩ | ⟨_, s, hs, rfl⟩
      · have hn' : typeName t' = some n := by rw [container_name h3, ← h4.same.1, hxp, hyn]
        rcases hS.others t' cs' h1 hn' with ⟨rfl, rfl⟩ | ⟨_, _, _, hcf'⟩
        · exact ⟨m', y', x, h2, h3, h4, hx⟩
        · exact absurd hcf' hcf
      · exact absurd (by rw [← hyn, ← hxp]; exact std_names s hs) hS.std
  obtain ⟨m, y, x, hg, hy, e, hx⟩ := hex
  obtain ⟨w, hw, hL⟩ := declarable_container hS.declarable m
  rw [hy] at hw
  cases hw
  have hxn : x.path = n := by
    have := container_name hy
    rw [hS.name] at this
    rw [e.same.1]
    exact (Option.some.inj this).symm
  refine ⟨m, y, x, hg, hy, e, hL.alike e, hx, hxn, fun z hz hzn => ?_⟩
  have h1 := hkind z hz hzn
  rw [hkind x hx hxn] at h1
  exact (Option.some.inj h1).symm

/-- It is also in the tables that the bindings are collected from. -/
theorem sole_prepared (h : Stages pc lc fuel fuel' i c order l l₁ b) (hl' : l.prepare c order fuel' = .ok l')
    {t : Taken} {cs : List Cfg} {n : Str} (hS : Sole pc lc i c t cs n) :
    ∃ find m y x z its, ParserSpec.GuardIs (Taken.guard (t, m)) cs ∧ Taken.container lc (t, m) = some y ∧ y.Alike x ∧ LoadedAs t m x ∧
      x.final c find (Resolver.typeFor (l₁.removeExcluded c).resolver) = some z ∧ z.path = n ∧
      l'.getItems c n = some its ∧ z ∈ its := by
  obtain ⟨m, y, x, h1, h2, h3, h4, h5, h6, h7⟩ := sole_found h hS
  obtain ⟨find, h8, h9⟩ := types_final h.language (build_types h.built h.plain h.onePath).1 h.transfer hl' h.expanded
  obtain ⟨z, hz, hf⟩ := h9 x h5 h4.params (by rw [h6]; exact hS.kept)
  obtain ⟨k1, k2⟩ := Container.final_keeps hf
  have hzn : z.path = n := k1.trans h6
  obtain ⟨its, h10, h11⟩ := getItems_own (c := c) (Library.prepare_wf hl') hz (by
    intro w hw e
    rcases h8 w hw with ⟨x', hx', _, _, hf'⟩ | ⟨q, vs, hvs, e'⟩
    · obtain ⟨j1, j2⟩ := Container.final_keeps hf'
      rw [j2, k2]
      exact h7 x' hx' (by rw [← j1, e, hzn])
    · exact absurd (by rw [← e', e, hzn]) (hS.instances q vs hvs)) (by
    rw [k2]
    exact hS.wanted _ h4.kind)
  exact ⟨find, m, y, x, z, its, h1, h2, h3, h4, hf, hzn, by rw [← hzn]; exact h10, h11⟩

theorem func_final_uses (hc : c.language = .c) {find : Ty → Option Str} {tag : Str → Option DeclKind} {f f' : FuncItem}
    (h : f.final c find tag = some f') (ha : f.annotations.list c!"ptrs-as-arrays" = none)
    (h1 : (f.ret.simplify .c).Clean) (h2 : ∀ a ∈ f.args, (a.ty.simplify .c).Clean) {x : Str}
    (hu : LibSpec.TyUses (f.ret.simplify .c) x ∨ ∃ a ∈ f.args, LibSpec.TyUses (a.ty.simplify .c) x) : LibSpec.FuncUses f' x := by
  have hg : (if c.generateTag then ((f.mapTys (Ty.simplify c.language)).mapTys (Ty.manglePaths find)).mapTys (Ty.resolve tag)
      else (f.mapTys (Ty.simplify c.language)).mapTys (Ty.manglePaths find)) =
      f.mapTys (fun t => (if c.generateTag then Ty.resolve tag else id) ((t.simplify .c).manglePaths find)) := by
    rw [hc]
    cases c.generateTag <;> simp [FuncItem.mapTys, FnArg.mapTy, Function.comp_def]
  simp only [FuncItem.final, hg] at h
  unfold FuncItem.renameFor at h
  simp only [FuncItem.mapTys, ha, Option.bind_eq_bind, renameArgs, Option.pure_def, Option.bind_eq_some_iff, Option.some.injEq] at h
  obtain ⟨rule, _, _, rfl, rfl⟩ := h
  rcases hu with hu | ⟨a, haa, hu⟩
  · exact Or.inl (end_uses h1 hu)
  · exact Or.inr ⟨_, List.mem_map.2 ⟨_, List.mem_map.2 ⟨a, haa, rfl⟩, rfl⟩, end_uses (h2 a haa) hu⟩

theorem static_uses (hc : c.language = .c) {tag : Str → Option DeclKind} {g : StaticItem} (h1 : (g.ty.simplify .c).Clean) {x : Str}
    (hu : LibSpec.TyUses (g.ty.simplify .c) x) : LibSpec.TyUses (g.final c tag).ty x := by
  have := end_uses (c := c) (find := fun _ => none) (tag := tag) h1 hu
  rw [clean_mangle _ _ h1] at this
  rw [StaticItem.final_ty hc]
  exact this

/-- What is needed and known is reached. -/
theorem needed_reached (h : Stages pc lc fuel fuel' i c order l l₁ b) (hl' : l.prepare c order fuel' = .ok l')
    {n : Str} (hN : Needed pc lc i c n) : n ∉ stdNames → (l'.getItems c n).isSome = true →
    ∃ r, LibSpec.Root c.export_.inc l' r ∧ LibSpec.Known c l' r ∧ LibSpec.Reaches (l'.getItems c) r n := by
  induction hN with
  | asked hn =>
    intro _ hk
    exact ⟨_, Or.inr (Or.inr (Or.inr hn)), (C11_known c l' _).1 hk, .refl _⟩
  | @function path owner ext sf cs a E T n hgiven hex ha harr ho hT hm =>
    intro hstd hk
    obtain ⟨d, he⟩ := EnvFor.any E
    obtain ⟨rs, hrs, hmem⟩ := mem_functions h.built
    obtain ⟨r, hr1, m, hr2, _⟩ := hrs.complete h.plain h.onePath hgiven
    obtain ⟨f, hf, hf1, _, _, hf4, _, hf5⟩ := cfn_ok he hT ha path ext m
    rw [ho] at hf
    have hfl := (hmem f).2 ⟨r, hr1, path, owner, ext, sf, m, hr2, hf⟩
    obtain ⟨find, h1, h2⟩ := functions_prepared h.language hl' h.expanded
    obtain ⟨f', hf'⟩ := h2 f hfl (by rw [hf1]; exact hex)
    have hfb := (h1 f').2 ⟨f, hfl, by rw [hf1]; exact hex, hf'⟩
    refine ⟨n, Or.inl ⟨f', hfb, ?_⟩, (C11_known c l' _).1 hk, .refl _⟩
    exact func_final_uses h.language hf' (by rw [hf4]; exact harr) hf5.ret hf5.args (sig_uses hstd hm hf)
  | @variable_ path s cs a E u n hS hex ha ho hu hm =>
    intro hstd hk
    obtain ⟨d, he⟩ := EnvFor.any E
    obtain ⟨ty, k1, k2⟩ := ctype_ok he hu
    obtain ⟨x, m, hx, _, hx2⟩ := statics_complete h.built h.plain h.onePath hS (static_load_ok k1 ha path)
    obtain ⟨j1, _, _, _, _, j6⟩ := static_load_keeps hx2
    rw [k1] at j6
    cases j6
    have hg := (globals_prepared h.language hl' h.expanded (build_types h.built h.plain h.onePath).1.globals _).2
      ⟨x, hx, by rw [j1]; exact hex, rfl⟩
    refine ⟨n, Or.inr (Or.inl ⟨_, hg, ?_⟩), (C11_known c l' _).1 hk, .refl _⟩
    obtain ⟨ty', hty', hu'⟩ := mentions_uses hstd hm _ k1
    cases hty'
    have hcl : (x.ty.shape E.owner).Clean := k2.clean
    rw [ho] at hcl
    exact static_uses h.language hcl hu'
  | @definition t cs m n hS _ hdm ih =>
    intro hstd hk
    obtain ⟨find, md, y, x, z, its, _, _, _, h4, h5, h6, h7, h8⟩ := sole_prepared h hl' hS
    obtain ⟨r, hr1, hr2, hr3⟩ := ih hS.std (by rw [h7]; rfl)
    obtain ⟨ty, hty, hu⟩ := h4.uses n hstd hdm
    exact ⟨r, hr1, hr2, .step hr3 h7 h8 (final_uses h.language h4.params h4.tag h5 hty (h4.clean ty hty) hu) hk⟩

/-- The definition `t` named `n` is in the bindings. -/
def InItems (lc : LoadConfig) (c : LibConfig) (l₁ : Library) (b : Bindings) (t : Taken) (cs : List Cfg) (n : Str) : Prop :=
  ∃ find m y x z, ParserSpec.GuardIs (Taken.guard (t, m)) cs ∧ Taken.container lc (t, m) = some y ∧ y.Alike x ∧ LoadedAs t m x ∧
    x.final c find (Resolver.typeFor (l₁.removeExcluded c).resolver) = some z ∧ z.path = n ∧ z ∈ b.items

/-- A definition that is reached and that nothing else takes the place of is in the bindings. -/
theorem reached_items (h : Stages pc lc fuel fuel' i c order l l₁ b) {t : Taken} {cs : List Cfg} {n : Str}
    (hS : Sole pc lc i c t cs n) (hN : ∀ l', l.prepare c order fuel' = .ok l' → (l'.getItems c n).isSome = true →
      ∃ r, LibSpec.Root c.export_.inc l' r ∧ LibSpec.Known c l' r ∧ LibSpec.Reaches (l'.getItems c) r n) :
    InItems lc c l₁ b t cs n := by
  obtain ⟨l', hl', hb⟩ := C11_generate h.generated
  obtain ⟨find, m, y, x, z, its, h1, h2, h3, h4, h5, h6, h7, h8⟩ := sole_prepared h hl' hS
  refine ⟨find, m, y, x, z, h1, h2, h3, h4, h5, h6, (hb z).2 ⟨⟨its, by rw [h6]; exact h7, h8⟩, ?_⟩⟩
  rw [h6]
  exact hN l' hl' (by rw [h7]; rfl)

/-- A definition that is needed and that nothing else takes the place of is in the bindings. -/
theorem sole_items (h : Stages pc lc fuel fuel' i c order l l₁ b) {t : Taken} {cs : List Cfg} {n : Str}
    (hS : Sole pc lc i c t cs n) (hN : Needed pc lc i c n) : InItems lc c l₁ b t cs n :=
  reached_items h hS fun _ hl' hk => needed_reached h hl' hN hS.std hk

end

end Cbindgen
