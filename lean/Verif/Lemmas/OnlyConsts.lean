import Verif.Spec.OnlyConsts
import Verif.Lemmas.OnlyTypes
import Verif.Lemmas.SourceConsts

/-!
# Where the constants of structs come from (C84)
-/

namespace Cbindgen
open ItemMap

/-- The constants of a struct satisfy `P` and belong to the struct; the structs of variants have none. -/
def constsBefore (P : ConstItem → Prop) : ItemPred where
  const _ := True
  static _ := True
  enum x := ∀ b ∈ x.bodies, b.assocConsts = [] ∧ b.exportName = b.path
  struct x := x.exportName = x.path ∧ ∀ k ∈ x.assocConsts, P k ∧ k.associatedTo = some x.path
  union _ := True
  «opaque» _ := True
  typedef _ := True
  func _ := True

/-- The same after renaming. -/
def constsAfter (P : ConstItem → Prop) (c : LibConfig) : ItemPred where
  const _ := True
  static _ := True
  enum x := ∀ b ∈ x.bodies, b.assocConsts = []
  struct x := (c.language ≠ .cxx → x.exportName = c.ren x.path) ∧
    ∀ k ∈ x.assocConsts, ∃ k₀, P k₀ ∧ k₀.associatedTo = some x.path ∧ k = k₀.renameFor c
  union _ := True
  «opaque» _ := True
  typedef _ := True
  func _ := True

/-! ## Loading -/

theorem mem_mapItemsAt {α : Type} [Item α] {f : α → α} {p : Str} : ∀ {m : ItemMap α}, (∀ kv ∈ m, WFValue kv.1 kv.2) →
    ∀ {y : α}, y ∈ (m.mapItemsAt p f).toVec → y ∈ m.toVec ∨ ∃ x ∈ m.toVec, Item.path x = p ∧ y = f x
  | [], _, y, h => by simp [mapItemsAt, toVec] at h
  | (k, v) :: m, hw, y, h => by
    simp only [mapItemsAt] at h
    split at h
    · rename_i hk
      subst hk
      rw [toVec_cons] at h
      rw [toVec_cons]
      rcases List.mem_append.1 h with h | h
      · right
        have hv := hw (k, v) (by simp)
        cases v with
        | cfg xs =>
          obtain ⟨x, hx, rfl⟩ := List.mem_map.1 h
          exact ⟨x, List.mem_append.2 (Or.inl hx), (hv.2 x hx).1, rfl⟩
        | single x =>
          simp only [mapValue, ItemValue.items, List.mem_singleton] at h
          exact ⟨x, List.mem_append.2 (Or.inl (by simp [ItemValue.items])), hv.1, h⟩
      · exact Or.inl (List.mem_append.2 (Or.inr h))
    · rw [toVec_cons] at h
      rw [toVec_cons]
      rcases List.mem_append.1 h with h | h
      · exact Or.inl (List.mem_append.2 (Or.inl h))
      · rcases mem_mapItemsAt (fun kv hkv => hw kv (by simp [hkv])) h with h | ⟨x, hx, e⟩
        · exact Or.inl (List.mem_append.2 (Or.inr h))
        · exact Or.inr ⟨x, List.mem_append.2 (Or.inr hx), e⟩

section
variable {P : ConstItem → Prop} {c : LoadConfig} {l l' : Library}

theorem consts_addOpaque {i : Str} {gs : List SynGenericParam} {as : List SAttr} {m : Option Cfg}
    (hl : l.Every (constsBefore P)) (h : l.addOpaque i gs as m = some l') : l'.Every (constsBefore P) := by
  unfold Library.addOpaque at h
  split at h
  · cases h
    exact { hl with opaqueItems := fun _ _ => trivial }
  · cases h

theorem struct_load_consts {s : SynStruct} {m : Option Cfg} {x : StructItem} (h : s.load c m = .ok x) :
    x.exportName = x.path ∧ x.assocConsts = [] := by
  simp only [SynStruct.load, bind, Except.bind] at h
  split at h
  · cases h
  split at h
  · cases h
  split at h
  · cases h
  split at h
  · cases h
  split at h
  · cases h
  split at h
  · cases h
  cases h
  exact ⟨rfl, rfl⟩

theorem consts_loadStruct {s : SynStruct} {m : Option Cfg} (hl : l.Every (constsBefore P)) (h : l.loadStruct c m s = some l') :
    l'.Every (constsBefore P) := by
  unfold Library.loadStruct at h
  split at h
  · rename_i x hx
    cases h
    obtain ⟨h1, h2⟩ := struct_load_consts hx
    exact { hl with structs := every_tryInsert (P := (constsBefore P).struct) ⟨h1, fun k hk => by rw [h2] at hk; cases hk⟩ _ hl.structs }
  · exact consts_addOpaque hl h
  · cases h

theorem consts_loadAssoc {p : Str} {s : SynConst} {m : Option Cfg} (hw : l.WF)
    (hP : ∀ k, loadConstant c.fieldOrder (unraw s.ident ++ p) m s.ty s.expr s.attrs (some p) = .ok k → P k)
    (hl : l.Every (constsBefore P)) (h : l.loadAssocConst c m p s = some l') : l'.Every (constsBefore P) := by
  unfold Library.loadAssocConst at h
  split at h
  · rename_i k hk
    split at h
    · cases h
      exact { hl with constants := fun _ _ => trivial }
    · cases h
      refine { hl with structs := ?_ }
      intro y hy
      rcases mem_mapItemsAt hw.structs.2 hy with hy | ⟨x, hx, hp, rfl⟩
      · exact hl.structs y hy
      · obtain ⟨h1, h2⟩ := hl.structs x hx
        refine ⟨h1, fun k' hk' => ?_⟩
        rcases List.mem_append.1 hk' with hk' | hk'
        · exact h2 k' hk'
        · obtain rfl := List.mem_singleton.1 hk'
          refine ⟨hP _ hk, ?_⟩
          rw [(const_load_keeps hk).2.2.1, ← hp]
          rfl
  · cases h; exact hl
  · cases h

theorem assoc_wf {p : Str} {s : SynConst} {m : Option Cfg} (hw : l.WF) (h : l.loadAssocConst c m p s = some l') : l'.WF := by
  have : Taken.load c l (.assoc p s, m) = some l' := h
  exact (load_step hw this).wf

theorem consts_loadAssocs {p : Str} {m : Option Cfg} : ∀ {ks : List SynConst} {l l' : Library}, l.WF →
    (∀ s ∈ ks, ∀ k, loadConstant c.fieldOrder (unraw s.ident ++ p) m s.ty s.expr s.attrs (some p) = .ok k → P k) →
    l.Every (constsBefore P) → loadAll (fun l k => l.loadAssocConst c m p k) l ks = some l' → l'.Every (constsBefore P)
  | [], l, l', _, _, hl, h => by cases h; exact hl
  | s :: ks, l, l', hw, hP, hl, h => by
    simp only [loadAll] at h
    split at h
    · rename_i l₁ h1
      exact consts_loadAssocs (assoc_wf hw h1) (fun s hs => hP s (by simp [hs])) (consts_loadAssoc hw (hP s (by simp)) hl h1) h
    · cases h

theorem enum_load_consts {s : SynEnum} {m : Option Cfg} {x : EnumItem} (h : s.load c m = .ok x) :
    ∀ b ∈ x.bodies, b.assocConsts = [] ∧ b.exportName = b.path := by
  simp only [SynEnum.load, bind, Except.bind] at h
  split at h
  · cases h
  split at h
  · cases h
  split at h
  · cases h
  split at h
  · cases h
  split at h
  · cases h
  rename_i vs hvs
  cases h
  intro b hb
  obtain ⟨w, hw, n, i, ic, e⟩ := mem_bodies.1 hb
  simp only [List.mem_append] at hw
  rcases hw with (hw | hw) | hw
  · obtain ⟨v, hv, h⟩ := tryMap_mem hvs w hw
    refine ⟨?_, (loadVariant_ids h e).2.2⟩
    simp only [SynVariant.load, bind, Except.bind] at h
    split at h
    · cases h
    split at h
    · cases h
    split at h
    · cases h
    split at h
    · cases h
    rename_i hb'
    cases h
    simp only [EnumVariant.new] at e
    rw [e] at hb'
    generalize v.fields = fs at hb'
    cases fs with
    | unit => cases hb'
    | named fs =>
      simp only [SynFields.loadBody, variantBody, bind, Except.bind] at hb'
      split at hb'
      · cases hb'
      · cases hb'; rfl
    | unnamed fs =>
      simp only [SynFields.loadBody, variantBody, bind, Except.bind] at hb'
      split at hb'
      · cases hb'
      · cases hb'; rfl
  · obtain ⟨t, _, rfl⟩ := List.mem_map.1 hw
    cases e
  · split at hw
    · rw [List.mem_singleton.1 hw] at e
      cases e
    · cases hw

theorem consts_loadOne {x : Taken × Option Cfg} (hw : l.WF) (hP : ∀ k, ConstFrom c.fieldOrder x k → P k)
    (hl : l.Every (constsBefore P)) (h : Taken.load c l x = some l') : l'.Every (constsBefore P) := by
  obtain ⟨t, m⟩ := x
  cases t with
  | fn path owner ext f =>
    simp only [Taken.load, Library.loadFn] at h
    split at h
    · cases h; exact { hl with functions := fun _ _ => trivial }
    · cases h; exact hl
    · cases h
  | const k =>
    simp only [Taken.load, Library.loadConst] at h
    split at h
    · cases h; exact { hl with constants := fun _ _ => trivial }
    · cases h; exact hl
    · cases h
  | static p s =>
    simp only [Taken.load, Library.loadStatic] at h
    split at h
    · cases h; exact { hl with globals := fun _ _ => trivial }
    · cases h; exact hl
    · cases h
  | struct s => exact consts_loadStruct hl h
  | union s =>
    simp only [Taken.load, Library.loadUnion] at h
    split at h
    · cases h; exact { hl with unions := fun _ _ => trivial }
    · exact consts_addOpaque hl h
    · cases h
  | enum s =>
    simp only [Taken.load, Library.loadEnum] at h
    split at h
    · rename_i x hx
      cases h
      exact { hl with enums := every_tryInsert (P := (constsBefore P).enum) (enum_load_consts hx) _ hl.enums }
    · exact consts_addOpaque hl h
    · cases h
  | alias s =>
    simp only [Taken.load, Library.loadAlias] at h
    split at h
    · cases h; exact { hl with typedefs := fun _ _ => trivial }
    · exact consts_addOpaque hl h
    · cases h
  | bitflags b =>
    simp only [Taken.load, Library.loadBitflags] at h
    split at h
    · cases h
    rename_i l₁ h1
    have h2 : l₁.Every (constsBefore P) ∧ l₁.WF := by
      cases hs : b.structItem with
      | none => rw [hs] at h1; cases h1; exact ⟨hl, hw⟩
      | some s =>
        rw [hs] at h1
        have h1' : Taken.load c l (.struct s, m) = some l₁ := h1
        exact ⟨consts_loadStruct hl h1, (load_step hw h1').wf⟩
    have h3 : (l₁.markFlags (unraw b.name)).Every (constsBefore P) :=
      { h2.1 with structs := every_mapItemsAt (P := (constsBefore P).struct) (f := fun s =>
        { s with annotations := s.annotations.addDefault c!"internal-derive-bitflags" (.bool true) }) (fun x hx => hx) _ _ h2.1.structs }
    have h4 : (l₁.markFlags (unraw b.name)).WF := (Step.change h2.2 _ fun x => .struct (.flag _ _)).wf
    unfold Library.loadAssocs at h
    split at h
    · cases h; exact h3
    · rename_i r hr
      refine consts_loadAssocs h4 (fun s hs k hk => hP k ?_) h3 h
      have hs := mem_takenConsts hs
      unfold SynBitflags.consts at hs
      rw [List.mem_map] at hs
      obtain ⟨f, hf, rfl⟩ := hs
      rw [implRoot_path hr] at hk
      exact .flag (List.mem_filter.1 hf).1 rfl rfl hk
  | assoc r k => exact consts_loadAssoc hw (fun x hx => hP x (.assoc hx)) hl h

theorem consts_loadTaken : ∀ {ts : List (Taken × Option Cfg)} {l l' : Library}, l.WF → (∀ t ∈ ts, ∀ k, ConstFrom c.fieldOrder t k → P k) →
    l.Every (constsBefore P) → loadTaken c l ts = some l' → l'.Every (constsBefore P)
  | [], l, l', _, _, hl, h => by cases h; exact hl
  | t :: ts, l, l', hw, hP, hl, h => by
    simp only [loadTaken, loadAll] at h
    split at h
    · rename_i l₁ h1
      exact consts_loadTaken (load_step hw h1).wf (fun t ht => hP t (by simp [ht])) (consts_loadOne hw (hP t (by simp)) hl h1) h
    · cases h

end

/-- A constant of the sources, as it is loaded. -/
def FromSource (pc : ParseConfig) (i : Inputs) (ord : List LitField → List LitField) (k : ConstItem) : Prop :=
  ∃ t m cs, SrcSpec.Given pc i t cs ∧ ParserSpec.GuardIs (Taken.guard (t, m)) cs ∧ ConstFrom ord (t, m) k

/-- The constants of the structs are those of the sources. -/
theorem assocs_sound {pc : ParseConfig} {c : LoadConfig} {fuel : Nat} {i : Inputs} {l : Library}
    (h : buildLibrary pc c fuel i = .ok l) (hp : SrcSpec.InputsPlain i) : l.Every (constsBefore (FromSource pc i c.fieldOrder)) := by
  obtain ⟨rs, rfl, hr⟩ := build_runs h
  refine every_extendAll ?_ fun r hr1 => ?_
  · cases i.stdTypes with
    | false => exact every_nil
    | true => exact { every_nil with opaqueItems := fun _ _ => trivial }
  · refine consts_loadTaken empty_wf (fun ⟨t, m⟩ ht k hk => ?_) every_nil (hr.loaded r hr1)
    obtain ⟨cs, h2, h3⟩ := hr.sound hp hr1 ht
    exact ⟨t, m, cs, h2, h3, hk⟩

/-! ## The library stage -/

theorem constsBefore_annotations (P : ConstItem → Prop) : (constsBefore P).IgnoresAnnotations where
  enum _ _ h := h
  struct _ _ h := h
  union _ _ h := h
  «opaque» _ _ h := h
  typedef _ _ h := h

theorem constsBefore_mapTys (P : ConstItem → Prop) (g : Ty → Ty) : (constsBefore P).MapTys (constsBefore P) g where
  const _ h := h
  static _ h := h
  enum x h := by
    intro b hb
    obtain ⟨v, hv, n, i, ic, e⟩ := mem_bodies.1 hb
    obtain ⟨w, hw, rfl⟩ := List.mem_map.1 hv
    simp only [EnumVariant.mapTys] at e
    cases hwb : w.body with
    | empty a => rw [hwb] at e; cases e
    | body n' b' i' ic' =>
      rw [hwb] at e
      cases e
      exact h b' (mem_bodies.2 ⟨w, hw, _, _, _, hwb⟩)
  struct _ h := h
  union _ h := h
  «opaque» _ h := h
  typedef _ h := h
  func _ h := h

theorem constsBefore_mono (P : ConstItem → Prop) (c : LibConfig) : (constsBefore P).Mono c fun _ => True where
  parts x hx y hy := by
    cases x with
    | enum x =>
      simp only [Container.parts, List.mem_append, List.mem_map, List.mem_singleton] at hy
      rcases hy with ⟨b, hb, rfl⟩ | rfl
      · obtain ⟨h1, h2⟩ := hx b hb
        exact ⟨h2, fun k hk => by rw [h1] at hk; cases hk⟩
      · exact hx
    | struct x => simp only [Container.parts, List.mem_singleton] at hy; subst hy; exact hx
    | union x => simp only [Container.parts, List.mem_singleton] at hy; subst hy; exact hx
    | «opaque» x => simp only [Container.parts, List.mem_singleton] at hy; subst hy; exact hx
    | typedef x => simp only [Container.parts, List.mem_singleton] at hy; subst hy; exact hx
  uses _ _ _ _ := trivial
  funcUses _ _ _ _ := trivial
  spec x u m hx _ _ := by
    cases x with
    | enum x =>
      intro b hb
      obtain ⟨v, hv, n, i, ic, e⟩ := mem_bodies.1 hb
      obtain ⟨w, hw, rfl⟩ := List.mem_map.1 hv
      simp only [EnumVariant.specialize, EnumVariant.new] at e
      cases hwb : w.body with
      | empty a => rw [hwb] at e; cases e
      | body n' b' i' ic' =>
        rw [hwb] at e
        cases e
        exact ⟨rfl, rfl⟩
    | struct x => exact ⟨rfl, fun k hk => absurd hk List.not_mem_nil⟩
    | union x => trivial
    | «opaque» x => trivial
    | typedef x => trivial

theorem rename_consts {c : LibConfig} {x y : StructItem} (h : x.renameFor c = some y) :
    y.path = x.path ∧ y.assocConsts = x.assocConsts.map (ConstItem.renameFor c) := by
  unfold StructItem.renameFor at h
  simp only [Option.map_eq_some_iff] at h
  obtain ⟨r, _, rfl⟩ := h
  exact ⟨rfl, rfl⟩

theorem constsBefore_renames (P : ConstItem → Prop) (c : LibConfig) : (constsBefore P).Renames (constsAfter P c) c where
  const _ h := h
  static _ h := h
  enum x y h hy := by
    unfold EnumItem.renameFor at hy
    simp only [Option.bind_eq_bind, Option.bind_eq_some_iff, Option.pure_def, Option.some.injEq] at hy
    obtain ⟨y₁, e1, vs, e2, rule, e3, rfl⟩ := hy
    have tag : ∀ w ∈ y₁.variants, ∀ n b i ic, w.body = .body n b i ic → b.assocConsts = [] := by
      unfold EnumItem.renameTag at e1
      split at e1
      · simp only at e1
        split at e1
        · simp only [Option.map_eq_some_iff] at e1
          obtain ⟨ws, hws, rfl⟩ := e1
          intro w hw n b i ic hb
          obtain ⟨v, hv, e⟩ := mapM_mem hws hw
          unfold EnumVariant.setTag at e
          split at e
          · rename_i e'
            cases e
            rw [e'] at hb
            cases hb
          · rename_i e'
            simp only [Option.map_eq_some_iff] at e
            obtain ⟨fs, _, rfl⟩ := e
            cases hb
            exact (h _ (mem_bodies.2 ⟨v, hv, _, _, _, e'⟩)).1
        · cases e1
          exact fun w hw n b i ic hb => (h _ (mem_bodies.2 ⟨w, hw, _, _, _, hb⟩)).1
      · cases e1
        exact fun w hw n b i ic hb => (h _ (mem_bodies.2 ⟨w, hw, _, _, _, hb⟩)).1
    have base : ∀ w ∈ vs, ∀ n b i ic, w.body = .body n b i ic → b.assocConsts = [] := by
      intro w hw n b i ic hb
      obtain ⟨v, hv, e⟩ := mapM_mem e2 hw
      unfold EnumVariant.renameBody at e
      split at e
      · cases e; cases hb
      · rename_i e'
        simp only [Option.map_eq_some_iff] at e
        obtain ⟨b', hb', rfl⟩ := e
        cases hb
        rw [(rename_consts hb').2, tag v hv _ _ _ _ e']
        rfl
    have lead : ∀ w ∈ (if (y₁.annotations.bool c!"prefix-with-name").getD c.prefixWithName then
        vs.map (EnumVariant.prefixName (y₁.exportName ++ c.variantSep)) else vs), ∀ n b i ic, w.body = .body n b i ic →
        b.assocConsts = [] := by
      intro w hw n b i ic e
      split at hw
      · obtain ⟨v, hv, rfl⟩ := List.mem_map.1 hw
        unfold EnumVariant.prefixName at e
        simp only at e
        split at e
        · cases e
        · rename_i e'
          cases e
          have := base v hv _ _ _ _ e'
          exact this
      · exact base w hw _ _ _ _ e
    intro b hb
    obtain ⟨w, hw, n, i, ic, e⟩ := mem_bodies.1 hb
    simp only at hw
    split at hw
    · obtain ⟨v, hv, rfl⟩ := List.mem_map.1 hw
      obtain ⟨n', e4⟩ := applyRule_body e
      exact lead v hv _ _ _ _ e4
    · exact lead w hw _ _ _ _ e
  struct x y h hy := by
    obtain ⟨h1, h2⟩ := rename_consts hy
    refine ⟨fun hc => by rw [(struct_rename_name hy (Or.inl hc)).1, h.1, h1], fun k hk => ?_⟩
    rw [h2, List.mem_map] at hk
    obtain ⟨k₀, hk, rfl⟩ := hk
    exact ⟨k₀, (h.2 k₀ hk).1, by rw [h1]; exact (h.2 k₀ hk).2, rfl⟩
  union _ _ _ _ := trivial
  «opaque» _ h := h
  typedef _ h := h
  func _ _ _ _ := trivial

/-- The constants of the structs of the bindings. -/
theorem assocs_final {P : ConstItem → Prop} {c : LibConfig} {order : List (Str × Annotations) → List (Str × Annotations)} {fuel : Nat}
    {l : Library} {b : Bindings} (h : l.Every (constsBefore P)) (hg : l.generate c order fuel = .ok b) : b.Every (constsAfter P c) := by
  obtain ⟨l', hl', _⟩ := Library.generate_ok hg
  obtain ⟨l₁, h1, h2⟩ := Library.prepare_ok hl'
  have h3 : l₁.Every (constsBefore P) := Library.Every.expand (fun _ => constsBefore_mono P c) (fun _ f => constsBefore_mapTys P _)
    ((h.transferAnnotations (constsBefore_annotations P) order).simplify (constsBefore_mapTys P _)).sortFunctions h1
  refine Library.Every.collected ?_ hl' hg
  unfold Library.finish at h2
  refine Library.Every.renameItems (constsBefore_renames P c) ?_ h2
  split
  · by_cases hg : c.generateTag = true
    · exact h3.removeExcluded.resolveDeclTypes hg (constsBefore_mapTys P _)
    · unfold Library.resolveDeclTypes
      rw [if_neg hg]
      exact h3.removeExcluded
  · exact h3.removeExcluded

end Cbindgen
