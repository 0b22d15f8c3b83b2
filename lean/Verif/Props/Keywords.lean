import Verif.Props.Refs

/-! # C35: struct, union and enum keywords -/

namespace Cbindgen

open RefSpec LibSpec

/-- All definitions of types. -/
def Library.types (l : Library) : List Container :=
  l.structs.toVec.map .struct ++ l.enums.toVec.map .enum ++ l.unions.toVec.map .union ++
    l.typedefs.toVec.map .typedef ++ l.opaqueItems.toVec.map .opaque

/-- The entry of a definition in the resolver. -/
def Container.declType : Container → Str × Option DeclKind
  | .struct x => x.declType
  | .enum x => x.declType
  | .union x => x.declType
  | .typedef x => x.declType
  | .opaque x => x.declType

theorem resolver_eq (l : Library) : l.resolver = l.types.map Container.declType := by
  simp [Library.resolver, Library.types, List.map_append, List.map_map, Function.comp_def,
    Container.declType]

theorem declType_path (x : Container) : x.declType.1 = x.path := by cases x <;> rfl

theorem declType_kind {x : Container} (h : Ordinary x) : x.declType.2 = definedAs x := by
  cases x with
  | struct x =>
    simp only [Container.declType, StructItem.declType, definedAs]
    cases ht : x.isTransparent with
    | false => simp
    | true =>
      cases hf : x.fields with
      | nil => exact absurd hf (h ht)
      | cons f fs => simp
  | enum x =>
    simp only [Container.declType, EnumItem.declType, definedAs]
    cases ht : x.tag with
    | some t => simp
    | none =>
      have h := h ht
      cases hty : x.repr.ty with
      | none => simp [h.2 hty]
      | some i =>
        have : x.repr.style ≠ .c := fun e => by
          have := h.1 e
          rw [hty] at this
          cases this
        simp [this]
  | union x => rfl
  | typedef x => rfl
  | «opaque» x => rfl

theorem typeFor_unknown {l : Library} {n : Str} (h : ∀ x ∈ l.types, x.path ≠ n) :
    Resolver.typeFor l.resolver n = none := by
  unfold Resolver.typeFor
  cases hl : l.resolver.lookup n with
  | none => rfl
  | some v =>
    have := lookup_mem_pair hl
    rw [resolver_eq] at this
    obtain ⟨x, hx, e⟩ := List.mem_map.1 this
    have h1 := declType_path x
    rw [e] at h1
    exact absurd h1.symm (h x hx)

theorem typeFor_known {l : Library} {x : Container} (hx : x ∈ l.types) (hu : Uniform l.types)
    (ho : ∀ x ∈ l.types, Ordinary x) : Resolver.typeFor l.resolver x.path = definedAs x := by
  unfold Resolver.typeFor
  cases hl : l.resolver.lookup x.path with
  | none =>
    rw [List.lookup_eq_none_iff] at hl
    have h1 : x.declType ∈ l.resolver := by
      rw [resolver_eq]; exact List.mem_map.2 ⟨x, hx, rfl⟩
    have := hl _ h1
    rw [declType_path] at this
    simp at this
  | some v =>
    have := lookup_mem_pair hl
    rw [resolver_eq] at this
    obtain ⟨y, hy, e⟩ := List.mem_map.1 this
    have h1 := declType_path y
    have h2 := declType_kind (ho y hy)
    rw [e] at h1 h2
    simp only at h1 h2
    simp only [Option.join_some]
    rw [h2]
    exact (hu x hx y hy h1).symm

/-! ## Types before and after renaming -/

/-- `P` holds of all types, of the tag aside. -/
def allTys (P : Ty → Prop) : ItemPred where
  const _ := True
  static x := P x.ty
  enum x := ∀ v ∈ x.variants, ∀ m b i ic, v.body = .body m b i ic →
    ∀ f ∈ b.fields.drop (if x.repr.style = .c then 0 else 1), P f.ty
  struct x := ∀ f ∈ x.fields, P f.ty
  union x := ∀ f ∈ x.fields, P f.ty
  «opaque» _ := True
  typedef x := P x.aliased
  func x := P x.ret ∧ ∀ a ∈ x.args, P a.ty

/-- Nothing is asked. -/
def anyItem : ItemPred where
  const _ := True
  static _ := True
  enum _ := True
  struct _ := True
  union _ := True
  «opaque» _ := True
  typedef _ := True
  func _ := True

theorem every_any (l : Library) : l.Every anyItem :=
  ⟨fun _ _ => trivial, fun _ _ => trivial, fun _ _ => trivial, fun _ _ => trivial, fun _ _ => trivial,
    fun _ _ => trivial, fun _ _ => trivial, fun _ _ => trivial⟩

theorem any_mapTys {P : Ty → Prop} {g : Ty → Ty} (hg : ∀ t, P (g t)) : anyItem.MapTys (allTys P) g where
  const _ _ := trivial
  static _ _ := hg _
  enum x _ := by
    intro v hv m b i ic hb f hf
    obtain ⟨v', hv', rfl⟩ := List.mem_map.1 hv
    cases hvb : v'.body with
    | empty a => simp [EnumVariant.mapTys, VBody.mapTys, hvb] at hb
    | body m' b' i' ic' =>
      simp only [EnumVariant.mapTys, VBody.mapTys, hvb, VBody.body.injEq] at hb
      obtain ⟨_, rfl, _⟩ := hb
      have hf := List.mem_of_mem_drop hf
      obtain ⟨f', _, rfl⟩ := List.mem_map.1 hf
      exact hg _
  struct x _ := by
    intro f hf
    obtain ⟨f', _, rfl⟩ := List.mem_map.1 hf
    exact hg _
  union x _ := by
    intro f hf
    obtain ⟨f', _, rfl⟩ := List.mem_map.1 hf
    exact hg _
  «opaque» _ _ := trivial
  typedef _ _ := hg _
  func x _ := ⟨hg _, by
    intro a ha
    obtain ⟨a', _, rfl⟩ := List.mem_map.1 ha
    exact hg _⟩

theorem renameFieldTys_all {P : Ty → Prop} {c : LibConfig} (hP : ∀ t ps, P t → P (t.rename c.ren ps))
    (ps : List GParam) (tag : Bool) (fs : List Field) (k : Nat) (h : ∀ f ∈ fs.drop k, P f.ty) :
    ∀ f ∈ (renameFieldTys c ps tag fs).drop k, P f.ty := by
  have h0 : ∀ (fs : List Field) (k : Nat), (∀ f ∈ fs.drop k, P f.ty) →
      ∀ f ∈ (fs.map (Field.mapTy (Ty.rename c.ren ps))).drop k, P f.ty := by
    intro fs k h f hf
    rw [← List.map_drop] at hf
    obtain ⟨f', hf', rfl⟩ := List.mem_map.1 hf
    exact hP _ _ (h f' hf')
  cases tag with
  | false => simp only [renameFieldTys]; exact h0 fs k h
  | true =>
    cases fs with
    | nil => simp [renameFieldTys]
    | cons f fs =>
      simp only [renameFieldTys]
      cases k with
      | zero =>
        simp only [List.drop_zero, List.mem_cons, forall_eq_or_imp] at h ⊢
        exact ⟨h.1, by simpa using h0 fs 0 (by simpa using h.2)⟩
      | succ k =>
        simp only [List.drop_succ_cons] at h ⊢
        exact h0 fs k h

theorem struct_allTys {P : Ty → Prop} {c : LibConfig} (hP : ∀ t ps, P t → P (t.rename c.ren ps))
    {x y : StructItem} (h : x.renameFor c = some y) (k : Nat) (hx : ∀ f ∈ x.fields.drop k, P f.ty) :
    ∀ f ∈ y.fields.drop k, P f.ty := by
  simp only [StructItem.renameFor, Option.map_eq_some_iff] at h
  obtain ⟨rule, _, rfl⟩ := h
  intro f hf
  obtain ⟨f', hf', e1⟩ := mem_setFieldNames_drop hf
  rw [e1]
  exact renameFieldTys_all hP _ _ _ k hx f' hf'

/-- The property of a variant of `allTys`. -/
def VTys (P : Ty → Prop) (k : Nat) (v : EnumVariant) : Prop :=
  ∀ m b i ic, v.body = .body m b i ic → ∀ f ∈ b.fields.drop k, P f.ty

theorem allTys_renames {P : Ty → Prop} {c : LibConfig} (hP : ∀ t ps, P t → P (t.rename c.ren ps)) :
    (allTys P).Renames (allTys P) c where
  const _ _ := trivial
  static _ h := hP _ _ h
  enum x y h hr := by
    obtain ⟨x₁, vs, h1, h2, h3, h4⟩ := enum_rename hr
    obtain ⟨_, _, e3, _⟩ := renameTag_same h1
    have h : ∀ v ∈ x.variants, VTys P (if x.repr.style = .c then 0 else 1) v := h
    have hmid : ∀ v ∈ x₁.variants, VTys P (if x.repr.style = .c then 0 else 1) v := by
      unfold EnumItem.renameTag at h1
      split at h1
      · dsimp only at h1
        split at h1
        · rename_i hs
          rw [Option.map_eq_some_iff] at h1
          obtain ⟨ws, hws, rfl⟩ := h1
          intro v hv
          obtain ⟨v', hv', e⟩ := ItemMap.mapM_some_mem hws v hv
          have hv'' := h v' hv'
          simp only [hs, reduceCtorEq, if_false] at hv'' ⊢
          unfold EnumVariant.setTag at e
          split at e
          · simp only [Option.some.injEq] at e; subst e; exact hv''
          · rename_i n b i ic hb
            rw [Option.map_eq_some_iff] at e
            obtain ⟨fs, hfs, rfl⟩ := e
            intro m b' i' ic' hb'
            simp only [VBody.body.injEq] at hb'
            obtain ⟨_, rfl, _⟩ := hb'
            have := hv'' _ _ _ _ hb
            cases hbf : b.fields with
            | nil => simp [hbf, setFirstTy] at hfs
            | cons f fs' =>
              simp only [hbf, setFirstTy, Option.some.injEq] at hfs
              subst hfs
              rw [hbf] at this
              simpa using this
        · simp only [Option.some.injEq] at h1; subst h1; exact h
      · simp only [Option.some.injEq] at h1; subst h1; exact h
    rw [h4]
    intro v' hv'
    show VTys P (if x₁.repr.style = .c then 0 else 1) v'
    rw [e3]
    show VTys P (if x.repr.style = .c then 0 else 1) v'
    revert hmid
    generalize (if x.repr.style = .c then 0 else 1) = k
    intro hmid
    obtain ⟨v, hv, hv2⟩ := h3 v' hv'
    obtain ⟨w, hw, e⟩ := ItemMap.mapM_some_mem h2 v hv
    have hf : VTys P k v := by
      unfold EnumVariant.renameBody at e
      split at e
      · simp only [Option.some.injEq] at e; subst e
        intro m b i ic hb; simp at hb
      · rename_i n b i ic hb
        rw [Option.map_eq_some_iff] at e
        obtain ⟨b', hb', rfl⟩ := e
        intro m b'' i' ic' he
        simp only [VBody.body.injEq] at he
        obtain ⟨_, rfl, _⟩ := he
        exact struct_allTys hP hb' k (hmid w hw _ _ _ _ hb)
    have pre : ∀ {v : EnumVariant} {p : Str}, VTys P k v → VTys P k (v.prefixName p) := by
      intro v p hf m b i ic hb
      cases hv : v.body with
      | empty a => simp [EnumVariant.prefixName, hv] at hb
      | body m' b' i' ic' =>
        simp only [EnumVariant.prefixName, hv, VBody.body.injEq] at hb
        obtain ⟨_, rfl, _⟩ := hb
        exact hf m' b' i' ic' hv
    have rul : ∀ {v : EnumVariant} {f : CaseFns} {p : Str} {r : RenameRule}, VTys P k v →
        VTys P k (v.applyRule f p r) := by
      intro v f p r hf m b i ic hb
      cases hv : v.body with
      | empty a => simp [EnumVariant.applyRule, EnumVariant.new, hv] at hb
      | body m' b' i' ic' =>
        simp only [EnumVariant.applyRule, EnumVariant.new, hv, VBody.body.injEq] at hb
        obtain ⟨_, rfl, _⟩ := hb
        exact hf m' b' i' ic' hv
    rcases hv2 with (rfl | ⟨p, rfl⟩) | ⟨f, p, r, rfl | ⟨q, rfl⟩⟩
    · exact hf
    · exact pre hf
    · exact rul hf
    · exact rul (pre hf)
  struct x y h hr := struct_allTys hP hr 0 h
  union x y h hr := by
    simp only [UnionItem.renameFor, Option.map_eq_some_iff] at hr
    obtain ⟨rule, _, rfl⟩ := hr
    intro f hf
    have hf : f ∈ (setFieldNames (x.fields.map (Field.mapTy (Ty.rename c.ren x.genericParams))) _).drop 0 :=
      hf
    obtain ⟨f', hf', e1⟩ := mem_setFieldNames_drop hf
    obtain ⟨f₀, hf₀, rfl⟩ := List.mem_map.1 hf'
    rw [e1]
    exact hP _ _ (h f₀ hf₀)
  «opaque» _ _ := trivial
  typedef _ h := hP _ _ h
  func x y h hr := by
    unfold FuncItem.renameFor at hr
    simp only [Option.bind_eq_bind, Option.bind_eq_some_iff] at hr
    obtain ⟨rule, _, args, hargs, hr⟩ := hr
    simp only [Option.pure_def, Option.some.injEq] at hr
    subst hr
    refine ⟨hP _ _ h.1, ?_⟩
    intro a ha
    have h1 : a.ty ∈ args.map FnArg.ty := List.mem_map.2 ⟨a, ha, rfl⟩
    rw [renameArgs_tys hargs] at h1
    obtain ⟨a', ha', e1⟩ := List.mem_map.1 h1
    rw [← e1]
    exact hP _ _ (h.2 a' ha')

/-! ## Kinds before and after renaming -/

/-- The item has the path and the kind of a definition of the list. -/
def ofKind (xs : List Container) (x : Container) : Prop :=
  ∃ y ∈ xs, y.path = x.path ∧ definedAs y = definedAs x

/-- Kinds of types. -/
def kinds (xs : List Container) : ItemPred where
  const _ := True
  static _ := True
  enum x := ofKind xs (.enum x)
  struct x := ofKind xs (.struct x)
  union x := ofKind xs (.union x)
  «opaque» x := ofKind xs (.opaque x)
  typedef x := ofKind xs (.typedef x)
  func _ := True

theorem ofKind_of {xs : List Container} {x y : Container} (h : ofKind xs x) (hp : y.path = x.path)
    (hk : definedAs y = definedAs x) : ofKind xs y := by
  obtain ⟨z, hz, e1, e2⟩ := h
  exact ⟨z, hz, e1.trans hp.symm, e2.trans hk.symm⟩

theorem every_kinds (l : Library) : l.Every (kinds l.types) where
  constants _ _ := trivial
  globals _ _ := trivial
  enums x hx := ⟨.enum x, by simp [Library.types, hx], rfl, rfl⟩
  structs x hx := ⟨.struct x, by simp [Library.types, hx], rfl, rfl⟩
  unions x hx := ⟨.union x, by simp [Library.types, hx], rfl, rfl⟩
  opaqueItems x hx := ⟨.opaque x, by simp [Library.types, hx], rfl, rfl⟩
  typedefs x hx := ⟨.typedef x, by simp [Library.types, hx], rfl, rfl⟩
  functions _ _ := trivial

theorem kinds_mapTys (xs : List Container) (g : Ty → Ty) : (kinds xs).MapTys (kinds xs) g where
  const _ _ := trivial
  static _ _ := trivial
  enum _ h := ofKind_of h rfl rfl
  struct x h := ofKind_of h rfl (by
    simp only [definedAs, StructItem.mapTys, List.isEmpty_map])
  union _ h := ofKind_of h rfl rfl
  «opaque» _ h := h
  typedef _ h := ofKind_of h rfl rfl
  func _ _ := trivial

theorem setFieldNames_isEmpty (fs : List Field) (ns : List Str) :
    (setFieldNames fs ns).isEmpty = fs.isEmpty := by
  cases fs <;> cases ns <;> rfl

theorem renameFieldTys_isEmpty (c : LibConfig) (ps : List GParam) (tag : Bool) (fs : List Field) :
    (renameFieldTys c ps tag fs).isEmpty = fs.isEmpty := by
  cases tag <;> cases fs <;> rfl

theorem kinds_renames (xs : List Container) (c : LibConfig) : (kinds xs).Renames (kinds xs) c where
  const _ _ := trivial
  static _ _ := trivial
  enum x y h hr := by
    obtain ⟨x₁, vs, h1, h2, h3, h4⟩ := enum_rename hr
    obtain ⟨e1, _, e3, _⟩ := renameTag_same h1
    have ht : x₁.tag.isSome = x.tag.isSome := by
      unfold EnumItem.renameTag at h1
      split at h1
      · rename_i hn
        dsimp only at h1 hn
        split at h1
        · rw [Option.map_eq_some_iff] at h1
          obtain ⟨ws, hws, rfl⟩ := h1
          exact hn.2.symm
        · simp only [Option.some.injEq] at h1; subst h1; exact hn.2.symm
      · simp only [Option.some.injEq] at h1; subst h1; rfl
    rw [h4]
    refine ofKind_of h e1 ?_
    simp only [definedAs, e3, ht]
  struct x y h hr := by
    simp only [StructItem.renameFor, Option.map_eq_some_iff] at hr
    obtain ⟨rule, _, rfl⟩ := hr
    refine ofKind_of h rfl ?_
    simp only [definedAs, setFieldNames_isEmpty, renameFieldTys_isEmpty]
  union x y h hr := by
    simp only [UnionItem.renameFor, Option.map_eq_some_iff] at hr
    obtain ⟨rule, _, rfl⟩ := hr
    exact ofKind_of h rfl rfl
  «opaque» _ h := ofKind_of h rfl rfl
  typedef _ h := ofKind_of h rfl rfl
  func _ _ _ _ := trivial

theorem mem_types_removeExcluded {c : LibConfig} {l : Library} {x : Container}
    (h : x ∈ (l.removeExcluded c).types) : x ∈ l.types := by
  simp only [Library.types, Library.removeExcluded, ItemMap.toVec_filter, List.mem_append,
    List.mem_map, List.mem_filter] at h ⊢
  rcases h with (((⟨y, hy, rfl⟩ | ⟨y, hy, rfl⟩) | ⟨y, hy, rfl⟩) | ⟨y, hy, rfl⟩) | ⟨y, hy, rfl⟩
  · exact .inl (.inl (.inl (.inl ⟨y, hy.1, rfl⟩)))
  · exact .inl (.inl (.inl (.inr ⟨y, hy.1, rfl⟩)))
  · exact .inl (.inl (.inr ⟨y, hy.1, rfl⟩))
  · exact .inl (.inr ⟨y, hy.1, rfl⟩)
  · exact .inr ⟨y, hy.1, rfl⟩

/-! ## The theorems -/

theorem itemWrites_all {P : Ty → Prop} {x : Container} (h : (allTys P).Of x) {n : Str}
    {k : Option DeclKind} (hw : ItemWrites x n k) : ∃ t, P t ∧ Writes t n k := by
  cases x with
  | enum x =>
    obtain ⟨v, hv, m, b, i, ic, hb, f, hf, hw⟩ := hw
    exact ⟨f.ty, h v hv m b i ic hb f hf, hw⟩
  | struct x =>
    obtain ⟨f, hf, hw⟩ := hw
    exact ⟨f.ty, h f (List.mem_of_mem_drop hf), hw⟩
  | union x =>
    obtain ⟨f, hf, hw⟩ := hw
    exact ⟨f.ty, h f hf, hw⟩
  | «opaque» x => exact absurd hw (by simp [ItemWrites])
  | typedef x => exact ⟨x.aliased, h, hw⟩

/-- Everything that is written, tags aside, has the keyword of the resolver. -/
theorem keywords_resolved {c : LibConfig} {order : List (Str × Annotations) → List (Str × Annotations)}
    {fuel : Nat} {l l₁ : Library} {b : Bindings} (hc : c.language = .c) (hg : c.generateTag = true)
    (he : (((l.transferAnnotations order).simplify c).sortFunctions c).expand c fuel = .ok l₁)
    (h : l.generate c order fuel = .ok b) :
    let find := Resolver.typeFor (l₁.removeExcluded c).resolver
    (∀ x ∈ b.items, ofKind (l₁.removeExcluded c).types x) ∧
    (∀ y ∈ b.items, ∀ n k, ItemWrites y n k → k = find n) ∧
    (∀ y ∈ b.functions, ∀ n k, FuncWrites y n k → k = find n) ∧
    ∀ y ∈ b.globals, ∀ n k, Writes y.ty n k → k = find n := by
  intro find
  obtain ⟨l', hl', _⟩ := Library.generate_ok h
  obtain ⟨l₂, h1, h2⟩ := Library.prepare_ok hl'
  rw [he] at h1
  simp only [Except.ok.injEq] at h1
  subst h1
  let P : Ty → Prop := fun t => ∀ n k, Writes t n k → k = find n
  unfold Library.finish at h2
  simp only [if_pos hc] at h2
  have hk : l'.Every (kinds (l₁.removeExcluded c).types) :=
    ((every_kinds _).resolveDeclTypes hg (kinds_mapTys _ _)).renameItems (kinds_renames _ c) h2
  have ht : l'.Every (allTys P) :=
    ((every_any _).resolveDeclTypes hg
      (any_mapTys (P := P) fun t n k hw => writes_resolve find hw rfl)).renameItems
      (allTys_renames fun t ps hp n k hw => hp n k (writes_rename c.ren ps hw rfl)) h2
  have hk := hk.collected hl' h
  have ht := ht.collected hl' h
  refine ⟨?_, ?_, ?_, ?_⟩
  · intro x hx
    have := hk.items x hx
    cases x <;> exact this
  · intro y hy n k hw
    obtain ⟨t, hp, hw⟩ := itemWrites_all (ht.items y hy) hw
    exact hp n k hw
  · intro y hy n k hw
    rcases hw with hw | ⟨a, ha, hw⟩
    · exact (ht.functions y hy).1 n k hw
    · exact (ht.functions y hy).2 a ha n k hw
  · intro y hy n k hw
    exact ht.globals y hy n k hw

/-- C35: with the tag style in C, references in fields, aliased types, functions and globals to a
definition that is written have exactly the keyword with which it is defined, if all definitions of a name
are of one kind and none is an enum without data that is `repr(C)` and has an integer type.  `l₁` is the
library after monomorphisation. -/
theorem C35_keywords_partial {c : LibConfig}
    {order : List (Str × Annotations) → List (Str × Annotations)} {fuel : Nat} {l l₁ : Library}
    {b : Bindings} (hc : c.language = .c) (hg : c.generateTag = true)
    (he : (((l.transferAnnotations order).simplify c).sortFunctions c).expand c fuel = .ok l₁)
    (hu : Uniform l₁.types) (ho : ∀ x ∈ l₁.types, Ordinary x) (h : l.generate c order fuel = .ok b)
    {x : Container} (hx : x ∈ b.items) :
    (∀ y ∈ b.items, ∀ k, ItemWrites y x.path k → k = definedAs x) ∧
    (∀ y ∈ b.functions, ∀ k, FuncWrites y x.path k → k = definedAs x) ∧
    ∀ y ∈ b.globals, ∀ k, Writes y.ty x.path k → k = definedAs x := by
  obtain ⟨h1, h2, h3, h4⟩ := keywords_resolved hc hg he h
  have key : Resolver.typeFor (l₁.removeExcluded c).resolver x.path = definedAs x := by
    obtain ⟨z, hz, e1, e2⟩ := h1 x hx
    rw [← e1, ← e2]
    refine typeFor_known hz ?_ fun y hy => ho y (mem_types_removeExcluded hy)
    exact fun y hy w hw => hu y (mem_types_removeExcluded hy) w (mem_types_removeExcluded hw)
  exact ⟨fun y hy k hw => (h2 y hy _ k hw).trans key, fun y hy k hw => (h3 y hy _ k hw).trans key,
    fun y hy k hw => (h4 y hy _ k hw).trans key⟩

/-- C35: a name without a definition gets no keyword. -/
theorem C35_unknown {c : LibConfig}
    {order : List (Str × Annotations) → List (Str × Annotations)} {fuel : Nat} {l l₁ : Library}
    {b : Bindings} (hc : c.language = .c) (hg : c.generateTag = true)
    (he : (((l.transferAnnotations order).simplify c).sortFunctions c).expand c fuel = .ok l₁)
    (h : l.generate c order fuel = .ok b) {n : Str} (hn : ∀ x ∈ l₁.types, x.path ≠ n) :
    (∀ y ∈ b.items, ∀ k, ItemWrites y n k → k = none) ∧
    (∀ y ∈ b.functions, ∀ k, FuncWrites y n k → k = none) ∧
    ∀ y ∈ b.globals, ∀ k, Writes y.ty n k → k = none := by
  obtain ⟨_, h2, h3, h4⟩ := keywords_resolved hc hg he h
  have key := typeFor_unknown fun x hx => hn x (mem_types_removeExcluded (c := c) hx)
  exact ⟨fun y hy k hw => (h2 y hy _ k hw).trans key, fun y hy k hw => (h3 y hy _ k hw).trans key,
    fun y hy k hw => (h4 y hy _ k hw).trans key⟩

theorem Plain.writes {t : Ty} {n : Str} {k : Option DeclKind} (h : Writes t n k) : Plain t → k = none := by
  induction h with
  | here n e gs k => intro h; exact h.2.1
  | ptr _ ih => intro h; exact ih h
  | array _ ih => intro h; exact ih h.1
  | ret _ ih => intro h; exact ih h.1
  | arg ha _ ih => intro h; exact ih (plainFArgs_iff.1 h.2 _ _ ha)

/-- C35: in other languages and without the tag style no reference gets a keyword. -/
theorem C35_no_tags {c : LibConfig}
    {order : List (Str × Annotations) → List (Str × Annotations)} {fuel : Nat} {l : Library}
    {b : Bindings} (hc : ¬ (c.language = .c ∧ c.generateTag = true)) (hl : l.Plain)
    (h : l.generate c order fuel = .ok b) (n : Str) (k : Option DeclKind) :
    (∀ y ∈ b.items, ItemWrites y n k → k = none) ∧
    (∀ y ∈ b.functions, FuncWrites y n k → k = none) ∧
    ∀ y ∈ b.globals, Writes y.ty n k → k = none := by
  obtain ⟨l', hl', _⟩ := Library.generate_ok h
  obtain ⟨l₁, h1, h2⟩ := Library.prepare_ok hl'
  let P : Ty → Prop := fun t => ∀ n k, Writes t n k → k = none
  have hp : ∀ t, RefSpec.Plain t → P t := fun t ht n k hw => Plain.writes hw ht
  have e1 : (l₁.removeExcluded c).Every (allTys P) := by
    refine ((hl.every c).expanded h1).removeExcluded.mono_imp (fun _ _ => trivial) (fun _ h => hp _ h) ?_
      (fun _ h f hf => hp _ (h.2.2.1 f hf)) (fun _ h f hf => hp _ (h.2.2 f hf)) (fun _ _ => trivial)
      (fun _ h => hp _ h.2.2) (fun _ h => ⟨hp _ h.1, fun a ha => hp _ (h.2 a ha)⟩)
    intro x h v hv m b i ic hb f hf
    exact hp _ (((h.2.2 v hv).1 m b i ic hb).2.2.1 f (List.mem_of_mem_drop hf))
  unfold Library.finish at h2
  have e2 : Library.Every (allTys P)
      (if c.language = .c then (l₁.removeExcluded c).resolveDeclTypes c else l₁.removeExcluded c) := by
    split
    · rename_i hlang
      unfold Library.resolveDeclTypes
      rw [if_neg fun hg => hc ⟨hlang, hg⟩]
      exact e1
    · exact e1
  have ht := (e2.renameItems
    (allTys_renames fun t ps hp n k hw => hp n k (writes_rename c.ren ps hw rfl)) h2).collected hl' h
  refine ⟨?_, ?_, ?_⟩
  · intro y hy hw
    obtain ⟨t, hp, hw⟩ := itemWrites_all (ht.items y hy) hw
    exact hp n k hw
  · intro y hy hw
    rcases hw with hw | ⟨a, ha, hw⟩
    · exact (ht.functions y hy).1 n k hw
    · exact (ht.functions y hy).2 a ha n k hw
  · intro y hy hw
    exact ht.globals y hy n k hw

end Cbindgen
