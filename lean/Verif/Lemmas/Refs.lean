import Verif.Lemmas.Plain
import Verif.Props.Library

/-!
# References through the stages of `Library::generate`
-/

namespace Cbindgen

open RefSpec LibSpec

/-- Names are not changed yet. -/
def Named (t : Ty) : Prop := ∀ n e, Mentions t n e → e = n

theorem Plain.named {t : Ty} (h : Plain t) : Named t := fun _ _ hm => Plain.mentions hm h

/-- The variants of an enum before renaming; `P` holds of the types. -/
def VariantBefore (P : Ty → Prop) (s : ReprStyle) (v : EnumVariant) : Prop :=
  (∀ m b i ic, v.body = .body m b i ic → b.exportName = b.path ∧ PlainParams b.genericParams ∧
    (∀ f ∈ b.fields, P f.ty) ∧ (∀ k ∈ b.assocConsts, PlainConstItem k) ∧
    (b.hasTagField = true ↔ s ≠ .c)) ∧
    ∀ d, v.disc = some d → ∀ n e, LitMentions d n e → e = n

/-- Items before renaming; `P` holds of all their types. -/
def before (P : Ty → Prop) (c : LibConfig) : ItemPred where
  const := PlainConstItem
  static x := P x.ty
  enum x := x.exportName = x.path ∧ PlainParams x.genericParams ∧
    ∀ v ∈ x.variants, VariantBefore P x.repr.style v
  struct x := x.exportName = x.path ∧ PlainParams x.genericParams ∧ (∀ f ∈ x.fields, P f.ty) ∧
    (∀ k ∈ x.assocConsts, PlainConstItem k) ∧ (c.language = .cxx → x.hasTagField = false)
  union x := x.exportName = x.path ∧ PlainParams x.genericParams ∧ ∀ f ∈ x.fields, P f.ty
  «opaque» x := x.exportName = x.path
  typedef x := x.exportName = x.path ∧ PlainParams x.genericParams ∧ P x.aliased
  func x := P x.ret ∧ ∀ a ∈ x.args, P a.ty

theorem before_ignores (P : Ty → Prop) (c : LibConfig) : (before P c).IgnoresAnnotations :=
  ⟨fun _ _ h => h, fun _ _ h => h, fun _ _ h => h, fun _ _ h => h, fun _ _ h => h⟩

theorem fields_mapTy {P Q : Ty → Prop} {g : Ty → Ty} (hg : ∀ t, P t → Q (g t)) {fs : List Field}
    (h : ∀ f ∈ fs, P f.ty) : ∀ f ∈ fs.map (Field.mapTy g), Q f.ty := by
  intro f hf
  obtain ⟨f', hf', rfl⟩ := List.mem_map.1 hf
  exact hg _ (h f' hf')

theorem variantBefore_mapTys {P Q : Ty → Prop} {g : Ty → Ty} (hg : ∀ t, P t → Q (g t))
    {s : ReprStyle} {v : EnumVariant} (h : VariantBefore P s v) : VariantBefore Q s (v.mapTys g) := by
  refine ⟨?_, h.2⟩
  intro m b i ic hb
  cases hv : v.body with
  | empty a => simp [EnumVariant.mapTys, VBody.mapTys, hv] at hb
  | body m' b' i' ic' =>
    simp only [EnumVariant.mapTys, VBody.mapTys, hv, VBody.body.injEq] at hb
    obtain ⟨_, rfl, _⟩ := hb
    obtain ⟨h1, h2, h3, h4, h5⟩ := h.1 _ _ _ _ hv
    exact ⟨h1, h2, fields_mapTy hg h3, h4, h5⟩

theorem before_mapTys {P Q : Ty → Prop} {g : Ty → Ty} (hg : ∀ t, P t → Q (g t)) (c : LibConfig) :
    (before P c).MapTys (before Q c) g where
  const _ h := h
  static _ h := hg _ h
  enum x h := ⟨h.1, h.2.1, by
    intro v hv
    obtain ⟨v', hv', rfl⟩ := List.mem_map.1 hv
    exact variantBefore_mapTys hg (h.2.2 v' hv')⟩
  struct x h := ⟨h.1, h.2.1, fields_mapTy hg h.2.2.1, h.2.2.2⟩
  union x h := ⟨h.1, h.2.1, fields_mapTy hg h.2.2⟩
  «opaque» _ h := h
  typedef x h := ⟨h.1, h.2.1, hg _ h.2.2⟩
  func x h := ⟨hg _ h.1, by
    intro a ha
    obtain ⟨a', ha', rfl⟩ := List.mem_map.1 ha
    exact hg _ (h.2 a' ha')⟩

theorem plain_fieldUses {fs : List Field} (h : ∀ f ∈ fs, Plain f.ty) :
    ∀ u ∈ fs.flatMap fun f => f.ty.genericUses, PlainUse u := by
  intro u hu
  obtain ⟨f, hf, hu⟩ := List.mem_flatMap.1 hu
  exact plain_genericUses _ (h f hf) u hu

theorem structUses_plain {x : StructItem} (h : ∀ f ∈ x.fields, Plain f.ty) :
    ∀ u ∈ x.monoUses, PlainUse u := by
  intro u hu
  unfold StructItem.monoUses at hu
  split at hu
  · exact plain_fieldUses h u hu
  · simp at hu

theorem before_mono {c : LibConfig} (hc : c.language ≠ .cxx) : (before Plain c).Mono c PlainUse where
  parts x hx y hy := by
    cases x with
    | enum x =>
      simp only [Container.parts, List.mem_append, List.mem_map, List.mem_singleton] at hy
      rcases hy with ⟨b, hb, rfl⟩ | rfl
      · simp only [EnumItem.bodies, List.mem_filterMap] at hb
        obtain ⟨v, hv, hb⟩ := hb
        cases hvb : v.body with
        | empty a => simp [hvb] at hb
        | body m b' i ic =>
          simp only [hvb, Option.some.injEq] at hb
          subst hb
          obtain ⟨h1, h2, h3, h4, _⟩ := (hx.2.2 v hv).1 _ _ _ _ hvb
          exact ⟨h1, h2, h3, h4, fun h => absurd h hc⟩
      · exact hx
    | struct x => simp only [Container.parts, List.mem_singleton] at hy; subst hy; exact hx
    | union x => simp only [Container.parts, List.mem_singleton] at hy; subst hy; exact hx
    | «opaque» x => simp only [Container.parts, List.mem_singleton] at hy; subst hy; exact hx
    | typedef x => simp only [Container.parts, List.mem_singleton] at hy; subst hy; exact hx
  uses x hx u hu := by
    cases x with
    | struct x => exact structUses_plain hx.2.2.1 u hu
    | union x =>
      simp only [Container.monoUses, UnionItem.monoUses] at hu
      split at hu
      · exact plain_fieldUses hx.2.2 u hu
      · simp at hu
    | enum x =>
      simp only [Container.monoUses, EnumItem.monoUses] at hu
      split at hu
      · obtain ⟨v, hv, hu⟩ := List.mem_flatMap.1 hu
        unfold EnumVariant.monoUses at hu
        split at hu
        · simp at hu
        · rename_i hvb
          exact structUses_plain ((hx.2.2 v hv).1 _ _ _ _ hvb).2.2.1 u hu
      · simp at hu
    | «opaque» x => simp [Container.monoUses] at hu
    | typedef x =>
      simp only [Container.monoUses, TypedefItem.monoUses] at hu
      split at hu
      · exact plain_genericUses _ hx.2.2 u hu
      · simp at hu
  funcUses x hx u hu := by
    simp only [FuncItem.monoUses, List.mem_append, List.mem_flatMap] at hu
    rcases hu with hu | ⟨a, ha, hu⟩
    · exact plain_genericUses _ hx.1 u hu
    · exact plain_genericUses _ (hx.2 a ha) u hu
  spec x u m hx hu hm := by
    have hnil : PlainParams [] := by intro p hp; simp at hp
    cases x with
    | struct x =>
      have hm := plain_callParams hx.2.1 hu.2.2 hm
      exact ⟨rfl, hnil, fields_mapTy (plain_specialize hm) hx.2.2.1,
        by intro k hk; simp [StructItem.specialize, StructItem.new] at hk, fun h => absurd h hc⟩
    | union x =>
      have hm := plain_callParams hx.2.1 hu.2.2 hm
      exact ⟨rfl, hnil, fields_mapTy (plain_specialize hm) hx.2.2⟩
    | enum x =>
      have hm := plain_callParams hx.2.1 hu.2.2 hm
      refine ⟨rfl, hnil, ?_⟩
      intro v hv
      obtain ⟨v', hv', rfl⟩ := List.mem_map.1 hv
      obtain ⟨hb, hd⟩ := hx.2.2 v' hv'
      refine ⟨?_, hd⟩
      intro n b i ic hbody
      cases hvb : v'.body with
      | empty a => simp [EnumVariant.specialize, EnumVariant.new, VBody.specialize, hvb] at hbody
      | body m' b' i' ic' =>
        simp only [EnumVariant.specialize, EnumVariant.new, VBody.specialize, hvb,
          VBody.body.injEq] at hbody
        obtain ⟨_, rfl, _⟩ := hbody
        obtain ⟨_, _, h3, _, h5⟩ := hb _ _ _ _ hvb
        exact ⟨rfl, hnil, fields_mapTy (plain_specialize hm) h3,
          by intro k hk; simp [StructItem.specialize, StructItem.new] at hk, h5⟩
    | «opaque» x => exact rfl
    | typedef x =>
      have hm := plain_callParams hx.2.1 hu.2.2 hm
      exact ⟨rfl, hnil, plain_specialize hm _ hx.2.2⟩

/-! ## After renaming -/

/-- The references of a field after renaming. -/
def FieldAfter (c : LibConfig) (ps : List GParam) (f : Field) : Prop :=
  ∀ n e, Mentions f.ty n e → e = newName c.ren ps n n

/-- A constant after renaming. -/
def ConstAfter (c : LibConfig) (x : ConstItem) : Prop :=
  (x.associatedTo = none → x.exportName = c.ren x.path) ∧ ∀ n e, ConstMentions x n e → e = c.ren n

/-- A variant after renaming. -/
def VariantAfter (c : LibConfig) (s : ReprStyle) (v : EnumVariant) : Prop :=
  (∀ m b i ic, v.body = .body m b i ic →
    (∀ f ∈ b.fields.drop (if s = .c then 0 else 1), FieldAfter c b.genericParams f) ∧
    ∀ k ∈ b.assocConsts, ConstAfter c k) ∧
    ∀ d, v.disc = some d → ∀ n e, LitMentions d n e → e = c.ren n

/-- Items after renaming. -/
def after (c : LibConfig) : ItemPred where
  const := ConstAfter c
  static x := ∀ n e, Mentions x.ty n e → e = c.ren n
  enum x := x.exportName = c.ren x.path ∧ ∀ v ∈ x.variants, VariantAfter c x.repr.style v
  struct x := x.exportName = c.ren x.path ∧
    (∀ f ∈ x.fields.drop (if x.hasTagField then 1 else 0), FieldAfter c x.genericParams f) ∧
    ∀ k ∈ x.assocConsts, ConstAfter c k
  union x := x.exportName = c.ren x.path ∧ ∀ f ∈ x.fields, FieldAfter c x.genericParams f
  «opaque» x := x.exportName = c.ren x.path
  typedef x := x.exportName = c.ren x.path ∧
    ∀ n e, Mentions x.aliased n e → e = newName c.ren x.genericParams n n
  func x := ∀ n e, FuncMentions x n e → e = c.ren n

theorem named_rename {ren : Str → Str} {ps : List GParam} {t : Ty} (h : Named t) {n e : Str}
    (hm : Mentions (t.rename ren ps) n e) : e = newName ren ps n n := by
  obtain ⟨e₀, h0, rfl⟩ := mentions_rename ren ps hm rfl
  rw [h n e₀ h0]

theorem named_rename_nil {ren : Str → Str} {t : Ty} (h : Named t) {n e : Str}
    (hm : Mentions (t.rename ren []) n e) : e = ren n := by
  have := named_rename h hm
  simpa [newName, hasParam] using this

theorem const_after {c : LibConfig} {x : ConstItem} (h : PlainConstItem x) :
    ConstAfter c (x.renameFor c) := by
  obtain ⟨h1, h2, h3⟩ := h
  refine ⟨?_, ?_⟩
  · intro ha
    have ha : x.associatedTo = none := ha
    simp [ConstItem.renameFor, ha, h1 ha]
  · intro n e hm
    rcases hm with hm | hm
    · exact named_rename_nil (Plain.named h2) hm
    · obtain ⟨e₀, h0, rfl⟩ := litMentions_rename c.ren hm rfl
      rw [h3 n e₀ h0]

theorem setFieldNames_tys : ∀ (fs : List Field) (ns : List Str),
    (setFieldNames fs ns).map Field.ty = fs.map Field.ty
  | [], _ => by simp [setFieldNames]
  | f :: fs, [] => by simp [setFieldNames]
  | f :: fs, n :: ns => by simp [setFieldNames, setFieldNames_tys fs ns]

theorem mem_setFieldNames_drop {fs : List Field} {ns : List Str} {k : Nat} {f : Field}
    (h : f ∈ (setFieldNames fs ns).drop k) : ∃ f' ∈ fs.drop k, f.ty = f'.ty := by
  have h1 : f.ty ∈ ((setFieldNames fs ns).drop k).map Field.ty := List.mem_map.2 ⟨f, h, rfl⟩
  rw [List.map_drop, setFieldNames_tys, ← List.map_drop] at h1
  obtain ⟨f', hf', e⟩ := List.mem_map.1 h1
  exact ⟨f', hf', e.symm⟩

theorem renameFieldTys_drop (c : LibConfig) (ps : List GParam) (tag : Bool) (fs : List Field) (k : Nat)
    (hk : tag = true → 1 ≤ k) : (renameFieldTys c ps tag fs).drop k =
      (fs.drop k).map (Field.mapTy (Ty.rename c.ren ps)) := by
  cases tag with
  | false => simp [renameFieldTys, List.map_drop]
  | true =>
    cases fs with
    | nil => simp [renameFieldTys]
    | cons f fs =>
      obtain ⟨k, rfl⟩ : ∃ j, k = j + 1 := ⟨k - 1, by have := hk rfl; omega⟩
      simp [renameFieldTys, List.map_drop]

theorem struct_fields_after {c : LibConfig} {x y : StructItem} (h : x.renameFor c = some y) (k : Nat)
    (hk : x.hasTagField = true → 1 ≤ k) (hx : ∀ f ∈ x.fields.drop k, Named f.ty) :
    ∀ f ∈ y.fields.drop k, FieldAfter c y.genericParams f := by
  simp only [StructItem.renameFor, Option.map_eq_some_iff] at h
  obtain ⟨rule, _, rfl⟩ := h
  intro f hf n e hm
  obtain ⟨f', hf', e1⟩ := mem_setFieldNames_drop hf
  rw [renameFieldTys_drop c _ _ _ k hk] at hf'
  obtain ⟨f₀, hf₀, rfl⟩ := List.mem_map.1 hf'
  rw [e1] at hm
  exact named_rename (hx f₀ hf₀) hm

theorem struct_consts_after {c : LibConfig} {x y : StructItem} (h : x.renameFor c = some y)
    (hx : ∀ k ∈ x.assocConsts, PlainConstItem k) : ∀ k ∈ y.assocConsts, ConstAfter c k := by
  simp only [StructItem.renameFor, Option.map_eq_some_iff] at h
  obtain ⟨rule, _, rfl⟩ := h
  intro k hk
  obtain ⟨k', hk', rfl⟩ := List.mem_map.1 hk
  exact const_after (hx k' hk')

theorem struct_same {c : LibConfig} {x y : StructItem} (h : x.renameFor c = some y) :
    y.path = x.path ∧ y.hasTagField = x.hasTagField ∧ y.genericParams = x.genericParams ∧
      (¬ (x.hasTagField = true ∧ c.language = .cxx) → y.exportName = c.ren x.exportName) := by
  simp only [StructItem.renameFor, Option.map_eq_some_iff] at h
  obtain ⟨rule, _, rfl⟩ := h
  exact ⟨rfl, rfl, rfl, fun h => by simp only; rw [if_neg h]⟩

/-- What setting the tag needs and keeps. -/
def VariantMid (s : ReprStyle) (v : EnumVariant) : Prop :=
  (∀ m b i ic, v.body = .body m b i ic → (∀ f ∈ b.fields.drop (if s = .c then 0 else 1), Named f.ty) ∧
    (∀ k ∈ b.assocConsts, PlainConstItem k) ∧ (b.hasTagField = true ↔ s ≠ .c)) ∧
    ∀ d, v.disc = some d → ∀ n e, LitMentions d n e → e = n

theorem VariantBefore.mid {s : ReprStyle} {v : EnumVariant} (h : VariantBefore Named s v) :
    VariantMid s v := by
  refine ⟨?_, h.2⟩
  intro m b i ic hb
  obtain ⟨_, _, h3, h4, h5⟩ := h.1 _ _ _ _ hb
  exact ⟨fun f hf => h3 f (List.mem_of_mem_drop hf), h4, h5⟩

theorem setTag_mid {t : Str} {v w : EnumVariant} (h : VariantMid .rust v) (hs : v.setTag t = some w) :
    VariantMid .rust w := by
  unfold EnumVariant.setTag at hs
  split at hs
  · simp only [Option.some.injEq] at hs; subst hs; exact h
  · rename_i n b i ic hb
    rw [Option.map_eq_some_iff] at hs
    obtain ⟨fs, hfs, rfl⟩ := hs
    refine ⟨?_, h.2⟩
    intro m b' i' ic' hb'
    simp only [VBody.body.injEq] at hb'
    obtain ⟨_, rfl, _⟩ := hb'
    obtain ⟨h1, h2, h3⟩ := h.1 _ _ _ _ hb
    refine ⟨?_, h2, h3⟩
    cases hbf : b.fields with
    | nil => simp [hbf, setFirstTy] at hfs
    | cons f fs' =>
      simp only [hbf, setFirstTy, Option.some.injEq] at hfs
      subst hfs
      rw [hbf] at h1
      simpa using h1

theorem renameBody_after {c : LibConfig} {s : ReprStyle} {v w : EnumVariant} (h : VariantMid s v)
    (hs : v.renameBody c = some w) : VariantAfter c s w := by
  have hd : ∀ d, v.disc.map (Lit.rename c.ren) = some d → ∀ n e, LitMentions d n e → e = c.ren n := by
    intro d hd n e hm
    rw [Option.map_eq_some_iff] at hd
    obtain ⟨d₀, hd₀, rfl⟩ := hd
    obtain ⟨e₀, h0, rfl⟩ := litMentions_rename c.ren hm rfl
    rw [h.2 d₀ hd₀ n e₀ h0]
  unfold EnumVariant.renameBody at hs
  split at hs
  · simp only [Option.some.injEq] at hs; subst hs
    exact ⟨by intro m b i ic hb; simp at hb, hd⟩
  · rename_i n b i ic hb
    rw [Option.map_eq_some_iff] at hs
    obtain ⟨b', hb', rfl⟩ := hs
    refine ⟨?_, hd⟩
    intro m b'' i' ic' he
    simp only [VBody.body.injEq] at he
    obtain ⟨_, rfl, _⟩ := he
    obtain ⟨h1, h2, h3⟩ := h.1 _ _ _ _ hb
    refine ⟨struct_fields_after hb' _ ?_ h1, struct_consts_after hb' h2⟩
    intro ht
    rw [if_neg (h3.1 ht)]
    exact Nat.le_refl _

theorem prefixName_after {c : LibConfig} {s : ReprStyle} {v : EnumVariant} {p : Str}
    (h : VariantAfter c s v) : VariantAfter c s (v.prefixName p) := by
  refine ⟨?_, h.2⟩
  intro m b i ic hb
  cases hv : v.body with
  | empty a => simp [EnumVariant.prefixName, hv] at hb
  | body m' b' i' ic' =>
    simp only [EnumVariant.prefixName, hv, VBody.body.injEq] at hb
    obtain ⟨_, rfl, _⟩ := hb
    exact h.1 m' b' i' ic' hv

theorem applyRule_after {c : LibConfig} {s : ReprStyle} {v : EnumVariant} {f : CaseFns} {p : Str}
    {r : RenameRule} (h : VariantAfter c s v) : VariantAfter c s (v.applyRule f p r) := by
  refine ⟨?_, h.2⟩
  intro m b i ic hb
  cases hv : v.body with
  | empty a => simp [EnumVariant.applyRule, EnumVariant.new, hv] at hb
  | body m' b' i' ic' =>
    simp only [EnumVariant.applyRule, EnumVariant.new, hv, VBody.body.injEq] at hb
    obtain ⟨_, rfl, _⟩ := hb
    exact h.1 _ _ _ _ hv

/-- The steps of renaming an enum. -/
theorem enum_rename {c : LibConfig} {x y : EnumItem} (h : x.renameFor c = some y) :
    ∃ x₁ vs, EnumItem.renameTag c { x with exportName := c.ren x.exportName } = some x₁ ∧
      x₁.variants.mapM (EnumVariant.renameBody c) = some vs ∧
      (∀ v' ∈ y.variants, ∃ v ∈ vs, (v' = v ∨ ∃ p, v' = v.prefixName p) ∨
        ∃ f p r, v' = v.applyRule f p r ∨ ∃ q, v' = (v.prefixName q).applyRule f p r) ∧
      y = { x₁ with variants := y.variants } := by
  unfold EnumItem.renameFor at h
  simp only [Option.bind_eq_bind, Option.bind_eq_some_iff] at h
  obtain ⟨x₁, h1, vs, h2, rule, _, h3⟩ := h
  simp only [Option.pure_def, Option.some.injEq] at h3
  subst h3
  refine ⟨x₁, vs, h1, h2, ?_, rfl⟩
  intro v' hv'
  dsimp only at hv'
  split at hv'
  · obtain ⟨w, hw, rfl⟩ := List.mem_map.1 hv'
    split at hw
    · obtain ⟨v, hv, rfl⟩ := List.mem_map.1 hw
      exact ⟨v, hv, .inr ⟨_, _, _, .inr ⟨_, rfl⟩⟩⟩
    · exact ⟨w, hw, .inr ⟨_, _, _, .inl rfl⟩⟩
  · split at hv'
    · obtain ⟨v, hv, rfl⟩ := List.mem_map.1 hv'
      exact ⟨v, hv, .inl (.inr ⟨_, rfl⟩)⟩
    · exact ⟨v', hv', .inl (.inl rfl)⟩

theorem renameTag_same {c : LibConfig} {x y : EnumItem} (h : x.renameTag c = some y) :
    y.path = x.path ∧ y.exportName = x.exportName ∧ y.repr = x.repr ∧
      y.genericParams = x.genericParams := by
  unfold EnumItem.renameTag at h
  split at h
  · dsimp only at h
    split at h
    · rw [Option.map_eq_some_iff] at h
      obtain ⟨vs, _, rfl⟩ := h
      exact ⟨rfl, rfl, rfl, rfl⟩
    · simp only [Option.some.injEq] at h; subst h; exact ⟨rfl, rfl, rfl, rfl⟩
  · simp only [Option.some.injEq] at h; subst h; exact ⟨rfl, rfl, rfl, rfl⟩

theorem renameTag_mid {c : LibConfig} {x y : EnumItem} (h : x.renameTag c = some y)
    (hx : ∀ v ∈ x.variants, VariantMid x.repr.style v) : ∀ v ∈ y.variants, VariantMid x.repr.style v := by
  unfold EnumItem.renameTag at h
  split at h
  · dsimp only at h
    split at h
    · rename_i hs
      rw [Option.map_eq_some_iff] at h
      obtain ⟨vs, hvs, rfl⟩ := h
      intro v hv
      obtain ⟨v', hv', e⟩ := ItemMap.mapM_some_mem hvs v hv
      rw [hs] at hx ⊢
      exact setTag_mid (hx v' hv') e
    · simp only [Option.some.injEq] at h; subst h; exact hx
  · simp only [Option.some.injEq] at h; subst h; exact hx

theorem renameArgs_tys {f : CaseFns} {g : Ty → Ty} {rule : RenameRule} {arrays : Option (List Str)}
    {args args' : List FnArg} (h : renameArgs f g rule arrays args = some args') :
    args'.map FnArg.ty = args.map fun a => g a.ty := by
  unfold renameArgs at h
  dsimp only at h
  split at h
  · simp only [Option.some.injEq] at h
    subst h
    simp [List.map_map, Function.comp_def]
  · rw [Option.map_eq_some_iff] at h
    obtain ⟨m, _, rfl⟩ := h
    rw [List.map_map]
    have : FnArg.ty ∘ setArrayLength m = FnArg.ty := by
      funext a
      simp only [Function.comp_def, setArrayLength]
      repeat' split
      all_goals rfl
    rw [this]
    simp [List.map_map, Function.comp_def]

theorem before_renames (c : LibConfig) : (before Named c).Renames (after c) c where
  const _ h := const_after h
  static _ h n e hm := named_rename_nil h hm
  enum x y h hr := by
    obtain ⟨x₁, vs, h1, h2, h3, h4⟩ := enum_rename hr
    obtain ⟨e1, e2, e3, _⟩ := renameTag_same h1
    have hmid := renameTag_mid h1 (fun v hv => (h.2.2 v hv).mid)
    rw [h4]
    refine ⟨?_, ?_⟩
    · show x₁.exportName = c.ren x₁.path
      rw [e1, e2]; simp [h.1]
    · intro v' hv'
      show VariantAfter c x₁.repr.style v'
      rw [e3]
      obtain ⟨v, hv, hv2⟩ := h3 v' hv'
      obtain ⟨w, hw, e⟩ := ItemMap.mapM_some_mem h2 v hv
      have := renameBody_after (hmid w hw) e
      rcases hv2 with (rfl | ⟨p, rfl⟩) | ⟨f, p, r, rfl | ⟨q, rfl⟩⟩
      · exact this
      · exact prefixName_after this
      · exact applyRule_after this
      · exact applyRule_after (prefixName_after this)
  struct x y h hr := by
    obtain ⟨e1, e2, e3, e4⟩ := struct_same hr
    obtain ⟨h1, _, h3, h4, h5⟩ := h
    refine ⟨?_, ?_, struct_consts_after hr h4⟩
    · rw [e4, e1, h1]
      rintro ⟨a, b⟩
      rw [h5 b] at a
      simp at a
    · rw [e2]
      refine struct_fields_after hr _ ?_ fun f hf => h3 f (List.mem_of_mem_drop hf)
      intro ht
      rw [if_pos ht]
      exact Nat.le_refl _
  union x y h hr := by
    simp only [UnionItem.renameFor, Option.map_eq_some_iff] at hr
    obtain ⟨rule, _, rfl⟩ := hr
    refine ⟨by simp [h.1], ?_⟩
    intro f hf n e hm
    have hf : f ∈ (setFieldNames (x.fields.map (Field.mapTy (Ty.rename c.ren x.genericParams))) _).drop 0 :=
      hf
    obtain ⟨f', hf', e1⟩ := mem_setFieldNames_drop hf
    obtain ⟨f₀, hf₀, rfl⟩ := List.mem_map.1 hf'
    rw [e1] at hm
    exact named_rename (h.2.2 f₀ hf₀) hm
  «opaque» x h := by
    have h : x.exportName = x.path := h
    show c.ren x.exportName = c.ren x.path
    rw [h]
  typedef x h := ⟨by show c.ren x.exportName = c.ren x.path; rw [h.1],
    fun n e hm => named_rename h.2.2 hm⟩
  func x y h hr := by
    unfold FuncItem.renameFor at hr
    simp only [Option.bind_eq_bind, Option.bind_eq_some_iff] at hr
    obtain ⟨rule, _, args, hargs, hr⟩ := hr
    simp only [Option.pure_def, Option.some.injEq] at hr
    subst hr
    intro n e hm
    rcases hm with hm | ⟨a, ha, hm⟩
    · exact named_rename_nil h.1 hm
    · have h1 : a.ty ∈ args.map FnArg.ty := List.mem_map.2 ⟨a, ha, rfl⟩
      rw [renameArgs_tys hargs] at h1
      obtain ⟨a', ha', e1⟩ := List.mem_map.1 h1
      rw [← e1] at hm
      exact named_rename_nil (h.2 a' ha') hm

/-! ## All stages -/

theorem Named.resolve {find : Str → Option DeclKind} {t : Ty} (h : Named t) : Named (t.resolve find) :=
  fun n e hm => h n e (mentions_resolve find hm rfl)

/-- What holds of the items before exclusion. -/
theorem Library.Every.expanded {c : LibConfig}
    {order : List (Str × Annotations) → List (Str × Annotations)} {fuel : Nat} {l l₁ : Library}
    (h : l.Every (before Plain c))
    (he : (((l.transferAnnotations order).simplify c).sortFunctions c).expand c fuel = .ok l₁) :
    l₁.Every (before Plain c) :=
  Library.Every.expand (V := PlainUse) (fun hc => before_mono hc)
    (fun _ find => before_mapTys (plain_manglePaths find) c)
    ((h.transferAnnotations (before_ignores _ c) order).simplify
      (before_mapTys (plain_simplify c.language) c)).sortFunctions he

theorem Library.Every.mono_imp {I J : ItemPred} {l : Library} (h : l.Every I)
    (h1 : ∀ x, I.const x → J.const x) (h2 : ∀ x, I.static x → J.static x)
    (h3 : ∀ x, I.enum x → J.enum x) (h4 : ∀ x, I.struct x → J.struct x)
    (h5 : ∀ x, I.union x → J.union x) (h6 : ∀ x, I.opaque x → J.opaque x)
    (h7 : ∀ x, I.typedef x → J.typedef x) (h8 : ∀ x, I.func x → J.func x) : l.Every J :=
  ⟨fun x hx => h1 x (h.constants x hx), fun x hx => h2 x (h.globals x hx),
    fun x hx => h3 x (h.enums x hx), fun x hx => h4 x (h.structs x hx),
    fun x hx => h5 x (h.unions x hx), fun x hx => h6 x (h.opaqueItems x hx),
    fun x hx => h7 x (h.typedefs x hx), fun x hx => h8 x (h.functions x hx)⟩

theorem variantBefore_imp {P Q : Ty → Prop} (hPQ : ∀ t, P t → Q t) {s : ReprStyle} {v : EnumVariant}
    (h : VariantBefore P s v) : VariantBefore Q s v := by
  refine ⟨?_, h.2⟩
  intro m b i ic hb
  obtain ⟨h1, h2, h3, h4, h5⟩ := h.1 _ _ _ _ hb
  exact ⟨h1, h2, fun f hf => hPQ _ (h3 f hf), h4, h5⟩

theorem Library.Every.before_imp {P Q : Ty → Prop} (hPQ : ∀ t, P t → Q t) {c : LibConfig} {l : Library}
    (h : l.Every (before P c)) : l.Every (before Q c) :=
  h.mono_imp (fun _ h => h) (fun _ h => hPQ _ h)
    (fun x h => ⟨h.1, h.2.1, fun v hv => variantBefore_imp hPQ (h.2.2 v hv)⟩)
    (fun x h => ⟨h.1, h.2.1, fun f hf => hPQ _ (h.2.2.1 f hf), h.2.2.2⟩)
    (fun x h => ⟨h.1, h.2.1, fun f hf => hPQ _ (h.2.2 f hf)⟩) (fun _ h => h)
    (fun x h => ⟨h.1, h.2.1, hPQ _ h.2.2⟩) (fun x h => ⟨hPQ _ h.1, fun a ha => hPQ _ (h.2 a ha)⟩)

theorem Library.Every.finished {c : LibConfig} {l l' : Library} (h : l.Every (before Plain c))
    (hf : l.finish c = some l') : l'.Every (after c) := by
  unfold Library.finish at hf
  refine Library.Every.renameItems (before_renames c) ?_ hf
  have h1 : (l.removeExcluded c).Every (before Named c) :=
    (h.before_imp fun _ h => Plain.named h).removeExcluded
  split
  · by_cases hg : c.generateTag = true
    · exact h1.resolveDeclTypes hg (before_mapTys (fun t ht => ht.resolve) c)
    · unfold Library.resolveDeclTypes
      rw [if_neg hg]
      exact h1
  · exact h1

/-- From the tables to the bindings. -/
theorem Library.Every.collected {I : ItemPred} {c : LibConfig}
    {order : List (Str × Annotations) → List (Str × Annotations)} {fuel : Nat} {l l' : Library}
    {b : Bindings} (h : l'.Every I) (hp : l.prepare c order fuel = .ok l')
    (hg : l.generate c order fuel = .ok b) : b.Every I := by
  obtain ⟨l₂, hl₂, hb⟩ := Library.generate_ok hg
  rw [hp] at hl₂
  simp only [Except.ok.injEq] at hl₂
  subst hl₂
  obtain ⟨l₃, hl₃, hitems⟩ := C11_generate hg
  rw [hp] at hl₃
  simp only [Except.ok.injEq] at hl₃
  subst hl₃
  have hitems' : ∀ x ∈ b.items, I.Of x := by
    intro x hx
    obtain ⟨⟨its, hg, hx'⟩, _⟩ := (hitems x).1 hx
    exact h.getItems hg x hx'
  unfold Library.collect at hb
  rw [Option.map_eq_some_iff] at hb
  obtain ⟨d, _, rfl⟩ := hb
  refine ⟨?_, ?_, hitems', ?_⟩
  all_goals
    intro x hx
    dsimp only at hx
    split at hx
    case isFalse => simp at hx
  · exact h.constants x ((mem_sortIf _ _ _ _).1 hx)
  · exact h.globals x ((mem_sortIf _ _ _ _).1 hx)
  · exact h.functions x hx

/-- The hypothesis on the loaded library. -/
def Library.Plain (l : Library) : Prop :=
  PlainLibrary l.constants.toVec l.globals.toVec l.enums.toVec l.structs.toVec l.unions.toVec
    l.opaqueItems.toVec l.typedefs.toVec l.functions

theorem Library.Plain.every {l : Library} (h : l.Plain) (c : LibConfig) :
    l.Every (before RefSpec.Plain c) where
  constants := h.constants
  globals := h.globals
  enums x hx := by
    obtain ⟨h1, h2, h3⟩ := h.enums x hx
    refine ⟨h1, h2, fun v hv => ⟨?_, (h3 v hv).1.2⟩⟩
    intro m b i ic hb
    obtain ⟨a1, a2, a3, a4⟩ := (h3 v hv).1.1 _ _ _ _ hb
    exact ⟨a1, a2, a3, a4, (h3 v hv).2 _ _ _ _ hb⟩
  structs x hx := by
    obtain ⟨h1, h2, h3, h4, h5⟩ := h.structs x hx
    exact ⟨h2, h3, h4, h5, fun _ => h1⟩
  unions := h.unions
  opaqueItems := h.opaqueItems
  typedefs := h.typedefs
  functions := h.functions

end Cbindgen
