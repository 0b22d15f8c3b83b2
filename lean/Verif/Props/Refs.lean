import Verif.Lemmas.Refs

/-! # C14: references and definitions are renamed consistently -/

namespace Cbindgen

open RefSpec LibSpec

/-- The exported name under a configuration. -/
abbrev LibConfig.exported (c : LibConfig) (n : Str) : Str :=
  RefSpec.exported c.export_.rename c.export_.pre c.export_.renamingOverridesPrefixing n

theorem ren_eq (c : LibConfig) (n : Str) : c.ren n = c.exported n := by
  simp only [LibConfig.ren, ExportConfig.renameName, LibConfig.exported, RefSpec.exported]
  have hp : ∀ m, c.export_.addPrefix m = prefixed c.export_.pre m := by
    intro m
    unfold ExportConfig.addPrefix prefixed
    cases c.export_.pre <;> rfl
  cases h : c.export_.rename.lookup n with
  | none => simp [hp]
  | some m =>
    simp only [hp, Option.isSome_some, true_and, Option.getD_some]

theorem newName_eq {c : LibConfig} {ps : List GParam} {n e : Str} (h : e = newName c.ren ps n n)
    (hn : ¬ IsParam ps n) : e = c.exported n := by
  rw [h, ← ren_eq]
  unfold newName
  rw [if_neg]
  intro hp
  exact hn ((hasParam_iff ps n).1 hp)

theorem newName_param {c : LibConfig} {ps : List GParam} {n e : Str} (h : e = newName c.ren ps n n)
    (hn : IsParam ps n) : e = n := by
  rw [h]
  unfold newName
  rw [if_pos ((hasParam_iff ps n).2 hn)]

theorem bindings_after {c : LibConfig} {order : List (Str × Annotations) → List (Str × Annotations)}
    {fuel : Nat} {l : Library} {b : Bindings} (hl : l.Plain) (h : l.generate c order fuel = .ok b) :
    b.Every (after c) := by
  obtain ⟨l', hl', _⟩ := Library.generate_ok h
  obtain ⟨l₁, h1, h2⟩ := Library.prepare_ok hl'
  exact (((hl.every c).expanded h1).finished h2).collected hl' h

/-- C14: definitions carry the name that the configuration gives. -/
theorem C14_definitions {c : LibConfig} {order : List (Str × Annotations) → List (Str × Annotations)}
    {fuel : Nat} {l : Library} {b : Bindings} (hl : l.Plain) (h : l.generate c order fuel = .ok b) :
    (∀ x ∈ b.items, x.exportName = c.exported x.path) ∧
      ∀ x ∈ b.constants, x.associatedTo = none → x.exportName = c.exported x.path := by
  have ha := bindings_after hl h
  refine ⟨?_, fun x hx hn => (ha.constants x hx).1 hn |>.trans (ren_eq c _)⟩
  intro x hx
  have := ha.items x hx
  rw [← ren_eq]
  cases x with
  | enum x => exact this.1
  | struct x => exact this.1
  | union x => exact this.1
  | «opaque» x => exact this
  | typedef x => exact this.1

theorem itemMentions_after {c : LibConfig} {x : Container} (h : (after c).Of x) {n e : Str}
    (hm : ItemMentions x n e) : e = c.exported n := by
  have field : ∀ {k : Nat} {ps : List GParam} {fs : List Field},
      (∀ f ∈ fs.drop k, FieldAfter c ps f) → FieldMentions k ps fs n e → e = c.exported n := by
    intro k ps fs hf ⟨f, hfm, hm, hn⟩
    exact newName_eq (hf f hfm n e hm) hn
  have const : ∀ {ks : List ConstItem}, (∀ k ∈ ks, ConstAfter c k) →
      (∃ k ∈ ks, ConstMentions k n e) → e = c.exported n := by
    intro ks hk ⟨k, hkm, hm⟩
    rw [← ren_eq]
    exact (hk k hkm).2 n e hm
  cases x with
  | enum x =>
    obtain ⟨v, hv, ⟨m, b, i, ic, hb, hm | hm⟩ | ⟨d, hd, hm⟩⟩ := hm
    · exact field ((h.2 v hv).1 _ _ _ _ hb).1 hm
    · exact const ((h.2 v hv).1 _ _ _ _ hb).2 hm
    · rw [← ren_eq]; exact (h.2 v hv).2 d hd n e hm
  | struct x =>
    rcases hm with hm | hm
    · exact field h.2.1 hm
    · exact const h.2.2 hm
  | union x => exact field (k := 0) h.2 hm
  | «opaque» x => exact absurd hm (by simp [ItemMentions])
  | typedef x => exact newName_eq (h.2 n e hm.1) hm.2

/-- C14: references, parameters aside, are written with the name that the configuration gives. -/
theorem C14_references {c : LibConfig} {order : List (Str × Annotations) → List (Str × Annotations)}
    {fuel : Nat} {l : Library} {b : Bindings} (hl : l.Plain) (h : l.generate c order fuel = .ok b) :
    (∀ x ∈ b.items, ∀ n e, ItemMentions x n e → e = c.exported n) ∧
      (∀ x ∈ b.functions, ∀ n e, FuncMentions x n e → e = c.exported n) ∧
      (∀ x ∈ b.globals, ∀ n e, Mentions x.ty n e → e = c.exported n) ∧
      ∀ x ∈ b.constants, ∀ n e, ConstMentions x n e → e = c.exported n := by
  have ha := bindings_after hl h
  refine ⟨fun x hx n e hm => itemMentions_after (ha.items x hx) hm, ?_, ?_, ?_⟩
  · intro x hx n e hm; rw [← ren_eq]; exact ha.functions x hx n e hm
  · intro x hx n e hm; rw [← ren_eq]; exact ha.globals x hx n e hm
  · intro x hx n e hm; rw [← ren_eq]; exact (ha.constants x hx).2 n e hm

/-- C14: a reference to a definition uses the name that the definition carries. -/
theorem C14_consistent {c : LibConfig} {order : List (Str × Annotations) → List (Str × Annotations)}
    {fuel : Nat} {l : Library} {b : Bindings} (hl : l.Plain) (h : l.generate c order fuel = .ok b)
    {y : Container} (hy : y ∈ b.items) :
    (∀ x ∈ b.items, ∀ e, ItemMentions x y.path e → e = y.exportName) ∧
      (∀ x ∈ b.functions, ∀ e, FuncMentions x y.path e → e = y.exportName) ∧
      (∀ x ∈ b.globals, ∀ e, Mentions x.ty y.path e → e = y.exportName) ∧
      ∀ x ∈ b.constants, ∀ e, ConstMentions x y.path e → e = y.exportName := by
  rw [(C14_definitions hl h).1 y hy]
  obtain ⟨h1, h2, h3, h4⟩ := C14_references hl h
  exact ⟨fun x hx e => h1 x hx _ e, fun x hx e => h2 x hx _ e, fun x hx e => h3 x hx _ e,
    fun x hx e => h4 x hx _ e⟩

/-- C14: generic parameters are left alone in fields and aliased types. -/
theorem C14_parameters_partial {c : LibConfig}
    {order : List (Str × Annotations) → List (Str × Annotations)} {fuel : Nat} {l : Library}
    {b : Bindings} (hl : l.Plain) (h : l.generate c order fuel = .ok b) :
    (∀ x, .struct x ∈ b.items → ∀ f ∈ x.fields.drop (if x.hasTagField then 1 else 0), ∀ n e,
      Mentions f.ty n e → IsParam x.genericParams n → e = n) ∧
    (∀ x, .union x ∈ b.items → ∀ f ∈ x.fields, ∀ n e, Mentions f.ty n e →
      IsParam x.genericParams n → e = n) ∧
    (∀ x, .typedef x ∈ b.items → ∀ n e, Mentions x.aliased n e → IsParam x.genericParams n → e = n) ∧
    ∀ x, .enum x ∈ b.items → ∀ v ∈ x.variants, ∀ m s i ic, v.body = .body m s i ic →
      ∀ f ∈ s.fields.drop (if x.repr.style = .c then 0 else 1), ∀ n e, Mentions f.ty n e →
        IsParam s.genericParams n → e = n := by
  have ha := bindings_after hl h
  refine ⟨?_, ?_, ?_, ?_⟩
  · intro x hx f hf n e hm hp
    exact newName_param ((ha.items _ hx).2.1 f hf n e hm) hp
  · intro x hx f hf n e hm hp
    exact newName_param ((ha.items _ hx).2 f hf n e hm) hp
  · intro x hx n e hm hp
    exact newName_param ((ha.items _ hx).2 n e hm) hp
  · intro x hx v hv m s i ic hb f hf n e hm hp
    exact newName_param ((((ha.items _ hx).2 v hv).1 _ _ _ _ hb).1 f hf n e hm) hp

/-- C14: the constants in the value of a constant are renamed like constants. -/
theorem C14_constants {c : LibConfig} {order : List (Str × Annotations) → List (Str × Annotations)}
    {fuel : Nat} {l : Library} {b : Bindings} (h : l.generate c order fuel = .ok b) :
    ∀ y ∈ b.constants, ∃ x ∈ l.constants.toVec, y.path = x.path ∧
      constNames y.value = (constNames x.value).map c.exported := by
  have hren : c.ren = c.exported := funext fun n => ren_eq c n
  let I : ItemPred :=
    { const := fun x => x ∈ l.constants.toVec, static := fun _ => True, enum := fun _ => True,
      struct := fun _ => True, union := fun _ => True, «opaque» := fun _ => True,
      typedef := fun _ => True, func := fun _ => True }
  let J : ItemPred :=
    { I with const := fun y => ∃ x ∈ l.constants.toVec, y.path = x.path ∧
      constNames y.value = (constNames x.value).map c.exported }
  obtain ⟨l', hl', _⟩ := Library.generate_ok h
  obtain ⟨l₁, h1, h2⟩ := Library.prepare_ok hl'
  have t : ∀ {α : Type} {xs : List α}, ∀ x ∈ xs, True := fun _ _ => trivial
  have e0 : l.Every I := ⟨fun x hx => hx, t, t, t, t, t, t, t⟩
  have ig : I.IgnoresAnnotations := ⟨by simp [I], by simp [I], by simp [I], by simp [I], by simp [I]⟩
  have mt : ∀ g, I.MapTys I g := fun g =>
    ⟨fun _ h => h, by simp [I], by simp [I], by simp [I], by simp [I], by simp [I], by simp [I],
      by simp [I]⟩
  have all : ∀ x : Container, I.Of x := by intro x; cases x <;> exact trivial
  have e1 : l₁.Every I :=
    Library.Every.expand (V := fun _ => True)
      (fun _ => ⟨fun _ _ y _ => all y, fun _ _ _ _ => trivial, fun _ _ _ _ => trivial,
        fun _ _ _ _ _ _ => all _⟩)
      (fun _ find => mt _) ((e0.transferAnnotations ig order).simplify (mt _)).sortFunctions h1
  have e2 : l'.Every J := by
    unfold Library.finish at h2
    refine Library.Every.renameItems (I := I) ?_ ?_ h2
    · refine ⟨?_, by simp [J, I], by simp [J, I], by simp [J, I], by simp [J, I], by simp [J, I],
        by simp [J, I], by simp [J, I]⟩
      intro x hx
      exact ⟨x, hx, rfl, by rw [← hren]; exact constNames_rename c.ren x.value⟩
    · split
      · by_cases hg : c.generateTag = true
        · exact e1.removeExcluded.resolveDeclTypes hg (mt _)
        · unfold Library.resolveDeclTypes
          rw [if_neg hg]
          exact e1.removeExcluded
      · exact e1.removeExcluded
  exact (e2.collected hl' h).constants

/-! ## The tag of an enum with data -/

/-- The first field of every variant is the tag. -/
def TagFirst (t : Str) (v : EnumVariant) : Prop :=
  ∀ m b i ic, v.body = .body m b i ic → ∃ f fs, b.fields = f :: fs ∧ f.ty = .path t t [] none

theorem setTag_first {t : Str} {v w : EnumVariant} (h : v.setTag t = some w) : TagFirst t w := by
  intro m b i ic hb
  unfold EnumVariant.setTag at h
  split at h
  · rename_i hv
    simp only [Option.some.injEq] at h; subst h
    rw [hv] at hb; simp at hb
  · rename_i b₀ _ _ _
    rw [Option.map_eq_some_iff] at h
    obtain ⟨fs, hfs, rfl⟩ := h
    simp only [VBody.body.injEq] at hb
    obtain ⟨_, rfl, _⟩ := hb
    cases hbf : b₀.fields with
    | nil => simp [hbf, setFirstTy] at hfs
    | cons f fs' =>
      simp only [hbf, setFirstTy, Option.some.injEq] at hfs
      subst hfs
      exact ⟨_, _, rfl, rfl⟩

theorem renameBody_first {c : LibConfig} {t : Str} {v w : EnumVariant} (ht : TagFirst t v)
    (hm : VariantMid .rust v) (h : v.renameBody c = some w) : TagFirst t w := by
  intro m b i ic hb
  unfold EnumVariant.renameBody at h
  split at h
  · simp only [Option.some.injEq] at h; subst h; simp at hb
  · rename_i b₀ _ _ hv
    rw [Option.map_eq_some_iff] at h
    obtain ⟨b', hb', rfl⟩ := h
    simp only [VBody.body.injEq] at hb
    obtain ⟨_, rfl, _⟩ := hb
    obtain ⟨f, fs, e1, e2⟩ := ht _ _ _ _ hv
    have htag : b₀.hasTagField = true := (hm.1 _ _ _ _ hv).2.2.2 (by simp)
    simp only [StructItem.renameFor, Option.map_eq_some_iff] at hb'
    obtain ⟨rule, _, rfl⟩ := hb'
    simp only [e1, htag, renameFieldTys]
    cases hn : structFieldNames c.caseFns (b₀.annotations.list c!"field-names") rule
        ((f :: fs).map Field.name) with
    | nil => exact ⟨_, _, rfl, e2⟩
    | cons n ns => exact ⟨_, _, rfl, e2⟩

/-- After renaming, the tag of an enum with an integer representation is named after the enum. -/
def afterTag (c : LibConfig) : ItemPred where
  const _ := True
  static _ := True
  enum x := ∀ t, x.tag = some t →
    t = x.exportName ++ c!"_Tag" ∧ (x.repr.style = .rust → ∀ v ∈ x.variants, TagFirst t v)
  struct _ := True
  union _ := True
  «opaque» _ := True
  typedef _ := True
  func _ := True

theorem before_renames_tag {c : LibConfig} (hc : c.language ≠ .cxx) :
    (before Named c).Renames (afterTag c) c where
  const _ _ := trivial
  static _ _ := trivial
  enum x y h hr := by
    obtain ⟨x₁, vs, h1, h2, h3, h4⟩ := enum_rename hr
    obtain ⟨e1, e2, e3, _⟩ := renameTag_same h1
    have hmid := renameTag_mid h1 (fun v hv => (h.2.2 v hv).mid)
    rw [h4]
    intro t ht
    have ht : x₁.tag = some t := ht
    have key : t = x₁.exportName ++ c!"_Tag" ∧
        (x₁.repr.style = .rust → ∀ v ∈ x₁.variants, TagFirst t v) := by
      unfold EnumItem.renameTag at h1
      split at h1
      · dsimp only at h1
        split at h1
        · rw [Option.map_eq_some_iff] at h1
          obtain ⟨ws, hws, rfl⟩ := h1
          simp only [Option.some.injEq] at ht
          subst ht
          refine ⟨rfl, fun _ v hv => ?_⟩
          obtain ⟨v', _, e⟩ := ItemMap.mapM_some_mem hws v hv
          exact setTag_first e
        · rename_i hs
          simp only [Option.some.injEq] at h1
          subst h1
          simp only [Option.some.injEq] at ht
          subst ht
          exact ⟨rfl, fun h => absurd h hs⟩
      · rename_i hn
        simp only [Option.some.injEq] at h1
        subst h1
        exact absurd ⟨hc, by simp only; simp only at ht; rw [ht]; rfl⟩ hn
    refine ⟨key.1, ?_⟩
    intro hs v' hv'
    have hs : x₁.repr.style = .rust := hs
    obtain ⟨v, hv, hv2⟩ := h3 v' hv'
    obtain ⟨w, hw, e⟩ := ItemMap.mapM_some_mem h2 v hv
    have hmw := hmid w hw
    rw [e3] at hs
    simp only at hs hmw
    rw [hs] at hmw
    have hf : TagFirst t v := renameBody_first (key.2 (by rw [e3]; exact hs) w hw) hmw e
    have pre : ∀ {v : EnumVariant} {p : Str}, TagFirst t v → TagFirst t (v.prefixName p) := by
      intro v p hf m b i ic hb
      cases hv : v.body with
      | empty a => simp [EnumVariant.prefixName, hv] at hb
      | body m' b' i' ic' =>
        simp only [EnumVariant.prefixName, hv, VBody.body.injEq] at hb
        obtain ⟨_, rfl, _⟩ := hb
        exact hf m' b' i' ic' hv
    have rul : ∀ {v : EnumVariant} {f : CaseFns} {p : Str} {r : RenameRule}, TagFirst t v →
        TagFirst t (v.applyRule f p r) := by
      intro v f p r hf m b i ic hb
      cases hv : v.body with
      | empty a => simp [EnumVariant.applyRule, EnumVariant.new, hv] at hb
      | body m' b' i' ic' =>
        simp only [EnumVariant.applyRule, EnumVariant.new, hv, VBody.body.injEq] at hb
        obtain ⟨_, rfl, _⟩ := hb
        exact hf m' b' i' ic' hv
    rcases hv2 with (rfl | ⟨p, rfl⟩) | ⟨f, p, r, rfl | ⟨q, rfl⟩⟩
    · exact hf
    · exact pre hf
    · exact rul hf
    · exact rul (pre hf)
  struct _ _ _ _ := trivial
  union _ _ _ _ := trivial
  «opaque» _ _ := trivial
  typedef _ _ := trivial
  func _ _ _ _ := trivial

theorem Library.Every.renamed {J : ItemPred} {c : LibConfig} (hJ : (before Named c).Renames J c)
    {l l' : Library} (h : l.Every (before RefSpec.Plain c)) (hf : l.finish c = some l') :
    l'.Every J := by
  unfold Library.finish at hf
  refine Library.Every.renameItems hJ ?_ hf
  have h1 : (l.removeExcluded c).Every (before Named c) :=
    (h.before_imp fun _ h => Plain.named h).removeExcluded
  split
  · by_cases hg : c.generateTag = true
    · exact h1.resolveDeclTypes hg (before_mapTys (fun t ht => ht.resolve) c)
    · unfold Library.resolveDeclTypes
      rw [if_neg hg]
      exact h1
  · exact h1

/-- C14: outside C++, the tag of an enum with data is named after the enum; if the enum is not `repr(C)`,
every variant starts with a field of that type. -/
theorem C14_tag_partial {c : LibConfig} {order : List (Str × Annotations) → List (Str × Annotations)}
    {fuel : Nat} {l : Library} {b : Bindings} (hc : c.language ≠ .cxx) (hl : l.Plain)
    (h : l.generate c order fuel = .ok b) {x : EnumItem} (hx : .enum x ∈ b.items) {t : Str}
    (ht : x.tag = some t) :
    t = x.exportName ++ c!"_Tag" ∧
      (x.repr.style = .rust → ∀ v ∈ x.variants, ∀ m s i ic, v.body = .body m s i ic →
        ∃ f fs, s.fields = f :: fs ∧ f.ty = .path t t [] none) := by
  obtain ⟨l', hl', _⟩ := Library.generate_ok h
  obtain ⟨l₁, h1, h2⟩ := Library.prepare_ok hl'
  have := (((hl.every c).expanded h1).renamed (before_renames_tag hc) h2).collected hl' h
  exact this.items _ hx t ht

end Cbindgen
