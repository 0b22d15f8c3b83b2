import Verif.Lemmas.SourceCxxFields

/-!
# From enums in the sources to enums in the bindings for C++ (C77)
-/

namespace Cbindgen
open CSpec HeadSpec LexSpec
open SrcSpec hiding Reaches Given Plain

/-! ## The data of variants -/

section
variable {E : TyEnv} {d : DeclConfig} {ren : Str → Str} {o : Str}

/-- The fields of a variant are loaded, and their types and names are those of the members. -/
theorem payload_okX (he : EnvForX E d ren []) (ho : E.owner = some o) {nm : Str → Str} {rust : CfgSpec.Opt → Bool} {k : Nat}
    {fs : List SynField} {ms : List CItem} (h : CxxPayload E nm rust k fs ms) :
    ∃ fields, loadVariantFields o none k fs = .ok fields ∧
      ∀ (c : OutConfig) on, CfgSpec.Matches c.defines rust on → (∀ f ∈ fs, ∀ x ∈ conds f.attrs, CfgSpec.Mapped c.defines x) →
        (fields.filter fun f => shown c on f.cfg).map (Field.asMemberX d ren [] nm) = ms := by
  induction h with
  | nil => exact ⟨[], rfl, by simp⟩
  | @skip k f fs ms hn _ ih =>
    obtain ⟨fields, h1, h3⟩ := ih
    exact ⟨fields, loadVariant_nothing hn h1, fun c on hm hc => h3 c on hm fun f hf => hc f (by simp [hf])⟩
  | @shown k f fs ms n u bs hn ht hb hc _ ih =>
    obtain ⟨fields, h1, h3⟩ := ih
    obtain ⟨ty, ht1, ht2⟩ := xtype_ok he ht
    obtain ⟨a, ha, hbits⟩ := bits_ok hb
    refine ⟨_, loadVariant_some hn ht1 ha h1, ?_⟩
    intro c on hm hmap
    have hs : shown c on (loadCfg f.attrs) = true := by
      rw [shown_guard hm (load_guard f.attrs) (hmap f (by simp)), List.all_eq_true]
      exact hc
    have hf := ht2.fin
    rw [ho] at hf
    simp only [List.filter_cons, hs, if_true, List.map_cons, h3 c on hm fun f hf => hmap f (by simp [hf])]
    congr 1
    simp only [Field.asMemberX]
    rw [hbits _ rfl, ← hf]
    rfl
  | @hidden k f fs ms n u bs hn ht hb hc _ ih =>
    obtain ⟨fields, h1, h3⟩ := ih
    obtain ⟨ty, ht1, ht2⟩ := xtype_ok he ht
    obtain ⟨a, ha, hbits⟩ := bits_ok hb
    refine ⟨_, loadVariant_some hn ht1 ha h1, ?_⟩
    intro c on hm hmap
    have hs : shown c on (loadCfg f.attrs) = false := by
      rw [shown_guard hm (load_guard f.attrs) (hmap f (by simp)), List.all_eq_false]
      obtain ⟨x, hx, hx'⟩ := hc
      exact ⟨x, hx, by simp [hx']⟩
    simp only [List.filter_cons, hs, Bool.false_eq_true, if_false, h3 c on hm fun f hf => hmap f (by simp [hf])]

theorem payload_usesX {x : Str} {one : Option Str} {k : Nat} {f : SynField} {fs : List SynField} {fields : List Field}
    (h : loadVariantFields o one k fs = .ok fields) (hf : f ∈ fs) (hm : CxxMentions (some o) f.ty x) :
    ∃ g ∈ fields, LibSpec.TyUses (g.ty.simplify .cxx) x := by
  obtain ⟨r, h1, h2⟩ := mem_variantFields h hf
  obtain ⟨ty, rfl, hu⟩ := mentions_usesX hm r h1
  obtain ⟨g, hg, e⟩ := h2 ty rfl
  exact ⟨g, hg, by rw [e]; exact hu⟩

end

/-! ## Variants -/

/-- What the data of a variant is loaded as. -/
inductive BodyLoadedX (V : EnumEnv) (d : RenameRule → DeclConfig) (ren : RenameRule → Str → Str) (rust : CfgSpec.Opt → Bool) (o : Str)
    (inl : Bool) (ea : Annotations) (v : SynVariant) : List CItem → Option (Annotations × List CItem) → VBody → Prop
  | unit {a} : v.fields = .unit → BodyLoadedX V d ren rust o inl ea v [] none (.empty (variantAnnotations ea a))
  | data {fs a rule fields ps} : listOf v.fields = fs → v.fields ≠ .unit → a.ruleOr V.fieldRule = some rule →
      a.list c!"field-names" = none → loadVariantFields o none 0 fs = .ok fields →
      (∀ (c : OutConfig) on, CfgSpec.Matches c.defines rust on → (∀ f ∈ fs, ∀ x ∈ conds f.attrs, CfgSpec.Mapped c.defines x) →
        (fields.filter fun f => shown c on f.cfg).map (Field.asMemberX (d rule) (ren rule) [] (V.member rule)) = ps) → ∀ ic,
      BodyLoadedX V d ren rust o inl ea v
        [.object false [] (V.armMember (V.arm (unraw v.ident))) (.base false V.keyword (V.body v.ident) []) []]
        (some (a, V.tagMembers rule c!"tag" ++ ps))
        (.body (V.arm (unraw v.ident)) (StructItem.new (v.ident ++ c!"_Body") []
          ((if inl then [tagField none] else []) ++ fields) inl true none false none (variantAnnotations ea a) []) false ic)

section
variable {V : EnumEnv} {d : RenameRule → DeclConfig} {ren : RenameRule → Str → Str} {rust : CfgSpec.Opt → Bool} {o : Str}

theorem variant_okX {lc : LoadConfig} {ea : Annotations} {rule : RenameRule}
    (he : ∀ r, EnvForX (V.types r) (d r) (ren r) []) (ho : ∀ r, (V.types r).owner = some o) (hl : lc.language = .cxx) (hr : ArmRule lc ea rule)
    (ha : ∀ n, V.arm n = rule.apply lc.caseFns n .structMember) {v : SynVariant} {arm : List CItem} {body : Option (Annotations × List CItem)}
    (h : CxxVariantIs V rust v arm body) {dl : Option Lit} (hd : loadDisc lc.fieldOrder o v.disc = .ok dl) (inl : Bool) (m : Option Cfg) :
    ∃ b, v.load lc inl [] m o ea = .ok (EnumVariant.new (unraw v.ident) dl b (Cfg.append m (loadCfg v.attrs)) (loadDoc v.attrs)) ∧
      BodyLoadedX V d ren rust o inl ea v arm body b := by
  have hload : ∀ a b, Annotations.load v.attrs = .ok a →
      v.fields.loadBody lc rule inl o v.ident [] (variantAnnotations ea a) = .ok b →
      v.load lc inl [] m o ea = .ok (EnumVariant.new (unraw v.ident) dl b (Cfg.append m (loadCfg v.attrs)) (loadDoc v.attrs)) := by
    intro a b h1 h2
    unfold ArmRule at hr
    unfold SynVariant.load
    simp only [hd, h1, hr, bind, Except.bind]
    unfold variantAnnotations at h2
    cases hb : ea.bool c!"derive-ostream" <;> simp only [hb] at h2 ⊢ <;> rw [h2]
  cases h with
  | unit h1 h2 => exact ⟨_, hload _ _ h2 (by rw [h1]; rfl), .unit h1⟩
  | @body fs a rl ps h1 h2 h3 h4 h5 =>
    obtain ⟨fields, k1, k3⟩ := payload_okX (he rl) (ho rl) h5
    have : ∃ ic, v.fields.loadBody lc rule inl o v.ident [] (variantAnnotations ea a) = .ok
        (.body (V.arm (unraw v.ident)) (StructItem.new (v.ident ++ c!"_Body") []
          ((if inl then [tagField none] else []) ++ fields) inl true none false none (variantAnnotations ea a) []) false ic) := by
      rcases h1 with h1 | h1 <;> rw [h1]
      · refine ⟨false, ?_⟩
        simp only [SynFields.loadBody, variantBody, parseFields, ← ha, bind, Except.bind]
        simp [k1]
      · refine ⟨fs.length == 1, ?_⟩
        simp only [SynFields.loadBody, variantBody, parseFields, ← ha, bind, Except.bind, hl]
        simp [k1]
    obtain ⟨ic, h6⟩ := this
    refine ⟨_, hload _ _ h2 h6, .data (fields := fields) (fs := fs) ?_ ?_ h3 h4 k1 k3 ic⟩
    · rcases h1 with h1 | h1 <;> rw [h1] <;> rfl
    · rcases h1 with h1 | h1 <;> rw [h1] <;> nofun

/-- What a variant is loaded as. -/
def VariantLoadedX (V : EnumEnv) (d : RenameRule → DeclConfig) (ren : RenameRule → Str → Str) (rust : CfgSpec.Opt → Bool) (o : Str)
    (inl : Bool) (lc : LoadConfig) (ea : Annotations) (m : Option Cfg) (v : SynVariant) (w : EnumVariant) : Prop :=
  ∃ b dl, (∃ arm body, CxxVariantIs V rust v arm body) ∧
    (∀ arm body, CxxVariantIs V rust v arm body → BodyLoadedX V d ren rust o inl ea v arm body b) ∧
    DiscIs lc.fieldOrder v dl ∧ w = EnumVariant.new (unraw v.ident) dl b (Cfg.append m (loadCfg v.attrs)) (loadDoc v.attrs)

theorem body_isEmptyX {inl : Bool} {ea : Annotations} {v : SynVariant} {arm : List CItem} {body : Option (Annotations × List CItem)}
    {b : VBody} (h : BodyLoadedX V d ren rust o inl ea v arm body b) : (!b.isEmpty) = hasFields v.fields := by
  cases h with
  | unit h => rw [h]; rfl
  | data _ h => revert h; cases v.fields <;> simp [hasFields, VBody.isEmpty]

theorem enum_load_okX {lc : LoadConfig} {s : SynEnum} {r : Repr} {a : Annotations}
    {rule : RenameRule} (hg : OnlyLifetimes s.generics) (hr : EnumRepr s.attrs r) (ha : Annotations.load s.attrs = .ok a)
    (hl : lc.language = .cxx) (hrl : ArmRule lc a rule) (he : ∀ r, EnvForX (V.types r) (d r) (ren r) [])
    (ho : ∀ r, (V.types r).owner = some (unraw s.ident)) (har : ∀ n, V.arm n = rule.apply lc.caseFns n .structMember)
    (hv : ∀ v ∈ s.variants, (∀ e, v.disc = some e → ∃ K lim x, RustValue K lim e x) ∧ ∃ arm body, CxxVariantIs V rust v arm body)
    (m : Option Cfg) :
    ∃ vs ws, s.load lc m = .ok ⟨unraw s.ident, unraw s.ident, [], r, vs ++ ws, if withData s then some c!"Tag" else none,
        Cfg.append m (loadCfg s.attrs), a, loadDoc s.attrs⟩ ∧
      Pairs (VariantLoadedX V d ren rust (unraw s.ident) (r.style != .c) lc a m) s.variants vs ∧
      ws.map EnumVariant.name = moreNames lc a ∧ ∀ w ∈ ws, IsMore w := by
  obtain ⟨vs, h1, h2⟩ := pairs_tryMap (f := SynVariant.load lc (r.style != .c) [] m (unraw s.ident) a)
    (P := VariantLoadedX V d ren rust (unraw s.ident) (r.style != .c) lc a m) (xs := s.variants) (by
      intro v hvs
      obtain ⟨hd, arm, body, hi⟩ := hv v hvs
      obtain ⟨dl, h1, h2⟩ := disc_ok (ord := lc.fieldOrder) (o := unraw s.ident) hd
      obtain ⟨b, h3, h4⟩ := variant_okX he ho hl hrl har hi h1 (r.style != .c) m
      refine ⟨_, h3, b, dl, ⟨arm, body, hi⟩, fun arm' body' hi' => ?_, h2, rfl⟩
      obtain ⟨b', h5, h6⟩ := variant_okX he ho hl hrl har hi' h1 (r.style != .c) m
      rw [h3] at h5
      simp only [EnumVariant.new, Except.ok.injEq, EnumVariant.mk.injEq, true_and, and_true] at h5
      rw [h5]
      exact h6)
  have h3 : enumRepr r = .ok () := by
    unfold enumRepr
    rw [if_neg, if_neg]
    · simp [hr.align]
    · rintro ⟨e, e'⟩
      rcases hr.style with h | ⟨_, h⟩
      · rw [e] at h; cases h
      · exact h e'
  have h4 : (vs.any fun v => !v.body.isEmpty) = withData s := by
    unfold withData
    clear h1
    generalize s.variants = us at h2
    induction h2 with
    | nil => rfl
    | cons hp _ ih =>
      obtain ⟨_, b, dl, ⟨arm, body, hi⟩, hb, _, rfl⟩ := hp
      simp only [List.any_cons]
      rw [ih]
      congr 1
      exact body_isEmptyX (hb _ _ hi)
  refine ⟨vs, ((a.list c!"enum-trailing-values").getD []).map (fun n => EnumVariant.new n none (.empty {}) none []) ++
    (if lc.sentinel a then [EnumVariant.new c!"Sentinel" none (.empty {}) none [c!" Must be last for serialization purposes"]] else []),
    ?_, h2.imp fun _ _ _ h => h.2, ?_, ?_⟩
  · simp only [SynEnum.load, hr.load, h3, onlyLifetimes_load hg, ha, h1, bind, Except.bind, h4, List.append_assoc]
  · unfold moreNames LoadConfig.sentinel
    simp only [List.map_append, List.map_map]
    congr 1
    · simp [Function.comp_def, EnumVariant.new]
    · split <;> rfl
  · intro w hw
    rcases List.mem_append.1 hw with hw | hw
    · obtain ⟨n, _, rfl⟩ := List.mem_map.1 hw
      exact ⟨rfl, rfl, rfl, rfl⟩
    · split at hw
      · simp only [List.mem_singleton] at hw
        subst hw
        exact ⟨rfl, rfl, rfl, rfl⟩
      · simp at hw

theorem body_taggedX {inl : Bool} {lc : LoadConfig}
    {ea : Annotations} {m : Option Cfg} {v : SynVariant} {w : EnumVariant} (h : VariantLoadedX V d ren rust o inl lc ea m v w) {t : Bool}
    (ht : hasFields v.fields = true → inl = t) : w.body.Tagged t ∧
      ∀ x, ∀ f ∈ listOf v.fields, CxxMentions (some o) f.ty x → ∃ ty ∈ w.body.ownTys, LibSpec.TyUses (ty.simplify .cxx) x := by
  obtain ⟨b, dl, ⟨arm, body, hi⟩, hb, hd, rfl⟩ := h
  cases hb _ _ hi with
  | unit h1 =>
    refine ⟨trivial, ?_⟩
    rw [h1]
    nofun
  | @data fs a rl fields ps q1 q2 q3 q4 q5 q6 ic =>
    have hinl : inl = t := ht (by revert q2; cases v.fields <;> simp [hasFields])
    have hown : (VBody.body (V.arm (unraw v.ident)) (StructItem.new (v.ident ++ c!"_Body") []
          ((if inl then [tagField none] else []) ++ fields) inl true none false none (variantAnnotations ea a) []) false ic).ownTys =
        fields.map Field.ty := by
      cases inl <;> rfl
    refine ⟨⟨hinl, rfl⟩, ?_⟩
    show ∀ x, ∀ f ∈ _, _ → ∃ ty ∈ VBody.ownTys (VBody.body _ _ _ _), _
    rw [hown, q1]
    intro x f hf hm
    obtain ⟨g, hg, hu⟩ := payload_usesX q5 hf hm
    exact ⟨g.ty, List.mem_map.2 ⟨g, hg, rfl⟩, hu⟩

end

/-! ## The library stage -/

/-- A variant after all steps. -/
def VariantEndX (c : LibConfig) (lead : Option Str) (en : Str) (rule : RenameRule) (v w : EnumVariant) : Prop :=
  ∃ x, (v.mapTys (Ty.simplify .cxx)).renameBody c = some x ∧ w = x.named c.caseFns lead en rule

section
variable {c : LibConfig}

/-- In C++ the tag keeps its name. -/
theorem final_enumX (hc : c.language = .cxx) {x : EnumItem} {z : Container} (h : (Container.enum x).finalX c = some z) :
    ∃ x' rule, z = .enum x' ∧ x.annotations.ruleOr c.renameVariants = some rule ∧ x'.path = x.path ∧ x'.exportName = c.ren x.exportName ∧
      x'.repr = x.repr ∧ x'.tag = x.tag ∧ x'.cfg = x.cfg ∧ (x'.annotations = x.annotations ∧ x'.genericParams = x.genericParams) ∧
      Pairs (VariantEndX c (x.lead c) (c.ren x.exportName) rule) x.variants x'.variants := by
  simp only [Container.finalX, Container.mapTys, Container.renameFor, Option.map_eq_some_iff] at h
  obtain ⟨y, hy, rfl⟩ := h
  unfold EnumItem.renameFor at hy
  simp only [Option.bind_eq_bind, Option.bind_eq_some_iff, Option.pure_def, Option.some.injEq] at hy
  obtain ⟨y₁, h1, vs, h2, rule, h3, rfl⟩ := hy
  unfold EnumItem.renameTag at h1
  rw [if_neg (by rw [hc]; exact fun h => h.1 rfl)] at h1
  cases h1
  refine ⟨_, rule, rfl, h3, rfl, rfl, rfl, rfl, rfl, ⟨rfl, rfl⟩, ?_⟩
  have h5 := (Pairs.map (EnumVariant.mapTys (Ty.simplify .cxx)) x.variants).comp (pairs_mapM h2)
  have h6 := h5.comp (Pairs.map (EnumVariant.named c.caseFns (x.lead c) (c.ren x.exportName) rule) vs)
  have h7 : (match rule.notNone with
      | some r => (if (x.annotations.bool c!"prefix-with-name").getD c.prefixWithName then
          vs.map (EnumVariant.prefixName (c.ren x.exportName ++ c.variantSep)) else vs).map (EnumVariant.applyRule c.caseFns (c.ren x.exportName) r)
      | none => if (x.annotations.bool c!"prefix-with-name").getD c.prefixWithName then
          vs.map (EnumVariant.prefixName (c.ren x.exportName ++ c.variantSep)) else vs) =
      vs.map (EnumVariant.named c.caseFns (x.lead c) (c.ren x.exportName) rule) := by
    unfold EnumVariant.named EnumItem.lead
    cases rule.notNone <;> by_cases hp : (x.annotations.bool c!"prefix-with-name").getD c.prefixWithName = true <;>
      simp [hp, Function.comp_def]
  have h8 := h6.imp (Q := VariantEndX c (x.lead c) (c.ren x.exportName) rule)
    fun _ _ _ ⟨w, ⟨u, hu, hw⟩, e⟩ => ⟨w, by rw [hu] at hw; exact hw, e⟩
  rw [← h7] at h8
  exact h8

/-- The name of the struct for the data of a variant: it is not renamed if it starts with a tag. -/
def SrcSpec.cxxBodyName (c : LibConfig) (inl : Bool) (v : Str) : Str :=
  if inl then v ++ c!"_Body" else c.ren (v ++ c!"_Body")

/-- The data of a variant after all steps. -/
inductive BodyEndX (V : EnumEnv) (d : RenameRule → DeclConfig) (ren : RenameRule → Str → Str) (rust : CfgSpec.Opt → Bool) (o : Str)
    (c : LibConfig) (inl : Bool) (lead : Option Str) (rule : RenameRule) (ea : Annotations) (v : SynVariant) :
    List CItem → Option (Annotations × List CItem) → VBody → Prop
  | unit {a} : v.fields = .unit → BodyEndX V d ren rust o c inl lead rule ea v [] none (.empty (variantAnnotations ea a))
  | data {fs a rl rl' fields ps b'} : listOf v.fields = fs → v.fields ≠ .unit → a.ruleOr V.fieldRule = some rl →
      a.ruleOr c.renameFields = some rl' → loadVariantFields o none 0 fs = .ok fields →
      (∀ (c : OutConfig) on, CfgSpec.Matches c.defines rust on → (∀ f ∈ fs, ∀ x ∈ conds f.attrs, CfgSpec.Mapped c.defines x) →
        (fields.filter fun f => shown c on f.cfg).map (Field.asMemberX (d rl) (ren rl) [] (V.member rl)) = ps) →
      b'.path = v.ident ++ c!"_Body" → b'.exportName = lead.getD [] ++ cxxBodyName c inl v.ident → b'.cfg = none →
      b'.alignment = none → b'.annotations = variantAnnotations ea a → b'.isTransparent = false → b'.assocConsts = [] →
      b'.isEnumVariantBody = true →
      b'.fields = (tagFields (if inl then some c!"Tag" else none) none ++ fields.map (Field.mapTy (endTyX c []))).map
        (fun f => { f with name := memberName c.caseFns rl' f.name }) →
      ∀ ic, BodyEndX V d ren rust o c inl lead rule ea v
        [.object false [] (V.armMember (V.arm (unraw v.ident))) (.base false V.keyword (V.body v.ident) []) []]
        (some (a, V.tagMembers rl c!"tag" ++ ps))
        (.body (dataName c.caseFns rule (V.arm (unraw v.ident))) b' false ic)

theorem struct_rename_dataX {x y : StructItem} (hc : c.language = .cxx) (hp : x.genericParams = []) {inl : Bool}
    (hT : x.hasTagField = inl) {fields : List Field} (hk : x.assocConsts = [])
    (hf : x.fields = tagFields (if inl then some c!"Tag" else none) none ++ fields.map (Field.mapTy (Ty.simplify .cxx)))
    (hn : x.annotations.list c!"field-names" = none) (h : x.renameFor c = some y) :
    ∃ rl, x.annotations.ruleOr c.renameFields = some rl ∧ y.path = x.path ∧
      y.exportName = (if inl then x.exportName else c.ren x.exportName) ∧ y.cfg = x.cfg ∧
      y.alignment = x.alignment ∧ y.annotations = x.annotations ∧ y.isTransparent = x.isTransparent ∧ y.assocConsts = [] ∧
      y.isEnumVariantBody = x.isEnumVariantBody ∧
      y.fields = (tagFields (if inl then some c!"Tag" else none) none ++ fields.map (Field.mapTy (endTyX c []))).map
        (fun f => { f with name := memberName c.caseFns rl f.name }) := by
  simp only [StructItem.renameFor, Option.map_eq_some_iff] at h
  obtain ⟨rl, hr, rfl⟩ := h
  refine ⟨rl, hr, rfl, by simp [hc, hT], rfl, rfl, rfl, rfl, by simp [hk], rfl, ?_⟩
  have h1 : renameFieldTys c x.genericParams x.hasTagField x.fields =
      tagFields (if inl then some c!"Tag" else none) none ++ fields.map (Field.mapTy (endTyX c [])) := by
    rw [hp, hT, hf]
    cases inl with
    | true => simp [tagFields, renameFieldTys, Function.comp_def, Field.mapTy, endTyX]
    | false =>
      simp only [tagFields, Bool.false_eq_true, if_false, List.nil_append]
      cases fields <;> simp [renameFieldTys, Function.comp_def, Field.mapTy, endTyX]
  show setFieldNames (renameFieldTys c x.genericParams x.hasTagField x.fields)
    (structFieldNames c.caseFns (x.annotations.list c!"field-names") rl (x.fields.map Field.name)) = _
  rw [h1, hn, structFieldNames_none]
  have h2 : (x.fields.map Field.name).map (memberName c.caseFns rl) =
      (tagFields (if inl then some c!"Tag" else none) none ++ fields.map (Field.mapTy (endTyX c []))).map
        fun f => memberName c.caseFns rl f.name := by
    rw [hf]
    simp [Field.mapTy, Function.comp_def]
  rw [h2, setFieldNames_map]

theorem variant_endX (hc : c.language = .cxx) {V : EnumEnv} {d : RenameRule → DeclConfig} {ren : RenameRule → Str → Str}
    {rust : CfgSpec.Opt → Bool} {o : Str} {inl : Bool} {lc : LoadConfig}
    {ea : Annotations} {m : Option Cfg} {v : SynVariant} {w₀ w : EnumVariant} (h : VariantLoadedX V d ren rust o inl lc ea m v w₀)
    {lead : Option Str} {en : Str} {rule : RenameRule} (he : VariantEndX c lead en rule w₀ w) :
    DiscEnd lc.fieldOrder c.ren v w.disc ∧ w.cfg = Cfg.append m (loadCfg v.attrs) ∧
      w.exportName = variantName c.caseFns (lead.getD []) rule en (unraw v.ident) ∧
      ∀ arm body, CxxVariantIs V rust v arm body → BodyEndX V d ren rust o c inl lead rule ea v arm body w.body := by
  obtain ⟨b, dl, ⟨arm₀, body₀, hi₀⟩, hb, hd, rfl⟩ := h
  suffices main : ∀ arm body, CxxVariantIs V rust v arm body → DiscEnd lc.fieldOrder c.ren v w.disc ∧ w.cfg = Cfg.append m (loadCfg v.attrs) ∧
      w.exportName = variantName c.caseFns (lead.getD []) rule en (unraw v.ident) ∧
      BodyEndX V d ren rust o c inl lead rule ea v arm body w.body by
    obtain ⟨h1, h2, h3, _⟩ := main _ _ hi₀
    exact ⟨h1, h2, h3, fun arm body hi => (main arm body hi).2.2.2⟩
  obtain ⟨x, hx, rfl⟩ := he
  obtain ⟨n1, n2, n3, n4, n5⟩ := named_name (f := c.caseFns) (lead := lead) (en := en) (rule := rule) (v := x)
  intro arm body hi
  cases hb _ _ hi with
  | @unit a hun =>
    simp only [EnumVariant.renameBody, EnumVariant.new, EnumVariant.mapTys, VBody.mapTys, Option.some.injEq] at hx
    subst hx
    refine ⟨⟨dl, hd, n3⟩, n2, n1, ?_⟩
    rw [n4 _ rfl]
    exact .unit hun
  | @data fs a rl fields ps q1 q2 q3 q4 q5 q6 ic =>
    have hu' : (EnumVariant.new (unraw v.ident) dl (.body (V.arm (unraw v.ident)) (StructItem.new (v.ident ++ c!"_Body") []
          ((if inl then [tagField none] else []) ++ fields) inl true none false none (variantAnnotations ea a) []) false ic)
          (Cfg.append m (loadCfg v.attrs)) (loadDoc v.attrs)).mapTys (Ty.simplify .cxx) =
        EnumVariant.new (unraw v.ident) dl (.body (V.arm (unraw v.ident)) { StructItem.new (v.ident ++ c!"_Body") []
          [] inl true none false none (variantAnnotations ea a) [] with
          fields := tagFields (if inl then some c!"Tag" else none) none ++ fields.map (Field.mapTy (Ty.simplify .cxx)) } false ic)
          (Cfg.append m (loadCfg v.attrs)) (loadDoc v.attrs) := by
      have htag : (tagField none).mapTy (Ty.simplify .cxx) = { tagField none with ty := Ty.newPath c!"Tag" [] } := by rfl
      cases inl <;> simp [EnumVariant.mapTys, VBody.mapTys, EnumVariant.new, StructItem.mapTys, StructItem.new, tagFields, htag]
    rw [hu'] at hx
    simp only [EnumVariant.renameBody, EnumVariant.new, Option.map_eq_some_iff] at hx
    obtain ⟨b', hb', rfl⟩ := hx
    obtain ⟨rl', r1, r2, r3, r4, r5, r6, r7, r8, r9, r10⟩ := struct_rename_dataX (inl := inl) (fields := fields) hc rfl
      rfl rfl rfl (by rw [show (_ : StructItem).annotations = variantAnnotations ea a from rfl, variantAnnotations_names]; exact q4) hb'
    have r1 : (variantAnnotations ea a).ruleOr c.renameFields = some rl' := r1
    rw [variantAnnotations_rule] at r1
    refine ⟨⟨dl, hd, n3⟩, n2, n1, ?_⟩
    rw [n5 _ _ _ _ rfl]
    have r3' : lead.getD [] ++ b'.exportName = lead.getD [] ++ cxxBodyName c inl v.ident := congrArg _ r3
    exact BodyEndX.data (b' := { b' with exportName := lead.getD [] ++ b'.exportName }) q1 q2 q3 r1 q5 q6 r2 r3' r4 r5 r6 r7 r8 r9 r10 ic

theorem body_end_tysX {lead : Option Str} {en : Str} {rule : RenameRule} {t : Bool} {v w : EnumVariant}
    (he : VariantEndX c lead en rule v w) (ht : v.body.Tagged t) {ty : Ty} (hty : ty ∈ v.body.ownTys) :
    ∃ n b i ic, w.body = .body n b i ic ∧ b.genericParams = [] ∧
      ∃ f ∈ b.fields.drop (if b.hasTagField then 1 else 0), f.ty = endTyX c [] ty := by
  obtain ⟨x, hx, rfl⟩ := he
  obtain ⟨_, _, _, _, n5⟩ := named_name (f := c.caseFns) (lead := lead) (en := en) (rule := rule) (v := x)
  obtain ⟨nm, en', dl, body, cfg, doc⟩ := v
  cases body with
  | empty => simp [VBody.ownTys] at hty
  | body nb b i ic =>
    obtain ⟨h1, h2⟩ := ht
    simp only [EnumVariant.mapTys, VBody.mapTys, StructItem.mapTys, EnumVariant.renameBody, Option.map_eq_some_iff] at hx
    obtain ⟨y, hy, rfl⟩ := hx
    refine ⟨_, _, _, _, n5 _ _ _ _ rfl, ?_⟩
    simp only [StructItem.renameFor, Option.map_eq_some_iff] at hy
    obtain ⟨rl, hr, rfl⟩ := hy
    refine ⟨h2, ?_⟩
    simp only [h2]
    have h3 : ∀ (q : Bool) (fs : List Field) (ns : List Str), ((setFieldNames (renameFieldTys c [] q fs) ns).drop (if q then 1 else 0)).map Field.ty =
        ((fs.drop (if q then 1 else 0)).map Field.ty).map (Ty.rename c.ren []) := by
      intro q fs ns
      rw [List.map_drop, setFieldNames_tys]
      cases q <;> cases fs <;> simp [renameFieldTys, Field.mapTy, Function.comp_def]
    refine List.mem_map.1 ?_
    rw [h3 b.hasTagField]
    obtain ⟨f, hf, rfl⟩ := List.mem_map.1 hty
    refine List.mem_map.2 ⟨f.ty.simplify .cxx, ?_, rfl⟩
    rw [← List.map_drop]
    exact List.mem_map.2 ⟨_, List.mem_map.2 ⟨f, hf, rfl⟩, rfl⟩

end

end Cbindgen
