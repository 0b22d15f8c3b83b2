import Verif.Props.SourceDefs

/-!
# C66: the enums of Rust sources in a C header
-/

namespace Cbindgen
open CSpec HeadSpec ScopeSpec LexSpec
open SrcSpec hiding Reaches Given Plain

/-- What is before the names of the variants of the enum `n`, with its annotations `a`. -/
def SrcSpec.enumLead (c : LibConfig) (a : Annotations) (n : Str) : Option Str :=
  if (a.bool c!"prefix-with-name").getD c.prefixWithName then some (c.ren n ++ c.variantSep) else none

/-- The name of a variant of the enum `n` in C. -/
def SrcSpec.enumeratorName (c : LibConfig) (a : Annotations) (rule : RenameRule) (n v : Str) : Str :=
  variantName c.caseFns ((enumLead c a n).getD []) rule (c.ren n) v

/-- The name of the C enum of an enum: that of the enum, or that of the tag of its data. -/
def SrcSpec.enumName (c : LibConfig) (s : SynEnum) (n : Str) : Str := if withData s then c.ren n ++ c!"_Tag" else c.ren n

/-- What the definition of an enum depends on, by the options of both stages. -/
def SrcSpec.enumEnvOf (lc : LoadConfig) (c : LibConfig) (o : OutConfig) (tag : Str → Option DeclKind) (r : Repr) (a : Annotations)
    (arm rule : RenameRule) (n : Str) : EnumEnv where
  types rl := envOf c o tag rl (some n)
  member rl := memberName c.caseFns rl
  fieldRule := c.renameFields
  arm v := arm.apply lc.caseFns v .structMember
  armMember := dataName c.caseFns rule
  body v := (enumLead c a n).getD [] ++ c.ren (v ++ c!"_Body")
  keyword := if hasName o.style then none else some .struct
  tag := if r.style = .rust then some (c.ren n ++ c!"_Tag") else none

/-- The attributes and rules of an enum of the sources. -/
structure SrcSpec.EnumIs (lc : LoadConfig) (c : LibConfig) (s : SynEnum) (r : Repr) (a : Annotations) (arm rule : RenameRule) : Prop where
  repr : EnumRepr s.attrs r
  annotations : Annotations.load s.attrs = .ok a
  arms : ArmRule lc a arm
  rule : a.ruleOr c.renameVariants = some rule

/-- The type of the tag inside the data. -/
def tagInData (c : LibConfig) (s : SynEnum) (r : Repr) (n : Str) : Option Str :=
  if withData s = true ∧ r.style = .rust then some (c.ren n ++ c!"_Tag") else none

/-- A variant in the bindings. -/
structure VariantFinal (V : EnumEnv) (d : RenameRule → DeclConfig) (rust : CfgSpec.Opt → Bool) (c : LibConfig) (find : Ty → Option Str)
    (tag : Str → Option DeclKind) (t : Option Str) (ord : List LitField → List LitField) (rule : RenameRule) (a : Annotations) (n : Str)
    (m : Option Cfg) (v : SynVariant) (w : EnumVariant) : Prop where
  disc : DiscEnd ord c.ren v w.disc
  cfg : w.cfg = Cfg.append m (loadCfg v.attrs)
  name : w.exportName = enumeratorName c a rule n (unraw v.ident)
  body : ∀ arm body, VariantIs V rust v arm body → BodyEnd V d rust n c find tag t (enumLead c a n) rule a v arm body w.body

theorem more_end {c : LibConfig} {find : Ty → Option Str} {tag : Str → Option DeclKind} {t lead : Option Str} {en : Str}
    {rule : RenameRule} {w₀ w : EnumVariant} (h : IsMore w₀) (he : VariantEnd c find tag t lead en rule w₀ w) :
    w.exportName = variantName c.caseFns (lead.getD []) rule en w₀.name ∧ w.disc = none ∧ w.body = .empty {} ∧ w.cfg = none := by
  obtain ⟨nm, ex, dl, body, cfg, doc⟩ := w₀
  obtain ⟨h1, h2, h3, h4⟩ := h
  simp only at h1 h2 h3 h4
  subst h1 h2 h3 h4
  obtain ⟨u, x, hu, hx, rfl⟩ := he
  obtain ⟨n1, n2, n3, n4, n5⟩ := named_name (f := c.caseFns) (lead := lead) (en := en) (rule := rule) (v := x)
  have hu' : u = ⟨ex, ex, none, .empty {}, none, doc⟩ := by
    cases t <;> simpa [EnumVariant.tagged, EnumVariant.setTag, EnumVariant.mapTys, VBody.mapTys] using hu.symm
  subst hu'
  simp only [EnumVariant.renameBody, Option.map_none, Option.some.injEq] at hx
  subst hx
  exact ⟨n1, n3, n4 _ rfl, n2⟩

theorem more_names {c : LibConfig} {find : Ty → Option Str} {tag : Str → Option DeclKind} {t : Option Str} {a : Annotations} {n : Str}
    {rule : RenameRule} {ws ws' : List EnumVariant} (h : ∀ w ∈ ws, IsMore w)
    (he : Pairs (VariantEnd c find tag t (enumLead c a n) (c.ren n) rule) ws ws') :
    ws'.map EnumVariant.exportName = (ws.map EnumVariant.name).map (enumeratorName c a rule n) := by
  induction he with
  | nil => rfl
  | cons hp _ ih =>
    have hm := more_end (h _ (by simp)) hp
    simp only [List.map_cons]
    rw [ih fun w hw => h w (by simp [hw]), hm.1]
    rfl

section
variable {pc : ParseConfig} {lc : LoadConfig} {fuel fuel' : Nat} {i : Inputs} {c : LibConfig}
  {order : List (Str × Annotations) → List (Str × Annotations)} {l l₁ : Library} {b : Bindings}
  {R : Dialect} {on : Str → Bool} {D : List Str} {e : Env} {tx : Str} {rust rust' : CfgSpec.Opt → Bool}

/-- An enum of the sources in the bindings. -/
theorem enum_items (h : Stages pc lc fuel fuel' i c order l l₁ b) {s : SynEnum} {cs : List Cfg} {n : Str}
    (hS : Sole pc lc i c (.enum s) cs n) (hN : Needed pc lc i c n) {r : Repr} {a : Annotations} {arm rule : RenameRule}
    (hI : EnumIs lc c s r a arm rule) {V : EnumEnv} {d : RenameRule → DeclConfig} (he : ∀ r, EnvFor (V.types r) (d r))
    (ho : ∀ r, (V.types r).owner = some n) (ha : ∀ n, V.arm n = arm.apply lc.caseFns n .structMember)
    (hv : ∀ v ∈ s.variants, ∃ arm body, VariantIs V rust v arm body) :
    ∃ find m x vs ws, .enum x ∈ b.items ∧ x.path = n ∧ x.exportName = c.ren n ∧ x.repr = r ∧
      x.tag = (if withData s then some (c.ren n ++ c!"_Tag") else none) ∧ x.annotations = a ∧
      ParserSpec.GuardIs (Cfg.append m (loadCfg s.attrs)) cs ∧ x.cfg = Cfg.append m (loadCfg s.attrs) ∧ x.variants = vs ++ ws ∧
      Pairs (VariantFinal V d rust c find (Resolver.typeFor (l₁.removeExcluded c).resolver) (tagInData c s r n) lc.fieldOrder rule a n m)
        s.variants vs ∧
      ws.map EnumVariant.exportName = (moreNames lc a).map (enumeratorName c a rule n) ∧
      ∀ w ∈ ws, w.disc = none ∧ w.body = .empty {} ∧ w.cfg = none := by
  obtain ⟨find, m, y, x, z, h1, h2, h3, h4, h5, h6, h7⟩ := sole_items h hS hN
  have hname : unraw s.ident = n := Option.some.inj hS.name
  obtain ⟨hgen, hl, hd⟩ : OnlyLifetimes s.generics ∧ lc.language = .c ∧
      ∀ v ∈ s.variants, ∀ e, v.disc = some e → ∃ K lim x, RustValue K lim e x := by
    cases hS.declarable with
    | struct hs' => cases hs'
    | enum hg _ _ hl _ _ _ hv => exact ⟨hg, hl, fun v h => (hv v h).1⟩
  obtain ⟨vs, ws, k1, k2, k3, k4⟩ := enum_load_ok hgen hI.repr hI.annotations hl hI.arms he (by rw [hname]; exact ho) ha
    (fun v h => ⟨hd v h, hv v h⟩) m
  simp only [Taken.container, k1] at h2
  cases h2
  cases h3
  obtain ⟨x', rule', rfl, f1, f2, f3, f4, f5, f6, f7, f8⟩ := final_enum h.language h5
  have f1 : a.ruleOr c.renameVariants = some rule' := f1
  rw [hI.rule] at f1
  cases f1
  obtain ⟨zs, zs', e1, e2, e3⟩ := f8.append_left
  have hlead : (EnumItem.mk (unraw s.ident) (unraw s.ident) [] r (vs ++ ws) (if withData s then some c!"Tag" else none)
        (Cfg.append m (loadCfg s.attrs)) a (loadDoc s.attrs)).lead c = enumLead c a n := by
    rw [hname]
    rfl
  have htag : (EnumItem.mk (unraw s.ident) (unraw s.ident) [] r (vs ++ ws) (if withData s then some c!"Tag" else none)
        (Cfg.append m (loadCfg s.attrs)) a (loadDoc s.attrs)).innerTag c = tagInData c s r n := by
    rw [hname]
    unfold EnumItem.innerTag tagInData
    cases withData s <;> simp
  simp only [hlead, htag] at e2 e3
  refine ⟨find, m, x', zs, zs', h7, h6, by rw [f3, ← hname], f4, ?_, f7, h1, f6, e1, ?_, ?_, ?_⟩
  · rw [f5, hname]
    cases withData s <;> rfl
  · refine (k2.comp e2).imp fun v hv w hw => ?_
    obtain ⟨w₀, g1, g2⟩ := hw
    rw [hname] at g1 g2
    obtain ⟨q2, q3, q4, q5⟩ := variant_end h.language g1 g2 (by
      intro hf
      have : withData s = true := List.any_eq_true.2 ⟨v, hv, hf⟩
      unfold tagInData
      rcases hI.repr.style with hs | ⟨hs, _⟩ <;> simp [this, hs])
    exact ⟨q2, q3, q4, q5⟩
  · rw [← k3]
    rw [hname] at e3
    exact more_names k4 e3
  · intro w hw
    obtain ⟨w₀, hw₀, g⟩ := e3.mem_right hw
    exact (more_end (k4 w₀ hw₀) g).2

/-- What is in an item is compiled where its own predicates hold, if those around the item do. -/
theorem shown_within {o : OutConfig} {cs : List Cfg} (hsame : CfgSpec.Matches o.defines rust on) (hmapped : ∀ x ∈ cs, CfgSpec.Mapped o.defines x)
    (hholds : ∀ x ∈ cs, CfgSpec.holds rust x = true) {m g : Option Cfg}
    (hg : ParserSpec.GuardIs (Cfg.append m g) cs) {as : List SAttr} (hm : ∀ x ∈ conds as, CfgSpec.Mapped o.defines x) :
    shown o on (Cfg.append m (loadCfg as)) = (conds as).all (CfgSpec.holds rust) := by
  have h1 : CfgSpec.holdsOpt rust m = true := by
    have := hg.1 rust
    rw [holdsOpt_append, List.all_eq_true.2 hholds] at this
    simp only [Bool.and_eq_true] at this
    exact this.1
  have h2 : MappedOpt o.defines m := by
    intro x hx
    subst hx
    have := hg.2 o.defines hmapped
    cases g with
    | none => exact this _ rfl
    | some g =>
      have := this _ rfl
      simp only [CfgSpec.Mapped, CfgSpec.MappedAll] at this
      exact this.2.1
  have hb := below_guarded m (as.map (·.attr))
  rw [shown_guard hsame (cs := m.toList ++ conds as)]
  · rw [List.all_append]
    have : m.toList.all (CfgSpec.holds rust) = true := by
      cases m with
      | none => rfl
      | some x => simpa [CfgSpec.holdsOpt] using h1
    rw [this, Bool.true_and]
  · refine ⟨fun on => ?_, fun d hd => hb.2 d ?_ fun x hx => hd x (List.mem_append.2 (Or.inr hx))⟩
    · show CfgSpec.holdsOpt on (Cfg.append m (Cfg.load (as.map (·.attr)))) = _
      rw [hb.1 on, List.all_append]
      cases m <;> simp [CfgSpec.holdsOpt] <;> rfl
    · intro x hx
      exact hd x (List.mem_append.2 (Or.inl (by simp [hx])))
  · intro x hx
    rcases List.mem_append.1 hx with hx | hx
    · exact h2 x (by simpa using hx)
    · exact hm x hx

/-- A variant is compiled where its own predicates hold, if those around the enum do. -/
theorem shown_variant {cs : List Cfg} (hr : ReadWhere R on D e b tx rust cs) {m g : Option Cfg}
    (hg : ParserSpec.GuardIs (Cfg.append m g) cs) {as : List SAttr} (hm : ∀ x ∈ conds as, CfgSpec.Mapped e.cfg.defines x) :
    shown e.cfg on (Cfg.append m (loadCfg as)) = (conds as).all (CfgSpec.holds rust) :=
  shown_within hr.same hr.mapped hr.holds hg hm

/-! ## Values -/

/-- The enumerators that are not variants count on. -/
theorem more_values {p : PrimSpec.Platform} {M : List (Str × List Lx)} {ws : List EnumVariant} (h : ∀ w ∈ ws, w.disc = none ∧ w.body = .empty {} ∧ w.cfg = none) (k : Int) :
    EnumValues p M k (enumeratorsOf e on ws) (numbered k (ws.map EnumVariant.exportName)) := by
  induction ws generalizing k with
  | nil => exact .nil
  | cons w ws ih =>
    obtain ⟨h1, _, h3⟩ := h w (by simp)
    have : enumeratorsOf e on (w :: ws) = enumeratorOf e w :: enumeratorsOf e on ws := by
      have hs : shown e.cfg on w.cfg = true := by rw [h3]; rfl
      simp [enumeratorsOf, hs]
    rw [this, enumeratorOf, h1]
    exact .next (ih (fun w hw => h w (by simp [hw])) _)

theorem variant_values {p : PrimSpec.Platform} (hp : Usual p) {K : Nat → Str → Int → Prop} {lim : Nat} {M : List (Str × List Lx)}
    {ren : Str → Str} (hM : Macros K ren p M) {ord : List LitField → List LitField} {nm : Str → Str} {vs : List SynVariant}
    {ws : List EnumVariant} (h : Pairs (fun v w => DiscEnd ord ren v w.disc ∧ shown e.cfg on w.cfg = (conds v.attrs).all (CfgSpec.holds rust) ∧
      w.exportName = nm (unraw v.ident)) vs ws) {tail : List HeadSpec.Enumerator} {tv : List (Str × Int)} :
    ∀ {k k' : Int} {ds : List (Str × Int)}, Discriminants K lim rust k vs ds k' → EnumValues p M k' tail tv →
      EnumValues p M k (enumeratorsOf e on ws ++ tail) (ds.map (fun x => (nm x.1, x.2)) ++ tv) := by
  induction h with
  | nil =>
    intro k k' ds hd ht
    cases hd
    exact ht
  | @cons v w vs ws hq _ ih =>
    intro k k' ds hd ht
    obtain ⟨h1, h2, h3⟩ := hq
    have hcons : ∀ b, shown e.cfg on w.cfg = b → enumeratorsOf e on (w :: ws) =
        if b then enumeratorOf e w :: enumeratorsOf e on ws else enumeratorsOf e on ws := by
      intro b hb
      cases b <;> simp [enumeratorsOf, hb]
    cases hd with
    | hidden hx hd =>
      have : shown e.cfg on w.cfg = false := by
        rw [h2, List.all_eq_false]
        obtain ⟨x, hx, hx'⟩ := hx
        exact ⟨x, hx, by simp [hx']⟩
      rw [hcons _ this]
      exact ih hd ht
    | next hx hn hd =>
      have : shown e.cfg on w.cfg = true := by
        rw [h2, List.all_eq_true]
        exact hx
      rw [hcons _ this, if_pos rfl, enumeratorOf, h3]
      obtain ⟨dl, h1, h4⟩ := h1
      rw [h4]
      cases h1 with
      | none => exact .next (ih hd ht)
      | some h1 => rw [hn] at h1; cases h1
    | @set _ _ ex x _ _ _ hx hn hv hd =>
      have : shown e.cfg on w.cfg = true := by
        rw [h2, List.all_eq_true]
        exact hx
      rw [hcons _ this, if_pos rfl, enumeratorOf, h3]
      obtain ⟨dl, h1, h4⟩ := h1
      rw [h4]
      cases h1 with
      | none h1 => rw [hn] at h1; cases h1
      | some h1 hl =>
        rw [hn] at h1
        cases h1
        obtain ⟨l', hl', hval⟩ := value_ok (ord := ord) hv
        have := hl.load.symm.trans hl'.load
        cases this
        obtain ⟨ty, hc⟩ := hval p M e ren hp hM
        exact .set hc (ih hd ht)

/-- The names and values that the enum `n` of the sources has in C. -/
def SrcSpec.valuesOf (lc : LoadConfig) (c : LibConfig) (a : Annotations) (rule : RenameRule) (n : Str) (ds : List (Str × Int)) (k : Int) :
    List (Str × Int) :=
  ds.map (fun x => (enumeratorName c a rule n x.1, x.2)) ++ numbered k ((moreNames lc a).map (enumeratorName c a rule n))

/-- The enumerators of an enum of the sources. -/
theorem enum_values (h : Stages pc lc fuel fuel' i c order l l₁ b) {s : SynEnum} {cs : List Cfg} {n : Str}
    (hr : ReadWhere R on D e b tx rust cs) (hS : Sole pc lc i c (.enum s) cs n) (hN : Needed pc lc i c n) {r : Repr} {a : Annotations}
    {arm rule : RenameRule} (hI : EnumIs lc c s r a arm rule)
    (hmap : ∀ v ∈ s.variants, ∀ x ∈ conds v.attrs, CfgSpec.Mapped e.cfg.defines x)
    {K : Nat → Str → Int → Prop} {ds : List (Str × Int)} {k : Int} (hd : Discriminants K (reprLimit r.ty) rust 0 s.variants ds k) :
    ∃ x, .enum x ∈ b.items ∧ x.tagName = enumName c s n ∧ x.repr = r ∧ x.annotations = a ∧ shown e.cfg on x.cfg = true ∧
      ∀ p M, Usual p → Macros K c.ren p M → EnumValues p M 0 (enumeratorsOf e on x.variants) (valuesOf lc c a rule n ds k) := by
  obtain ⟨rust', V, arm', hl, ho, har, hv⟩ : ∃ rust' V arm', ArmRule lc a arm' ∧ (∀ r, (EnumEnv.types V r).owner = some n) ∧
      (∀ n, V.arm n = arm'.apply lc.caseFns n .structMember) ∧ ∀ v ∈ s.variants, ∃ arm body, VariantIs V rust' v arm body := by
    cases hS.declarable with
    | struct hs' => cases hs'
    | @enum _ r' a' rule' V' rust' hg h1 h2 hl h3 h4 h5 hv =>
      rw [hI.annotations] at h2
      cases h2
      exact ⟨rust', V', rule', h3, by rw [← Option.some.inj hS.name]; exact h4, h5, fun v h => (hv v h).2⟩
  have hE := fun r => EnvFor.any (V.types r)
  obtain ⟨find, m, x, vs, ws, k1, k2, k3, k4, k5, k6, k7, k8, k9, k10, k11, k12⟩ := enum_items h hS hN ⟨hI.repr, hI.annotations, hl, hI.rule⟩
    (d := fun r => (hE r).choose) (fun r => (hE r).choose_spec) ho har hv
  refine ⟨x, k1, ?_, k4, k6, ?_, fun p M hp hM => ?_⟩
  · rw [EnumItem.tagName, k5, k3, enumName]
    cases withData s <;> rfl
  · rw [k8]
    exact hr.shown k7
  · rw [k9]
    have : enumeratorsOf e on (vs ++ ws) = enumeratorsOf e on vs ++ enumeratorsOf e on ws := by simp [enumeratorsOf]
    rw [this, valuesOf, ← k11]
    refine variant_values (ord := lc.fieldOrder) hp hM (k10.imp fun v hv w hw => ⟨hw.disc, ?_, hw.name⟩) hd (more_values k12 k)
    rw [hw.cfg]
    exact shown_variant hr k7 (hmap v hv)

theorem mem_enumOut (hc : e.cfg.language = .c) {x : EnumItem} (h : shown e.cfg on x.cfg = true) {d : CItem} (hd : d ∈ (tagEnumOut e on x).items) :
    d ∈ (containerOut R e on (.enum x)).items := by
  rw [containerOut, enumOut, if_neg (fun h => by simp [hc] at h), items_when]
  rw [if_pos h, items_append, List.mem_append]
  exact Or.inl hd

/-- **C66.** An enum of the sources without a given size is an enum in C: the variants have the values that they have in
Rust, on all platforms where an `int` has at least 32 bits, and a variant is left out where its `cfg`s do not hold.
Discriminants may refer to constants that are macros.  For an enum with data it is the enum of the tags. -/
theorem C66_enum_partial (h : Stages pc lc fuel fuel' i c order l l₁ b) {s : SynEnum} {cs : List Cfg} {n : Str}
    (hr : ReadWhere R on D e b tx rust cs) (hS : Sole pc lc i c (.enum s) cs n) (hN : Needed pc lc i c n) {r : Repr} {a : Annotations}
    {arm rule : RenameRule} (hI : EnumIs lc c s r a arm rule) (hexp : a.shouldExport = true) (hty : r.ty = none)
    (hmap : ∀ v ∈ s.variants, ∀ x ∈ conds v.attrs, CfgSpec.Mapped e.cfg.defines x)
    {K : Nat → Str → Int → Prop} {ds : List (Str × Int)} {k : Int} (hd : Discriminants K (reprLimit r.ty) rust 0 s.variants ds k) :
    ∃ o es, readHeader R on tx = some o ∧
      .enumeration (attrToks [a.deprecatedNote e.cfg .enum]) (tagOf e.cfg (enumName c s n)) none (nameOf e.cfg (enumName c s n)) es ∈ o.items ∧
      ∀ p M, Usual p → Macros K c.ren p M → EnumValues p M 0 es (valuesOf lc c a rule n ds k) := by
  obtain ⟨x, h1, h2, h3, h4, h5, h6⟩ := enum_values h hr hS hN hI hmap hd
  refine ⟨_, _, C61_header_reads_back hr.good hr.text, header_container hr.first h1 (by
    show x.annotations.shouldExport = true
    rw [h4]
    exact hexp) (mem_enumOut hr.good.options.lang h5 ?_), h6⟩
  have hs : x.size e.cfg = none := by rw [EnumItem.size, h3, hty]; rfl
  simp only [tagEnumOut, hr.good.options.lang, reduceCtorEq, if_false, hs, decls, h2, h4, List.mem_singleton]

/-- **C66.** An enum of the sources with a given size has the same values.  Where enums of C have no types, its name stands
for an integer type of that size; otherwise that is the type of the enum. -/
theorem C66_sized_partial (h : Stages pc lc fuel fuel' i c order l l₁ b) {s : SynEnum} {cs : List Cfg} {n : Str}
    (hr : ReadWhere R on D e b tx rust cs) (hS : Sole pc lc i c (.enum s) cs n) (hN : Needed pc lc i c n) {r : Repr} {a : Annotations}
    {arm rule : RenameRule} (hI : EnumIs lc c s r a arm rule) (hexp : a.shouldExport = true) {ty : IntKind × Bool} (hty : r.ty = some ty)
    {size : Str} (hsz : (ty, size) ∈ sizeTexts e.cfg.usizeIsSizeT)
    (hmap : ∀ v ∈ s.variants, ∀ x ∈ conds v.attrs, CfgSpec.Mapped e.cfg.defines x)
    {K : Nat → Str → Int → Prop} {ds : List (Str × Int)} {k : Int} (hd : Discriminants K (reprLimit r.ty) rust 0 s.variants ds k) :
    ∃ o es, readHeader R on tx = some o ∧
      .enumeration (attrToks [a.deprecatedNote e.cfg .enum]) (some (enumName c s n))
        (if typedEnum e.cfg on then some (.base false none size []) else none) none es ∈ o.items ∧
      (∀ p M, Usual p → Macros K c.ren p M → EnumValues p M 0 es (valuesOf lc c a rule n ds k)) ∧
      ((e.cfg.cppCompatibleC && on cplusplus) = false →
        .alias (enumName c s n) (if on c23 then .base false (some .enum) (enumName c s n) [] else .base false none size []) ∈ o.items) := by
  obtain ⟨x, h1, h2, h3, h4, h5, h6⟩ := enum_values h hr hS hN hI hmap hd
  have hx : (Container.enum x).annotations.shouldExport = true := by
    show x.annotations.shouldExport = true
    rw [h4]
    exact hexp
  have hs : x.size e.cfg = some size := by
    rw [EnumItem.size, h3, hty]
    have : ∀ u, ∀ q ∈ sizeTexts u, (Prim.integer true q.1.2 q.1.1).toReprC u = q.2 := by decide
    exact congrArg some (this _ _ hsz)
  refine ⟨_, _, C61_header_reads_back hr.good hr.text, header_container hr.first h1 hx (mem_enumOut hr.good.options.lang h5 ?_), h6, fun hcpp =>
    header_container hr.first h1 hx (mem_enumOut hr.good.options.lang h5 ?_)⟩
  · simp only [tagEnumOut, hr.good.options.lang, reduceCtorEq, if_false, hs, decls, h2, h4, items_append, List.mem_append, List.mem_singleton]
    exact Or.inl trivial
  · simp only [tagEnumOut, hr.good.options.lang, reduceCtorEq, if_false, hs, decls, h2, h4, items_append, items_when, List.mem_append, List.mem_singleton, hcpp]
    exact Or.inr (by simp)

/-! ## Data -/

theorem arms_variants {V : EnumEnv} {vs : List SynVariant} {ms : List CItem} (h : Arms V rust vs ms) :
    ∀ v ∈ vs, ∃ arm body, VariantIs V rust v arm body := by
  induction h with
  | nil => nofun
  | shown h _ _ ih =>
    intro v hv
    rcases List.mem_cons.1 hv with rfl | hv
    · exact ⟨_, _, h⟩
    · exact ih v hv
  | hidden h _ _ ih =>
    intro v hv
    rcases List.mem_cons.1 hv with rfl | hv
    · exact ⟨_, _, h⟩
    · exact ih v hv

/-- The members of the data of a variant. -/
theorem data_members {o : OutConfig} {find : Ty → Option Str} {rule : RenameRule} {owner t one : Option Str} {fields : List Field}
    {nm : Str → Str} (hcl : ∀ f ∈ fields, (f.ty.simplify .c).Clean) :
    membersOf o on ((tagFields t one ++ fields.map (Field.mapTy (endTy c find (Resolver.typeFor (l₁.removeExcluded c).resolver)))).map
        (fun f => { f with name := nm f.name })) =
      (match t with
        | some t => [.object false [] (nm (tagField one).name) (.base false none t []) []]
        | none => []) ++
      (fields.filter fun f => shown o on f.cfg).map (Field.asMember (envOf c o (tagFor c l₁) rule owner) o.toDeclConfig nm) := by
  have h1 : ∀ xs ys, membersOf o on (xs ++ ys) = membersOf o on xs ++ membersOf o on ys := by
    intro xs ys
    simp [membersOf]
  have h2 := members_end (c := c) (l₁ := l₁) (find := find) (rule := rule) (owner := owner) (nm := nm) (on := on) (o := o) hcl
  have h3 : (fields.map Field.name).map nm =
      (fields.map (Field.mapTy (endTy c find (Resolver.typeFor (l₁.removeExcluded c).resolver)))).map fun f => nm f.name := by
    simp [Field.mapTy, Function.comp_def]
  rw [h3, setFieldNames_map] at h2
  rw [List.map_append, h1, h2]
  congr 1
  cases t with
  | none => rfl
  | some t =>
    have hs : shown o on none = true := rfl
    simp [tagFields, tagField, membersOf, memberOf, hs, Ty.newPath, meaning, meaningGArgs, CTy.forgetFnPtr, CTy.forgetTyArgs, bitsOf,
      Annotations.atom]

/-- What a variant contributes to the union of the data, and the struct of its data. -/
theorem variant_data {find : Ty → Option Str} {s : SynEnum} {r : Repr} {a : Annotations} {arm rule : RenameRule} {n : Str}
    (hm : CfgSpec.Matches e.cfg.defines rust on) {v : SynVariant} {w : EnumVariant} {am : List CItem} {body : Option (Annotations × List CItem)}
    (hv : v ∈ s.variants) (hmap : ∀ f ∈ listOf v.fields, ∀ x ∈ conds f.attrs, CfgSpec.Mapped e.cfg.defines x)
    (hb : BodyEnd (enumEnvOf lc c e.cfg (tagFor c l₁) r a arm rule n) (fun _ => e.cfg.toDeclConfig) rust n c find
      (Resolver.typeFor (l₁.removeExcluded c).resolver) (tagInData c s r n) (enumLead c a n) rule a v am body w.body) :
    payloadOf e.cfg on w = (if shown e.cfg on w.cfg then am else []) ∧
      ∀ a' ms, body = some (a', ms) → ∃ nm b ic, w.body = .body nm b false ic ∧ b.cfg = none ∧ b.path = v.ident ++ c!"_Body" ∧
        b.exportName = (enumLead c a n).getD [] ++ c.ren (v.ident ++ c!"_Body") ∧
        structAttrs e.cfg b = [none, mustUseText a' e.cfg.structure_.mustUse, a'.deprecatedNote e.cfg .struct] ∧
        membersOf e.cfg on b.fields = ms := by
  generalize hwb : w.body = wb at hb ⊢
  cases hb with
  | unit => exact ⟨by simp [payloadOf, hwb], nofun⟩
  | @data one fs a₁ rl rl' fields ps _ _ bb b' q1 q2 q3 q4 q5 q6 q7 q8 q9 q10 r1 r2 r3 r4 r5 r6 r7 r8 r9 r10 ic =>
    have hwd : withData s = true :=
      List.any_eq_true.2 ⟨v, hv, by revert q2; cases v.fields <;> simp [hasFields]⟩
    have q3 : a₁.ruleOr c.renameFields = some rl := q3
    rw [q3] at q4
    cases q4
    have hmem : membersOf e.cfg on b'.fields =
        (enumEnvOf lc c e.cfg (tagFor c l₁) r a arm rule n).tagMembers rl (tagField one).name ++ ps := by
      rw [r10, data_members (rule := rl) (owner := some n) q6]
      have := q7 e.cfg on hm (by rw [← q1]; exact hmap)
      congr 1
      unfold EnumEnv.tagMembers enumEnvOf tagInData
      by_cases hs : r.style = .rust <;> simp [hs, hwd]
    constructor
    · simp only [payloadOf, hwb]
      by_cases hs : shown e.cfg on w.cfg = true
      · rw [if_pos hs, if_pos hs, q9]
        cases bb with
        | true => simp only [if_true, hmem, q8, tagField]
        | false =>
          simp only [Bool.false_eq_true, if_false, r2]
          rfl
      · rw [if_neg hs, if_neg hs]
    · intro a' ms hbody
      rw [q10] at hbody
      cases bb with
      | true => cases hbody
      | false =>
        simp only [Bool.false_eq_true, if_false, Option.some.injEq, Prod.mk.injEq] at hbody
        obtain ⟨rfl, rfl⟩ := hbody
        refine ⟨_, b', ic, rfl, r3, r1, r2, ?_, ?_⟩
        · rw [structAttrs, r4, r5]
          unfold mustUseText Annotations.deprecatedNote
          rw [variantAnnotations_must, variantAnnotations_deprecated]
          rfl
        · rw [hmem, q8]
          rfl

/-- **C66.** An enum of the sources with data is a struct in C, of the tag and the union of the data of all variants; or,
if the enum has a representation of Rust, the union of structs that all start with the tag.  Variants without data have no
member. -/
theorem C66_data_partial (h : Stages pc lc fuel fuel' i c order l l₁ b) {s : SynEnum} {cs : List Cfg} {n : Str}
    (hr : ReadWhere R on D e b tx rust cs) (hS : Sole pc lc i c (.enum s) cs n) (hN : Needed pc lc i c n) {r : Repr} {a : Annotations}
    {arm rule : RenameRule} (hI : EnumIs lc c s r a arm rule) (hexp : a.shouldExport = true) (hdata : withData s = true)
    (hmap : ∀ v ∈ s.variants, ∀ x ∈ conds v.attrs, CfgSpec.Mapped e.cfg.defines x)
    (hmap' : ∀ v ∈ s.variants, ∀ f ∈ listOf v.fields, ∀ x ∈ conds f.attrs, CfgSpec.Mapped e.cfg.defines x)
    (hb : NoBodies R on e.cfg n) {ms : List CItem} (hms : Arms (enumEnvOf lc c e.cfg (tagFor c l₁) r a arm rule n) rust s.variants ms) :
    ∃ o, readHeader R on tx = some o ∧
      .record (if r.style = .rust then .union else .struct)
        (attrToks [mustUseText a e.cfg.structure_.mustUse, a.deprecatedNote e.cfg .struct])
        (tagOf e.cfg (c.ren n)) (nameOf e.cfg (c.ren n))
        (.object false [] c!"tag" (.base false (if r.ty = none ∧ hasName e.cfg.style = false then some .enum else none)
            (c.ren n ++ c!"_Tag") []) [] ::
          if r.style = .rust then ms else [.record .union [] none none ms]) ∈ o.items := by
  have hlang : e.cfg.language = .c := hr.good.options.lang
  obtain ⟨find, m, x, vs, ws, k1, k2, k3, k4, k5, k6, k7, k8, k9, k10, k11, k12⟩ := enum_items h hS hN hI
    (V := enumEnvOf lc c e.cfg (tagFor c l₁) r a arm rule n) (d := fun _ => e.cfg.toDeclConfig) (fun r => envOf_for hlang)
    (fun _ => rfl) (fun _ => rfl) (arms_variants hms)
  have hsh : shown e.cfg on x.cfg = true := by
    rw [k8]
    exact hr.shown k7
  have hpay : x.variants.flatMap (payloadOf e.cfg on) = ms := by
    rw [k9, List.flatMap_append]
    have h1 : ws.flatMap (payloadOf e.cfg on) = [] := by
      rw [List.flatMap_eq_nil_iff]
      intro w hw
      simp [payloadOf, (k12 w hw).2.1]
    rw [h1, List.append_nil]
    have : ∀ (us : List SynVariant) (vs : List EnumVariant) ms, (∀ v ∈ us, v ∈ s.variants) →
        Pairs (VariantFinal (enumEnvOf lc c e.cfg (tagFor c l₁) r a arm rule n) (fun _ => e.cfg.toDeclConfig) rust c find
          (Resolver.typeFor (l₁.removeExcluded c).resolver) (tagInData c s r n) lc.fieldOrder rule a n m) us vs →
        Arms (enumEnvOf lc c e.cfg (tagFor c l₁) r a arm rule n) rust us ms → vs.flatMap (payloadOf e.cfg on) = ms := by
      intro us vs ms hus hp ha
      induction ha generalizing vs with
      | nil => cases hp; rfl
      | @shown v us am body ms hv hc _ ih =>
        cases hp with
        | cons hq hp =>
          rw [List.flatMap_cons, ih _ (fun v hv => hus v (by simp [hv])) hp]
          have hin := hus v (by simp)
          have hsv := shown_variant hr k7 (hmap v hin)
          rw [← hq.cfg, List.all_eq_true.2 hc] at hsv
          rw [(variant_data hr.same hin (hmap' v hin) (hq.body _ _ hv)).1, hsv]
          rfl
      | @hidden v us am body ms hv hc _ ih =>
        cases hp with
        | cons hq hp =>
          rw [List.flatMap_cons, ih _ (fun v hv => hus v (by simp [hv])) hp]
          have hin := hus v (by simp)
          have hsv := shown_variant hr k7 (hmap v hin)
          have : (conds v.attrs).all (CfgSpec.holds rust) = false := by
            rw [List.all_eq_false]
            obtain ⟨x, hx, hx'⟩ := hc
            exact ⟨x, hx, by simp [hx']⟩
          rw [← hq.cfg, this] at hsv
          rw [(variant_data hr.same hin (hmap' v hin) (hq.body _ _ hv)).1, hsv]
          rfl
    exact this s.variants vs ms (fun _ h => h) k10 hms
  refine ⟨_, C61_header_reads_back hr.good hr.text, header_container hr.first k1 (by
    show x.annotations.shouldExport = true
    rw [k6]
    exact hexp) ?_⟩
  rw [containerOut, enumOut, if_neg (fun h => by simp [hlang] at h), items_when]
  rw [if_pos hsh, items_append, List.mem_append]
  right
  have htag : x.tag = some (c.ren n ++ c!"_Tag") := by rw [k5, if_pos hdata]
  rw [htag]
  simp only [Option.isSome_some, if_true, items_append, List.mem_append, decls, List.mem_singleton]
  right
  have hin : tagInside x = decide (r.style = .rust) := by
    unfold tagInside
    rw [k4]
    rcases hI.repr.style with hs | ⟨hs, _⟩ <;> rw [hs] <;> rfl
  have hsz : (x.size e.cfg).isNone = r.ty.isNone := by
    rw [EnumItem.size, k4]
    cases r.ty <;> rfl
  rw [dataOf, recordOf, dataAttrs, k6, k2, k3, hb.1, hb.2, dataMembers, hpay, hin, tagPart,
    if_neg (c := e.cfg.language = .cxx ∧ _) (fun h => by simp [hlang] at h), tagMember, hsz, EnumItem.tagName, htag]
  cases hty : r.ty <;> cases hasName e.cfg.style <;> by_cases hst : r.style = .rust <;> simp [hst, hlang]

/-- **C66.** The data of a variant with several fields, or with names of fields, is a struct of its own. -/
theorem C66_body_partial (h : Stages pc lc fuel fuel' i c order l l₁ b) {s : SynEnum} {cs : List Cfg} {n : Str}
    (hr : ReadWhere R on D e b tx rust cs) (hS : Sole pc lc i c (.enum s) cs n) (hN : Needed pc lc i c n) {r : Repr} {a : Annotations}
    {arm rule : RenameRule} (hI : EnumIs lc c s r a arm rule) (hexp : a.shouldExport = true)
    {v : SynVariant} (hv : v ∈ s.variants) (hmap : ∀ x ∈ conds v.attrs, CfgSpec.Mapped e.cfg.defines x)
    (hon : ∀ x ∈ conds v.attrs, CfgSpec.holds rust x = true)
    (hmap' : ∀ f ∈ listOf v.fields, ∀ x ∈ conds f.attrs, CfgSpec.Mapped e.cfg.defines x)
    (hb : NoBodies R on e.cfg (v.ident ++ c!"_Body")) {all : List CItem}
    (hall : Arms (enumEnvOf lc c e.cfg (tagFor c l₁) r a arm rule n) rust s.variants all)
    {am : List CItem} {a' : Annotations} {ms : List CItem}
    (hms : VariantIs (enumEnvOf lc c e.cfg (tagFor c l₁) r a arm rule n) rust v am (some (a', ms))) :
    ∃ o, readHeader R on tx = some o ∧
      .record .struct (attrToks [mustUseText a' e.cfg.structure_.mustUse, a'.deprecatedNote e.cfg .struct])
        (tagOf e.cfg ((enumLead c a n).getD [] ++ c.ren (v.ident ++ c!"_Body")))
        (nameOf e.cfg ((enumLead c a n).getD [] ++ c.ren (v.ident ++ c!"_Body"))) ms ∈ o.items := by
  have hlang : e.cfg.language = .c := hr.good.options.lang
  obtain ⟨find, m, x, vs, ws, k1, k2, k3, k4, k5, k6, k7, k8, k9, k10, k11, k12⟩ := enum_items h hS hN hI
    (V := enumEnvOf lc c e.cfg (tagFor c l₁) r a arm rule n) (d := fun _ => e.cfg.toDeclConfig) (fun r => envOf_for hlang)
    (fun _ => rfl) (fun _ => rfl) (arms_variants hall)
  have hsh : shown e.cfg on x.cfg = true := by
    rw [k8]
    exact hr.shown k7
  obtain ⟨w, hw, hq⟩ := k10.mem hv
  have hsv := shown_variant hr k7 hmap
  rw [← hq.cfg, List.all_eq_true.2 hon] at hsv
  obtain ⟨nm, bd, ic, j1, j2, j3, j4, j5, j6⟩ := (variant_data hr.same hv hmap' (hq.body _ _ hms)).2 a' ms rfl
  have hdata : withData s = true := by
    refine List.any_eq_true.2 ⟨v, hv, ?_⟩
    cases hms with
    | body h1 => rcases h1 with h1 | ⟨h1, _⟩ <;> rw [h1] <;> rfl
  refine ⟨_, C61_header_reads_back hr.good hr.text, header_container hr.first k1 (by
    show x.annotations.shouldExport = true
    rw [k6]
    exact hexp) ?_⟩
  rw [containerOut, enumOut, if_neg (fun h => by simp [hlang] at h), items_when]
  rw [if_pos hsh, items_append, List.mem_append]
  right
  rw [k5, if_pos hdata]
  simp only [Option.isSome_some, if_true, items_append, List.mem_append]
  left
  refine (mem_bodies hlang).2 ⟨w, by rw [k9]; exact List.mem_append.2 (Or.inl hw), nm, bd, ic, j1, hsv, by rw [j2]; rfl, ?_⟩
  rw [structItemOf, recordOf, j3, j4, j5, j6, hb.1, hb.2]
  simp [attrToks]

end

end Cbindgen
