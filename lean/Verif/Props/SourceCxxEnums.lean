import Verif.Props.SourceEnums
import Verif.Props.SourceCxxDefs

/-!
# C77: the enums of Rust sources in a C++ header
-/

namespace Cbindgen
open CSpec HeadSpec LexSpec
open SrcSpec hiding Reaches Given Plain Declares
open ScopeSpec (items_when items_outs)

/-- The name of the C++ enum of an enum: that of the enum, or `Tag` inside of its data. -/
def SrcSpec.cxxEnumName (c : LibConfig) (s : SynEnum) (n : Str) : Str := if withData s then c!"Tag" else c.ren n

/-- What the definition of an enum depends on, by the options of both stages. -/
def SrcSpec.cxxEnumEnv (lc : LoadConfig) (c : LibConfig) (o : OutConfig) (r : Repr) (a : Annotations)
    (arm rule : RenameRule) (n : Str) : EnumEnv where
  types rl := cxxEnv c o rl (some n)
  member rl := memberName c.caseFns rl
  fieldRule := c.renameFields
  arm v := arm.apply lc.caseFns v .structMember
  armMember := dataName c.caseFns rule
  body v := (enumLead c a n).getD [] ++ cxxBodyName c (decide (r.style = .rust)) v
  keyword := if hasName o.style then none else some .struct
  tag := if r.style = .rust then some c!"Tag" else none

/-- The C++ type of the values of an enum, if it is given. -/
inductive SrcSpec.SizeIs (usizeIsSizeT : Bool) : Option (IntKind × Bool) → Option CTy → Prop
  | none : SizeIs usizeIsSizeT none none
  | some {ty u} : (ty, u) ∈ sizeTexts usizeIsSizeT → SizeIs usizeIsSizeT (some ty) (some (.base false none u []))

/-- An enum of C++ with its type and enumerators: its names are in its scope if the options or the annotation `enum-class`
say so, and otherwise in the scope around it. -/
def SrcSpec.cxxEnumOf (o : OutConfig) (a : Annotations) (n : Str) (ty : Option CTy) (es : List HeadSpec.Enumerator) : CItem :=
  if (a.bool c!"enum-class").getD o.enumeration.enumClass then
    .enumClass (attrToks [mustUseText a o.enumeration.mustUse, a.deprecatedNote o .enum]) n ty es
  else .enumeration (attrToks [mustUseText a o.enumeration.mustUse, a.deprecatedNote o .enum]) (some n) ty none es

/-- The struct for the data of a variant. -/
def SrcSpec.cxxBodyOf (o : OutConfig) (n : Str) (a : Annotations) (ms : List CItem) : CItem :=
  .record .struct (attrToks [mustUseText a o.structure_.mustUse, a.deprecatedNote o .struct]) (tagOf o n) (nameOf o n) ms

/-- A variant in the bindings. -/
structure VariantFinalX (V : EnumEnv) (d : RenameRule → DeclConfig) (ren : RenameRule → Str → Str) (rust : CfgSpec.Opt → Bool)
    (c : LibConfig) (inl : Bool) (ord : List LitField → List LitField) (rule : RenameRule) (a : Annotations) (n : Str)
    (m : Option Cfg) (v : SynVariant) (w : EnumVariant) : Prop where
  disc : DiscEnd ord c.ren v w.disc
  cfg : w.cfg = Cfg.append m (loadCfg v.attrs)
  name : w.exportName = enumeratorName c a rule n (unraw v.ident)
  body : ∀ arm body, CxxVariantIs V rust v arm body → BodyEndX V d ren rust n c inl (enumLead c a n) rule a v arm body w.body

theorem more_endX {c : LibConfig} {lead : Option Str} {en : Str} {rule : RenameRule} {w₀ w : EnumVariant} (h : IsMore w₀)
    (he : VariantEndX c lead en rule w₀ w) :
    w.exportName = variantName c.caseFns (lead.getD []) rule en w₀.name ∧ w.disc = none ∧ w.body = .empty {} ∧ w.cfg = none := by
  obtain ⟨nm, ex, dl, body, cfg, doc⟩ := w₀
  obtain ⟨h1, h2, h3, h4⟩ := h
  simp only at h1 h2 h3 h4
  subst h1 h2 h3 h4
  obtain ⟨x, hx, rfl⟩ := he
  obtain ⟨n1, n2, n3, n4, n5⟩ := named_name (f := c.caseFns) (lead := lead) (en := en) (rule := rule) (v := x)
  simp only [EnumVariant.renameBody, EnumVariant.mapTys, VBody.mapTys, Option.map_none, Option.some.injEq] at hx
  subst hx
  exact ⟨n1, n3, n4 _ rfl, n2⟩

theorem more_namesX {c : LibConfig} {a : Annotations} {n : Str} {rule : RenameRule} {ws ws' : List EnumVariant} (h : ∀ w ∈ ws, IsMore w)
    (he : Pairs (VariantEndX c (enumLead c a n) (c.ren n) rule) ws ws') :
    ws'.map EnumVariant.exportName = (ws.map EnumVariant.name).map (enumeratorName c a rule n) := by
  induction he with
  | nil => rfl
  | cons hp _ ih =>
    have hm := more_endX (h _ (by simp)) hp
    simp only [List.map_cons]
    rw [ih fun w hw => h w (by simp [hw]), hm.1]
    rfl

section
variable {pc : ParseConfig} {lc : LoadConfig} {fuel fuel' : Nat} {i : Inputs} {c : LibConfig}
  {order : List (Str × Annotations) → List (Str × Annotations)} {l : Library} {b : Bindings}
  {R : Dialect} {on : Str → Bool} {D : List Str} {e : Env} {tx : Str} {rust : CfgSpec.Opt → Bool}

/-- An enum of the sources in the bindings. -/
theorem enum_itemsX (h : StagesX pc lc fuel fuel' i c order l b) {s : SynEnum} {cs : List Cfg} {n : Str}
    (hS : CxxSole pc lc i c (.enum s) cs n) (hN : CxxNeeded pc lc i c n) {r : Repr} {a : Annotations} {arm rule : RenameRule}
    (hI : EnumIs lc c s r a arm rule) {V : EnumEnv} {d : RenameRule → DeclConfig} {ren : RenameRule → Str → Str}
    (he : ∀ r, EnvForX (V.types r) (d r) (ren r) [])
    (ho : ∀ r, (V.types r).owner = some n) (ha : ∀ n, V.arm n = arm.apply lc.caseFns n .structMember)
    (hv : ∀ v ∈ s.variants, ∃ arm body, CxxVariantIs V rust v arm body) :
    ∃ m x vs ws, .enum x ∈ b.items ∧ x.path = n ∧ x.exportName = c.ren n ∧ x.repr = r ∧
      x.tag = (if withData s then some c!"Tag" else none) ∧ x.annotations = a ∧
      ParserSpec.GuardIs (Cfg.append m (loadCfg s.attrs)) cs ∧ x.cfg = Cfg.append m (loadCfg s.attrs) ∧ x.variants = vs ++ ws ∧
      Pairs (VariantFinalX V d ren rust c (decide (r.style = .rust)) lc.fieldOrder rule a n m) s.variants vs ∧
      ws.map EnumVariant.exportName = (moreNames lc a).map (enumeratorName c a rule n) ∧
      ∀ w ∈ ws, w.disc = none ∧ w.body = .empty {} ∧ w.cfg = none := by
  obtain ⟨m, y, x, z, h1, h2, h3, h4, h5, h6, h7⟩ := sole_itemsX h hS hN
  have hname : unraw s.ident = n := Option.some.inj hS.name
  obtain ⟨hgen, hl, hd⟩ : OnlyLifetimes s.generics ∧ lc.language = .cxx ∧
      ∀ v ∈ s.variants, ∀ e, v.disc = some e → ∃ K lim x, RustValue K lim e x := by
    cases hS.declarable with
    | struct hs' => cases hs'
    | enum hg _ _ hl _ _ _ hv => exact ⟨hg, hl, fun v h => (hv v h).1⟩
  obtain ⟨vs, ws, k1, k2, k3, k4⟩ := enum_load_okX hgen hI.repr hI.annotations hl hI.arms he (by rw [hname]; exact ho) ha
    (fun v h => ⟨hd v h, hv v h⟩) m
  simp only [Taken.container, k1] at h2
  cases h2
  cases h3
  obtain ⟨x', rule', rfl, f1, f2, f3, f4, f5, f6, ⟨f7, _⟩, f8⟩ := final_enumX h.language h5
  have f1 : a.ruleOr c.renameVariants = some rule' := f1
  rw [hI.rule] at f1
  cases f1
  obtain ⟨zs, zs', e1, e2, e3⟩ := f8.append_left
  have hlead : (EnumItem.mk (unraw s.ident) (unraw s.ident) [] r (vs ++ ws) (if withData s then some c!"Tag" else none)
        (Cfg.append m (loadCfg s.attrs)) a (loadDoc s.attrs)).lead c = enumLead c a n := by
    rw [hname]
    rfl
  have hinl : (r.style != .c) = decide (r.style = .rust) := by
    rcases hI.repr.style with h | ⟨h, _⟩ <;> rw [h] <;> rfl
  simp only [hlead] at e2 e3
  refine ⟨m, x', zs, zs', h7, h6, by rw [f3, ← hname], f4, f5, f7, h1, f6, e1, ?_, ?_, ?_⟩
  · refine (k2.comp e2).imp fun v hv w hw => ?_
    obtain ⟨w₀, g1, g2⟩ := hw
    rw [hname] at g1 g2
    rw [hinl] at g1
    obtain ⟨q2, q3, q4, q5⟩ := variant_endX h.language g1 g2
    exact ⟨q2, q3, q4, q5⟩
  · rw [← k3]
    rw [hname] at e3
    exact more_namesX k4 e3
  · intro w hw
    obtain ⟨w₀, hw₀, g⟩ := e3.mem_right hw
    exact (more_endX (k4 w₀ hw₀) g).2

theorem size_is {x : EnumItem} {ty : Option CTy} (h : SizeIs e.cfg.usizeIsSizeT x.repr.ty ty) :
    (x.size e.cfg).map (fun p => CTy.base false none p []) = ty := by
  rw [EnumItem.size]
  generalize x.repr.ty = t at h
  cases h with
  | none => rfl
  | some h =>
    have : ∀ u, ∀ q ∈ sizeTexts u, (Prim.integer true q.1.2 q.1.1).toReprC u = q.2 := by decide
    exact congrArg (fun p => some (CTy.base false none p [])) (this _ _ h)

theorem tag_enum_is {x : EnumItem} {ty : Option CTy} (h : SizeIs e.cfg.usizeIsSizeT x.repr.ty ty) :
    cxxTagEnum e on x = cxxEnumOf e.cfg x.annotations x.tagName ty (enumeratorsOf e on x.variants) := by
  unfold cxxTagEnum
  simp only [size_is h]
  rfl

theorem values_of {cs : List Cfg} (hr : CxxReadWhere R on D e b tx rust cs) {s : SynEnum} {n : Str} {r : Repr} {a : Annotations} {rule : RenameRule}
    (hmap : ∀ v ∈ s.variants, ∀ x ∈ conds v.attrs, CfgSpec.Mapped e.cfg.defines x)
    {K : Nat → Str → Int → Prop} {ds : List (Str × Int)} {k : Int} (hd : Discriminants K (reprLimit r.ty) rust 0 s.variants ds k)
    {V : EnumEnv} {d : RenameRule → DeclConfig} {ren : RenameRule → Str → Str} {rust' : CfgSpec.Opt → Bool} {inl : Bool}
    {m : Option Cfg} {vs ws : List EnumVariant} (hg : ParserSpec.GuardIs (Cfg.append m (loadCfg s.attrs)) cs)
    (hvs : Pairs (VariantFinalX V d ren rust' c inl lc.fieldOrder rule a n m) s.variants vs)
    (hws : ws.map EnumVariant.exportName = (moreNames lc a).map (enumeratorName c a rule n))
    (hmore : ∀ w ∈ ws, w.disc = none ∧ w.body = .empty {} ∧ w.cfg = none) {p : PrimSpec.Platform} {M : List (Str × List Lx)}
    (hp : Usual p) (hM : Macros K c.ren p M) :
    EnumValues p M 0 (enumeratorsOf e on (vs ++ ws)) (valuesOf lc c a rule n ds k) := by
  have : enumeratorsOf e on (vs ++ ws) = enumeratorsOf e on vs ++ enumeratorsOf e on ws := by simp [enumeratorsOf]
  rw [this, valuesOf, ← hws]
  refine variant_values (ord := lc.fieldOrder) hp hM (hvs.imp fun v hv w hw => ⟨hw.disc, ?_, hw.name⟩) hd (more_values hmore k)
  rw [hw.cfg]
  exact shown_within hr.same hr.mapped hr.holds hg (hmap v hv)

/-- **C77.** An enum of the sources without data is an enum in the namespaces of the C++ header, where all the `cfg`s
around it hold: it has the type that its representation gives, the variants have the values that they have in Rust, on all
platforms where an `int` has at least 32 bits, and a variant is left out where its own `cfg`s do not hold. -/
theorem C77_enum_partial (h : StagesX pc lc fuel fuel' i c order l b) {s : SynEnum} {cs : List Cfg} {n : Str}
    (hr : CxxReadWhere R on D e b tx rust cs) (hS : CxxSole pc lc i c (.enum s) cs n) (hN : CxxNeeded pc lc i c n) {r : Repr} {a : Annotations}
    {arm rule : RenameRule} (hI : EnumIs lc c s r a arm rule) (hexp : a.shouldExport = true) (hdata : withData s = false)
    (hmap : ∀ v ∈ s.variants, ∀ x ∈ conds v.attrs, CfgSpec.Mapped e.cfg.defines x)
    {ty : Option CTy} (hty : SizeIs e.cfg.usizeIsSizeT r.ty ty)
    {K : Nat → Str → Int → Prop} {ds : List (Str × Int)} {k : Int} (hd : Discriminants K (reprLimit r.ty) rust 0 s.variants ds k) :
    ∃ o es, readHeader R on tx = some o ∧
      Declares o.items (e.cfg.namespace_.toList ++ e.cfg.namespaces.getD []) false (cxxEnumOf e.cfg a (c.ren n) ty es) ∧
      ∀ p M, Usual p → Macros K c.ren p M → EnumValues p M 0 es (valuesOf lc c a rule n ds k) := by
  have hlang : e.cfg.language = .cxx := hr.good.lang
  obtain ⟨rust', V, arm', hl, ho, har, hv⟩ : ∃ rust' V arm', ArmRule lc a arm' ∧ (∀ r, (EnumEnv.types V r).owner = some n) ∧
      (∀ n, V.arm n = arm'.apply lc.caseFns n .structMember) ∧ ∀ v ∈ s.variants, ∃ arm body, CxxVariantIs V rust' v arm body := by
    cases hS.declarable with
    | struct hs' => cases hs'
    | @enum _ r' a' rule' V' rust' hg h1 h2 hl h3 h4 h5 hv =>
      rw [hI.annotations] at h2
      cases h2
      exact ⟨rust', V', rule', h3, by rw [← Option.some.inj hS.name]; exact h4, h5, fun v h => (hv v h).2⟩
  have hE := fun r => EnvForX.any (V.types r)
  obtain ⟨m, x, vs, ws, k1, k2, k3, k4, k5, k6, k7, k8, k9, k10, k11, k12⟩ := enum_itemsX h hS hN ⟨hI.repr, hI.annotations, hl, hI.rule⟩
    (d := fun r => (hE r).choose) (ren := fun r => (V.types r).name) (fun r => (hE r).choose_spec) ho har hv
  have hsh : shown e.cfg on x.cfg = true := by
    rw [k8]
    exact hr.shown k7
  have htag : x.tag = none := by rw [k5, hdata]; rfl
  obtain ⟨o, h1, h2⟩ := C74_item_space_partial hr.good hr.text hr.first k1 (by
    show x.annotations.shouldExport = true
    rw [k6]
    exact hexp) (d := cxxTagEnum e on x) (by
    simp [containerOut, enumOut, items_when, hsh, htag, tagEnumOut, hlang, decls, Out.append_def])
  refine ⟨o, enumeratorsOf e on x.variants, h1, ?_, fun p M hp hM => ?_⟩
  · rw [tag_enum_is (by rw [k4]; exact hty), k6] at h2
    rwa [EnumItem.tagName, htag, k3] at h2
  · rw [k9]
    exact values_of hr hmap hd k7 k10 k11 k12 hp hM

/-! ## Data -/

theorem arms_variantsX {V : EnumEnv} {decl : Str → Annotations → List CItem → CItem} {vs : List SynVariant} {bs ms : List CItem}
    (h : CxxArms V rust decl vs bs ms) : ∀ v ∈ vs, ∃ arm body, CxxVariantIs V rust v arm body := by
  induction h with
  | nil => nofun
  | shown h _ _ ih =>
    intro v hv
    rcases List.mem_cons.1 hv with rfl | hv
    · exact ⟨_, _, h⟩
    · exact ih v hv
  | hidden h _ _ ih =>
    intro v hv
    rcases List.mem_cons.1 hv with rfl | hv
    · exact ⟨_, _, h⟩
    · exact ih v hv

/-- The members of the data of a variant. -/
theorem data_membersX {o : OutConfig} {t : Option Str} {fields : List Field} {nm : Str → Str} :
    membersOf o on ((tagFields t none ++ fields.map (Field.mapTy (endTyX c []))).map (fun f => { f with name := nm f.name })) =
      (match t with
        | some t => [.object false [] (nm c!"tag") (.base false none t []) []]
        | none => []) ++
      (fields.filter fun f => shown o on f.cfg).map (Field.asMemberX o.toDeclConfig c.ren [] nm) := by
  have h1 : ∀ xs ys, membersOf o on (xs ++ ys) = membersOf o on xs ++ membersOf o on ys := by
    intro xs ys
    simp [membersOf]
  have h2 := members_endX (c := c) (vs := []) (nm := nm) (on := on) (o := o) (fs := fields)
  have h3 : (fields.map Field.name).map nm = (fields.map (Field.mapTy (endTyX c []))).map fun f => nm f.name := by
    simp [Field.mapTy, Function.comp_def]
  rw [h3, setFieldNames_map] at h2
  rw [List.map_append, h1, h2]
  congr 1
  cases t with
  | none => rfl
  | some t =>
    have hs : shown o on none = true := rfl
    simp [tagFields, tagField, membersOf, memberOf, hs, Ty.newPath, meaning, meaningGArgs, CTy.forgetFnPtr, CTy.forgetTyArgs, bitsOf,
      Annotations.atom]

/-- What a variant contributes to the union of the data, and the struct of its data. -/
theorem variant_dataX {r : Repr} {a : Annotations} {arm rule : RenameRule} {n : Str}
    (hm : CfgSpec.Matches e.cfg.defines rust on) {v : SynVariant} {w : EnumVariant} {am : List CItem} {body : Option (Annotations × List CItem)}
    (hmap : ∀ f ∈ listOf v.fields, ∀ x ∈ conds f.attrs, CfgSpec.Mapped e.cfg.defines x)
    (hbo : NoBodies R on e.cfg (v.ident ++ c!"_Body"))
    (hb : BodyEndX (cxxEnumEnv lc c e.cfg r a arm rule n) (fun _ => e.cfg.toDeclConfig) (fun _ => c.ren) rust n c
      (decide (r.style = .rust)) (enumLead c a n) rule a v am body w.body) :
    payloadOf e.cfg on w = (if shown e.cfg on w.cfg then am else []) ∧
      (bodyOut R e on w).items = if shown e.cfg on w.cfg then
        (body.map fun x => cxxBodyOf e.cfg ((cxxEnumEnv lc c e.cfg r a arm rule n).body v.ident) x.1 x.2).toList else [] := by
  generalize hwb : w.body = wb at hb ⊢
  cases hb with
  | unit => exact ⟨by simp [payloadOf, hwb], by simp [bodyOut, hwb]⟩
  | @data fs a₁ rl rl' fields ps b' q1 q2 q3 q4 q5 q6 r1 r2 r3 r4 r5 r6 r7 r8 r9 ic =>
    have q3 : a₁.ruleOr c.renameFields = some rl := q3
    rw [q3] at q4
    cases q4
    have hmem : membersOf e.cfg on b'.fields = (cxxEnumEnv lc c e.cfg r a arm rule n).tagMembers rl c!"tag" ++ ps := by
      rw [r9, data_membersX]
      have : (fields.filter fun f => shown e.cfg on f.cfg).map
          (Field.asMemberX e.cfg.toDeclConfig c.ren [] (memberName c.caseFns rl)) = ps := q6 e.cfg on hm (by rw [← q1]; exact hmap)
      rw [this]
      congr 1
      unfold EnumEnv.tagMembers cxxEnumEnv
      by_cases hs : r.style = .rust <;> simp [hs]
    constructor
    · simp only [payloadOf, hwb]
      by_cases hs : shown e.cfg on w.cfg = true
      · rw [if_pos hs, if_pos hs]
        simp only [Bool.false_eq_true, if_false, r2]
        rfl
      · rw [if_neg hs, if_neg hs]
    · have hsb : shown e.cfg on b'.cfg = true := by rw [r3]; rfl
      have hattrs : attrToks (structAttrs e.cfg b') =
          attrToks [mustUseText a₁ e.cfg.structure_.mustUse, a₁.deprecatedNote e.cfg .struct] := by
        rw [structAttrs, r4, r5]
        unfold mustUseText Annotations.deprecatedNote
        rw [variantAnnotations_must, variantAnnotations_deprecated]
        simp [attrToks, alignText]
      have hitem : structItemOf R e.cfg on b' =
          cxxBodyOf e.cfg ((cxxEnumEnv lc c e.cfg r a arm rule n).body v.ident) a₁
            ((cxxEnumEnv lc c e.cfg r a arm rule n).tagMembers rl c!"tag" ++ ps) := by
        rw [structItemOf, recordOf, hattrs, r1, r2, hmem, hbo.1, hbo.2]
        simp [cxxBodyOf, cxxEnumEnv]
      simp only [bodyOut, hwb, items_when, structOut, hsb, if_true, items_app, decls, structDecl, r8, hitem, assocOut, r7,
        List.map_nil, outs, List.foldr_nil, Option.map_some, Option.toList_some, List.append_nil]

/-- **C77.** An enum of the sources with data is a struct in the namespaces of the C++ header, of the tag and the union of
the data of all variants; or, if the enum has a representation of Rust, the union of structs that all start with the tag.
The enum of the tags and the structs of the data are defined in it, with the values and the members of the sources.
Variants without data have no member. -/
theorem C77_data_partial (h : StagesX pc lc fuel fuel' i c order l b) {s : SynEnum} {cs : List Cfg} {n : Str}
    (hr : CxxReadWhere R on D e b tx rust cs) (hS : CxxSole pc lc i c (.enum s) cs n) (hN : CxxNeeded pc lc i c n) {r : Repr} {a : Annotations}
    {arm rule : RenameRule} (hI : EnumIs lc c s r a arm rule) (hexp : a.shouldExport = true) (hdata : withData s = true)
    (hmap : ∀ v ∈ s.variants, ∀ x ∈ conds v.attrs, CfgSpec.Mapped e.cfg.defines x)
    (hmap' : ∀ v ∈ s.variants, ∀ f ∈ listOf v.fields, ∀ x ∈ conds f.attrs, CfgSpec.Mapped e.cfg.defines x)
    (hb : NoBodies R on e.cfg n) (hb' : ∀ v ∈ s.variants, NoBodies R on e.cfg (v.ident ++ c!"_Body"))
    {ty : Option CTy} (hty : SizeIs e.cfg.usizeIsSizeT r.ty ty)
    {K : Nat → Str → Int → Prop} {ds : List (Str × Int)} {k : Int} (hd : Discriminants K (reprLimit r.ty) rust 0 s.variants ds k)
    {bs ms : List CItem} (hms : CxxArms (cxxEnumEnv lc c e.cfg r a arm rule n) rust (cxxBodyOf e.cfg) s.variants bs ms) :
    ∃ o es, readHeader R on tx = some o ∧
      Declares o.items (e.cfg.namespace_.toList ++ e.cfg.namespaces.getD []) false
        (.record (if r.style = .rust then .union else .struct)
          (attrToks [mustUseText a e.cfg.structure_.mustUse, a.deprecatedNote e.cfg .struct])
          (tagOf e.cfg (c.ren n)) (nameOf e.cfg (c.ren n))
          (cxxEnumOf e.cfg a c!"Tag" ty es :: (bs ++
            if r.style = .rust then .record .struct [] none none [.object false [] c!"tag" (.base false none c!"Tag" []) []] :: ms
            else [.object false [] c!"tag" (.base false none c!"Tag" []) [], .record .union [] none none ms]))) ∧
      ∀ p M, Usual p → Macros K c.ren p M → EnumValues p M 0 es (valuesOf lc c a rule n ds k) := by
  have hlang : e.cfg.language = .cxx := hr.good.lang
  obtain ⟨m, x, vs, ws, k1, k2, k3, k4, k5, k6, k7, k8, k9, k10, k11, k12⟩ := enum_itemsX h hS hN hI
    (V := cxxEnumEnv lc c e.cfg r a arm rule n) (d := fun _ => e.cfg.toDeclConfig) (ren := fun _ => c.ren) (fun r => cxxEnv_for hlang)
    (fun _ => rfl) (fun _ => rfl) (arms_variantsX hms)
  have hsh : shown e.cfg on x.cfg = true := by
    rw [k8]
    exact hr.shown k7
  have hall : vs.flatMap (payloadOf e.cfg on) = ms ∧ vs.flatMap (fun v => (bodyOut R e on v).items) = bs := by
    have : ∀ (us : List SynVariant) (vs : List EnumVariant) bs ms, (∀ v ∈ us, v ∈ s.variants) →
        Pairs (VariantFinalX (cxxEnumEnv lc c e.cfg r a arm rule n) (fun _ => e.cfg.toDeclConfig) (fun _ => c.ren) rust c
          (decide (r.style = .rust)) lc.fieldOrder rule a n m) us vs →
        CxxArms (cxxEnumEnv lc c e.cfg r a arm rule n) rust (cxxBodyOf e.cfg) us bs ms →
        vs.flatMap (payloadOf e.cfg on) = ms ∧ vs.flatMap (fun v => (bodyOut R e on v).items) = bs := by
      intro us vs bs ms hus hp ha
      induction ha generalizing vs with
      | nil => cases hp; exact ⟨rfl, rfl⟩
      | @shown v us am body bs ms hv hc _ ih =>
        cases hp with
        | cons hq hp =>
          obtain ⟨i1, i2⟩ := ih _ (fun v hv => hus v (by simp [hv])) hp
          rw [List.flatMap_cons, List.flatMap_cons, i1, i2]
          have hin := hus v (by simp)
          have hsv := shown_within hr.same hr.mapped hr.holds k7 (hmap v hin)
          rw [← hq.cfg, List.all_eq_true.2 hc] at hsv
          obtain ⟨d1, d2⟩ := variant_dataX hr.same (hmap' v hin) (hb' v hin) (hq.body _ _ hv)
          rw [d1, d2, hsv]
          exact ⟨rfl, rfl⟩
      | @hidden v us am body bs ms hv hc _ ih =>
        cases hp with
        | cons hq hp =>
          obtain ⟨i1, i2⟩ := ih _ (fun v hv => hus v (by simp [hv])) hp
          rw [List.flatMap_cons, List.flatMap_cons, i1, i2]
          have hin := hus v (by simp)
          have hsv := shown_within hr.same hr.mapped hr.holds k7 (hmap v hin)
          have : (conds v.attrs).all (CfgSpec.holds rust) = false := by
            rw [List.all_eq_false]
            obtain ⟨x, hx, hx'⟩ := hc
            exact ⟨x, hx, by simp [hx']⟩
          rw [← hq.cfg, this] at hsv
          obtain ⟨d1, d2⟩ := variant_dataX hr.same (hmap' v hin) (hb' v hin) (hq.body _ _ hv)
          rw [d1, d2, hsv]
          exact ⟨rfl, rfl⟩
    exact this s.variants vs bs ms (fun _ h => h) k10 hms
  have hpay : x.variants.flatMap (payloadOf e.cfg on) = ms := by
    rw [k9, List.flatMap_append, hall.1]
    have h1 : ws.flatMap (payloadOf e.cfg on) = [] := by
      rw [List.flatMap_eq_nil_iff]
      intro w hw
      simp [payloadOf, (k12 w hw).2.1]
    rw [h1, List.append_nil]
  have hbod : (outs (x.variants.map (bodyOut R e on))).items = bs := by
    rw [items_outs, List.flatMap_map, k9, List.flatMap_append, hall.2]
    have h1 : ws.flatMap (fun v => (bodyOut R e on v).items) = [] := by
      rw [List.flatMap_eq_nil_iff]
      intro w hw
      simp [bodyOut, (k12 w hw).2.1]
    rw [h1, List.append_nil]
  have htag : x.tag = some c!"Tag" := by rw [k5, if_pos hdata]
  obtain ⟨o, h1, h2⟩ := C74_item_space_partial hr.good hr.text hr.first k1 (by
    show x.annotations.shouldExport = true
    rw [k6]
    exact hexp) (d := cxxDataOf R e on x) (by
    simp [containerOut, enumOut, items_when, hsh, htag, hlang, decls])
  refine ⟨o, enumeratorsOf e on x.variants, h1, ?_, fun p M hp hM => ?_⟩
  · have hin : tagInside x = decide (r.style = .rust) := by
      unfold tagInside
      rw [k4]
      rcases hI.repr.style with hs | ⟨hs, _⟩ <;> rw [hs] <;> rfl
    rw [cxxDataOf, recordOf, tag_enum_is (by rw [k4]; exact hty), dataAttrs, k6, k2, k3, hb.1, hb.2, hbod, dataMembers, hpay, hin, tagPart,
      tagMember, EnumItem.tagName, htag, hlang, hin] at h2
    by_cases hst : r.style = .rust <;> simpa [hst] using h2
  · rw [k9]
    exact values_of hr hmap hd k7 k10 k11 k12 hp hM

end

end Cbindgen
