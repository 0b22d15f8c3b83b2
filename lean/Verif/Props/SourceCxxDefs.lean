import Verif.Lemmas.SourceCxxDefs
import Verif.Props.SourceCxx
import Verif.Props.SourceDefs

/-!
# C76: the structs, unions and aliases of Rust sources in a C++ header
-/

namespace Cbindgen
open CSpec HeadSpec LexSpec
open SrcSpec hiding Reaches Given Plain Declares
open ScopeSpec (items_when)

/-- What the C++ types in a definition with the parameters `ns` depend on: parameters are not renamed. -/
def SrcSpec.cxxEnvIn (ns : List Str) (c : LibConfig) (o : OutConfig) (rule : RenameRule) (owner : Option Str) : TyEnv :=
  { cxxEnv c o rule owner with name := fun n => if n ∈ ns then n else c.ren n }

theorem cxxEnvIn_for {c : LibConfig} {o : OutConfig} (h : o.language = .cxx) {rule : RenameRule} {owner : Option Str}
    {ns : List Str} {vs : List GParam} (hv : vs.map GParam.name = ns) : EnvForX (cxxEnvIn ns c o rule owner) o.toDeclConfig c.ren vs := by
  refine ⟨h, rfl, rfl, rfl, rfl, fun n => ?_⟩
  show (if n ∈ ns then n else c.ren n) = nameIn c.ren vs n
  simp only [nameIn, hasParam_names, hv, decide_eq_true_eq]

theorem templated_with {o : OutConfig} (h : o.language = .cxx) {vs : List GParam} {ps : List TParam}
    (hv : vs.map (tparamOf o false) = ps) (d : CItem) : templated o false vs d = withParams ps d := by
  subst hv
  cases vs with
  | nil => exact templated_nil _ _
  | cons v vs => simp [templated, h, withParams]

section
variable {c : LibConfig} {o : OutConfig}

theorem members_endX {vs : List GParam} {nm : Str → Str} {on : Str → Bool} {fs : List Field} :
    membersOf o on (setFieldNames (fs.map (Field.mapTy (endTyX c vs))) ((fs.map Field.name).map nm)) =
      (fs.filter fun f => shown o on f.cfg).map (Field.asMemberX o.toDeclConfig c.ren vs nm) := by
  have h1 : (fs.map Field.name).map nm = (fs.map (Field.mapTy (endTyX c vs))).map fun f => nm f.name := by
    simp [Field.mapTy, Function.comp_def]
  rw [h1, setFieldNames_map, List.map_map, membersOf, List.filter_map, List.map_map]
  rfl

end

section
variable {pc : ParseConfig} {lc : LoadConfig} {fuel fuel' : Nat} {i : Inputs} {c : LibConfig}
  {order : List (Str × Annotations) → List (Str × Annotations)} {l : Library} {b : Bindings}
  {R : Dialect} {on : Str → Bool} {D : List Str} {e : Env} {tx : Str} {rust : CfgSpec.Opt → Bool}

/-- **C76.** A struct of the sources that functions or other definitions need is defined in the namespaces of the C++
header with the C++ types of its fields, where all the `cfg`s around it hold; a field is a member where its own `cfg`s
hold.  A generic struct is a template with the same parameters, and its members are of these. -/
theorem C76_struct_partial (h : StagesX pc lc fuel fuel' i c order l b) {t : Taken} {s : SynStruct} {cs : List Cfg} {n : Str}
    (hr : CxxReadWhere R on D e b tx rust cs) (hS : CxxSole pc lc i c t cs n) (hN : CxxNeeded pc lc i c n) (hs : structOf t = some s)
    (hb : NoBodies R on e.cfg n) {al : Option ReprAlign} (hl : LayoutIs lc s.attrs .c al)
    {a : Annotations} (ha : Annotations.load s.attrs = .ok a) (hexp : a.shouldExport = true) (hnames : a.list c!"field-names" = none)
    {rule : RenameRule} (hrule : a.ruleOr c.renameFields = some rule)
    (hmap : ∀ f ∈ listOf s.fields, ∀ x ∈ conds f.attrs, CfgSpec.Mapped e.cfg.defines x) {ps : List TParam} {ms : List CItem}
    (hps : CxxGenerics (cxxEnv c e.cfg rule none) s.generics ps)
    (hms : CxxMembers (cxxEnvIn (genericNames s.generics) c e.cfg rule (some (unraw s.ident))) (memberName c.caseFns rule) rust
      (countOf s.fields) (listOf s.fields) ms) :
    ∃ o, readHeader R on tx = some o ∧
      Declares o.items (e.cfg.namespace_.toList ++ e.cfg.namespaces.getD []) false
        (withParams ps (.record .struct
          (attrToks [alignText e.cfg al, mustUseText a e.cfg.structure_.mustUse, a.deprecatedNote e.cfg .struct])
          (tagOf e.cfg (c.ren n)) (nameOf e.cfg (c.ren n)) ms)) := by
  have hlang : e.cfg.language = .cxx := hr.good.lang
  obtain ⟨m, y, x, z, h1, h2, h3, h4, h5, h6, h7⟩ := sole_itemsX h hS hN
  obtain ⟨vs, g1, g2, g3⟩ := generics_ok hps
  obtain ⟨fields, k1, k3⟩ := members_okX (cxxEnvIn_for hlang g2) rfl hms
  obtain ⟨j1, j2, _, j4⟩ := structOf_container (lc := lc) hs m
  rw [j1, SynStruct.container, struct_load_params g1 hl (Or.inl rfl) ha ((fields_load _ _).trans k1)] at h2
  cases h2
  have hx : ∃ a' ks, a.Alike a' ∧ x = .struct { StructItem.new (unraw s.ident) vs fields false false al (decide (ReprStyle.c = .transparent))
      (Cfg.append m (loadCfg s.attrs)) a (loadDoc s.attrs) with annotations := a', assocConsts := ks } := by
    cases h3 with
    | refl => exact ⟨a, [], .refl a, rfl⟩
    | struct ha' => exact ⟨_, _, ha', rfl⟩
  obtain ⟨a', ks, hal, rfl⟩ := hx
  have hname : unraw s.ident = n := by
    rw [hS.name] at j4
    exact (Option.some.inj j4).symm
  obtain ⟨x', rule', rfl, f1, f2, f3, f4, f5, f6, f7, f8, f9, f10, f11⟩ := final_structX rfl h5
  have f1 : a'.ruleOr c.renameFields = some rule' := f1
  rw [hal.rule, hrule] at f1
  cases f1
  refine C74_item_space_partial hr.good hr.text hr.first h7 ?_ ?_
  · show x'.annotations.shouldExport = true
    rw [f5]
    exact hal.export.trans hexp
  · have hty : x'.asTypedef = none := by
      unfold StructItem.asTypedef
      split
      · rw [f7]
        simp [StructItem.new]
      · rfl
    have hsh : shown e.cfg on x'.cfg = true := by
      rw [f4]
      exact hr.shown (g := Cfg.append m (loadCfg s.attrs)) (j2 ▸ h1)
    simp only [containerOut, hty, structOut, items_when, hsh, if_true, items_app, List.mem_append, decls, List.mem_singleton]
    left
    have hattrs : structAttrs e.cfg x' =
        [alignText e.cfg al, mustUseText a e.cfg.structure_.mustUse, a.deprecatedNote e.cfg .struct] := by
      rw [structAttrs, f6, f5, hal.must, hal.note]
      rfl
    have hmem : membersOf e.cfg on x'.fields = ms := by
      rw [f11]
      have hl' : a'.list c!"field-names" = none := by rw [hal.list (by decide), hnames]
      show membersOf e.cfg on (setFieldNames (fields.map (Field.mapTy (endTyX c vs)))
        (structFieldNames c.caseFns (a'.list c!"field-names") rule (fields.map Field.name))) = ms
      rw [hl', structFieldNames_none, members_endX]
      exact k3 e.cfg on hr.same hmap
    have hbody : x'.isEnumVariantBody = false := f9
    have hpar : x'.genericParams = vs := f10
    have hexn : x'.exportName = c.ren n := by rw [f3, ← hname]; rfl
    rw [structDecl, hbody, if_neg (by decide), hpar, templated_with hlang (g3 e.cfg rfl), structItemOf, recordOf, hattrs,
      show x'.path = n from h6, hexn, hmem, hb.1, hb.2]
    simp

/-- **C76.** The same holds for unions. -/
theorem C76_union_partial (h : StagesX pc lc fuel fuel' i c order l b) {s : SynUnion} {cs : List Cfg} {n : Str}
    (hr : CxxReadWhere R on D e b tx rust cs) (hS : CxxSole pc lc i c (.union s) cs n) (hN : CxxNeeded pc lc i c n)
    (hb : NoBodies R on e.cfg n) {al : Option ReprAlign} (hl : LayoutIs lc s.attrs .c al)
    {a : Annotations} (ha : Annotations.load s.attrs = .ok a) (hexp : a.shouldExport = true) (hnames : a.list c!"field-names" = none)
    {rule : RenameRule} (hrule : a.ruleOr c.renameFields = some rule)
    (hmap : ∀ f ∈ s.fields, ∀ x ∈ conds f.attrs, CfgSpec.Mapped e.cfg.defines x) {ps : List TParam} {ms : List CItem}
    (hps : CxxGenerics (cxxEnv c e.cfg rule none) s.generics ps)
    (hms : CxxMembers (cxxEnvIn (genericNames s.generics) c e.cfg rule (some (unraw s.ident))) (armName c.caseFns rule) rust
      none s.fields ms) :
    ∃ o, readHeader R on tx = some o ∧
      Declares o.items (e.cfg.namespace_.toList ++ e.cfg.namespaces.getD []) false
        (withParams ps (.record .union (attrToks [alignText e.cfg al]) (tagOf e.cfg (c.ren n)) (nameOf e.cfg (c.ren n)) ms)) := by
  have hlang : e.cfg.language = .cxx := hr.good.lang
  obtain ⟨m, y, x, z, h1, h2, h3, h4, h5, h6, h7⟩ := sole_itemsX h hS hN
  obtain ⟨vs, g1, g2, g3⟩ := generics_ok hps
  obtain ⟨fields, k1, k3⟩ := members_okX (cxxEnvIn_for hlang g2) rfl hms
  simp only [Taken.container, union_load_params g1 hl ha k1] at h2
  cases h2
  cases h3
  obtain ⟨x', rule', rfl, f1, f2, f3, f4, f5, f6, f7, f8⟩ := final_unionX h5
  have hname : unraw s.ident = n := Option.some.inj hS.name
  have f1 : a.ruleOr c.renameFields = some rule' := f1
  rw [hrule] at f1
  cases f1
  refine C74_item_space_partial hr.good hr.text hr.first h7 ?_ ?_
  · show x'.annotations.shouldExport = true
    rw [f5]
    exact hexp
  · simp only [containerOut, unionOut, items_when]
    rw [f4, if_pos (hr.shown (g := Cfg.append m (loadCfg s.attrs)) h1)]
    have hexn : x'.exportName = c.ren n := by
      rw [f3, ← hname]
    have hpar : x'.genericParams = vs := f7
    have hmem : membersOf e.cfg on x'.fields = ms := by
      rw [f8]
      show membersOf e.cfg on (setFieldNames (fields.map (Field.mapTy (endTyX c vs)))
        (unionFieldNames c.caseFns (a.list c!"field-names") rule false (fields.map Field.name))) = ms
      rw [hnames, unionFieldNames_none, members_endX]
      exact k3 e.cfg on hr.same hmap
    rw [hpar, templated_with hlang (g3 e.cfg rfl), recordOf, f6, show x'.path = n from h6, hexn, hmem, hb.1, hb.2]
    simp [decls]

/-- **C76.** An alias of the sources is a name for the C++ type of its Rust type, and a generic one an alias template. -/
theorem C76_alias_partial (h : StagesX pc lc fuel fuel' i c order l b) {s : SynAlias} {cs : List Cfg} {n : Str}
    (hr : CxxReadWhere R on D e b tx rust cs) (hS : CxxSole pc lc i c (.alias s) cs n) (hN : CxxNeeded pc lc i c n)
    {rule : RenameRule} {ps : List TParam} (hps : CxxGenerics (cxxEnv c e.cfg rule none) s.generics ps)
    {u : CTy} (hu : CxxType (cxxEnvIn (genericNames s.generics) c e.cfg rule none) false s.ty u) :
    ∃ o, readHeader R on tx = some o ∧
      Declares o.items (e.cfg.namespace_.toList ++ e.cfg.namespaces.getD []) false (withParams ps (.alias (c.ren n) u.forgetFnPtr)) := by
  have hlang : e.cfg.language = .cxx := hr.good.lang
  obtain ⟨m, y, x, z, h1, h2, h3, h4, h5, h6, h7⟩ := sole_itemsX h hS hN
  obtain ⟨vs, g1, g2, g3⟩ := generics_ok hps
  obtain ⟨ty, k1, k2⟩ := xtype_ok (cxxEnvIn_for hlang g2) hu
  obtain ⟨a, ha⟩ : ∃ a, Annotations.load s.attrs = .ok a := by
    cases hS.declarable with
    | struct hs' => cases hs'
    | alias hg ha => exact ⟨_, ha⟩
  simp only [Taken.container, alias_load_params g1 ha k1] at h2
  cases h2
  cases h3
  have hz := final_aliasX h5
  subst hz
  have hname : unraw s.ident = n := Option.some.inj hS.name
  have hemp := h.bare s cs a hS.given ha
  refine C74_item_space_partial hr.good hr.text hr.first h7 ?_ ?_
  · show a.shouldExport = true
    unfold Annotations.isEmpty at hemp
    rw [Bool.and_eq_true, List.isEmpty_iff] at hemp
    simp [Annotations.shouldExport, Annotations.bool, hemp.1]
  · simp only [containerOut, typedefOut, items_when]
    rw [if_pos (hr.shown (g := Cfg.append m (loadCfg s.attrs)) h1), templated_with hlang (g3 e.cfg rfl)]
    simp only [decls, aliasOf, List.mem_singleton]
    have hfin : meaning e.cfg.toDeclConfig false (endTyX c vs ty) = u := k2.fin
    rw [hname, hfin]

theorem first_okX {E : TyEnv} {d : DeclConfig} {ren : Str → Str} {vs : List GParam} {o : Str} (he : EnvForX E d ren vs)
    (ho : E.owner = some o) {nm : Str → Str} {u : CTy}
    {fs : List SynField} (h : CxxFirstType E fs u) : ∀ {k : Option Nat} {ms : List CItem}, CxxMembers E nm rust k fs ms →
    ∀ fields, loadFields o k fs = .ok fields → ∃ f rest, fields = f :: rest ∧ (f.ty.simplify .cxx).finX d ren vs false = u := by
  induction h with
  | @skip f fs u hn _ ih =>
    intro k ms hm fields hf
    cases hm with
    | skip _ hm =>
      obtain ⟨fields', h1, _⟩ := members_okX he ho hm
      rw [loadFields_nothing hn h1] at hf
      cases hf
      exact ih hm fields h1
    | shown _ ht =>
      obtain ⟨ty, h1, _⟩ := xtype_ok he ht
      rw [load_nothing hn] at h1
      cases h1
    | hidden _ ht =>
      obtain ⟨ty, h1, _⟩ := xtype_ok he ht
      rw [load_nothing hn] at h1
      cases h1
  | @here f fs u hu =>
    intro k ms hm fields hf
    obtain ⟨ty, h1, h2⟩ := xtype_ok he hu
    have hfin := h2.fin
    rw [ho] at hfin
    cases hm with
    | skip hn =>
      rw [load_nothing hn] at h1
      cases h1
    | shown hn ht hb _ hm =>
      obtain ⟨fields', k1, _⟩ := members_okX he ho hm
      obtain ⟨a, ha, _⟩ := bits_ok hb
      rw [loadFields_some hn h1 ha k1] at hf
      cases hf
      exact ⟨_, _, rfl, hfin⟩
    | hidden hn ht hb _ hm =>
      obtain ⟨fields', k1, _⟩ := members_okX he ho hm
      obtain ⟨a, ha, _⟩ := bits_ok hb
      rw [loadFields_some hn h1 ha k1] at hf
      cases hf
      exact ⟨_, _, rfl, hfin⟩

/-- **C76.** A transparent struct is a name for the C++ type of its first field that C++ sees. -/
theorem C76_transparent_partial (h : StagesX pc lc fuel fuel' i c order l b) {t : Taken} {s : SynStruct} {cs : List Cfg} {n : Str}
    (hr : CxxReadWhere R on D e b tx rust cs) (hS : CxxSole pc lc i c t cs n) (hN : CxxNeeded pc lc i c n) (hs : structOf t = some s)
    {al : Option ReprAlign} (hl : LayoutIs lc s.attrs .transparent al)
    {a : Annotations} (ha : Annotations.load s.attrs = .ok a) (hexp : a.shouldExport = true)
    {rule : RenameRule} {ps : List TParam} {ms : List CItem} (hps : CxxGenerics (cxxEnv c e.cfg rule none) s.generics ps)
    (hms : CxxMembers (cxxEnvIn (genericNames s.generics) c e.cfg rule (some (unraw s.ident))) (memberName c.caseFns rule) rust
      (countOf s.fields) (listOf s.fields) ms) {u : CTy}
    (hu : CxxFirstType (cxxEnvIn (genericNames s.generics) c e.cfg rule (some (unraw s.ident))) (listOf s.fields) u) :
    ∃ o, readHeader R on tx = some o ∧
      Declares o.items (e.cfg.namespace_.toList ++ e.cfg.namespaces.getD []) false (withParams ps (.alias (c.ren n) u.forgetFnPtr)) := by
  have hlang : e.cfg.language = .cxx := hr.good.lang
  obtain ⟨m, y, x, z, h1, h2, h3, h4, h5, h6, h7⟩ := sole_itemsX h hS hN
  obtain ⟨vs, g1, g2, g3⟩ := generics_ok hps
  obtain ⟨fields, k1, k3⟩ := members_okX (cxxEnvIn_for hlang g2) rfl hms
  obtain ⟨fd, rest, rfl, hfin⟩ := first_okX (cxxEnvIn_for hlang g2) rfl hu hms fields k1
  obtain ⟨j1, j2, _, j4⟩ := structOf_container (lc := lc) hs m
  rw [j1, SynStruct.container, struct_load_params g1 hl (Or.inr rfl) ha ((fields_load _ _).trans k1)] at h2
  cases h2
  have hx : ∃ a' ks, a.Alike a' ∧ x = .struct { StructItem.new (unraw s.ident) vs (fd :: rest) false false al true
      (Cfg.append m (loadCfg s.attrs)) a (loadDoc s.attrs) with annotations := a', assocConsts := ks } := by
    cases h3 with
    | refl => exact ⟨a, [], .refl a, rfl⟩
    | struct ha' => exact ⟨_, _, ha', rfl⟩
  obtain ⟨a', ks, hal, rfl⟩ := hx
  obtain ⟨x', rule', rfl, f1, f2, f3, f4, f5, f6, f7, f8, f9, f10, f11⟩ := final_structX rfl h5
  have hname : unraw s.ident = n := by
    rw [hS.name] at j4
    exact (Option.some.inj j4).symm
  refine C74_item_space_partial hr.good hr.text hr.first h7 ?_ ?_
  · show x'.annotations.shouldExport = true
    rw [f5]
    exact hal.export.trans hexp
  · have htys : x'.fields.map Field.ty = ((fd :: rest).map (Field.mapTy (endTyX c vs))).map Field.ty := by
      rw [f11, setFieldNames_tys]
      rfl
    cases hf : x'.fields with
    | nil => simp [hf] at htys
    | cons g gs =>
      rw [hf] at htys
      simp only [List.map_cons, List.cons.injEq] at htys
      have hty : x'.asTypedef = some ⟨x'.path, x'.exportName, x'.genericParams, g.ty, x'.cfg, x'.annotations, x'.doc⟩ := by
        unfold StructItem.asTypedef
        rw [hf]
        simp [f7, StructItem.new]
      simp only [containerOut, hty, items_app, typedefOut, items_when, List.mem_append]
      left
      have hsh : shown e.cfg on x'.cfg = true := by
        rw [f4]
        exact hr.shown (g := Cfg.append m (loadCfg s.attrs)) (j2 ▸ h1)
      have hpar : x'.genericParams = vs := f10
      rw [if_pos hsh, hpar, templated_with hlang (g3 e.cfg rfl)]
      simp only [decls, aliasOf, List.mem_singleton]
      have hend : meaning e.cfg.toDeclConfig false g.ty = u := by
        rw [htys.1]
        exact hfin
      have hexn : x'.exportName = c.ren n := by rw [f3, ← hname]; rfl
      rw [hend, hexn]

/-- **C76.** Definitions come from nowhere else: each is one of the sources, under the conditions of the sources, or opaque
and of the standard library.  C++ has no instances of generic definitions. -/
theorem C76_origin_partial (h : StagesX pc lc fuel fuel' i c order l b) {x : Container} (hx : x ∈ b.items) :
    (∃ t cs, SrcSpec.Given pc i t cs ∧ typeName t = some x.path ∧ x.path ∉ c.export_.exclude ∧ ParserSpec.GuardIs x.cfg cs) ∨
      (i.stdTypes = true ∧ x.path ∈ MainSpec.knownTypes ∧ ∃ o, x = .opaque o) := by
  obtain ⟨l', hl', hb⟩ := C11_generate h.generated
  obtain ⟨⟨its, h1, h2⟩, _⟩ := (hb x).1 hx
  obtain ⟨hw, hsound, _⟩ := build_types h.built h.plain h.onePath
  obtain ⟨h8, _⟩ := types_finalX h.language hw h.transfer hl'
  obtain ⟨y, hy, hex, hf⟩ := (h8 x).1 (Library.types_of_getItems h1 h2)
  obtain ⟨k1, k2, k3⟩ := Container.finalX_keeps hf
  rcases hsound y hy with ⟨t, m, cs, w, g1, g2, g3, g4⟩ | ⟨g1, s, hs, rfl⟩
  · refine Or.inl ⟨t, cs, g1, ?_, by rw [k1]; exact hex, ?_⟩
    · rw [container_name g3, k1, g4.same.1]
    · rw [k3, g4.cfg, container_cfg g3]
      exact g2
  · refine Or.inr ⟨g1, by rw [k1]; exact known_names s hs, ?_⟩
    cases x <;> first | exact ⟨_, rfl⟩ | (cases k2; done)

end

end Cbindgen
