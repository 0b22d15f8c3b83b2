import Verif.Lemmas.SourceInstances
import Verif.Props.SourceDefs

/-!
# C71: the instances of generic structs of Rust sources in a C header
-/

namespace Cbindgen
open CSpec HeadSpec ScopeSpec LexSpec MonoSpec
open SrcSpec hiding Reaches Given Plain

/-- `m` is the instance of the struct `s` for the arguments `as`, and `fs'` are the fields of `s` with the arguments for the
parameters and with names for the uses of generic definitions. -/
structure SrcSpec.InstanceIs (pc : ParseConfig) (i : Inputs) (c : LibConfig) (order : List (Str × Annotations) → List (Str × Annotations))
    (l l₁ : Library) (t : Taken) (s : SynStruct) (cs : List Cfg) (as : List SynGArg) (m : Str) (fs' : List SynField) : Prop where
  sole : ∃ gs, SynGArg.loadList as = .ok gs ∧ SoleInstance pc i c order l l₁ t s cs (gs.map (GArg.shape (some (unraw s.ident)))) m
  fields : ∃ B, Binds s.generics as B ∧ FieldsOut (fun t t' => ∃ t₁, SrcSpec.Inst B t t₁ ∧
    WrittenOut (InstanceName c l (some (unraw s.ident))) t₁ t') (listOf s.fields) fs'
  std : m ∉ stdNames

/-- What the header needs: what `Needed` says, what functions mention after names are written for their uses of generic
definitions, and what the fields of needed instances mention. -/
inductive SrcSpec.NeededOut (pc : ParseConfig) (lc : LoadConfig) (i : Inputs) (c : LibConfig)
    (order : List (Str × Annotations) → List (Str × Annotations)) (l l₁ : Library) : Str → Prop
  | plain {n} : Needed pc lc i c n → NeededOut pc lc i c order l l₁ n
  | function {path owner ext sf cs a E s' T n} : SrcSpec.Given pc i (.fn path owner ext sf) cs → path ∉ c.export_.exclude →
      Annotations.load sf.attrs = .ok a → a.list c!"ptrs-as-arrays" = none → SigOut (InstanceName c l owner) sf.sig s' →
      E.owner = owner → CFn E s' T → SigMentions owner s' n → NeededOut pc lc i c order l l₁ n
  | definition {t cs m n} : Sole pc lc i c t cs m → NeededOut pc lc i c order l l₁ m → DefMentions t n →
      NeededOut pc lc i c order l l₁ n
  | inside {t s cs as m fs' al a E nm rust ms f n} : InstanceIs pc i c order l l₁ t s cs as m fs' →
      LayoutIs lc s.attrs .c al → Annotations.load s.attrs = .ok a → E.owner = some (unraw s.ident) →
      Members E nm rust (countOf s.fields) fs' ms → NeededOut pc lc i c order l l₁ m → f ∈ fs' →
      SrcSpec.Mentions (some (unraw s.ident)) f.ty n → NeededOut pc lc i c order l l₁ n

section
variable {pc : ParseConfig} {lc : LoadConfig} {fuel fuel' : Nat} {i : Inputs} {c : LibConfig}
  {order : List (Str × Annotations) → List (Str × Annotations)} {l l₁ l' : Library} {b : Bindings}
  {R : Dialect} {on : Str → Bool} {D : List Str} {e : Env} {tx : Str} {rust : CfgSpec.Opt → Bool}

/-- What is needed and known is reached. -/
theorem neededOut_reached (h : Stages pc lc fuel fuel' i c order l l₁ b) (hfo : Reorders lc.fieldOrder)
    (hl' : l.prepare c order fuel' = .ok l') {n : Str} (hN : NeededOut pc lc i c order l l₁ n) : n ∉ stdNames →
    (l'.getItems c n).isSome = true → ∃ r, LibSpec.Root c.export_.inc l' r ∧ LibSpec.Known c l' r ∧ LibSpec.Reaches (l'.getItems c) r n := by
  induction hN with
  | plain hN => exact needed_reached h hl' hN
  | @function path owner ext sf cs a E s' T n hgiven hex ha harr hs ho hT hm =>
    intro hstd hk
    obtain ⟨d, he⟩ := EnvFor.any E
    obtain ⟨rs, hrs, hmem⟩ := mem_functions h.built
    obtain ⟨r, hr1, m, hr2, _⟩ := hrs.complete h.plain h.onePath hgiven
    obtain ⟨g, hg, hf1, _, _, hf4, _, hf5⟩ := cfn_ok he hT ha path ext m
    rw [ho] at hg
    obtain ⟨f, hf, hsame⟩ := sigOut_ok instanceName_ok hs hg hf5.ret hf5.args
    have hfl := (hmem f).2 ⟨r, hr1, path, owner, ext, sf, m, hr2, hf⟩
    obtain ⟨ms, hms, h1, h2⟩ := functions_prepared_by h.language hl' h.expanded
    obtain ⟨j1, _⟩ := load_cfg hf
    obtain ⟨f', hf'⟩ := h2 f hfl (by rw [j1]; exact hex)
    have hfb := (h1 f').2 ⟨f, hfl, by rw [j1]; exact hex, hf'⟩
    rw [hsame.final h.language (build_wf h.built) (build_plain hfo h.built) hms hfl hf5.ret hf5.args] at hf'
    refine ⟨n, Or.inl ⟨f', hfb, ?_⟩, (C11_known c l' _).1 hk, .refl _⟩
    exact func_final_uses h.language hf' (by rw [hf4]; exact harr) hf5.ret hf5.args (sig_uses hstd hm hg)
  | @definition t cs m n hS _ hdm ih =>
    intro hstd hk
    obtain ⟨find, md, y, x, z, its, _, _, _, h4, h5, h6, h7, h8⟩ := sole_prepared h hl' hS
    obtain ⟨r, hr1, hr2, hr3⟩ := ih hS.std (by rw [h7]; rfl)
    obtain ⟨ty, hty, hu⟩ := h4.uses n hstd hdm
    exact ⟨r, hr1, hr2, .step hr3 h7 h8 (final_uses h.language h4.params h4.tag h5 hty (h4.clean ty hty) hu) hk⟩
  | @inside t s cs as m fs' al a E nm rust ms f n hI hl ha ho hm _ hf hmn ih =>
    intro hstd hk
    obtain ⟨d, he⟩ := EnvFor.any E
    obtain ⟨fields', k1, k2, _⟩ := members_ok he ho hm
    obtain ⟨gs, has, hS⟩ := hI.sole
    obtain ⟨B, hB, hfs⟩ := hI.fields
    obtain ⟨find, g, a', z, its, h1, h2, h3, h4, h5, h6⟩ := instance_prepared h hfo hl' hS hB has rfl hl ha hfs k1 k2
    obtain ⟨r, hr1, hr2, hr3⟩ := ih hI.std (by rw [h5]; rfl)
    obtain ⟨f', hf', hu⟩ := fields_uses hstd k1 hf hmn
    refine ⟨r, hr1, hr2, .step hr3 h5 h6 (final_uses h.language (x := .struct (instanceOf s m fields' al g a')) rfl rfl h3
      (List.mem_map.2 ⟨f', hf', rfl⟩) (k2 f' hf') hu) hk⟩

/-- **C71 (partial).** The instance of a generic struct of the sources, with its name, is defined in the header with the C
types of the fields of the struct, where the parameters stand for the arguments and the names of instances are written for
uses of generic definitions, where all the `cfg`s around the struct hold; a field is a member where its own `cfg`s hold. -/
theorem C71_instance_partial (h : Stages pc lc fuel fuel' i c order l l₁ b) (hfo : Reorders lc.fieldOrder) {t : Taken} {s : SynStruct}
    {cs : List Cfg} {as : List SynGArg} {m : Str} {fs' : List SynField} (hr : ReadWhere R on D e b tx rust cs)
    (hI : InstanceIs pc i c order l l₁ t s cs as m fs') (hN : NeededOut pc lc i c order l l₁ m)
    (hb : NoBodies R on e.cfg m) {al : Option ReprAlign} (hl : LayoutIs lc s.attrs .c al)
    {a : Annotations} (ha : Annotations.load s.attrs = .ok a) (hexp : a.shouldExport = true) (hnames : a.list c!"field-names" = none)
    {rule : RenameRule} (hrule : a.ruleOr c.renameFields = some rule)
    (hmap : ∀ f ∈ fs', ∀ x ∈ conds f.attrs, CfgSpec.Mapped e.cfg.defines x) {ms : List CItem}
    (hms : Members (envOf c e.cfg (tagFor c l₁) rule (some (unraw s.ident))) (memberName c.caseFns rule) rust (countOf s.fields) fs' ms) :
    ∃ o, readHeader R on tx = some o ∧
      .record .struct (attrToks [alignText e.cfg al, mustUseText a e.cfg.structure_.mustUse, a.deprecatedNote e.cfg .struct])
        (tagOf e.cfg (c.ren m)) (nameOf e.cfg (c.ren m)) ms ∈ o.items := by
  have hlang : e.cfg.language = .c := hr.good.options.lang
  obtain ⟨fields', k1, k2, k3⟩ := members_ok (envOf_for hlang) rfl hms
  obtain ⟨gs, has, hS⟩ := hI.sole
  obtain ⟨B, hB, hfs⟩ := hI.fields
  obtain ⟨l', hl', hbd⟩ := C11_generate h.generated
  obtain ⟨find, g, a', z, its, h1, h2, h3, h4, h5, h6⟩ := instance_prepared h hfo hl' hS hB has rfl hl ha hfs k1 k2
  have hz : z ∈ b.items := (hbd z).2 ⟨⟨its, by rw [h4]; exact h5, h6⟩, by
    rw [h4]; exact neededOut_reached h hfo hl' hN hI.std (by rw [h5]; rfl)⟩
  have j2 := (structOf_container (lc := lc) hS.struct g).2.1
  rw [j2] at h1
  refine struct_read h.language hr h3 hz rfl rfl ?_ rfl rfl h1 hb h2 hexp hnames hrule (owner := some (unraw s.ident)) k2
    (k3 e.cfg on hr.same hmap)
  simp [instanceOf, StructItem.new]

/-- **C71.** A struct that is not generic and that instances need is defined in the header with the C types of its fields. -/
theorem C71_struct_partial (h : Stages pc lc fuel fuel' i c order l l₁ b) (hfo : Reorders lc.fieldOrder)
    {t : Taken} {s : SynStruct} {cs : List Cfg} {n : Str}
    (hr : ReadWhere R on D e b tx rust cs) (hS : Sole pc lc i c t cs n) (hN : NeededOut pc lc i c order l l₁ n) (hs : structOf t = some s)
    (hb : NoBodies R on e.cfg n) {al : Option ReprAlign} (hl : LayoutIs lc s.attrs .c al)
    {a : Annotations} (ha : Annotations.load s.attrs = .ok a) (hexp : a.shouldExport = true) (hnames : a.list c!"field-names" = none)
    {rule : RenameRule} (hrule : a.ruleOr c.renameFields = some rule)
    (hmap : ∀ f ∈ listOf s.fields, ∀ x ∈ conds f.attrs, CfgSpec.Mapped e.cfg.defines x) {ms : List CItem}
    (hms : Members (envOf c e.cfg (tagFor c l₁) rule (some (unraw s.ident))) (memberName c.caseFns rule) rust (countOf s.fields)
      (listOf s.fields) ms) :
    ∃ o, readHeader R on tx = some o ∧
      .record .struct (attrToks [alignText e.cfg al, mustUseText a e.cfg.structure_.mustUse, a.deprecatedNote e.cfg .struct])
        (tagOf e.cfg (c.ren n)) (nameOf e.cfg (c.ren n)) ms ∈ o.items :=
  struct_of_items h hr hS (reached_items h hS fun _ hl' hk => neededOut_reached h hfo hl' hN hS.std hk) hs hb hl ha hexp hnames hrule
    hmap hms

end

end Cbindgen
