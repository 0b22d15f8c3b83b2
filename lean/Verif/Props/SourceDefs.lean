import Verif.Lemmas.SourceDefs
import Verif.Props.Termination

/-!
# C64: the structs, unions and aliases of Rust sources in a C header
-/

namespace Cbindgen
open CSpec HeadSpec ScopeSpec LexSpec
open SrcSpec hiding Reaches Given Plain

section
variable {R : Dialect} {on : Str → Bool} {e : Env} {b : Bindings}

theorem header_container (hg : ∀ g, e.cfg.guard = some g → on g = false) {x : Container} (hf : x ∈ b.items)
    (hx : x.annotations.shouldExport = true) {d : CItem} (hd : d ∈ (containerOut R e on x).items) :
    d ∈ (headerOut R e on b).items := by
  have hgu : (e.cfg.guard.all fun g => !on g) = true := by
    cases h : e.cfg.guard with
    | none => rfl
    | some g => simp [hg g h]
  simp only [headerOut, items_append, items_when, guardedOut, bindingsOut, items_outs, hgu, if_true, List.mem_append,
    List.mem_flatMap, List.mem_map, List.mem_filter]
  exact Or.inl (Or.inr (Or.inr (Or.inl (Or.inl (Or.inl (Or.inr ⟨_, ⟨x, ⟨hf, hx⟩, rfl⟩, hd⟩))))))

end

theorem Annotations.Alike.rule {a b : Annotations} (h : a.Alike b) (r : RenameRule) : b.ruleOr r = a.ruleOr r := by
  unfold Annotations.ruleOr
  rw [h.entries _ (by decide)]

theorem Annotations.Alike.list {a b : Annotations} (h : a.Alike b) {n : Str} (hn : n ≠ c!"internal-derive-bitflags") :
    b.list n = a.list n := by
  unfold Annotations.list
  rw [h.entries _ hn]

theorem Annotations.Alike.export {a b : Annotations} (h : a.Alike b) : b.shouldExport = a.shouldExport := by
  unfold Annotations.shouldExport Annotations.bool
  rw [h.entries _ (by decide)]

theorem Annotations.Alike.must {a b : Annotations} (h : a.Alike b) (t : Option Str) : mustUseText b t = mustUseText a t := by
  unfold mustUseText
  rw [h.mustUse]

theorem Annotations.Alike.note {a b : Annotations} (h : a.Alike b) (c : OutConfig) (k : NoteKind) :
    b.deprecatedNote c k = a.deprecatedNote c k := by
  unfold Annotations.deprecatedNote
  rw [h.deprecated]

section
variable {c : LibConfig} {l₁ : Library} {o : OutConfig}

/-- The type of a member or alias at the end. -/
theorem end_meaning {find : Ty → Option Str} {rule : RenameRule} {owner : Option Str} {ty : Ty} (hcl : (ty.simplify .c).Clean) (k : Bool) :
    meaning o.toDeclConfig k (endTy c find (Resolver.typeFor (l₁.removeExcluded c).resolver) ty) =
      (ty.simplify .c).fin o.toDeclConfig (envOf c o (tagFor c l₁) rule owner).tag (envOf c o (tagFor c l₁) rule owner).name k := by
  unfold endTy Ty.fin
  rw [clean_mangle find _ hcl]
  congr 1
  show _ = Ty.rename c.ren [] _
  congr 1
  show _ = (ty.simplify .c).resolve (tagFor c l₁)
  cases hg : c.generateTag with
  | true =>
    show (ty.simplify .c).resolve _ = _
    congr 1
    funext n
    simp [tagFor, hg]
  | false =>
    show ty.simplify .c = _
    have : tagFor c l₁ = fun _ => none := by
      funext n
      simp [tagFor, hg]
    rw [this, clean_resolve _ hcl]

theorem members_end {find : Ty → Option Str} {rule : RenameRule} {owner : Option Str} {nm : Str → Str} {on : Str → Bool}
    {fs : List Field} (hcl : ∀ f ∈ fs, (f.ty.simplify .c).Clean) :
    membersOf o on (setFieldNames (fs.map (Field.mapTy (endTy c find (Resolver.typeFor (l₁.removeExcluded c).resolver))))
        ((fs.map Field.name).map nm)) =
      (fs.filter fun f => shown o on f.cfg).map (Field.asMember (envOf c o (tagFor c l₁) rule owner) o.toDeclConfig nm) := by
  have h1 : (fs.map Field.name).map nm =
      (fs.map (Field.mapTy (endTy c find (Resolver.typeFor (l₁.removeExcluded c).resolver)))).map fun f => nm f.name := by
    simp [Field.mapTy, Function.comp_def]
  rw [h1, setFieldNames_map, List.map_map, membersOf, List.filter_map, List.map_map]
  apply List.map_congr_left
  intro f hf
  have hf := (List.mem_filter.1 hf).1
  simp only [Function.comp_apply, Field.mapTy, memberOf, Field.asMember, end_meaning (rule := rule) (owner := owner) (hcl f hf)]
  rfl

end

section
variable {pc : ParseConfig} {lc : LoadConfig} {fuel fuel' : Nat} {i : Inputs} {c : LibConfig}
  {order : List (Str × Annotations) → List (Str × Annotations)} {l l₁ : Library} {b : Bindings}
  {R : Dialect} {on : Str → Bool} {D : List Str} {e : Env} {tx : Str} {rust : CfgSpec.Opt → Bool}

/-- The header is read where the predicates `cs` hold. -/
structure ReadWhere (R : Dialect) (on : Str → Bool) (D : List Str) (e : Env) (b : Bindings) (tx : Str) (rust : CfgSpec.Opt → Bool)
    (cs : List Cfg) : Prop where
  good : HeaderGood R on D e b
  text : headerText e b = some tx
  first : ∀ g, e.cfg.guard = some g → on g = false
  same : CfgSpec.Matches e.cfg.defines rust on
  mapped : ∀ x ∈ cs, CfgSpec.Mapped e.cfg.defines x
  holds : ∀ x ∈ cs, CfgSpec.holds rust x = true

theorem ReadWhere.shown {cs : List Cfg} (h : ReadWhere R on D e b tx rust cs) {g : Option Cfg} (hg : ParserSpec.GuardIs g cs) :
    shown e.cfg on g = true := by
  rw [shown_guard h.same hg h.mapped, List.all_eq_true]
  exact h.holds

/-- No members that users give. -/
def NoBodies (R : Dialect) (on : Str → Bool) (c : OutConfig) (n : Str) : Prop :=
  (blockOut R on (c.preBodyOf n)).items = [] ∧ (blockOut R on (c.postBodyOf n)).items = []

/-- How a struct of the bindings is read. -/
theorem struct_read (hc : c.language = .c) {cs : List Cfg} {n : Str} (hr : ReadWhere R on D e b tx rust cs) {x : StructItem}
    {find : Ty → Option Str} {z : Container}
    (hx : (Container.struct x).final c find (Resolver.typeFor (l₁.removeExcluded c).resolver) = some z) (hz : z ∈ b.items)
    (htag : x.hasTagField = false) (hpar : x.genericParams = []) (htr : x.isTransparent = false) (hpath : x.path = n)
    (hexn : x.exportName = n) (hcfg : ParserSpec.GuardIs x.cfg cs) (hb : NoBodies R on e.cfg n)
    {a : Annotations} (hal : a.Alike x.annotations) (hexp : a.shouldExport = true) (hnames : a.list c!"field-names" = none)
    {rule : RenameRule} (hrule : a.ruleOr c.renameFields = some rule) {owner : Option Str}
    (hcl : ∀ f ∈ x.fields, (f.ty.simplify .c).Clean) {ms : List CItem}
    (hms : (x.fields.filter fun f => shown e.cfg on f.cfg).map
      (Field.asMember (envOf c e.cfg (tagFor c l₁) rule owner) e.cfg.toDeclConfig (memberName c.caseFns rule)) = ms) :
    ∃ o, readHeader R on tx = some o ∧
      .record .struct (attrToks [alignText e.cfg x.alignment, mustUseText a e.cfg.structure_.mustUse, a.deprecatedNote e.cfg .struct])
        (tagOf e.cfg (c.ren n)) (nameOf e.cfg (c.ren n)) ms ∈ o.items := by
  obtain ⟨x', rule', rfl, f1, f2, f3, f4, f5, f6, f7, f8, f9, f10⟩ := final_struct hc htag hpar hx
  rw [hal.rule, hrule] at f1
  cases f1
  refine ⟨_, C61_header_reads_back hr.good hr.text, header_container hr.first hz ?_ ?_⟩
  · show x'.annotations.shouldExport = true
    rw [f5]
    exact hal.export.trans hexp
  · have hty : x'.asTypedef = none := by
      unfold StructItem.asTypedef
      split
      · rw [f7, htr]
        simp
      · rfl
    simp only [containerOut, hty]
    rw [struct_items hr.good.options.lang, f4, hr.shown hcfg, if_pos rfl, List.mem_singleton]
    have hattrs : structAttrs e.cfg x' =
        [alignText e.cfg x.alignment, mustUseText a e.cfg.structure_.mustUse, a.deprecatedNote e.cfg .struct] := by
      rw [structAttrs, f6, f5, hal.must, hal.note]
    have hmem : membersOf e.cfg on x'.fields = ms := by
      rw [f10]
      have hl' : x.annotations.list c!"field-names" = none := by rw [hal.list (by decide), hnames]
      rw [hl', structFieldNames_none, members_end (rule := rule) (owner := owner) hcl]
      exact hms
    rw [structItemOf, recordOf, hattrs, f2, hpath, f3, hexn, hmem, hb.1, hb.2]
    simp

/-- A struct of the bindings. -/
theorem struct_of_items (h : Stages pc lc fuel fuel' i c order l l₁ b) {t : Taken} {s : SynStruct} {cs : List Cfg} {n : Str}
    (hr : ReadWhere R on D e b tx rust cs) (hS : Sole pc lc i c t cs n) (hI : InItems lc c l₁ b t cs n) (hs : structOf t = some s)
    (hb : NoBodies R on e.cfg n) {al : Option ReprAlign} (hl : LayoutIs lc s.attrs .c al)
    {a : Annotations} (ha : Annotations.load s.attrs = .ok a) (hexp : a.shouldExport = true) (hnames : a.list c!"field-names" = none)
    {rule : RenameRule} (hrule : a.ruleOr c.renameFields = some rule)
    (hmap : ∀ f ∈ listOf s.fields, ∀ x ∈ conds f.attrs, CfgSpec.Mapped e.cfg.defines x) {ms : List CItem}
    (hms : Members (envOf c e.cfg (tagFor c l₁) rule (some (unraw s.ident))) (memberName c.caseFns rule) rust (countOf s.fields)
      (listOf s.fields) ms) :
    ∃ o, readHeader R on tx = some o ∧
      .record .struct (attrToks [alignText e.cfg al, mustUseText a e.cfg.structure_.mustUse, a.deprecatedNote e.cfg .struct])
        (tagOf e.cfg (c.ren n)) (nameOf e.cfg (c.ren n)) ms ∈ o.items := by
  have hlang : e.cfg.language = .c := hr.good.options.lang
  obtain ⟨find, m, y, x, z, h1, h2, h3, h4, h5, h6, h7⟩ := hI
  obtain ⟨fields, k1, k2, k3⟩ := members_ok (envOf_for hlang) rfl hms
  obtain ⟨j1, j2, _, j4⟩ := structOf_container (lc := lc) hs m
  have hgen : OnlyLifetimes s.generics := by
    cases hS.declarable with
    | struct hs' hg => rw [hs] at hs'; cases hs'; exact hg
    | union => cases hs
    | alias => cases hs
    | enum => cases hs
  rw [j1, SynStruct.container, struct_load_ok hgen hl (Or.inl rfl) ha ((fields_load _ _).trans k1)] at h2
  cases h2
  have hx : ∃ a' ks, a.Alike a' ∧ x = .struct { StructItem.new (unraw s.ident) [] fields false false al (decide (ReprStyle.c = .transparent))
      (Cfg.append m (loadCfg s.attrs)) a (loadDoc s.attrs) with annotations := a', assocConsts := ks } := by
    cases h3 with
    | refl => exact ⟨a, [], .refl a, rfl⟩
    | struct ha' => exact ⟨_, _, ha', rfl⟩
  obtain ⟨a', ks, hal, rfl⟩ := hx
  have hname : unraw s.ident = n := by
    rw [hS.name] at j4
    exact (Option.some.inj j4).symm
  refine struct_read h.language hr h5 h7 rfl rfl ?_ hname hname (j2 ▸ h1) hb hal hexp hnames hrule (owner := some (unraw s.ident)) k2
    (k3 e.cfg on hr.same hmap)
  simp [StructItem.new]

/-- **C64.** A struct of the sources that functions or other definitions need is defined in the header with the C types of
its fields, where all the `cfg`s around it hold; a field is a member where its own `cfg`s hold. -/
theorem C64_struct_partial (h : Stages pc lc fuel fuel' i c order l l₁ b) {t : Taken} {s : SynStruct} {cs : List Cfg} {n : Str}
    (hr : ReadWhere R on D e b tx rust cs) (hS : Sole pc lc i c t cs n) (hN : Needed pc lc i c n) (hs : structOf t = some s)
    (hb : NoBodies R on e.cfg n) {al : Option ReprAlign} (hl : LayoutIs lc s.attrs .c al)
    {a : Annotations} (ha : Annotations.load s.attrs = .ok a) (hexp : a.shouldExport = true) (hnames : a.list c!"field-names" = none)
    {rule : RenameRule} (hrule : a.ruleOr c.renameFields = some rule)
    (hmap : ∀ f ∈ listOf s.fields, ∀ x ∈ conds f.attrs, CfgSpec.Mapped e.cfg.defines x) {ms : List CItem}
    (hms : Members (envOf c e.cfg (tagFor c l₁) rule (some (unraw s.ident))) (memberName c.caseFns rule) rust (countOf s.fields)
      (listOf s.fields) ms) :
    ∃ o, readHeader R on tx = some o ∧
      .record .struct (attrToks [alignText e.cfg al, mustUseText a e.cfg.structure_.mustUse, a.deprecatedNote e.cfg .struct])
        (tagOf e.cfg (c.ren n)) (nameOf e.cfg (c.ren n)) ms ∈ o.items :=
  struct_of_items h hr hS (sole_items h hS hN) hs hb hl ha hexp hnames hrule hmap hms

/-- A union of the bindings. -/
theorem union_of_items (h : Stages pc lc fuel fuel' i c order l l₁ b) {s : SynUnion} {cs : List Cfg} {n : Str}
    (hr : ReadWhere R on D e b tx rust cs) (hS : Sole pc lc i c (.union s) cs n) (hI : InItems lc c l₁ b (.union s) cs n)
    (hb : NoBodies R on e.cfg n) {al : Option ReprAlign} (hl : LayoutIs lc s.attrs .c al)
    {a : Annotations} (ha : Annotations.load s.attrs = .ok a) (hexp : a.shouldExport = true) (hnames : a.list c!"field-names" = none)
    {rule : RenameRule} (hrule : a.ruleOr c.renameFields = some rule)
    (hmap : ∀ f ∈ s.fields, ∀ x ∈ conds f.attrs, CfgSpec.Mapped e.cfg.defines x) {ms : List CItem}
    (hms : Members (envOf c e.cfg (tagFor c l₁) rule (some (unraw s.ident))) (armName c.caseFns rule) rust none s.fields ms) :
    ∃ o, readHeader R on tx = some o ∧
      .record .union (attrToks [alignText e.cfg al]) (tagOf e.cfg (c.ren n)) (nameOf e.cfg (c.ren n)) ms ∈ o.items := by
  have hlang : e.cfg.language = .c := hr.good.options.lang
  obtain ⟨find, m, y, x, z, h1, h2, h3, h4, h5, h6, h7⟩ := hI
  obtain ⟨fields, k1, k2, k3⟩ := members_ok (envOf_for hlang) rfl hms
  have hgen : OnlyLifetimes s.generics := by
    cases hS.declarable with
    | struct hs' => cases hs'
    | union hg => exact hg
  simp only [Taken.container, union_load_ok hgen hl ha k1] at h2
  cases h2
  cases h3
  obtain ⟨x', rule', rfl, f1, f2, f3, f4, f5, f6, f7, f8⟩ := final_union h.language rfl h5
  have hname : unraw s.ident = n := Option.some.inj hS.name
  have f1 : a.ruleOr c.renameFields = some rule' := f1
  rw [hrule] at f1
  cases f1
  refine ⟨_, C61_header_reads_back hr.good hr.text, header_container hr.first h7 ?_ ?_⟩
  · show x'.annotations.shouldExport = true
    rw [f5]
    exact hexp
  · simp only [containerOut, unionOut, templated_c hr.good.options.lang, items_when]
    rw [f4, if_pos (hr.shown (g := Cfg.append m (loadCfg s.attrs)) h1)]
    have hexn : x'.exportName = c.ren n := by
      rw [f3, ← hname]
    have hmem : membersOf e.cfg on x'.fields = ms := by
      rw [f8]
      show membersOf e.cfg on (setFieldNames (fields.map _) (unionFieldNames c.caseFns (a.list c!"field-names") rule false (fields.map Field.name))) = ms
      rw [hnames, unionFieldNames_none, members_end (rule := rule) (owner := some (unraw s.ident)) k2]
      exact k3 e.cfg on hr.same hmap
    rw [recordOf, f6, show x'.path = n from h6, hexn, hmem, hb.1, hb.2]
    simp [decls]

/-- **C64.** The same holds for unions. -/
theorem C64_union_partial (h : Stages pc lc fuel fuel' i c order l l₁ b) {s : SynUnion} {cs : List Cfg} {n : Str}
    (hr : ReadWhere R on D e b tx rust cs) (hS : Sole pc lc i c (.union s) cs n) (hN : Needed pc lc i c n)
    (hb : NoBodies R on e.cfg n) {al : Option ReprAlign} (hl : LayoutIs lc s.attrs .c al)
    {a : Annotations} (ha : Annotations.load s.attrs = .ok a) (hexp : a.shouldExport = true) (hnames : a.list c!"field-names" = none)
    {rule : RenameRule} (hrule : a.ruleOr c.renameFields = some rule)
    (hmap : ∀ f ∈ s.fields, ∀ x ∈ conds f.attrs, CfgSpec.Mapped e.cfg.defines x) {ms : List CItem}
    (hms : Members (envOf c e.cfg (tagFor c l₁) rule (some (unraw s.ident))) (armName c.caseFns rule) rust none s.fields ms) :
    ∃ o, readHeader R on tx = some o ∧
      .record .union (attrToks [alignText e.cfg al]) (tagOf e.cfg (c.ren n)) (nameOf e.cfg (c.ren n)) ms ∈ o.items :=
  union_of_items h hr hS (sole_items h hS hN) hb hl ha hexp hnames hrule hmap hms

/-- An alias of the bindings. -/
theorem alias_of_items (h : Stages pc lc fuel fuel' i c order l l₁ b) {s : SynAlias} {cs : List Cfg} {n : Str}
    (hr : ReadWhere R on D e b tx rust cs) (hS : Sole pc lc i c (.alias s) cs n) (hI : InItems lc c l₁ b (.alias s) cs n)
    {rule : RenameRule} {u : CTy} (hu : CType (envOf c e.cfg (tagFor c l₁) rule none) false s.ty u) :
    ∃ o, readHeader R on tx = some o ∧ .alias (c.ren n) u.forgetFnPtr ∈ o.items := by
  have hlang : e.cfg.language = .c := hr.good.options.lang
  obtain ⟨find, m, y, x, z, h1, h2, h3, h4, h5, h6, h7⟩ := hI
  obtain ⟨ty, k1, k2⟩ := ctype_ok (envOf_for hlang) hu
  obtain ⟨hgen, a, ha⟩ : OnlyLifetimes s.generics ∧ ∃ a, Annotations.load s.attrs = .ok a := by
    cases hS.declarable with
    | struct hs' => cases hs'
    | alias hg ha => exact ⟨hg, _, ha⟩
  simp only [Taken.container, alias_load_ok hgen ha k1] at h2
  cases h2
  cases h3
  have hz := final_alias h.language rfl h5
  subst hz
  have hname : unraw s.ident = n := Option.some.inj hS.name
  have hemp := h.bare s cs a hS.given ha
  refine ⟨_, C61_header_reads_back hr.good hr.text, header_container hr.first h7 ?_ ?_⟩
  · show a.shouldExport = true
    unfold Annotations.isEmpty at hemp
    rw [Bool.and_eq_true, List.isEmpty_iff] at hemp
    simp [Annotations.shouldExport, Annotations.bool, hemp.1]
  · simp only [containerOut, typedefOut, templated_c hr.good.options.lang, items_when]
    rw [if_pos (hr.shown (g := Cfg.append m (loadCfg s.attrs)) h1)]
    simp only [decls, aliasOf, List.mem_singleton]
    have hcl : (ty.simplify .c).Clean := k2.clean
    have hfin : (ty.simplify .c).fin e.cfg.toDeclConfig (envOf c e.cfg (tagFor c l₁) rule none).tag
      (envOf c e.cfg (tagFor c l₁) rule none).name false = u := k2.fin
    rw [end_meaning (rule := rule) (owner := none) hcl, hname, hfin]

/-- **C64.** An alias of the sources is a name for the C type of its Rust type. -/
theorem C64_alias_partial (h : Stages pc lc fuel fuel' i c order l l₁ b) {s : SynAlias} {cs : List Cfg} {n : Str}
    (hr : ReadWhere R on D e b tx rust cs) (hS : Sole pc lc i c (.alias s) cs n) (hN : Needed pc lc i c n)
    {rule : RenameRule} {u : CTy} (hu : CType (envOf c e.cfg (tagFor c l₁) rule none) false s.ty u) :
    ∃ o, readHeader R on tx = some o ∧ .alias (c.ren n) u.forgetFnPtr ∈ o.items :=
  alias_of_items h hr hS (sole_items h hS hN) hu

theorem first_ok {E : TyEnv} {d : DeclConfig} {o : Str} (he : EnvFor E d) (ho : E.owner = some o) {nm : Str → Str} {u : CTy}
    {fs : List SynField} (h : FirstType E fs u) : ∀ {k : Option Nat} {ms : List CItem}, Members E nm rust k fs ms →
    ∀ fields, loadFields o k fs = .ok fields → ∃ f rest, fields = f :: rest ∧ (f.ty.simplify .c).fin d E.tag E.name false = u := by
  induction h with
  | @skip f fs u hn _ ih =>
    intro k ms hm fields hf
    cases hm with
    | skip _ hm =>
      obtain ⟨fields', h1, _⟩ := members_ok he ho hm
      rw [loadFields_nothing hn h1] at hf
      cases hf
      exact ih hm fields h1
    | shown _ ht =>
      obtain ⟨ty, h1, _⟩ := ctype_ok he ht
      rw [load_nothing hn] at h1
      cases h1
    | hidden _ ht =>
      obtain ⟨ty, h1, _⟩ := ctype_ok he ht
      rw [load_nothing hn] at h1
      cases h1
  | @here f fs u hu =>
    intro k ms hm fields hf
    obtain ⟨ty, h1, h2⟩ := ctype_ok he hu
    have hfin := h2.fin
    rw [ho] at hfin
    cases hm with
    | skip hn =>
      rw [load_nothing hn] at h1
      cases h1
    | shown hn ht hb _ hm =>
      obtain ⟨fields', k1, _⟩ := members_ok he ho hm
      obtain ⟨a, ha, _⟩ := bits_ok hb
      rw [loadFields_some hn h1 ha k1] at hf
      cases hf
      exact ⟨_, _, rfl, hfin⟩
    | hidden hn ht hb _ hm =>
      obtain ⟨fields', k1, _⟩ := members_ok he ho hm
      obtain ⟨a, ha, _⟩ := bits_ok hb
      rw [loadFields_some hn h1 ha k1] at hf
      cases hf
      exact ⟨_, _, rfl, hfin⟩

/-- A transparent struct of the bindings. -/
theorem transparent_of_items (h : Stages pc lc fuel fuel' i c order l l₁ b) {t : Taken} {s : SynStruct} {cs : List Cfg} {n : Str}
    (hr : ReadWhere R on D e b tx rust cs) (hS : Sole pc lc i c t cs n) (hI : InItems lc c l₁ b t cs n) (hs : structOf t = some s)
    {al : Option ReprAlign} (hl : LayoutIs lc s.attrs .transparent al)
    {a : Annotations} (ha : Annotations.load s.attrs = .ok a) (hexp : a.shouldExport = true)
    {rule : RenameRule} {ms : List CItem}
    (hms : Members (envOf c e.cfg (tagFor c l₁) rule (some (unraw s.ident))) (memberName c.caseFns rule) rust (countOf s.fields)
      (listOf s.fields) ms) {u : CTy} (hu : FirstType (envOf c e.cfg (tagFor c l₁) rule (some (unraw s.ident))) (listOf s.fields) u) :
    ∃ o, readHeader R on tx = some o ∧ .alias (c.ren n) u.forgetFnPtr ∈ o.items := by
  have hlang : e.cfg.language = .c := hr.good.options.lang
  obtain ⟨find, m, y, x, z, h1, h2, h3, h4, h5, h6, h7⟩ := hI
  obtain ⟨fields, k1, k2, k3⟩ := members_ok (envOf_for hlang) rfl hms
  obtain ⟨fd, rest, rfl, hfin⟩ := first_ok (envOf_for hlang) rfl hu hms fields k1
  obtain ⟨j1, j2, _, j4⟩ := structOf_container (lc := lc) hs m
  have hgen : OnlyLifetimes s.generics := by
    cases hS.declarable with
    | struct hs' hg => rw [hs] at hs'; cases hs'; exact hg
    | union => cases hs
    | alias => cases hs
    | enum => cases hs
  rw [j1, SynStruct.container, struct_load_ok hgen hl (Or.inr rfl) ha ((fields_load _ _).trans k1)] at h2
  cases h2
  have hx : ∃ a' ks, a.Alike a' ∧ x = .struct { StructItem.new (unraw s.ident) [] (fd :: rest) false false al true
      (Cfg.append m (loadCfg s.attrs)) a (loadDoc s.attrs) with annotations := a', assocConsts := ks } := by
    cases h3 with
    | refl => exact ⟨a, [], .refl a, rfl⟩
    | struct ha' => exact ⟨_, _, ha', rfl⟩
  obtain ⟨a', ks, hal, rfl⟩ := hx
  obtain ⟨x', rule', rfl, f1, f2, f3, f4, f5, f6, f7, f8, f9, f10⟩ := final_struct h.language rfl rfl h5
  have hname : unraw s.ident = n := by
    rw [hS.name] at j4
    exact (Option.some.inj j4).symm
  refine ⟨_, C61_header_reads_back hr.good hr.text, header_container hr.first h7 ?_ ?_⟩
  · show x'.annotations.shouldExport = true
    rw [f5]
    exact hal.export.trans hexp
  · have htys : x'.fields.map Field.ty = ((fd :: rest).map (Field.mapTy (endTy c find (Resolver.typeFor (l₁.removeExcluded c).resolver)))).map Field.ty := by
      rw [f10, setFieldNames_tys]
      rfl
    cases hf : x'.fields with
    | nil => simp [hf] at htys
    | cons g gs =>
      rw [hf] at htys
      simp only [List.map_cons, List.cons.injEq] at htys
      have hty : x'.asTypedef = some ⟨x'.path, x'.exportName, x'.genericParams, g.ty, x'.cfg, x'.annotations, x'.doc⟩ := by
        unfold StructItem.asTypedef
        rw [hf]
        simp [f7, StructItem.new]
      simp only [containerOut, hty, items_append, typedefOut, templated_c hr.good.options.lang, items_when, List.mem_append]
      left
      have hsh : shown e.cfg on x'.cfg = true := by
        rw [f4]
        exact hr.shown (g := Cfg.append m (loadCfg s.attrs)) (j2 ▸ h1)
      rw [if_pos hsh]
      simp only [decls, aliasOf, List.mem_singleton]
      rw [htys.1, f3]
      show _ = CItem.alias (c.ren (unraw s.ident)) (meaning _ _ (endTy _ _ _ fd.ty)).forgetFnPtr
      rw [end_meaning (rule := rule) (owner := some (unraw s.ident)) (k2 fd (by simp)), hfin, hname]

/-- **C64.** A transparent struct is a name for the C type of its first field that C sees. -/
theorem C64_transparent_partial (h : Stages pc lc fuel fuel' i c order l l₁ b) {t : Taken} {s : SynStruct} {cs : List Cfg} {n : Str}
    (hr : ReadWhere R on D e b tx rust cs) (hS : Sole pc lc i c t cs n) (hN : Needed pc lc i c n) (hs : structOf t = some s)
    {al : Option ReprAlign} (hl : LayoutIs lc s.attrs .transparent al)
    {a : Annotations} (ha : Annotations.load s.attrs = .ok a) (hexp : a.shouldExport = true)
    {rule : RenameRule} {ms : List CItem}
    (hms : Members (envOf c e.cfg (tagFor c l₁) rule (some (unraw s.ident))) (memberName c.caseFns rule) rust (countOf s.fields)
      (listOf s.fields) ms) {u : CTy} (hu : FirstType (envOf c e.cfg (tagFor c l₁) rule (some (unraw s.ident))) (listOf s.fields) u) :
    ∃ o, readHeader R on tx = some o ∧ .alias (c.ren n) u.forgetFnPtr ∈ o.items :=
  transparent_of_items h hr hS (sole_items h hS hN) hs hl ha hexp hms hu

/-- **C64.** Definitions come from nowhere else: each is one of the sources, under the conditions of the sources, or opaque
and of the standard library, or an instance of a generic definition. -/
theorem C64_origin_partial (h : Stages pc lc fuel fuel' i c order l l₁ b) {x : Container} (hx : x ∈ b.items) :
    (∃ t cs, SrcSpec.Given pc i t cs ∧ typeName t = some x.path ∧ x.path ∉ c.export_.exclude ∧ ParserSpec.GuardIs x.cfg cs) ∨
      (i.stdTypes = true ∧ x.path ∈ MainSpec.knownTypes ∧ ∃ o, x = .opaque o) ∨ ∃ q vs, vs ≠ [] ∧ x.path = c.manglePath q vs := by
  obtain ⟨l', hl', hb⟩ := C11_generate h.generated
  obtain ⟨⟨its, h1, h2⟩, _⟩ := (hb x).1 hx
  obtain ⟨hw, hsound, _⟩ := build_types h.built h.plain h.onePath
  obtain ⟨find, h8, _⟩ := types_final h.language hw h.transfer hl' h.expanded
  rcases h8 x (Library.types_of_getItems h1 h2) with ⟨y, hy, _, hex, hf⟩ | hinst
  · obtain ⟨k1, k2⟩ := Container.final_keeps hf
    have k3 := Container.final_cfg hf
    rcases hsound y hy with ⟨t, m, cs, w, g1, g2, g3, g4⟩ | ⟨g1, s, hs, rfl⟩
    · refine Or.inl ⟨t, cs, g1, ?_, by rw [k1]; exact hex, ?_⟩
      · rw [container_name g3, k1, g4.same.1]
      · rw [k3, g4.cfg, container_cfg g3]
        exact g2
    · refine Or.inr (Or.inl ⟨g1, by rw [k1]; exact known_names s hs, ?_⟩)
      cases x <;> first | exact ⟨_, rfl⟩ | (cases k2; done)
  · exact Or.inr (Or.inr hinst)

end

end Cbindgen
