import Verif.Lemmas.OnlyEnumerators
import Verif.Props.OnlyConsts

/-!
# C85: the enumerators of a header are those that an enum of the sources asks for
-/

namespace Cbindgen
open CSpec HeadSpec LexSpec ScopeSpec
open SrcSpec hiding Reaches Given Plain Declares

/-- Where a list of enumerators comes from: one enum of the sources that the settings and its annotations let through, where
its `cfg`s hold, or an instance of it; every enumerator is one that this enum asks for, under its name in C, where the `cfg`s
of its own hold. -/
def SrcSpec.EnumSource (pc : ParseConfig) (lc : LoadConfig) (i : Inputs) (c : LibConfig) (defines : List (Str × Str))
    (rust : CfgSpec.Opt → Bool) (es : List HeadSpec.Enumerator) : Prop :=
  ∃ s cs a rule vs, SrcSpec.Given pc i (.enum s) cs ∧ Annotations.load s.attrs = .ok a ∧ a.shouldExport = true ∧
    a.ruleOr c.renameVariants = some rule ∧ c.export_.shouldGenerate .enums = true ∧
    c.manglePath (unraw s.ident) vs ∉ c.export_.exclude ∧
    ((∀ x ∈ cs, CfgSpec.Mapped defines x) → ∀ x ∈ cs, CfgSpec.holds rust x = true) ∧
    ∀ en ∈ es, ∃ q own, AsksFor lc s a q own ∧
      en.name = enumeratorName c a rule (c.manglePath (unraw s.ident) vs) (c.manglePath q vs) ∧
      ((∀ x ∈ cs ++ own, CfgSpec.Mapped defines x) → ∀ x ∈ own, CfgSpec.holds rust x = true)

section
variable {R : Dialect} {on : Str → Bool} {e : Env}

theorem templated_enumerators {c : OutConfig} {b : Bool} {ps : List GParam} {d : CItem} : (templated c b ps d).enumerators = d.enumerators := by
  unfold templated
  split <;> rfl

theorem const_enumerators {s : Option StructItem} {k : ConstItem} {d : CItem} (hd : d ∈ (constOut e on s k).items) : d.enumerators = none := by
  unfold constOut at hd
  split at hd
  · cases hd
  split at hd
  · rw [items_when] at hd
    split at hd
    · split at hd
      · rw [List.mem_singleton.1 hd]; rfl
      · cases hd
    · cases hd
  · cases hd

theorem struct_enumerators {x : StructItem} {d : CItem} (hd : d ∈ (structOut R e on x).items) : d.enumerators = none := by
  rw [structOut, items_when] at hd
  split at hd
  · rw [items_append, List.mem_append] at hd
    rcases hd with hd | hd
    · rw [decls, List.mem_singleton] at hd
      subst hd
      unfold structDecl
      split
      · rfl
      · rw [templated_enumerators]; rfl
    · simp only [assocOut, items_outs, List.mem_flatMap, List.mem_map] at hd
      obtain ⟨_, ⟨k, _, rfl⟩, hd⟩ := hd
      exact const_enumerators hd
  · cases hd

theorem tag_enumerators {x : EnumItem} {d : CItem} (hd : d ∈ (tagEnumOut e on x).items) {es : List HeadSpec.Enumerator}
    (h : d.enumerators = some es) : es = enumeratorsOf e on x.variants := by
  unfold tagEnumOut at hd
  split at hd
  · rw [decls, List.mem_singleton] at hd
    subst hd
    simp only [cxxTagEnum] at h
    split at h <;> exact (Option.some.inj h).symm
  · simp only at hd
    split at hd
    · rw [decls, List.mem_singleton] at hd
      subst hd
      exact (Option.some.inj h).symm
    · rw [items_append, List.mem_append] at hd
      rcases hd with hd | hd
      · rw [decls, List.mem_singleton] at hd
        subst hd
        exact (Option.some.inj h).symm
      · rw [items_when] at hd
        split at hd
        · rw [decls, List.mem_singleton] at hd
          subst hd
          cases h
        · cases hd

/-- The enumerators of the declarations of an item are those of its variants that are shown. -/
theorem container_enumerators {x : Container} {d : CItem} (hd : d ∈ (containerOut R e on x).items) {es : List HeadSpec.Enumerator}
    (h : d.enumerators = some es) : ∃ y, x = .enum y ∧ shown e.cfg on y.cfg = true ∧ es = enumeratorsOf e on y.variants := by
  cases x with
  | struct x =>
    exfalso
    simp only [containerOut] at hd
    split at hd
    · rw [items_append, List.mem_append] at hd
      rcases hd with hd | hd
      · rw [typedefOut, items_when] at hd
        split at hd
        · rw [decls, List.mem_singleton] at hd
          subst hd
          rw [templated_enumerators] at h
          cases h
        · cases hd
      · simp only [assocOut, items_outs, List.mem_flatMap, List.mem_map] at hd
        obtain ⟨_, ⟨k, _, rfl⟩, hd⟩ := hd
        rw [const_enumerators hd] at h
        cases h
    · rw [struct_enumerators hd] at h
      cases h
  | union x =>
    exfalso
    simp only [containerOut, unionOut, items_when] at hd
    split at hd
    · rw [decls, List.mem_singleton] at hd
      subst hd
      rw [templated_enumerators] at h
      cases h
    · cases hd
  | «opaque» x =>
    exfalso
    simp only [containerOut, opaqueOut, items_when] at hd
    split at hd
    · rw [decls, List.mem_singleton] at hd
      subst hd
      rw [templated_enumerators] at h
      split at h <;> cases h
    · cases hd
  | typedef x =>
    exfalso
    simp only [containerOut, typedefOut, items_when] at hd
    split at hd
    · rw [decls, List.mem_singleton] at hd
      subst hd
      rw [templated_enumerators] at h
      cases h
    · cases hd
  | enum x =>
    simp only [containerOut, enumOut, items_when] at hd
    split at hd
    rotate_left
    · cases hd
    rename_i hs
    refine ⟨x, rfl, hs, ?_⟩
    split at hd
    · rw [decls, List.mem_singleton] at hd
      subst hd
      cases h
    · rw [items_append, List.mem_append] at hd
      rcases hd with hd | hd
      · exact tag_enumerators hd h
      · split at hd
        · rw [items_append, List.mem_append] at hd
          rcases hd with hd | hd
          · simp only [items_outs, List.mem_flatMap, List.mem_map] at hd
            obtain ⟨_, ⟨v, hv, rfl⟩, hd⟩ := hd
            unfold bodyOut at hd
            split at hd
            · rw [items_when] at hd
              split at hd
              · rw [struct_enumerators hd] at h
                cases h
              · cases hd
            · cases hd
          · rw [decls, List.mem_singleton] at hd
            subst hd
            cases h
        · cases hd

/-! ## Enums inside of types -/

theorem templated_members {c : OutConfig} {b : Bool} {ps : List GParam} {d : CItem} : (templated c b ps d).members = d.members := by
  unfold templated
  split <;> rfl

theorem const_members {s : Option StructItem} {k : ConstItem} {d : CItem} (hd : d ∈ (constOut e on s k).items) : d.members = [] := by
  unfold constOut at hd
  split at hd
  · cases hd
  split at hd
  · rw [items_when] at hd
    split at hd
    · split at hd
      · rw [List.mem_singleton.1 hd]; rfl
      · cases hd
    · cases hd
  · cases hd

theorem record_members (hb : NoEnumsInside R on e.cfg) {kind : DeclKind} {as : List (Option Str)} {path name : Str} {ms : List CItem}
    {m : CItem} (hm : m ∈ (recordOf R e.cfg on kind as path name ms).members) (h : m.enumerators ≠ none) : m ∈ ms := by
  simp only [recordOf, CItem.members, List.mem_append] at hm
  rcases hm with (hm | hm) | hm
  · exact absurd (hb path _ (by simp) m hm) h
  · exact hm
  · exact absurd (hb path _ (by simp) m hm) h

theorem fields_enumerators {c : OutConfig} {fs : List Field} {m : CItem} (hm : m ∈ membersOf c on fs) : m.enumerators = none := by
  obtain ⟨f, _, rfl⟩ := List.mem_map.1 hm
  rfl

theorem struct_members (hb : NoEnumsInside R on e.cfg) {x : StructItem} {d : CItem} (hd : d ∈ (structOut R e on x).items)
    {m : CItem} (hm : m ∈ d.members) : m.enumerators = none := by
  refine Classical.byContradiction fun hne => ?_
  rw [structOut, items_when] at hd
  split at hd
  · rw [items_append, List.mem_append] at hd
    rcases hd with hd | hd
    · rw [decls, List.mem_singleton] at hd
      subst hd
      have hm' : m ∈ (structItemOf R e.cfg on x).members := by
        unfold structDecl at hm
        split at hm
        · exact hm
        · rwa [templated_members] at hm
      exact hne (fields_enumerators (record_members hb hm' hne))
    · simp only [assocOut, items_outs, List.mem_flatMap, List.mem_map] at hd
      obtain ⟨_, ⟨k, _, rfl⟩, hd⟩ := hd
      rw [const_members hd] at hm
      cases hm
  · cases hd

theorem tag_members {x : EnumItem} {d : CItem} (hd : d ∈ (tagEnumOut e on x).items) : d.members = [] := by
  unfold tagEnumOut at hd
  split at hd
  · rw [decls, List.mem_singleton] at hd
    subst hd
    simp only [cxxTagEnum]
    split <;> rfl
  · simp only at hd
    split at hd
    · rw [decls, List.mem_singleton] at hd
      subst hd
      rfl
    · rw [items_append, List.mem_append] at hd
      rcases hd with hd | hd
      · rw [decls, List.mem_singleton] at hd
        subst hd
        rfl
      · rw [items_when] at hd
        split at hd
        · rw [decls, List.mem_singleton] at hd
          subst hd
          rfl
        · cases hd

theorem data_enumerators {c : OutConfig} {x : EnumItem} {m : CItem} (hm : m ∈ dataMembers c on x) : m.enumerators = none := by
  unfold dataMembers at hm
  rcases List.mem_cons.1 hm with rfl | hm
  · unfold tagPart
    split <;> rfl
  split at hm
  · obtain ⟨v, _, hm⟩ := List.mem_flatMap.1 hm
    unfold payloadOf at hm
    split at hm
    · cases hm
    · split at hm
      · rw [List.mem_singleton] at hm
        subst hm
        split <;> rfl
      · cases hm
  · rw [List.mem_singleton] at hm
    subst hm
    rfl

theorem bodies_of {x : EnumItem} {d : CItem} (hd : d ∈ (outs (x.variants.map (bodyOut R e on))).items) :
    ∃ s, d ∈ (structOut R e on s).items := by
  simp only [items_outs, List.mem_flatMap, List.mem_map] at hd
  obtain ⟨_, ⟨v, hv, rfl⟩, hd⟩ := hd
  unfold bodyOut at hd
  split at hd
  · rw [items_when] at hd
    split at hd
    · exact ⟨_, hd⟩
    · cases hd
  · cases hd

/-- An enum inside of the definition of a type is that of the tags of an enum. -/
theorem container_member_enumerators (hb : NoEnumsInside R on e.cfg) {x : Container} {d : CItem} (hd : d ∈ (containerOut R e on x).items)
    {m : CItem} (hm : m ∈ d.members) {es : List HeadSpec.Enumerator} (h : m.enumerators = some es) :
    ∃ y, x = .enum y ∧ shown e.cfg on y.cfg = true ∧ es = enumeratorsOf e on y.variants := by
  have hne : m.enumerators ≠ none := by rw [h]; exact nofun
  cases x with
  | struct x =>
    exfalso
    simp only [containerOut] at hd
    split at hd
    · rw [items_append, List.mem_append] at hd
      rcases hd with hd | hd
      · rw [typedefOut, items_when] at hd
        split at hd
        · rw [decls, List.mem_singleton] at hd
          subst hd
          rw [templated_members] at hm
          cases hm
        · cases hd
      · simp only [assocOut, items_outs, List.mem_flatMap, List.mem_map] at hd
        obtain ⟨_, ⟨k, _, rfl⟩, hd⟩ := hd
        rw [const_members hd] at hm
        cases hm
    · exact hne (struct_members hb hd hm)
  | union x =>
    exfalso
    simp only [containerOut, unionOut, items_when] at hd
    split at hd
    · rw [decls, List.mem_singleton] at hd
      subst hd
      rw [templated_members] at hm
      exact hne (fields_enumerators (record_members hb hm hne))
    · cases hd
  | «opaque» x =>
    exfalso
    simp only [containerOut, opaqueOut, items_when] at hd
    split at hd
    · rw [decls, List.mem_singleton] at hd
      subst hd
      rw [templated_members] at hm
      split at hm <;> cases hm
    · cases hd
  | typedef x =>
    exfalso
    simp only [containerOut, typedefOut, items_when] at hd
    split at hd
    · rw [decls, List.mem_singleton] at hd
      subst hd
      rw [templated_members] at hm
      cases hm
    · cases hd
  | enum x =>
    simp only [containerOut, enumOut, items_when] at hd
    split at hd
    rotate_left
    · cases hd
    rename_i hs
    refine ⟨x, rfl, hs, ?_⟩
    split at hd
    · rw [decls, List.mem_singleton] at hd
      subst hd
      rcases List.mem_cons.1 (record_members hb hm hne) with rfl | hm
      · simp only [cxxTagEnum] at h
        split at h <;> exact (Option.some.inj h).symm
      · exfalso
        rcases List.mem_append.1 hm with hm | hm
        · obtain ⟨s, hs⟩ := bodies_of hm
          exact hne (struct_enumerators hs)
        · exact hne (data_enumerators hm)
    · exfalso
      rw [items_append, List.mem_append] at hd
      rcases hd with hd | hd
      · rw [tag_members hd] at hm
        cases hm
      · split at hd
        · rw [items_append, List.mem_append] at hd
          rcases hd with hd | hd
          · obtain ⟨s, hs⟩ := bodies_of hd
            exact hne (struct_members hb hs hm)
          · rw [decls, List.mem_singleton] at hd
            subst hd
            exact hne (data_enumerators (record_members hb hm hne))
        · cases hd

end

section
variable {pc : ParseConfig} {lc : LoadConfig} {fuel fuel' : Nat} {i : Inputs} {c : LibConfig}
  {order : List (Str × Annotations) → List (Str × Annotations)} {l l₁ : Library} {b : Bindings}
  {R : Dialect} {on : Str → Bool} {D : List Str} {e : Env} {tx : Str} {rust : CfgSpec.Opt → Bool}

theorem enum_source {x : EnumItem} (hx : (variantsAfter (EnumGiven pc i) lc c).enum x) (hm : CfgSpec.Matches e.cfg.defines rust on)
    (hs : shown e.cfg on x.cfg = true) (hexp : x.annotations.shouldExport = true) (hgen : c.export_.shouldGenerate .enums = true)
    (hex : x.path ∉ c.export_.exclude) : EnumSource pc lc i c e.cfg.defines rust (enumeratorsOf e on x.variants) := by
  obtain ⟨s, m, vs, rule, ⟨⟨cs, g1, g2⟩, g3, g4, g5⟩, g6, g7⟩ := hx
  refine ⟨s, cs, x.annotations, rule, vs, g1, g3, hexp, g6, hgen, g4 ▸ hex, fun hcs => ?_, fun en hen => ?_⟩
  · rw [g5, shown_guard hm g2 hcs, List.all_eq_true] at hs
    exact hs
  · obtain ⟨w, hw, rfl⟩ := List.mem_map.1 hen
    rw [List.mem_filter] at hw
    obtain ⟨q, k1, k2⟩ := g7 w hw.1
    rw [g4] at k2
    generalize hcf : w.cfg = g at k1
    cases k1 with
    | variant hv =>
      refine ⟨_, _, .variant hv, k2, fun has => ?_⟩
      have h2 := hw.2
      rw [hcf] at h2
      exact (shown_inner hm g2 (fun x hx => has x (List.mem_append.2 (Or.inl hx))) (fun x hx => has x (List.mem_append.2 (Or.inr hx))) h2).2
    | more hq => exact ⟨_, _, .more hq, k2, fun _ => nofun⟩

/-- **C85.** The enumerators of an enum in a C header come from one enum of the sources that the settings and its annotations
let through and whose `cfg`s hold: each is a variant whose own `cfg`s hold, or a name of the annotation for trailing values,
or the sentinel. -/
theorem C85_c_partial (h : Stages pc lc fuel fuel' i c order l l₁ b) (hg : HeaderGood R on D e b) (ht : headerText e b = some tx)
    (hm : CfgSpec.Matches e.cfg.defines rust on) (hb : NoTypesIn R on e.cfg) {o : Out} (hr : readHeader R on tx = some o)
    {d : CItem} (hd : d ∈ o.items) (hn : d.defines ≠ []) {es : List HeadSpec.Enumerator} (hes : d.enumerators = some es) :
    EnumSource pc lc i c e.cfg.defines rust es := by
  obtain ⟨n, hn⟩ := List.exists_mem_of_ne_nil _ hn
  obtain ⟨x, hx, hexp, hdx⟩ := defines_c hg ht hb hr hd hn
  obtain ⟨hgen, hex, _⟩ := from_c h hx
  obtain ⟨y, rfl, hs, rfl⟩ := container_enumerators hdx hes
  exact enum_source ((variants_final (variants_sound c h.built h.plain) h.transfer h.generated).items _ hx) hm hs hexp hgen hex

/-- **C85.** The same for an enum in a C++ header, wherever in its namespaces it stands. -/
theorem C85_cxx_partial (h : StagesX pc lc fuel fuel' i c order l b) (hg : CxxHeaderGood R on D e b) (ht : headerText e b = some tx)
    (hm : CfgSpec.Matches e.cfg.defines rust on) (hb : NoTypesIn R on e.cfg) {o : Out} (hr : readHeader R on tx = some o)
    {ns : List Str} {k : Bool} {d : CItem} (hd : Declares o.items ns k d) (hn : d.defines ≠ []) {es : List HeadSpec.Enumerator}
    (hes : d.enumerators = some es) : EnumSource pc lc i c e.cfg.defines rust es := by
  obtain ⟨n, hn⟩ := List.exists_mem_of_ne_nil _ hn
  obtain ⟨_, _, x, hx, hexp, hdx⟩ := defines_cxx hg ht hb hr hd hn
  obtain ⟨hgen, hex, _⟩ := from_cxx h hx
  obtain ⟨y, rfl, hs, rfl⟩ := container_enumerators hdx hes
  exact enum_source ((variants_final (variants_sound c h.built h.plain) h.transfer h.generated).items _ hx) hm hs hexp hgen hex

/-- **C85.** The same for an enum inside of the definition of a type in a C++ header: it is that of the tags of an enum with
data. -/
theorem C85_tags_partial (h : StagesX pc lc fuel fuel' i c order l b) (hg : CxxHeaderGood R on D e b) (ht : headerText e b = some tx)
    (hm : CfgSpec.Matches e.cfg.defines rust on) (hb : NoTypesIn R on e.cfg) (hbb : NoEnumsInside R on e.cfg) {o : Out}
    (hr : readHeader R on tx = some o) {ns : List Str} {k : Bool} {d m : CItem} (hd : Declares o.items ns k d) (hn : d.defines ≠ [])
    (hdm : m ∈ d.members) {es : List HeadSpec.Enumerator} (hes : m.enumerators = some es) :
    EnumSource pc lc i c e.cfg.defines rust es := by
  obtain ⟨n, hn⟩ := List.exists_mem_of_ne_nil _ hn
  obtain ⟨_, _, x, hx, hexp, hdx⟩ := defines_cxx hg ht hb hr hd hn
  obtain ⟨hgen, hex, _⟩ := from_cxx h hx
  obtain ⟨y, rfl, hs, rfl⟩ := container_member_enumerators hbb hdx hdm hes
  exact enum_source ((variants_final (variants_sound c h.built h.plain) h.transfer h.generated).items _ hx) hm hs hexp hgen hex

end

end Cbindgen
