import Verif.Lemmas.OnlyTypes
import Verif.Props.Scope
import Verif.Props.SourceCxxDefs

/-!
# C82: a header defines no types but those of the sources

The types of the standard library that are left opaque are the exception.
-/

namespace Cbindgen
open CSpec HeadSpec LexSpec ScopeSpec
open SrcSpec hiding Reaches Given Plain Declares

section
variable {R : Dialect} {on : Str → Bool} {e : Env} {n : Str}

/-! ## The declarations of an item -/

theorem defines_templated {c : OutConfig} {b : Bool} {ps : List GParam} {d : CItem} (h : n ∈ (templated c b ps d).defines) : n ∈ d.defines := by
  unfold templated at h
  split at h
  · exact h
  · exact h

theorem defines_record {c : OutConfig} {kind : DeclKind} {as : List (Option Str)} {path name : Str} {ms : List CItem}
    (h : n ∈ (recordOf R c on kind as path name ms).defines) : n = name := by
  simp only [recordOf, CItem.defines, tagOf, nameOf, List.mem_append, Option.mem_toList] at h
  rcases h with h | h
  · split at h
    · exact (Option.some.inj h).symm
    · cases h
  · split at h
    · exact (Option.some.inj h).symm
    · cases h

theorem defines_const {s : Option StructItem} {k : ConstItem} {d : CItem} (hd : d ∈ (constOut e on s k).items) : d.defines = [] := by
  unfold constOut at hd
  split at hd
  · cases hd
  split at hd
  · rw [items_when] at hd
    split at hd
    · split at hd
      · rw [List.mem_singleton.1 hd]; rfl
      · cases hd
    · cases hd
  · cases hd

theorem defines_consts {s : Option StructItem} {ks : List ConstItem} {d : CItem} (hd : d ∈ (outs (ks.map (constOut e on s))).items) :
    d.defines = [] := by
  simp only [items_outs, List.mem_flatMap, List.mem_map] at hd
  obtain ⟨_, ⟨k, _, rfl⟩, hd⟩ := hd
  exact defines_const hd

theorem defines_struct {x : StructItem} {d : CItem} (hd : d ∈ (structOut R e on x).items) (hn : n ∈ d.defines) :
    shown e.cfg on x.cfg = true ∧ n = x.exportName := by
  rw [structOut, items_when] at hd
  split at hd
  · rename_i hs
    refine ⟨hs, ?_⟩
    rw [items_append, List.mem_append] at hd
    rcases hd with hd | hd
    · rw [decls, List.mem_singleton] at hd
      subst hd
      unfold structDecl at hn
      split at hn
      · exact defines_record hn
      · exact defines_record (defines_templated hn)
    · rw [defines_consts hd] at hn
      cases hn
  · cases hd

theorem defines_tag {x : EnumItem} {d : CItem} (hd : d ∈ (tagEnumOut e on x).items) (hn : n ∈ d.defines) : n = x.tagName := by
  unfold tagEnumOut at hd
  split at hd
  · rw [decls, List.mem_singleton] at hd
    subst hd
    simp only [cxxTagEnum] at hn
    split at hn
    · simpa [CItem.defines] using hn
    · simpa [CItem.defines] using hn
  · simp only at hd
    split at hd
    · rw [decls, List.mem_singleton] at hd
      subst hd
      simp only [CItem.defines, tagOf, nameOf, List.mem_append, Option.mem_toList] at hn
      rcases hn with h | h
      · split at h
        · exact (Option.some.inj h).symm
        · cases h
      · split at h
        · exact (Option.some.inj h).symm
        · cases h
    · rw [items_append, List.mem_append] at hd
      rcases hd with hd | hd
      · rw [decls, List.mem_singleton] at hd
        subst hd
        simpa [CItem.defines] using hn
      · rw [items_when] at hd
        split at hd
        · rw [decls, List.mem_singleton] at hd
          subst hd
          simpa [CItem.defines] using hn
        · cases hd

/-- The names that the declarations of an item introduce. -/
theorem defines_container {x : Container} {d : CItem} (hd : d ∈ (containerOut R e on x).items) (hn : n ∈ d.defines) :
    shown e.cfg on x.cfg = true ∧ (n = x.exportName ∨ (∃ y, x = .enum y ∧ n = y.tagName ∧ (e.cfg.language = .cxx → y.tag = none)) ∨
      (e.cfg.language ≠ .cxx ∧ ∃ b ∈ x.bodies, n = b.exportName)) := by
  cases x with
  | struct x =>
    simp only [containerOut] at hd
    split at hd
    · rename_i t ht
      rw [items_append, List.mem_append] at hd
      rcases hd with hd | hd
      · rw [typedefOut, items_when] at hd
        split at hd
        · rename_i hs
          rw [decls, List.mem_singleton] at hd
          subst hd
          have h := defines_templated hn
          simp only [aliasOf, CItem.defines, List.mem_singleton] at h
          unfold StructItem.asTypedef at ht
          split at ht
          · split at ht
            · cases ht
              exact ⟨hs, Or.inl h⟩
            · cases ht
          · cases ht
        · cases hd
      · rw [defines_consts hd] at hn
        cases hn
    · obtain ⟨h1, h2⟩ := defines_struct hd hn
      exact ⟨h1, Or.inl h2⟩
  | union x =>
    simp only [containerOut, unionOut, items_when] at hd
    split at hd
    · rename_i hs
      rw [decls, List.mem_singleton] at hd
      subst hd
      exact ⟨hs, Or.inl (defines_record (defines_templated hn))⟩
    · cases hd
  | «opaque» x =>
    simp only [containerOut, opaqueOut, items_when] at hd
    split at hd
    · rename_i hs
      rw [decls, List.mem_singleton] at hd
      subst hd
      have h := defines_templated hn
      refine ⟨hs, Or.inl ?_⟩
      split at h
      · simpa [CItem.defines, Container.exportName] using h
      · simpa [CItem.defines, Container.exportName] using h
    · cases hd
  | typedef x =>
    simp only [containerOut, typedefOut, items_when] at hd
    split at hd
    · rename_i hs
      rw [decls, List.mem_singleton] at hd
      subst hd
      have h := defines_templated hn
      exact ⟨hs, Or.inl (by simpa [aliasOf, CItem.defines, Container.exportName] using h)⟩
    · cases hd
  | enum x =>
    simp only [containerOut, enumOut, items_when] at hd
    split at hd
    rotate_left
    · cases hd
    rename_i hs
    refine ⟨hs, ?_⟩
    split at hd
    · rw [decls, List.mem_singleton] at hd
      subst hd
      exact Or.inl (defines_record hn)
    · rename_i hcx
      rw [items_append, List.mem_append] at hd
      rcases hd with hd | hd
      · refine Or.inr (Or.inl ⟨x, rfl, defines_tag hd hn, fun hl => ?_⟩)
        have : ¬ x.tag.isSome = true := fun h => hcx ⟨hl, h⟩
        simpa using this
      · split at hd
        · rename_i ht
          have hl : e.cfg.language ≠ .cxx := fun hl => hcx ⟨hl, ht⟩
          rw [items_append, List.mem_append] at hd
          rcases hd with hd | hd
          · simp only [items_outs, List.mem_flatMap, List.mem_map] at hd
            obtain ⟨_, ⟨v, hv, rfl⟩, hd⟩ := hd
            unfold bodyOut at hd
            split at hd
            · rename_i b _ hb
              rw [items_when] at hd
              split at hd
              · exact Or.inr (Or.inr ⟨hl, b, mem_bodies.2 ⟨v, hv, _, _, _, hb⟩, (defines_struct hd hn).2⟩)
              · cases hd
            · cases hd
          · rw [decls, List.mem_singleton] at hd
            subst hd
            exact Or.inl (defines_record hn)
        · cases hd

/-! ## The declarations of a header -/

theorem object_defines : ∀ {d : CItem}, IsObject d → d.defines = []
  | .object .., _ => rfl
  | .template _ d, h => object_defines (d := d) h

theorem defines_linked {b : Bindings} {ns : List Str} {c : Bool} {d : CItem} (h : Declares (cxxLinkageOut e on b).items ns c d) :
    d.defines = [] := by
  cases hd : d.defines with
  | nil => rfl
  | cons y ys =>
    exfalso
    have hobj : ∀ z ∈ (linkedOut e on b).items, IsObject z := fun z hz => (linked_objects z hz).1
    unfold cxxLinkageOut at h
    split at h
    · cases h with
      | here h => cases h
      | space h => cases h
      | linkage h => cases h
    · rw [items_append] at h
      rcases declares_append h with h1 | h1
      · cases h1 with
        | here h =>
          obtain ⟨z, _, rfl⟩ := List.mem_map.1 h
          cases hd
        | space h2 =>
          obtain ⟨z, _, e⟩ := List.mem_map.1 h2
          cases e
        | linkage h2 =>
          obtain ⟨z, _, e⟩ := List.mem_map.1 h2
          cases e
      · have hs : ∀ x ∈ (aroundOut (.linkage c!"C") (linkedOut e on b)).items, x = .linkage c!"C" (linkedOut e on b).items :=
          fun x hx => List.mem_singleton.1 hx
        cases h1 with
        | here h2 => rw [hs _ h2] at hd; cases hd
        | space h2 => cases hs _ h2
        | linkage h2 h' =>
          cases hs _ h2
          cases h' with
          | here h =>
            rw [object_defines (hobj _ h)] at hd
            cases hd
          | space h3 => cases hobj _ h3
          | linkage h3 => cases hobj _ h3

theorem defines_spaces {o : Out} {ns ms : List Str} {c : Bool} {d : CItem} (h : Declares (spacesOut ns o).items ms c d)
    (hd : d.defines ≠ []) : ∃ ms', ms = ns ++ ms' ∧ Declares o.items ms' c d := by
  induction ns generalizing ms with
  | nil => exact ⟨ms, rfl, h⟩
  | cons n ns ih =>
    have hs : ∀ x ∈ (spacesOut (n :: ns) o).items, x = .space n (spacesOut ns o).items := fun x hx => List.mem_singleton.1 hx
    cases h with
    | here h => rw [hs _ h] at hd; exact absurd rfl hd
    | linkage h => cases hs _ h
    | space h h' =>
      cases hs _ h
      obtain ⟨ms', rfl, h''⟩ := ih h'
      exact ⟨ms', rfl, h''⟩

/-- The blocks of text in the settings define no types. -/
def NoTypesIn (R : Dialect) (on : Str → Bool) (c : OutConfig) : Prop :=
  ∀ k ∈ [c.header, c.autogenWarning, c.afterIncludes, c.trailer], ∀ ns link d, Declares (blockOut R on k).items ns link d → d.defines = []

theorem no_types_nil {ns : List Str} {c : Bool} {d : CItem} : ¬ Declares [] ns c d := by
  intro h
  cases h with
  | here h => cases h
  | space h => cases h
  | linkage h => cases h

/-- The types that a C++ header declares are those of items, in the namespaces. -/
theorem defines_cxx {D : List Str} {b : Bindings} (h : CxxHeaderGood R on D e b) {t : Str} (ht : headerText e b = some t)
    (hb : NoTypesIn R on e.cfg) {o : Out} (hr : readHeader R on t = some o) {ns : List Str} {c : Bool} {d : CItem}
    (hd : Declares o.items ns c d) (hn : n ∈ d.defines) :
    c = false ∧ ns = e.cfg.namespace_.toList ++ e.cfg.namespaces.getD [] ∧
      ∃ x ∈ b.items, x.annotations.shouldExport = true ∧ d ∈ (containerOut R e on x).items := by
  rw [C74_header_reads_back_partial h ht] at hr
  cases hr
  have hne : d.defines ≠ [] := List.ne_nil_of_mem hn
  have hblock : ∀ k ∈ [e.cfg.header, e.cfg.autogenWarning, e.cfg.afterIncludes, e.cfg.trailer],
      ¬ Declares (blockOut R on k).items ns c d := fun k hk h => hne (hb k hk _ _ _ h)
  have hbd : Declares (cxxBindingsOut R e on b).items ns c d := by
    simp only [cxxHeaderOut, items_append, items_when] at hd
    rcases declares_append hd with hd | hd
    · rcases declares_append hd with hd | hd
      · exact absurd hd (hblock _ (by simp))
      · split at hd
        · rcases declares_append hd with hd | hd
          · rcases declares_append hd with hd | hd
            · rcases declares_append hd with hd | hd
              · rcases declares_append hd with hd | hd
                · exact absurd hd no_types_nil
                · exact absurd hd (hblock _ (by simp))
              · exact absurd hd no_types_nil
            · exact absurd hd (hblock _ (by simp))
          · exact hd
        · exact absurd hd no_types_nil
    · exact absurd hd (hblock _ (by simp))
  unfold cxxBindingsOut at hbd
  obtain ⟨ms, rfl, hb'⟩ := defines_spaces hbd hne
  clear hbd
  have hconst : ∀ p d, d ∈ (constantsOut e on p b.constants).items → d.defines = [] ∧ IsType d := by
    intro p d hd
    refine ⟨defines_consts (s := none) hd, types_outs ?_ d hd⟩
    intro o ho
    obtain ⟨k, _, rfl⟩ := List.mem_map.1 ho
    exact types_const
  have hflat : ∀ {ds : List CItem}, (∀ d ∈ ds, IsType d) → Declares ds ms c d → c = false ∧ ms = [] ∧ d ∈ ds := by
    intro ds hds hd
    cases hd with
    | here hd => exact ⟨rfl, rfl, hd⟩
    | space hs _ => exact absurd (hds _ hs) nofun
    | linkage hs _ => exact absurd (hds _ hs) nofun
  simp only [items_append] at hb'
  rcases declares_append hb' with hb' | hb'
  · rcases declares_append hb' with hb' | hb'
    · rcases declares_append hb' with hb' | hb'
      · exact absurd (hconst _ _ (hflat (fun d hd => (hconst _ d hd).2) hb').2.2).1 hne
      · obtain ⟨rfl, rfl, hm⟩ := hflat (types_outs (by
          intro o ho
          obtain ⟨k, _, rfl⟩ := List.mem_map.1 ho
          exact types_container h.lang)) hb'
        simp only [items_outs, List.mem_flatMap, List.mem_map, List.mem_filter] at hm
        obtain ⟨_, ⟨x, ⟨hx, hxe⟩, rfl⟩, hm⟩ := hm
        exact ⟨rfl, by simp, x, hx, hxe, hm⟩
    · exact absurd (hconst _ _ (hflat (fun d hd => (hconst _ d hd).2) hb').2.2).1 hne
  · exact absurd (defines_linked hb') hne

/-- The types that a C header declares are those of items. -/
theorem defines_c {D : List Str} {b : Bindings} (h : HeaderGood R on D e b) {t : Str} (ht : headerText e b = some t)
    (hb : NoTypesIn R on e.cfg) {o : Out} (hr : readHeader R on t = some o) {d : CItem} (hd : d ∈ o.items) (hn : n ∈ d.defines) :
    ∃ x ∈ b.items, x.annotations.shouldExport = true ∧ d ∈ (containerOut R e on x).items := by
  rw [C61_header_reads_back h ht] at hr
  cases hr
  have hne : d.defines ≠ [] := List.ne_nil_of_mem hn
  have hblock : ∀ k ∈ [e.cfg.header, e.cfg.autogenWarning, e.cfg.afterIncludes, e.cfg.trailer],
      ¬ d ∈ (blockOut R on k).items := fun k hk h => hne (hb k hk _ _ _ (.here h))
  have hbd : d ∈ (bindingsOut R e on b).items := by
    simp only [headerOut, items_append, List.mem_append, items_when, guardedOut] at hd
    rcases hd with (hd | hd) | hd
    · exact absurd hd (hblock _ (by simp))
    · split at hd
      · simp only [List.mem_append, guardOut] at hd
        rcases hd with (((hd | hd) | hd) | hd) | hd
        · cases hd
        · exact absurd hd (hblock _ (by simp))
        · cases hd
        · exact absurd hd (hblock _ (by simp))
        · exact hd
      · cases hd
    · exact absurd hd (hblock _ (by simp))
  simp only [bindingsOut, items_append, List.mem_append, constants_items h.options.lang, items_outs, List.mem_flatMap, List.mem_map,
    List.mem_filter, List.not_mem_nil, or_false, false_or] at hbd
  rcases hbd with (⟨_, ⟨x, ⟨hx, hxe⟩, rfl⟩, hm⟩ | ⟨_, ⟨x, ⟨hx, hxe⟩, rfl⟩, hm⟩) | ⟨_, ⟨x, ⟨hx, hxe⟩, rfl⟩, hm⟩
  · exact ⟨x, hx, hxe, hm⟩
  · rw [staticOut, items_when] at hm
    split at hm
    · rw [decls, List.mem_singleton] at hm
      rw [hm] at hn
      cases hn
    · cases hm
  · rw [funcOut, items_when] at hm
    split at hm
    · rw [decls, List.mem_singleton] at hm
      rw [hm] at hn
      cases hn
    · cases hm

end

/-! ## Where items come from -/

section
variable {pc : ParseConfig} {lc : LoadConfig} {fuel fuel' : Nat} {i : Inputs} {c : LibConfig}
  {order : List (Str × Annotations) → List (Str × Annotations)} {l l₁ : Library} {b : Bindings}
  {R : Dialect} {on : Str → Bool} {D : List Str} {e : Env} {tx : Str} {rust : CfgSpec.Opt → Bool} {n : Str}

/-- An item of the bindings is one of the sources, of the standard library, or an instance of the struct of a variant. -/
inductive From (pc : ParseConfig) (i : Inputs) (c : LibConfig) (vs : List GArg) (x : Container) : Prop
  | source {t m cs q k ex} : SrcSpec.Given pc i t cs → ParserSpec.GuardIs (Taken.guard (t, m)) cs → typeName t = some q →
      (kindOf t = some k ∨ k = .opaqueItems) → (∀ a, Annotations.load (typeAttrs t) = .ok a → a.shouldExport = ex) →
      Renamed c (c.manglePath q vs) ((bodyIds t).map fun s => c.manglePath s vs) (dataOfTaken t) k (Taken.guard (t, m)) ex x →
      From pc i c vs x
  | std {q} : i.stdTypes = true → q ∈ MainSpec.knownTypes → Renamed c (c.manglePath q vs) [] false .opaqueItems none true x → From pc i c vs x
  | part {s v cs y} : vs ≠ [] → SrcSpec.Given pc i (.enum s) cs → v ∈ s.variants → hasFields v.fields = true →
      x = .struct y → y.exportName = c.ren (c.manglePath (v.ident ++ c!"_Body") vs) → From pc i c vs x

theorem std_fresh (s : Str × List Str) : Fresh s.1 [] false .opaqueItems none true (.opaque (stdOpaque s)) :=
  ⟨rfl, rfl, rfl, rfl, rfl, (fun h => by cases h), rfl, (fun _ h => absurd h List.not_mem_nil)⟩

theorem Fresh.finish {q : Str} {ids : List Str} {data ex : Bool} {k : ItemType} {g : Option Cfg} {x z : Container}
    (h : Fresh q ids data k g ex x) {find : Ty → Option Str} {tag : Str → Option DeclKind} (hz : x.finish c find tag = some z) :
    Renamed c q ids data k g ex z := by
  unfold Container.finish at hz
  simp only at hz
  split at hz
  · exact ((h.map _).map _).rename hz
  · exact (h.map _).rename hz

theorem finish_struct {x : StructItem} {z : Container} (hc : c.language ≠ .cxx) {find : Ty → Option Str} {tag : Str → Option DeclKind}
    (hz : Container.finish c find tag (.struct x) = some z) : ∃ y, z = .struct y ∧ y.exportName = c.ren x.exportName := by
  unfold Container.finish at hz
  simp only at hz
  split at hz <;> simp only [Container.mapTys, Container.renameFor, Option.map_eq_some_iff] at hz <;> obtain ⟨y, hy, rfl⟩ := hz
  · exact ⟨y, rfl, (struct_rename_name hy (Or.inl hc)).1⟩
  · exact ⟨y, rfl, (struct_rename_name hy (Or.inl hc)).1⟩

theorem mem_bodyIds {t : Taken} {id : Str} (h : id ∈ bodyIds t) :
    ∃ s v, t = .enum s ∧ v ∈ s.variants ∧ hasFields v.fields = true ∧ id = v.ident ++ c!"_Body" := by
  cases t <;> simp only [bodyIds] at h <;> first | cases h; done | skip
  obtain ⟨v, hv, rfl⟩ := List.mem_map.1 h
  rw [List.mem_filter] at hv
  exact ⟨_, v, rfl, hv.1, hv.2, rfl⟩

theorem from_c (h : Stages pc lc fuel fuel' i c order l l₁ b) {x : Container} (hx : x ∈ b.items) :
    c.export_.shouldGenerate x.type = true ∧ x.path ∉ c.export_.exclude ∧ ∃ vs, From pc i c vs x := by
  obtain ⟨l', hl', hb⟩ := C11_generate h.generated
  obtain ⟨⟨its, h1, h2⟩, _⟩ := (hb x).1 hx
  obtain ⟨hw, hsound, _⟩ := build_types h.built h.plain h.onePath
  have hcx : c.language ≠ .cxx := by rw [h.language]; decide
  obtain ⟨m, hm, h8, _⟩ := types_final_by h.language hw h.transfer hl' h.expanded
  obtain ⟨w, hw1, hw2, hw3⟩ := (h8 x).1 (Library.types_of_getItems h1 h2)
  refine ⟨Library.generated_of_getItems h1 h2, by rw [(Container.finish_keeps hw3).1]; exact hw2, ?_⟩
  have hsw := (Library.simplified_shape c order l).wf hw
  rw [h.transfer] at hsw
  have hold : ∀ y ∈ ((l.simplify c).sortFunctions c).types, ∃ x ∈ l.types, y = x.mapTys (Ty.simplify c.language) := by
    intro y hy
    have : y ∈ (l.simplify c).types := hy
    rw [types_simplify, List.mem_map] at this
    obtain ⟨x, hx, e⟩ := this
    exact ⟨x, hx, e.symm⟩
  rcases (types_cases hsw hw1).2 with hy | hy
  · obtain ⟨y, hy', rfl⟩ := hold _ hy
    refine ⟨[], ?_⟩
    rcases hsound y hy' with ⟨t, m', cs, y', g1, g2, g3, g4⟩ | ⟨g1, s, hs, rfl⟩
    · obtain ⟨q, k, ex, f1, f2, f3, f4⟩ := container_fresh g3
      refine .source g1 g2 f1 f3 f4 ?_
      simp only [manglePath_nil, List.map_id']
      exact ((f2.alike g4).map _).finish hw3
    · refine .std g1 (known_names s hs) ?_
      rw [manglePath_nil]
      exact ((std_fresh s).map _).finish hw3
  · obtain ⟨y', hy', z, hz, vs, σ, hvs, rfl⟩ := monos_from hm _ hy
    obtain ⟨y, hy'', rfl⟩ := hold _ hy'
    refine ⟨vs, ?_⟩
    have hparts : z = y.mapTys (Ty.simplify c.language) ∨ ∃ s ∈ (y.mapTys (Ty.simplify c.language)).bodies, z = .struct s := by
      generalize y.mapTys (Ty.simplify c.language) = y at hz
      cases y <;> simp only [Container.parts, List.mem_append, List.mem_singleton, List.mem_map] at hz
      case enum y =>
        rcases hz with ⟨s, hs, rfl⟩ | rfl
        · exact Or.inr ⟨s, hs, rfl⟩
        · exact Or.inl rfl
      all_goals exact Or.inl hz
    rcases hsound y hy'' with ⟨t, m', cs, y', g1, g2, g3, g4⟩ | ⟨g1, s, hs, rfl⟩
    · obtain ⟨q, k, ex, f1, f2, f3, f4⟩ := container_fresh g3
      have f5 := (f2.alike g4).map (Ty.simplify c.language)
      rcases hparts with rfl | ⟨s, hs, rfl⟩
      · exact .source g1 g2 f1 f3 f4 ((f5.specialize c vs σ).finish hw3)
      · obtain ⟨st, v, rfl, hv1, hv2, hid⟩ := mem_bodyIds (f5.bodies s hs).1
        obtain ⟨y, rfl, hn⟩ := finish_struct hcx hw3
        refine .part hvs g1 hv1 hv2 rfl ?_
        rw [hn, ← hid]
        rfl
    · rcases hparts with rfl | ⟨s, hs, rfl⟩
      · exact .std g1 (known_names s hs) ((((std_fresh s).map _).specialize c vs σ).finish hw3)
      · cases hs

theorem from_cxx (h : StagesX pc lc fuel fuel' i c order l b) {x : Container} (hx : x ∈ b.items) :
    c.export_.shouldGenerate x.type = true ∧ x.path ∉ c.export_.exclude ∧ From pc i c [] x := by
  obtain ⟨l', hl', hb⟩ := C11_generate h.generated
  obtain ⟨⟨its, h1, h2⟩, _⟩ := (hb x).1 hx
  obtain ⟨hw, hsound, _⟩ := build_types h.built h.plain h.onePath
  obtain ⟨h8, _⟩ := types_finalX h.language hw h.transfer hl'
  obtain ⟨y, hy, hex, hf⟩ := (h8 x).1 (Library.types_of_getItems h1 h2)
  refine ⟨Library.generated_of_getItems h1 h2, by rw [(Container.finalX_keeps hf).1]; exact hex, ?_⟩
  unfold Container.finalX at hf
  rcases hsound y hy with ⟨t, m', cs, y', g1, g2, g3, g4⟩ | ⟨g1, s, hs, rfl⟩
  · obtain ⟨q, k, ex, f1, f2, f3, f4⟩ := container_fresh g3
    refine .source g1 g2 f1 f3 f4 ?_
    simp only [manglePath_nil, List.map_id']
    exact ((f2.alike g4).map _).rename hf
  · refine .std g1 (known_names s hs) ?_
    rw [manglePath_nil]
    exact ((std_fresh s).map _).rename hf

/-! ## The claims -/

theorem From.offered {x : Container} {vs : List GArg} {t : Taken} {m : Option Cfg} {cs : List Cfg} {q : Str} {k : ItemType} {ex : Bool}
    {ids : List Str} {data : Bool} (h1 : SrcSpec.Given pc i t cs) (h2 : ParserSpec.GuardIs (Taken.guard (t, m)) cs) (h3 : typeName t = some q)
    (h4 : kindOf t = some k ∨ k = .opaqueItems) (h5 : ∀ a, Annotations.load (typeAttrs t) = .ok a → a.shouldExport = ex)
    (h6 : Renamed c (c.manglePath q vs) ids data k (Taken.guard (t, m)) ex x)
    (hgen : c.export_.shouldGenerate x.type = true) (hex : x.path ∉ c.export_.exclude) (hexp : x.annotations.shouldExport = true)
    (hm : CfgSpec.Matches e.cfg.defines rust on) (hs : shown e.cfg on x.cfg = true) :
    Offered pc i c e.cfg.defines rust t q vs where
  name := h3
  kept := by rw [← h6.path]; exact hex
  given := by
    refine ⟨cs, h1, fun hc => ?_⟩
    rw [h6.cfg, shown_guard hm h2 hc, List.all_eq_true] at hs
    exact hs
  exported a ha := by rw [h5 a ha, ← h6.exported]; exact hexp
  wanted := ⟨k, h4, by rw [← h6.type]; exact hgen⟩

/-- **C82.** A type that a C++ header declares is one of the sources (an item that the settings and annotations let through,
where its `cfg`s hold) or one of the standard library that is left opaque; and it is in the namespaces of the settings. -/
theorem C82_cxx_partial (h : StagesX pc lc fuel fuel' i c order l b) (hg : CxxHeaderGood R on D e b) (ht : headerText e b = some tx)
    (hm : CfgSpec.Matches e.cfg.defines rust on) (hb : NoTypesIn R on e.cfg) {o : Out} (hr : readHeader R on tx = some o)
    {ns : List Str} {link : Bool} {d : CItem} (hd : Declares o.items ns link d) (hn : n ∈ d.defines) :
    link = false ∧ ns = e.cfg.namespace_.toList ++ e.cfg.namespaces.getD [] ∧ CxxSource pc i c e.cfg.defines rust n := by
  obtain ⟨r1, r2, x, hx, hexp, hdx⟩ := defines_cxx hg ht hb hr hd hn
  refine ⟨r1, r2, ?_⟩
  obtain ⟨hs, hcase⟩ := defines_container hdx hn
  obtain ⟨hgen, hex, hf⟩ := from_cxx h hx
  have hname : n = x.exportName := by
    rcases hcase with hcase | ⟨y, rfl, hy, htag⟩ | ⟨hl, _⟩
    · exact hcase
    · rw [hy, EnumItem.tagName, htag hg.lang]
      rfl
    · exact absurd hg.lang hl
  cases hf with
  | source h1 h2 h3 h4 h5 h6 =>
    refine Or.inl ⟨_, _, From.offered h1 h2 h3 h4 h5 h6 hgen hex hexp hm hs, ?_⟩
    rw [hname, h6.name, manglePath_nil]
  | std h1 h2 h3 =>
    refine Or.inr ⟨h1, by rw [← h3.type]; exact hgen, _, h2, by rw [← h3.path]; exact hex, ?_⟩
    rw [hname, h3.name]
  | part h1 => exact absurd rfl h1

/-- **C82.** A type that a C header declares is one of the sources (an item that the settings and annotations let through,
where its `cfg`s hold, or an instance of one), the tag or the data of a variant of such an enum, or one of the standard
library that is left opaque. -/
theorem C82_c_partial (h : Stages pc lc fuel fuel' i c order l l₁ b) (hg : HeaderGood R on D e b) (ht : headerText e b = some tx)
    (hm : CfgSpec.Matches e.cfg.defines rust on) (hb : NoTypesIn R on e.cfg) {o : Out} (hr : readHeader R on tx = some o)
    {d : CItem} (hd : d ∈ o.items) (hn : n ∈ d.defines) : CSource pc i c e.cfg.defines rust n := by
  obtain ⟨x, hx, hexp, hdx⟩ := defines_c hg ht hb hr hd hn
  obtain ⟨hs, hcase⟩ := defines_container hdx hn
  obtain ⟨hgen, hex, vs, hf⟩ := from_c h hx
  have hcx : c.language ≠ .cxx := by rw [h.language]; decide
  refine ⟨vs, ?_⟩
  cases hf with
  | @source t m cs q k ex h1 h2 h3 h4 h5 h6 =>
    refine Or.inl ⟨_, _, From.offered h1 h2 h3 h4 h5 h6 hgen hex hexp hm hs, ?_⟩
    rcases hcase with hcase | ⟨y, rfl, hy, _⟩ | ⟨_, s, hs', hcase⟩
    · rw [hcase, h6.name]
      exact .own h3
    · have htg := h6.tag y rfl
      have hnm : y.exportName = c.ren (c.manglePath q vs) := h6.name
      rcases htg with htg | ⟨hdata, htg⟩
      · rw [hy, EnumItem.tagName, htg]
        simp only [Option.getD_none, hnm]
        exact .own h3
      · rw [hy, EnumItem.tagName, htg hcx]
        cases t <;> simp only [dataOfTaken] at hdata <;> first | (cases hdata; done) | skip
        cases h3
        exact .tag rfl hdata
    · obtain ⟨id, hid, lead, hl, he⟩ := h6.bodies hcx s hs'
      obtain ⟨id', hid', rfl⟩ := List.mem_map.1 hid
      obtain ⟨st, v, rfl, hv1, hv2, rfl⟩ := mem_bodyIds hid'
      cases h3
      rw [hcase, he]
      exact .body rfl hv1 hv2 hl
  | @std q h1 h2 h3 =>
    refine Or.inr (Or.inl ⟨h1, by rw [← h3.type]; exact hgen, _, h2, by rw [← h3.path]; exact hex, ?_⟩)
    rcases hcase with hcase | ⟨y, rfl, _⟩ | ⟨_, s, hs', _⟩
    · rw [hcase, h3.name]
    · exact absurd h3.type nofun
    · obtain ⟨id, hid, _⟩ := h3.bodies hcx s hs'
      cases hid
  | part h1 h2 h3 h4 h5 h6 =>
    subst h5
    refine Or.inr (Or.inr ⟨h1, _, _, _, h2, h3, h4, ?_⟩)
    rcases hcase with hcase | ⟨y, hy, _⟩ | ⟨_, s, hs', _⟩
    · rw [hcase]; exact h6
    · cases hy
    · cases hs'

end

end Cbindgen
