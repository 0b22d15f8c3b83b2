import Verif.Props.OnlyConsts
import Verif.Props.SourceCxxConsts

/-!
# C84 in C++: the macros and the constant objects of a header
-/

namespace Cbindgen
open CSpec HeadSpec LexSpec ScopeSpec
open SrcSpec hiding Reaches Given Plain Declares

section
variable {R : Dialect} {on : Str → Bool} {e : Env} {ws : List Str} {n : Str} {ty : CTy} {ts : List Lx}

theorem const_objects {s : Option StructItem} {k : ConstItem} (h : CItem.constant ws n ty ts ∈ (constOut e on s k).items) :
    shown e.cfg on k.cfg = true ∧ k.writtenName e.cfg s = some n := by
  unfold constOut at h
  split at h
  · cases h
  split at h
  · rename_i name value hn hv
    rw [items_when] at h
    split at h
    · rename_i hs
      split at h
      · have := List.mem_singleton.1 h
        cases this
        exact ⟨hs, hn⟩
      · cases h
    · cases h
  · cases h

theorem assoc_objects {s : StructItem} (h : CItem.constant ws n ty ts ∈ (assocOut e on s).items) :
    ∃ k ∈ s.assocConsts, CItem.constant ws n ty ts ∈ (constOut e on (some s) k).items := by
  simp only [assocOut, items_outs, List.mem_flatMap, List.mem_map] at h
  obtain ⟨_, ⟨k, hk, rfl⟩, h⟩ := h
  exact ⟨k, hk, h⟩

theorem templated_constant {c : OutConfig} {b : Bool} {ps : List GParam} {d : CItem} (h : CItem.constant ws n ty ts = templated c b ps d) :
    d = .constant ws n ty ts := by
  unfold templated at h
  split at h
  · cases h
  · exact h.symm

/-- The constant objects for an item are those of its constants. -/
theorem container_objects (hc : e.cfg.language = .cxx) {x : Container} (h : CItem.constant ws n ty ts ∈ (containerOut R e on x).items) :
    ∃ s, x = .struct s ∧ ∃ k ∈ s.assocConsts, CItem.constant ws n ty ts ∈ (constOut e on (some s) k).items := by
  cases x with
  | struct x =>
    refine ⟨x, rfl, ?_⟩
    simp only [containerOut] at h
    split at h
    · rw [items_append, List.mem_append, typedefOut, items_when] at h
      rcases h with h | h
      · split at h
        · have := templated_constant (List.mem_singleton.1 h)
          cases this
        · cases h
      · exact assoc_objects h
    · rw [structOut, items_when] at h
      split at h
      · rw [items_append, List.mem_append] at h
        rcases h with h | h
        · have h := List.mem_singleton.1 h
          unfold structDecl at h
          split at h
          · cases h
          · have := templated_constant h
            cases this
        · exact assoc_objects h
      · cases h
  | union x =>
    simp only [containerOut, unionOut, items_when] at h
    split at h
    · have := templated_constant (List.mem_singleton.1 h)
      cases this
    · cases h
  | «opaque» x =>
    simp only [containerOut, opaqueOut, items_when] at h
    split at h
    · have := templated_constant (List.mem_singleton.1 h)
      split at this <;> cases this
    · cases h
  | typedef x =>
    simp only [containerOut, typedefOut, items_when] at h
    split at h
    · have := templated_constant (List.mem_singleton.1 h)
      cases this
    · cases h
  | enum x =>
    exfalso
    simp only [containerOut, enumOut, items_when] at h
    split at h
    · by_cases hx : x.tag.isSome = true
      · rw [if_pos ⟨hc, hx⟩] at h
        cases List.mem_singleton.1 h
      · rw [if_neg (fun h => hx h.2), if_neg hx, items_append, List.mem_append, tagEnumOut, if_pos hc] at h
        rcases h with h | h
        · have := List.mem_singleton.1 h
          unfold cxxTagEnum at this
          simp only at this
          split at this <;> cases this
        · cases h
    · cases h

/-- The macros for an item of C++ are those of its constants. -/
theorem container_macrosX (hc : e.cfg.language = .cxx) {x : Container} {d : Str × List Lx} (h : d ∈ (containerOut R e on x).macros) :
    ∃ s, x = .struct s ∧ ∃ k ∈ s.assocConsts, d ∈ (constOut e on (some s) k).macros := by
  cases x with
  | struct x =>
    refine ⟨x, rfl, ?_⟩
    simp only [containerOut] at h
    split at h
    · rw [macros_append, List.mem_append, typedefOut, macros_when] at h
      rcases h with h | h
      · split at h <;> cases h
      · exact assoc_macros h
    · exact struct_macros h
  | union x =>
    simp only [containerOut, unionOut, macros_when] at h
    split at h <;> cases h
  | «opaque» x =>
    simp only [containerOut, opaqueOut, macros_when] at h
    split at h <;> cases h
  | typedef x =>
    simp only [containerOut, typedefOut, macros_when] at h
    split at h <;> cases h
  | enum x =>
    exfalso
    simp only [containerOut, enumOut, macros_when] at h
    split at h
    · by_cases hx : x.tag.isSome = true
      · rw [if_pos ⟨hc, hx⟩] at h
        cases h
      · rw [if_neg (fun h => hx h.2), if_neg hx, macros_append, List.mem_append, tagEnumOut, if_pos hc] at h
        rcases h with h | h <;> cases h
    · cases h

theorem linkage_macros {b : Bindings} {d : Str × List Lx} : d ∉ (cxxLinkageOut e on b).macros := by
  intro h
  unfold cxxLinkageOut at h
  split at h
  · cases h
  · rw [macros_append, List.mem_append] at h
    rcases h with h | h
    · cases h
    · simp only [aroundOut, macros_append, macros_outs, List.mem_append, List.mem_flatMap, List.mem_map, List.mem_filter] at h
      rcases h with ⟨_, ⟨x, _, rfl⟩, h⟩ | ⟨_, ⟨x, _, rfl⟩, h⟩
      · rw [staticOut, macros_when] at h
        split at h <;> cases h
      · rw [funcOut, macros_when] at h
        split at h <;> cases h

/-- The macros of a C++ header. -/
theorem header_macrosX {b : Bindings} {d : Str × List Lx} (h : d ∈ (cxxHeaderOut R e on b).macros) :
    (∃ k ∈ [e.cfg.header, e.cfg.autogenWarning, e.cfg.afterIncludes, e.cfg.trailer], d ∈ (blockOut R on k).macros) ∨
    (∃ g, e.cfg.guard = some g ∧ d = (g, [])) ∨ (∃ k ∈ b.constants, d ∈ (constOut e on none k).macros) ∨
    ∃ x ∈ b.items, x.annotations.shouldExport = true ∧ d ∈ (containerOut R e on x).macros := by
  have consts : ∀ p, d ∈ (constantsOut e on p b.constants).macros → ∃ k ∈ b.constants, d ∈ (constOut e on none k).macros := by
    intro p h
    simp only [constantsOut, macros_outs, List.mem_flatMap, List.mem_map, List.mem_filter] at h
    obtain ⟨_, ⟨k, ⟨hk, _⟩, rfl⟩, h⟩ := h
    exact ⟨k, hk, h⟩
  simp only [cxxHeaderOut, macros_append, List.mem_append, macros_when] at h
  rcases h with (h | h) | h
  · exact Or.inl ⟨_, by simp, h⟩
  · split at h
    · simp only [macros_append, List.mem_append] at h
      rcases h with (((h | h) | h) | h) | h
      · simp only [guardOut, List.mem_map, Option.mem_toList] at h
        obtain ⟨g, hg, rfl⟩ := h
        exact Or.inr (Or.inl ⟨g, hg, rfl⟩)
      · exact Or.inl ⟨_, by simp, h⟩
      · cases h
      · exact Or.inl ⟨_, by simp, h⟩
      · rw [cxxBindingsOut, macros_spaces] at h
        simp only [macros_append, List.mem_append] at h
        rcases h with ((h | h) | h) | h
        · exact Or.inr (Or.inr (Or.inl (consts _ h)))
        · simp only [macros_outs, List.mem_flatMap, List.mem_map, List.mem_filter] at h
          obtain ⟨_, ⟨x, ⟨hx, hxe⟩, rfl⟩, h⟩ := h
          exact Or.inr (Or.inr (Or.inr ⟨x, hx, hxe, h⟩))
        · exact Or.inr (Or.inr (Or.inl (consts _ h)))
        · exact absurd h linkage_macros
    · cases h
  · exact Or.inl ⟨_, by simp, h⟩

theorem objects_linked {b : Bindings} {ns : List Str} {c : Bool} : ¬ Declares (cxxLinkageOut e on b).items ns c (.constant ws n ty ts) := by
  intro h
  have hobj : ∀ z ∈ (linkedOut e on b).items, IsObject z := fun z hz => (linked_objects z hz).1
  unfold cxxLinkageOut at h
  split at h
  · exact no_types_nil h
  · rw [items_append] at h
    rcases declares_append h with h1 | h1
    · cases h1 with
      | here h =>
        obtain ⟨z, _, e⟩ := List.mem_map.1 h
        cases e
      | space h2 =>
        obtain ⟨z, _, e⟩ := List.mem_map.1 h2
        cases e
      | linkage h2 =>
        obtain ⟨z, _, e⟩ := List.mem_map.1 h2
        cases e
    · have hs : ∀ x ∈ (aroundOut (.linkage c!"C") (linkedOut e on b)).items, x = .linkage c!"C" (linkedOut e on b).items :=
        fun x hx => List.mem_singleton.1 hx
      cases h1 with
      | here h2 => cases hs _ h2
      | space h2 => cases hs _ h2
      | linkage h2 h' =>
        cases hs _ h2
        cases h' with
        | here h => exact absurd (hobj _ h) nofun
        | space h3 => cases hobj _ h3
        | linkage h3 => cases hobj _ h3

theorem objects_spaces {o : Out} {ns ms : List Str} {c : Bool} (h : Declares (spacesOut ns o).items ms c (.constant ws n ty ts)) :
    ∃ ms', ms = ns ++ ms' ∧ Declares o.items ms' c (.constant ws n ty ts) := by
  induction ns generalizing ms with
  | nil => exact ⟨ms, rfl, h⟩
  | cons m ns ih =>
    have hs : ∀ x ∈ (spacesOut (m :: ns) o).items, x = .space m (spacesOut ns o).items := fun x hx => List.mem_singleton.1 hx
    cases h with
    | here h => cases hs _ h
    | linkage h => cases hs _ h
    | space h h' =>
      cases hs _ h
      obtain ⟨ms', rfl, h''⟩ := ih h'
      exact ⟨ms', rfl, h''⟩

/-- The constant objects that a C++ header declares, unless a block of text in the settings does. -/
theorem constant_objects {b : Bindings} (hl : e.cfg.language = .cxx) {ns : List Str} {c : Bool}
    (hb : ∀ k ∈ [e.cfg.header, e.cfg.autogenWarning, e.cfg.afterIncludes, e.cfg.trailer], ¬ Declares (blockOut R on k).items ns c (.constant ws n ty ts))
    (hd : Declares (cxxHeaderOut R e on b).items ns c (.constant ws n ty ts)) :
    c = false ∧ ns = e.cfg.namespace_.toList ++ e.cfg.namespaces.getD [] ∧
      ((∃ k ∈ b.constants, CItem.constant ws n ty ts ∈ (constOut e on none k).items) ∨
       ∃ x ∈ b.items, x.annotations.shouldExport = true ∧ CItem.constant ws n ty ts ∈ (containerOut R e on x).items) := by
  have hbd : Declares (cxxBindingsOut R e on b).items ns c (.constant ws n ty ts) := by
    simp only [cxxHeaderOut, items_append, items_when] at hd
    rcases declares_append hd with hd | hd
    · rcases declares_append hd with hd | hd
      · exact absurd hd (hb _ (by simp))
      · split at hd
        · rcases declares_append hd with hd | hd
          · rcases declares_append hd with hd | hd
            · rcases declares_append hd with hd | hd
              · rcases declares_append hd with hd | hd
                · exact absurd hd no_types_nil
                · exact absurd hd (hb _ (by simp))
              · exact absurd hd no_types_nil
            · exact absurd hd (hb _ (by simp))
          · exact hd
        · exact absurd hd no_types_nil
    · exact absurd hd (hb _ (by simp))
  unfold cxxBindingsOut at hbd
  obtain ⟨ms, rfl, hb'⟩ := objects_spaces hbd
  clear hbd
  have hflat : ∀ {ds : List CItem}, (∀ d ∈ ds, IsType d) → Declares ds ms c (.constant ws n ty ts) →
      c = false ∧ ms = [] ∧ CItem.constant ws n ty ts ∈ ds := by
    intro ds hds hd
    cases hd with
    | here hd => exact ⟨rfl, rfl, hd⟩
    | space hs _ => exact absurd (hds _ hs) nofun
    | linkage hs _ => exact absurd (hds _ hs) nofun
  have hconst : ∀ p, Declares (constantsOut e on p b.constants).items ms c (.constant ws n ty ts) →
      c = false ∧ ms = [] ∧ ∃ k ∈ b.constants, CItem.constant ws n ty ts ∈ (constOut e on none k).items := by
    intro p hd
    obtain ⟨h1, h2, hd⟩ := hflat (types_outs (by
      intro o ho
      obtain ⟨k, _, rfl⟩ := List.mem_map.1 ho
      exact types_const)) hd
    refine ⟨h1, h2, ?_⟩
    simp only [items_outs, List.mem_flatMap, List.mem_map, List.mem_filter] at hd
    obtain ⟨_, ⟨k, ⟨hk, _⟩, rfl⟩, hd⟩ := hd
    exact ⟨k, hk, hd⟩
  simp only [items_append] at hb'
  rcases declares_append hb' with hb' | hb'
  · rcases declares_append hb' with hb' | hb'
    · rcases declares_append hb' with hb' | hb'
      · obtain ⟨h1, rfl, h3⟩ := hconst _ hb'
        exact ⟨h1, by simp, Or.inl h3⟩
      · obtain ⟨h1, rfl, hm⟩ := hflat (types_outs (by
          intro o ho
          obtain ⟨k, _, rfl⟩ := List.mem_map.1 ho
          exact types_container hl)) hb'
        simp only [items_outs, List.mem_flatMap, List.mem_map, List.mem_filter] at hm
        obtain ⟨_, ⟨x, ⟨hx, hxe⟩, rfl⟩, hm⟩ := hm
        exact ⟨h1, by simp, Or.inr ⟨x, hx, hxe, hm⟩⟩
    · obtain ⟨h1, rfl, h3⟩ := hconst _ hb'
      exact ⟨h1, by simp, Or.inl h3⟩
  · exact absurd hb' objects_linked

end

section
variable {pc : ParseConfig} {lc : LoadConfig} {fuel fuel' : Nat} {i : Inputs} {c : LibConfig}
  {order : List (Str × Annotations) → List (Str × Annotations)} {l : Library} {b : Bindings}
  {R : Dialect} {on : Str → Bool} {D : List Str} {e : Env} {tx : Str} {rust : CfgSpec.Opt → Bool}

/-- Constants of structs are not in the struct. -/
theorem not_inBody (hl : e.cfg.language = .cxx) {s : StructItem} (h : ContainerGood R on D e (.struct s)) (hk : s.assocConsts ≠ []) :
    inBody e.cfg (some s) = false := by
  simp only [ContainerGood] at h
  split at h
  · rename_i ht
    have : s.isTransparent = true := by
      unfold StructItem.asTypedef at ht
      split at ht
      · split at ht
        · assumption
        · cases ht
      · cases ht
    simp [inBody, this]
  · have := (h.plain hl).2.2
    cases hne : s.assocConsts with
    | nil => exact absurd hne hk
    | cons k ks =>
      simp only [hne, List.isEmpty_cons, Bool.not_false, Bool.and_true] at this
      simp [inBody, hl, this]

theorem struct_nameX (h : StagesX pc lc fuel fuel' i c order l b) {s : StructItem} (hs : Container.struct s ∈ b.items) :
    s.exportName = c.ren s.path := by
  obtain ⟨_, _, hf⟩ := from_cxx h hs
  cases hf with
  | source _ _ _ _ _ h6 => rw [← h6.path] at h6; exact h6.name
  | std _ _ h3 => rw [← h3.path] at h3; exact h3.name
  | part h1 => exact absurd rfl h1

/-- A constant of the bindings that is written. -/
theorem const_from (h : StagesX pc lc fuel fuel' i c order l b) (hm : CfgSpec.Matches e.cfg.defines rust on)
    (he : e.cfg.export_ = c.export_) {k : ConstItem} (hk : k ∈ b.constants) (hs : shown e.cfg on k.cfg = true) {n : Str}
    (hn : k.writtenName e.cfg none = some n) : MacroSource pc i c e.cfg.caseFns e.cfg.defines rust n := by
  have hgen := constants_asked h.generated hk
  obtain ⟨k₀, hk₀, hex, rfl⟩ := (constants_final h.generated (consts_wf h.built) hgen k).1 hk
  exact FromSource.macro (consts_sound h.built h.plain hk₀) hm (s := none) rfl he (fun _ => ⟨hgen, hex⟩) nofun hs hn

/-- A constant of a struct that is written. -/
theorem assoc_from (h : StagesX pc lc fuel fuel' i c order l b) (hg : CxxHeaderGood R on D e b) (hm : CfgSpec.Matches e.cfg.defines rust on)
    (he : e.cfg.export_ = c.export_) {s : StructItem} (hx : Container.struct s ∈ b.items) (hexp : s.annotations.shouldExport = true)
    {k : ConstItem} (hk : k ∈ s.assocConsts) (hs : shown e.cfg on k.cfg = true) {n : Str}
    (hn : k.writtenName e.cfg (some s) = some n) : MacroSource pc i c e.cfg.caseFns e.cfg.defines rust n := by
  obtain ⟨_, h2⟩ := (assocs_final (assocs_sound h.built h.plain) h.generated).items _ hx
  obtain ⟨k₀, g1, g2, rfl⟩ := h2 k hk
  refine FromSource.macro g1 hm (s := some s) (not_inBody hg.lang (hg.items _ hx hexp) (List.ne_nil_of_mem hk)) he
    (fun hn => by rw [g2] at hn; cases hn) (fun y hy => ?_) hs hn
  cases hy
  exact ⟨struct_nameX h hx, g2⟩

/-- **C84.** A macro that a C++ header defines is the guard, or in a text of the settings, or that of a constant of the
sources. -/
theorem C84_cxx_macros_partial (h : StagesX pc lc fuel fuel' i c order l b) (hg : CxxHeaderGood R on D e b) (ht : headerText e b = some tx)
    (hm : CfgSpec.Matches e.cfg.defines rust on) (he : e.cfg.export_ = c.export_) {o : Out} (hr : readHeader R on tx = some o)
    {d : Str × List Lx} (hd : d ∈ o.macros) :
    (∃ k ∈ [e.cfg.header, e.cfg.autogenWarning, e.cfg.afterIncludes, e.cfg.trailer], ∃ s o', k = some s ∧ readHeader R on s = some o' ∧ d ∈ o'.macros) ∨
    (∃ g, e.cfg.guard = some g ∧ d = (g, [])) ∨ MacroSource pc i c e.cfg.caseFns e.cfg.defines rust d.1 := by
  rw [C74_header_reads_back_partial hg ht] at hr
  cases hr
  rcases header_macrosX hd with ⟨k, hk, hd⟩ | hd | ⟨k, hk, hd⟩ | ⟨x, hx, hexp, hd⟩
  · exact Or.inl ⟨k, hk, block_macros hd⟩
  · exact Or.inr (Or.inl hd)
  · obtain ⟨hs, hn⟩ := const_macros hd
    exact Or.inr (Or.inr (const_from h hm he hk hs hn))
  · obtain ⟨s, rfl, k, hk, hd⟩ := container_macrosX hg.lang hd
    obtain ⟨hs, hn⟩ := const_macros hd
    exact Or.inr (Or.inr (assoc_from h hg hm he hx hexp hk hs hn))

/-- **C84.** A constant object that a C++ header declares, if the texts of the settings declare none, is that of a constant of
the sources where its `cfg`s hold; it is in the namespaces of the settings, and not in a block for C linkage. -/
theorem C84_cxx_objects_partial (h : StagesX pc lc fuel fuel' i c order l b) (hg : CxxHeaderGood R on D e b) (ht : headerText e b = some tx)
    (hm : CfgSpec.Matches e.cfg.defines rust on) (he : e.cfg.export_ = c.export_) {o : Out} (hr : readHeader R on tx = some o)
    {ns : List Str} {link : Bool} {ws : List Str} {n : Str} {ty : CTy} {ts : List Lx}
    (hb : ∀ k ∈ [e.cfg.header, e.cfg.autogenWarning, e.cfg.afterIncludes, e.cfg.trailer], ¬ Declares (blockOut R on k).items ns link (.constant ws n ty ts))
    (hd : Declares o.items ns link (.constant ws n ty ts)) :
    link = false ∧ ns = e.cfg.namespace_.toList ++ e.cfg.namespaces.getD [] ∧
      MacroSource pc i c e.cfg.caseFns e.cfg.defines rust n := by
  rw [C74_header_reads_back_partial hg ht] at hr
  cases hr
  obtain ⟨h1, h2, hd⟩ := constant_objects hg.lang hb hd
  refine ⟨h1, h2, ?_⟩
  rcases hd with ⟨k, hk, hd⟩ | ⟨x, hx, hexp, hd⟩
  · obtain ⟨hs, hn⟩ := const_objects hd
    exact const_from h hm he hk hs hn
  · obtain ⟨s, rfl, k, hk, hd⟩ := container_objects hg.lang hd
    obtain ⟨hs, hn⟩ := const_objects hd
    exact assoc_from h hg hm he hx hexp hk hs hn

end

end Cbindgen
