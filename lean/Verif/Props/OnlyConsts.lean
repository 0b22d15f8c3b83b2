import Verif.Lemmas.OnlyConsts
import Verif.Props.SourceConsts
import Verif.Props.OnlyTypes

/-!
# C84: a C header defines no macros but its guard and those of the constants of the sources
-/

namespace Cbindgen
open CSpec HeadSpec LexSpec ScopeSpec
open SrcSpec hiding Reaches Given Plain Declares

section
variable {R : Dialect} {on : Str → Bool} {e : Env}

theorem const_macros {s : Option StructItem} {k : ConstItem} {d : Str × List Lx} (h : d ∈ (constOut e on s k).macros) :
    shown e.cfg on k.cfg = true ∧ k.writtenName e.cfg s = some d.1 := by
  unfold constOut at h
  split at h
  · cases h
  split at h
  · rename_i name value hn hv
    rw [macros_when] at h
    split at h
    · rename_i hs
      split at h
      · cases h
      · rw [List.mem_singleton.1 h]
        exact ⟨hs, hn⟩
    · cases h
  · cases h

theorem assoc_macros {s : StructItem} {d : Str × List Lx} (h : d ∈ (assocOut e on s).macros) :
    ∃ k ∈ s.assocConsts, d ∈ (constOut e on (some s) k).macros := by
  simp only [assocOut, macros_outs, List.mem_flatMap, List.mem_map] at h
  obtain ⟨_, ⟨k, hk, rfl⟩, h⟩ := h
  exact ⟨k, hk, h⟩

theorem struct_macros {s : StructItem} {d : Str × List Lx} (h : d ∈ (structOut R e on s).macros) :
    ∃ k ∈ s.assocConsts, d ∈ (constOut e on (some s) k).macros := by
  rw [structOut, macros_when] at h
  split at h
  · rw [macros_append, List.mem_append] at h
    rcases h with h | h
    · cases h
    · exact assoc_macros h
  · cases h

theorem tag_macros {x : EnumItem} {d : Str × List Lx} (hc : e.cfg.language = .c) : d ∉ (tagEnumOut e on x).macros := by
  intro h
  unfold tagEnumOut at h
  rw [if_neg (by rw [hc]; decide)] at h
  simp only at h
  split at h
  · cases h
  · rw [macros_append, List.mem_append, macros_when] at h
    rcases h with h | h
    · cases h
    · split at h <;> cases h

/-- The macros for an item are those of its constants. -/
theorem container_macros (hc : e.cfg.language = .c) {x : Container} {d : Str × List Lx} (h : d ∈ (containerOut R e on x).macros) :
    (∃ s, x = .struct s ∧ ∃ k ∈ s.assocConsts, d ∈ (constOut e on (some s) k).macros) ∨ ∃ s ∈ x.bodies, s.assocConsts ≠ [] := by
  cases x with
  | struct x =>
    left
    simp only [containerOut] at h
    split at h
    · rw [macros_append, List.mem_append, typedefOut, macros_when] at h
      rcases h with h | h
      · split at h <;> cases h
      · exact ⟨x, rfl, assoc_macros h⟩
    · exact ⟨x, rfl, struct_macros h⟩
  | union x =>
    simp only [containerOut, unionOut, macros_when] at h
    split at h <;> cases h
  | «opaque» x =>
    simp only [containerOut, opaqueOut, macros_when] at h
    split at h <;> cases h
  | typedef x =>
    simp only [containerOut, typedefOut, macros_when] at h
    split at h <;> cases h
  | enum x =>
    right
    simp only [containerOut, enumOut, macros_when] at h
    split at h
    · rw [if_neg (by rw [hc]; simp), macros_append, List.mem_append] at h
      rcases h with h | h
      · exact absurd h (tag_macros hc)
      · split at h
        · rw [macros_append, List.mem_append, macros_outs, List.mem_flatMap] at h
          rcases h with ⟨o, ho, h⟩ | h
          · obtain ⟨v, hv, rfl⟩ := List.mem_map.1 ho
            unfold bodyOut at h
            split at h
            · rename_i hb
              rw [macros_when] at h
              split at h
              · obtain ⟨k, hk, _⟩ := struct_macros h
                exact ⟨_, mem_bodies.2 ⟨v, hv, _, _, _, hb⟩, List.ne_nil_of_mem hk⟩
              · cases h
            · cases h
          · cases h
        · cases h
    · cases h

/-- The macros of a C header: those of the blocks of the settings, the guard, and those of constants. -/
theorem header_macros {b : Bindings} (hc : e.cfg.language = .c) {d : Str × List Lx} (h : d ∈ (headerOut R e on b).macros) :
    (∃ k ∈ [e.cfg.header, e.cfg.autogenWarning, e.cfg.afterIncludes, e.cfg.trailer], d ∈ (blockOut R on k).macros) ∨
    (∃ g, e.cfg.guard = some g ∧ d = (g, [])) ∨ (∃ k ∈ b.constants, d ∈ (constOut e on none k).macros) ∨
    ∃ x ∈ b.items, d ∈ (containerOut R e on x).macros := by
  have consts : ∀ p, d ∈ (constantsOut e on p b.constants).macros → ∃ k ∈ b.constants, d ∈ (constOut e on none k).macros := by
    intro p h
    simp only [constantsOut, macros_outs, List.mem_flatMap, List.mem_map, List.mem_filter] at h
    obtain ⟨_, ⟨k, ⟨hk, _⟩, rfl⟩, h⟩ := h
    exact ⟨k, hk, h⟩
  simp only [headerOut, macros_append, List.mem_append, macros_when] at h
  rcases h with (h | h) | h
  · exact Or.inl ⟨_, by simp, h⟩
  · split at h
    · simp only [guardedOut, macros_append, List.mem_append] at h
      rcases h with (((h | h) | h) | h) | h
      · simp only [guardOut, List.mem_map, Option.mem_toList] at h
        obtain ⟨g, hg, rfl⟩ := h
        exact Or.inr (Or.inl ⟨g, hg, rfl⟩)
      · exact Or.inl ⟨_, by simp, h⟩
      · cases h
      · exact Or.inl ⟨_, by simp, h⟩
      · simp only [bindingsOut, macros_append, List.mem_append] at h
        rcases h with (((h | h) | h) | h) | h
        · exact Or.inr (Or.inr (Or.inl (consts _ h)))
        · simp only [macros_outs, List.mem_flatMap, List.mem_map, List.mem_filter] at h
          obtain ⟨_, ⟨x, ⟨hx, _⟩, rfl⟩, h⟩ := h
          exact Or.inr (Or.inr (Or.inr ⟨x, hx, h⟩))
        · exact Or.inr (Or.inr (Or.inl (consts _ h)))
        · simp only [macros_outs, List.mem_flatMap, List.mem_map, List.mem_filter] at h
          obtain ⟨_, ⟨x, _, rfl⟩, h⟩ := h
          rw [staticOut, macros_when] at h
          split at h <;> cases h
        · simp only [macros_outs, List.mem_flatMap, List.mem_map, List.mem_filter] at h
          obtain ⟨_, ⟨x, _, rfl⟩, h⟩ := h
          rw [funcOut, macros_when] at h
          split at h <;> cases h
    · cases h
  · exact Or.inl ⟨_, by simp, h⟩

end

section
variable {pc : ParseConfig} {lc : LoadConfig} {fuel fuel' : Nat} {i : Inputs} {c : LibConfig}
  {order : List (Str × Annotations) → List (Str × Annotations)} {l l₁ : Library} {b : Bindings}
  {R : Dialect} {on : Str → Bool} {D : List Str} {e : Env} {tx : Str} {rust : CfgSpec.Opt → Bool}

theorem stripSuffix_append (a s : Str) : stripSuffix s (a ++ s) = some a := by
  unfold stripSuffix
  rw [if_pos (List.isSuffixOf_iff_suffix.2 ⟨a, rfl⟩)]
  simp

/-- The name and the condition of a constant that was loaded. -/
theorem ConstFrom.named {ord : List LitField → List LitField} {t : Taken} {m : Option Cfg} {k : ConstItem} (h : ConstFrom ord (t, m) k) :
    (∃ s, t = .const s ∧ k.cfg = Cfg.append m (loadCfg s.attrs) ∧ k.associatedTo = none ∧ k.path = unraw s.ident ∧ k.exportName = unraw s.ident) ∨
    (∃ r s, t = .assoc r s ∧ k.cfg = Cfg.append m (loadCfg s.attrs) ∧ k.associatedTo = some r ∧ k.exportName = unraw s.ident) ∨
    ∃ b f, t = .bitflags b ∧ f ∈ b.flags ∧ k.cfg = Cfg.append m (loadCfg f.attrs) ∧ k.associatedTo = some (unraw b.name) ∧
      k.exportName = unraw f.name := by
  cases h with
  | const h =>
    obtain ⟨h1, h2, h3, _, h5, _⟩ := const_load_keeps h
    simp only [constExportName, Except.ok.injEq] at h5
    exact Or.inl ⟨_, rfl, h2, h3, h1, h5.symm⟩
  | assoc h =>
    obtain ⟨h1, h2, h3, _, h5, _⟩ := const_load_keeps h
    simp only [constExportName, stripSuffix_append, Except.ok.injEq] at h5
    exact Or.inr (Or.inl ⟨_, _, rfl, h2, h3, h5.symm⟩)
  | flag hf hi ha h =>
    obtain ⟨h1, h2, h3, _, h5, _⟩ := const_load_keeps h
    simp only [constExportName, stripSuffix_append, Except.ok.injEq] at h5
    exact Or.inr (Or.inr ⟨_, _, rfl, hf, by rw [h2, ha], h3, by rw [← h5, hi]⟩)

/-- What is shown inside of an item has predicates that hold, and so have the modules around the item. -/
theorem shown_inner (hm : CfgSpec.Matches e.cfg.defines rust on) {m g : Option Cfg} {cs : List Cfg}
    (hg : ParserSpec.GuardIs (Cfg.append m g) cs) (hcs : ∀ x ∈ cs, CfgSpec.Mapped e.cfg.defines x) {as : List SAttr}
    (has : ∀ x ∈ conds as, CfgSpec.Mapped e.cfg.defines x) (h : shown e.cfg on (Cfg.append m (loadCfg as)) = true) :
    CfgSpec.holdsOpt rust m = true ∧ ∀ x ∈ conds as, CfgSpec.holds rust x = true := by
  have h2 : ∀ x ∈ m.toList, CfgSpec.Mapped e.cfg.defines x := by
    intro x hx
    rw [Option.mem_toList] at hx
    subst hx
    have := hg.2 e.cfg.defines hcs
    cases g with
    | none => exact this _ rfl
    | some g =>
      have := this _ rfl
      simp only [CfgSpec.Mapped, CfgSpec.MappedAll] at this
      exact this.2.1
  have hb := below_guarded m (as.map (·.attr))
  rw [shown_guard hm (cs := m.toList ++ conds as)] at h
  · rw [List.all_append, Bool.and_eq_true] at h
    refine ⟨?_, List.all_eq_true.1 h.2⟩
    cases m with
    | none => rfl
    | some x => simpa [CfgSpec.holdsOpt] using h.1
  · refine ⟨fun on => ?_, fun d hd => hb.2 d ?_ fun x hx => hd x (List.mem_append.2 (Or.inr hx))⟩
    · show CfgSpec.holdsOpt on (Cfg.append m (Cfg.load (as.map (·.attr)))) = _
      rw [hb.1 on, List.all_append]
      cases m <;> simp [CfgSpec.holdsOpt] <;> rfl
    · intro x hx
      exact hd x (List.mem_append.2 (Or.inl (by simp [hx])))
  · intro x hx
    rcases List.mem_append.1 hx with hx | hx
    · exact h2 x hx
    · exact has x hx

/-- A constant that is written under a name. -/
theorem FromSource.macro {k : ConstItem} (h : FromSource pc i lc.fieldOrder k) (hm : CfgSpec.Matches e.cfg.defines rust on)
    {s : Option StructItem} (hb : inBody e.cfg s = false) (he : e.cfg.export_ = c.export_)
    (hk : k.associatedTo = none → c.export_.shouldGenerate .constants = true ∧ k.path ∉ c.export_.exclude)
    (hs : ∀ x, s = some x → x.exportName = c.ren x.path ∧ k.associatedTo = some x.path)
    (hsh : shown e.cfg on k.cfg = true) {n : Str} (hn : (k.renameFor c).writtenName e.cfg s = some n) :
    MacroSource pc i c e.cfg.caseFns e.cfg.defines rust n := by
  obtain ⟨t, m, cs, h1, h2, h3⟩ := h
  have lead : ∀ q, k.associatedTo = some q → ∃ ld, Lead c e.cfg.caseFns q ld ∧ n = ld ++ c!"_" ++ k.exportName := by
    intro q hq
    have hr : (k.renameFor c).associatedTo = some q := hq
    have hx : (k.renameFor c).exportName = k.exportName := by simp [ConstItem.renameFor, hq]
    simp only [ConstItem.writtenName, hb, hr, Option.map_eq_some_iff, hx] at hn
    obtain ⟨ld, hl, rfl⟩ := hn
    refine ⟨ld, ?_, rfl⟩
    cases s with
    | none =>
      simp only [associatedName, Option.some.injEq] at hl
      left
      rw [← hl, he]
      rfl
    | some x =>
      obtain ⟨g1, g2⟩ := hs x rfl
      rw [hq] at g2
      cases g2
      simp only [associatedName] at hl
      split at hl
      · cases hl
        exact Or.inl g1
      · cases hl
        exact Or.inr ⟨_, by rw [g1]⟩
      · cases hl
  have whole : ∀ as : List SAttr, Taken.attrs t = as → k.cfg = Cfg.append m (loadCfg as) → (∀ x ∈ cs ++ [], CfgSpec.Mapped e.cfg.defines x) →
      (∀ x ∈ [], CfgSpec.holds rust x = true) ∧ (StructFree t → ∀ x ∈ cs, CfgSpec.holds rust x = true) := by
    intro as ha hk hmap
    refine ⟨nofun, fun _ => ?_⟩
    rw [List.append_nil] at hmap
    have : shown e.cfg on (Taken.guard (t, m)) = true := by rw [Taken.guard, ha, ← hk]; exact hsh
    rw [shown_guard hm h2 hmap, List.all_eq_true] at this
    exact this
  rcases h3.named with ⟨s', rfl, g0, g1, g2, g3⟩ | ⟨r, s', rfl, g0, g1, g2⟩ | ⟨b', f, rfl, hf, g0, g1, g2⟩
  · refine ⟨_, cs, [], h1, ?_, whole _ rfl g0⟩
    obtain ⟨k1, k2⟩ := hk g1
    rw [g2] at k2
    have hr : (k.renameFor c).associatedTo = none := g1
    have hx : (k.renameFor c).exportName = c.ren (unraw s'.ident) := by simp [ConstItem.renameFor, g1, g3]
    simp only [ConstItem.writtenName, hb, hr, hx, Option.some.injEq] at hn
    rw [← hn]
    exact .const k1 k2
  · refine ⟨_, cs, [], h1, ?_, whole _ rfl g0⟩
    obtain ⟨ld, hl, rfl⟩ := lead r g1
    rw [g2]
    exact .assoc hl
  · refine ⟨_, cs, conds f.attrs, h1, ?_, fun hmap => ?_⟩
    · obtain ⟨ld, hl, rfl⟩ := lead _ g1
      rw [g2]
      exact .flag hf hl
    · rw [g0] at hsh
      have hcs : ∀ x ∈ cs, CfgSpec.Mapped e.cfg.defines x := fun x hx => hmap x (List.mem_append.2 (Or.inl hx))
      obtain ⟨j1, j2⟩ := shown_inner hm h2 hcs (fun x hx => hmap x (List.mem_append.2 (Or.inr hx))) hsh
      refine ⟨j2, fun hfree => ?_⟩
      have := h2.1 rust
      rw [Taken.guard, holdsOpt_append, j1, Bool.true_and] at this
      have hg := (load_guard (Taken.attrs (.bitflags b'))).1 rust
      rw [show conds (Taken.attrs (.bitflags b')) = [] from hfree _ rfl] at hg
      rw [hg] at this
      exact List.all_eq_true.1 this.symm

theorem block_macros {k : Option Str} {d : Str × List Lx} (hd : d ∈ (blockOut R on k).macros) :
    ∃ s o', k = some s ∧ readHeader R on s = some o' ∧ d ∈ o'.macros := by
  unfold blockOut at hd
  cases k with
  | none => cases hd
  | some s =>
    cases ho : readHeader R on s with
    | none => simp only [Option.map_some, Option.getD_some, ho, Option.getD_none] at hd; cases hd
    | some o' => exact ⟨s, o', rfl, ho, by simpa only [Option.map_some, Option.getD_some, ho] using hd⟩

/-- Constants are written only if they are asked for. -/
theorem constants_asked (h : l.generate c order fuel' = .ok b) {k : ConstItem} (hk : k ∈ b.constants) :
    c.export_.shouldGenerate .constants = true := by
  obtain ⟨l', _, hb⟩ := Library.generate_ok h
  unfold Library.collect at hb
  rw [Option.map_eq_some_iff] at hb
  obtain ⟨d', _, rfl⟩ := hb
  dsimp only at hk
  split at hk
  · assumption
  · cases hk

/-- **C84.** A macro that a C header defines is the guard, or in a text of the settings, or that of a constant of the sources
(a public constant that the settings let through, an associated constant, or a flag of `bitflags!`) where its `cfg`s hold. -/
theorem C84_c_partial (h : Stages pc lc fuel fuel' i c order l l₁ b) (hg : HeaderGood R on D e b) (ht : headerText e b = some tx)
    (hm : CfgSpec.Matches e.cfg.defines rust on) (he : e.cfg.export_ = c.export_) {o : Out} (hr : readHeader R on tx = some o)
    {d : Str × List Lx} (hd : d ∈ o.macros) :
    (∃ k ∈ [e.cfg.header, e.cfg.autogenWarning, e.cfg.afterIncludes, e.cfg.trailer], ∃ s o', k = some s ∧ readHeader R on s = some o' ∧ d ∈ o'.macros) ∨
    (∃ g, e.cfg.guard = some g ∧ d = (g, [])) ∨ MacroSource pc i c e.cfg.caseFns e.cfg.defines rust d.1 := by
  rw [C61_header_reads_back hg ht] at hr
  cases hr
  have hc := hg.options.lang
  have hev := assocs_final (assocs_sound h.built h.plain) h.generated
  rcases header_macros hc hd with ⟨k, hk, hd⟩ | hd | ⟨k, hk, hd⟩ | ⟨x, hx, hd⟩
  · exact Or.inl ⟨k, hk, block_macros hd⟩
  · exact Or.inr (Or.inl hd)
  · refine Or.inr (Or.inr ?_)
    obtain ⟨hs, hn⟩ := const_macros hd
    have hgen := constants_asked h.generated hk
    obtain ⟨k₀, hk₀, hex, rfl⟩ := (constants_final h.generated (consts_wf h.built) hgen k).1 hk
    exact FromSource.macro (consts_sound h.built h.plain hk₀) hm (s := none) rfl he (fun _ => ⟨hgen, hex⟩) nofun hs hn
  · refine Or.inr (Or.inr ?_)
    have hx' := hev.items x hx
    rcases container_macros hc hd with ⟨s, rfl, k, hk, hd⟩ | ⟨s, hs, hne⟩
    · obtain ⟨h1, h2⟩ := hx'
      obtain ⟨k₀, g1, g2, rfl⟩ := h2 k hk
      obtain ⟨hs, hn⟩ := const_macros hd
      refine FromSource.macro g1 hm (s := some s) (by simp [inBody, hc]) he (fun hn => by rw [g2] at hn; cases hn) (fun y hy => ?_) hs hn
      cases hy
      exact ⟨h1 (by rw [h.language]; decide), g2⟩
    · cases x with
      | enum x => exact absurd (hx' s hs) hne
      | struct => cases hs
      | union => cases hs
      | «opaque» => cases hs
      | typedef => cases hs

end

end Cbindgen
