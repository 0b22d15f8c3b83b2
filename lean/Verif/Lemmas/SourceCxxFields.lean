import Verif.Lemmas.SourceCxxUses

/-!
# The parameters and fields of definitions in the bindings for C++ (C76)
-/

namespace Cbindgen
open CSpec HeadSpec LexSpec ItemMap
open SrcSpec hiding Reaches Given Plain

/-! ## Parameters -/

/-- The parameters of a definition are loaded as those of the template. -/
theorem generics_ok {E : TyEnv} {gs : List SynGenericParam} {ps : List TParam} (h : CxxGenerics E gs ps) :
    ∃ vs, loadParams gs = .ok vs ∧ vs.map GParam.name = genericNames gs ∧
      ∀ c : OutConfig, c.usizeIsSizeT = E.usizeIsSizeT → vs.map (tparamOf c false) = ps := by
  induction h with
  | nil => exact ⟨[], rfl, rfl, fun _ _ => rfl⟩
  | lifetime _ ih =>
    obtain ⟨vs, h1, h2, h3⟩ := ih
    exact ⟨vs, trySkipMap_none rfl h1, h2, h3⟩
  | @type i gs ps _ ih =>
    obtain ⟨vs, h1, h2, h3⟩ := ih
    refine ⟨{ name := unraw i } :: vs, trySkipMap_some rfl h1, by simp [h2, genericNames], fun c hc => ?_⟩
    simp [h3 c hc, tparamOf]
  | @value i n as u gs ps hu hn _ ih =>
    obtain ⟨vs, h1, h2, h3⟩ := ih
    have hp : ∃ p, Prim.maybe (unraw n) = some p ∧ p.toReprC E.usizeIsSizeT = u := by
      rcases List.mem_append.1 hu with hu | hu
      · obtain ⟨s, k, h3, h4⟩ := int_prim _ _ hu
        exact ⟨_, h3, h4 true⟩
      · obtain ⟨p, h3, h4, _⟩ := other_prim E.usizeIsSizeT _ hu
        exact ⟨p, h3, h4⟩
    obtain ⟨p, hp, hu⟩ := hp
    refine ⟨{ name := unraw i, constTy := some (.prim p) } :: vs, trySkipMap_some ?_ h1, by simp [h2, genericNames], fun c hc => ?_⟩
    · simp only [SynGenericParam.load, load_maybe hn hp, bind, Except.bind]
    · rw [List.map_cons, h3 c hc, ← hu, ← hc]
      rfl

theorem hasParam_names (vs : List GParam) (n : Str) : hasParam vs n = decide (n ∈ vs.map GParam.name) := by
  rw [Bool.eq_iff_iff]
  simp [hasParam]

theorem isParam_names {vs : List GParam} {n : Str} : LibSpec.IsParam vs n ↔ n ∈ vs.map GParam.name := by
  simp [LibSpec.IsParam]

/-! ## Fields -/

section
variable {E : TyEnv} {d : DeclConfig} {ren : Str → Str} {vs : List GParam} {o : Str}

theorem EnvForX.any (E : TyEnv) : ∃ d, EnvForX E d E.name [] :=
  ⟨{ language := .cxx, nullableAttr := E.nullable, nonNullAttr := E.nonNull, noReturn := E.noReturn, usizeIsSizeT := E.usizeIsSizeT },
    rfl, rfl, rfl, rfl, rfl, fun _ => rfl⟩

/-- A field as a member in C++. -/
def Field.asMemberX (d : DeclConfig) (ren : Str → Str) (vs : List GParam) (nm : Str → Str) (f : Field) : CItem :=
  .object false [] (nm f.name) ((f.ty.simplify .cxx).finX d ren vs false).forgetFnPtr (bitsOf f)

/-- The fields of a definition are loaded, and their types and names are those of the members. -/
theorem members_okX (he : EnvForX E d ren vs) (ho : E.owner = some o) {nm : Str → Str} {rust : CfgSpec.Opt → Bool} {k : Option Nat}
    {fs : List SynField} {ms : List CItem} (h : CxxMembers E nm rust k fs ms) :
    ∃ fields, loadFields o k fs = .ok fields ∧
      ∀ (c : OutConfig) on, CfgSpec.Matches c.defines rust on → (∀ f ∈ fs, ∀ x ∈ conds f.attrs, CfgSpec.Mapped c.defines x) →
        (fields.filter fun f => shown c on f.cfg).map (Field.asMemberX d ren vs nm) = ms := by
  induction h with
  | @nil k => exact ⟨[], by cases k <;> rfl, by simp⟩
  | @skip k f fs ms hn _ ih =>
    obtain ⟨fields, h1, h3⟩ := ih
    exact ⟨fields, loadFields_nothing hn h1, fun c on hm hc => h3 c on hm fun f hf => hc f (by simp [hf])⟩
  | @shown k k' f fs ms n u bs hn ht hb hc _ ih =>
    obtain ⟨fields, h1, h3⟩ := ih
    obtain ⟨ty, ht1, ht2⟩ := xtype_ok he ht
    obtain ⟨a, ha, hbits⟩ := bits_ok hb
    refine ⟨_, loadFields_some hn ht1 ha h1, ?_⟩
    intro c on hm hmap
    have hs : shown c on (loadCfg f.attrs) = true := by
      rw [shown_guard hm (load_guard f.attrs) (hmap f (by simp)), List.all_eq_true]
      exact hc
    have hf := ht2.fin
    rw [ho] at hf
    simp only [List.filter_cons, hs, if_true, List.map_cons, h3 c on hm fun f hf => hmap f (by simp [hf])]
    congr 1
    simp only [Field.asMemberX]
    rw [hbits _ rfl, ← hf]
    rfl
  | @hidden k k' f fs ms n u bs hn ht hb hc _ ih =>
    obtain ⟨fields, h1, h3⟩ := ih
    obtain ⟨ty, ht1, ht2⟩ := xtype_ok he ht
    obtain ⟨a, ha, hbits⟩ := bits_ok hb
    refine ⟨_, loadFields_some hn ht1 ha h1, ?_⟩
    intro c on hm hmap
    have hs : shown c on (loadCfg f.attrs) = false := by
      rw [shown_guard hm (load_guard f.attrs) (hmap f (by simp)), List.all_eq_false]
      obtain ⟨x, hx, hx'⟩ := hc
      exact ⟨x, hx, by simp [hx']⟩
    simp only [List.filter_cons, hs, Bool.false_eq_true, if_false, h3 c on hm fun f hf => hmap f (by simp [hf])]

end

/-- A type after all steps, in a definition with the parameters `vs`. -/
def endTyX (c : LibConfig) (vs : List GParam) (t : Ty) : Ty := (t.simplify .cxx).rename c.ren vs

/-- A definition after all steps of the library stage for C++. -/
def Container.finalX (c : LibConfig) (x : Container) : Option Container := (x.mapTys (Ty.simplify .cxx)).renameFor c

end Cbindgen
