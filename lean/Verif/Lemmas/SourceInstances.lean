import Verif.Lemmas.SourceInst
import Verif.Lemmas.SourceDefs
import Verif.Props.SourceGenerics

/-!
# The instances of generic structs of the sources (C71)
-/

namespace Cbindgen
open MonoSpec RefSpec
open SrcSpec hiding Reaches Given Plain

/-! ## Fields -/

/-- What is loaded is related: `g` makes the second shape of the first, of which `P` holds. -/
inductive LoadRel (g : Ty → Ty) (P : Ty → Prop) (o : Option Str) : Option Ty → Option Ty → Prop
  | none : LoadRel g P o none none
  | some {ty ty' : Ty} : g (ty.shape o) = ty'.shape o → P (ty.shape o) → LoadRel g P o (some ty) (some ty')

/-- Fields of related types. -/
theorem fieldsOut_ok {R : SynTy → SynTy → Prop} {g : Ty → Ty} {P : Ty → Prop} {o : Str}
    (hR : ∀ t t', R t t' → ∀ r', t'.load = .ok r' → (∀ ty, r' = some ty → (ty.shape (some o)).Clean) →
      ∃ r, t.load = .ok r ∧ LoadRel g P (some o) r r')
    {fs fs' : List SynField} (h : FieldsOut R fs fs') : ∀ {k fields'}, loadFields o k fs' = .ok fields' →
    (∀ f ∈ fields', (f.ty.simplify .c).Clean) → ∃ fields, loadFields o k fs = .ok fields ∧
      fields.map (Field.mapTy fun t => g (t.simplify .c)) = fields'.map (Field.mapTy (Ty.simplify .c)) ∧
      ∀ f ∈ fields, P (f.ty.simplify .c) := by
  induction h with
  | nil =>
    intro k fields' h _
    cases k <;> cases h <;> exact ⟨[], rfl, rfl, by simp⟩
  | @cons f fs fs' t' ht _ ih =>
    intro k fields' h hc
    cases k with
    | none =>
      obtain ⟨x, ys, h1, h2, rfl⟩ := trySkip_cons h
      simp only [SynField.load, bind, Except.bind] at h1
      split at h1
      · cases h1
      rename_i r' hr'
      split at h1
      · cases h1
        obtain ⟨r, h3, h4⟩ := hR _ _ ht _ hr' nofun
        cases h4
        obtain ⟨fields, h5, h6⟩ := ih (k := none) h2 hc
        exact ⟨fields, trySkipMap_none (by simp only [SynField.load, h3, bind, Except.bind]) h5, h6⟩
      · rename_i ty'
        split at h1
        · cases h1
        rename_i i hi
        split at h1
        · cases h1
        rename_i a ha
        cases h1
        simp only [Option.toList, List.singleton_append, List.mem_cons, forall_eq_or_imp] at hc
        obtain ⟨r, h3, h4⟩ := hR _ _ ht _ hr' (by rintro ty h; cases h; exact hc.1)
        cases h4 with | @some ty _ h4 h4' =>
        obtain ⟨fields, h5, h6, h7⟩ := ih (k := none) h2 hc.2
        refine ⟨_, trySkipMap_some (by simp only [SynField.load, h3, hi, ha, bind, Except.bind]; rfl) h5, ?_, ?_⟩
        · simp only [Option.toList, List.singleton_append, List.map_cons, h6, Field.mapTy]
          congr 2
        · simp only [List.mem_cons, forall_eq_or_imp]
          exact ⟨h4', h7⟩
    | some k =>
      simp only [loadFields, loadTupleFields, bind, Except.bind] at h
      split at h
      · cases h
      rename_i r' hr'
      split at h
      · obtain ⟨r, h3, h4⟩ := hR _ _ ht _ hr' nofun
        cases h4
        obtain ⟨fields, h5, h6⟩ := ih (k := some k) h hc
        exact ⟨fields, by simp only [loadFields] at h5 ⊢; simp only [loadTupleFields, h3, bind, Except.bind, h5], h6⟩
      · rename_i ty'
        split at h
        · cases h
        rename_i a ha
        split at h
        · cases h
        rename_i ys hys
        cases h
        simp only [List.mem_cons, forall_eq_or_imp] at hc
        obtain ⟨r, h3, h4⟩ := hR _ _ ht _ hr' (by rintro ty h; cases h; exact hc.1)
        cases h4 with | @some ty _ h4 h4' =>
        obtain ⟨fields, h5, h6, h7⟩ := ih (k := some (k + 1)) hys hc.2
        simp only [loadFields] at h5
        refine ⟨_, by simp only [loadFields]; simp only [loadTupleFields, h3, bind, Except.bind, ha, h5]; rfl, ?_, ?_⟩
        · simp only [List.map_cons, h6, Field.mapTy]
          congr 2
        · simp only [List.mem_cons, forall_eq_or_imp]
          exact ⟨h4', h7⟩

/-- The types of an instance, with names for the uses in them. -/
theorem instOut_ok {B : Binding} {σ : List (Str × GArg)} {o : Option Str} (hA : Agrees B σ o) {name : Str → List GArg → Option Str}
    {K : Str → Prop} {I : Str → SynArgs → Str → Prop}
    (hI : ∀ n as m, I n as m → ∃ gs, as.load = .ok gs ∧ gs ≠ [] ∧ name n (gs.map (GArg.shape o)) = some m ∧ K n)
    {t t₁ t' : SynTy} (h₁ : SrcSpec.Inst B t t₁) (h₂ : WrittenOut I t₁ t') (r' : Option Ty) (h : t'.load = .ok r')
    (hc : ∀ ty, r' = some ty → (ty.shape o).Clean) :
    ∃ r, t.load = .ok r ∧ LoadRel (fun t => replaced name (t.specialize σ)) (fun t => ∀ n gs, Uses (t.specialize σ) n gs → K n) o r r' := by
  obtain ⟨r₁, h3, h4⟩ := writtenOut_ok hI h₂ h hc
  obtain ⟨r, h5, h6⟩ := inst_ok hA h₁ h3
  refine ⟨r, h5, ?_⟩
  cases h6 with
  | none => cases h4; exact .none
  | some h6 =>
    cases h4 with | some h4 =>
    exact .some (by rw [h6.eq, h4.eq]) (by rw [h6.eq]; exact h4.uses)

/-! ## The uses that are followed -/

/-- The generic uses that lead to instances: those of the definitions and functions that are not generic, and those in the
instances they lead to. -/
inductive SrcSpec.Requested (c : LibConfig) (l : Library) : GUse → Prop
  | here {u} : u ∈ l.monoUses → Requested c l u
  | inside {u items x y σ w} : Requested c l u → l.getItems c u.1 = some items → x ∈ items → y ∈ x.parts →
      y.call u.2.2.1 = some σ → w ∈ (y.specialize c u.2.2.1 σ).monoUses → Requested c l w

/-- The instance `y` is the one of a use that leads to it. -/
def RequestedBy (c : LibConfig) (l : Library) (y : Container) : Prop :=
  ∃ u items x z σ, Requested c l u ∧ l.getItems c u.1 = some items ∧ x ∈ items ∧ z ∈ x.parts ∧ z.call u.2.2.1 = some σ ∧
    y = z.specialize c u.2.2.1 σ

theorem follow_requested {c : LibConfig} {l : Library} : ∀ n u (st st' : Monos), Requested c l u →
    (∀ y ∈ st.all, RequestedBy c l y) → follow c (l.getItems c) n u st = .ok st' → ∀ y ∈ st'.all, RequestedBy c l y
  | 0, u, st, st', _, _, h => by simp [follow] at h
  | n + 1, u, st, st', hu, hi, h => by
    rcases follow_step h with ⟨_, rfl⟩ | ⟨_, _, rfl⟩ | ⟨_, items, hg, hfold⟩
    · exact hi
    · exact hi
    · refine foldlM_ok_inv (I := fun s : Monos => ∀ y ∈ s.all, RequestedBy c l y) ?_ hi hfold
      intro z hz s s' hs he
      obtain ⟨x, hx, hzx⟩ := List.mem_flatMap.1 hz
      refine inst1_inv (I := fun s : Monos => ∀ y ∈ s.all, RequestedBy c l y) he (fun m hm => hs) ?_ ?_
      · intro m hm w hw s s' hs he
        exact follow_requested n w s s' (.inside hu hg hx hzx hm hw) hs he
      · intro m s hm hs y hy
        rcases Monos.mem_push.1 hy with hy | rfl
        · exact hs y hy
        · exact ⟨u, items, x, z, m, hu, hg, hx, hzx, hm, rfl⟩

theorem followAll_requested {c : LibConfig} {l : Library} {n : Nat} {ms : Monos}
    (h : followAll (follow c (l.getItems c) n) l.monoUses {} = .ok ms) : ∀ y ∈ ms.all, RequestedBy c l y :=
  foldlM_ok_inv (I := fun s : Monos => ∀ y ∈ s.all, RequestedBy c l y)
    (fun u hu s s' hs he => follow_requested n u s s' (.here hu) hs he) (by intro y hy; simp [Monos.all] at hy) h

theorem Requested.plain {c : LibConfig} {l : Library} (hc : c.language ≠ .cxx) (hp : l.Every (before RefSpec.Plain c)) {u : GUse}
    (h : Requested c l u) : PlainUse u := by
  induction h with
  | here hu => exact hp.monoUses (before_mono hc) _ hu
  | inside _ hg hx hy hσ hw ih =>
    exact (before_mono hc).uses _ ((before_mono hc).spec _ _ _ ((before_mono hc).parts _ (hp.getItems hg _ hx) _ hy) ih hσ) _ hw

theorem binds_call {o : Option Str} {ps : List SynGenericParam} {as : List SynGArg} {B : Binding} (h : Binds ps as B) :
    ∀ {params gs}, loadParams ps = .ok params → SynGArg.loadList as = .ok gs →
      ∃ σ, callParams params (gs.map (GArg.shape o)) = some σ := by
  induction h with
  | nil => rintro params gs h1 h2; cases h1; cases h2; exact ⟨[], rfl⟩
  | skipParam _ ih =>
    intro params gs h1 h2
    obtain ⟨r, ys, h4, h5, rfl⟩ := trySkip_cons h1
    cases h4
    exact ih h5 h2
  | skipArg _ ih =>
    intro params gs h1 h2
    obtain ⟨r, ys, h4, h5, rfl⟩ := loadList_cons h2
    cases h4
    exact ih h1 h5
  | @type n d t ps as B _ hf ht ih =>
    intro params gs h1 h2
    obtain ⟨r, ys, h4, h5, rfl⟩ := trySkip_cons h1
    obtain ⟨x, xs, h6, h7, rfl⟩ := loadList_cons h2
    simp only [SynGArg.load, bind, Except.bind] at h6
    split at h6
    · cases h6
    rename_i rt hrt
    obtain ⟨ty, rfl⟩ := load_solid ht hrt
    cases h6
    have hp : ∃ p : GParam, r = some p := by
      simp only [SynGenericParam.load, bind, Except.bind] at h4
      split at h4
      · cases h4; exact ⟨_, rfl⟩
      · split at h4
        · cases h4
        · cases h4; exact ⟨_, rfl⟩
    obtain ⟨p, rfl⟩ := hp
    simp only [Option.toList, List.singleton_append, Option.map, consOpt, List.map_cons, GArg.shape]
    rw [callParams_arg]
    obtain ⟨σ, h8⟩ := ih h5 h7
    exact ⟨_, by rw [h8]; rfl⟩
  | @default n d no ps B _ hf hno hd ht ih =>
    intro params gs h1 h2
    cases h2
    obtain ⟨r, ys, h4, h5, rfl⟩ := trySkip_cons h1
    simp only [SynGenericParam.load, bind, Except.bind] at h4
    split at h4
    · cases h4
    cases h4
    simp only [Option.toList, List.singleton_append, List.map_nil]
    rw [callParams_default _ _ rfl]
    obtain ⟨σ, h8⟩ := ih h5 rfl
    exact ⟨_, by rw [List.map_nil] at h8; rw [h8]; rfl⟩
  | @const n t d e ps as B _ hf ih =>
    intro params gs h1 h2
    obtain ⟨r, ys, h4, h5, rfl⟩ := trySkip_cons h1
    obtain ⟨x, xs, h6, h7, rfl⟩ := loadList_cons h2
    simp only [SynGArg.load, bind, Except.bind] at h6
    split at h6
    · cases h6
    cases h6
    have hp : ∃ p : GParam, r = some p := by
      simp only [SynGenericParam.load, bind, Except.bind] at h4
      split at h4
      · cases h4
      · split at h4
        · cases h4
        · split at h4
          · cases h4; exact ⟨_, rfl⟩
          · split at h4
            · cases h4
            · cases h4; exact ⟨_, rfl⟩
    obtain ⟨p, rfl⟩ := hp
    simp only [Option.toList, List.singleton_append, consOpt, List.map_cons, GArg.shape]
    rw [callParams_arg]
    obtain ⟨σ, h8⟩ := ih h5 h7
    exact ⟨_, by rw [h8]; rfl⟩

theorem struct_load_params {lc : LoadConfig} {s : SynStruct} {style : ReprStyle} {al : Option ReprAlign} {a : Annotations}
    {fields : List Field} {params : List GParam} (hg : loadParams s.generics = .ok params) (hl : LayoutIs lc s.attrs style al)
    (hs : style = .c ∨ style = .transparent)
    (ha : Annotations.load s.attrs = .ok a) (hf : s.fields.load (unraw s.ident) = .ok fields) (m : Option Cfg) :
    s.load lc m = .ok (StructItem.new (unraw s.ident) params fields false false al (decide (style = .transparent))
      (Cfg.append m (loadCfg s.attrs)) a (loadDoc s.attrs)) := by
  obtain ⟨⟨r, h1, h2, rfl⟩, h3⟩ := hl
  have h4 : structStyle r.style = .ok (decide (style = .transparent)) := by
    rw [h2]
    rcases hs with rfl | rfl <;> rfl
  simp only [SynStruct.load, h1, h4, h3, hf, hg, ha, bind, Except.bind]

/-- Whatever a struct is loaded as, its parameters are loaded. -/
theorem container_params {lc : LoadConfig} {s : SynStruct} {m : Option Cfg} {y : Container} (h : s.container lc m = some y) :
    ∃ params, loadParams s.generics = .ok params := by
  cases hp : loadParams s.generics with
  | ok params => exact ⟨params, rfl⟩
  | error e =>
    exfalso
    have h1 : ∀ x, s.load lc m ≠ .ok x := by
      intro x hx
      simp only [SynStruct.load, hp, bind, Except.bind] at hx
      repeat' (split at hx <;> try cases hx)
    have h2 : ∀ x, loadOpaque (unraw s.ident) s.generics s.attrs m ≠ .ok x := by
      intro x hx
      simp only [loadOpaque, hp, bind, Except.bind] at hx
      cases hx
    unfold SynStruct.container loadedAs at h
    cases h3 : s.load lc m with
    | ok x => exact h1 x h3
    | error e =>
      rw [h3] at h
      cases e with
      | panic => cases h
      | err =>
        cases h4 : loadOpaque (unraw s.ident) s.generics s.attrs m with
        | ok x => exact h2 x h4
        | error e => rw [h4] at h; cases h

/-! ## The tables -/

/-- The struct `s` is given as `t` under `cs`, and its instance for the arguments `gs` is named `m`: nothing else has the
name `n` of the struct, and no use that is followed leads to another definition named `m`. -/
structure SoleInstance (pc : ParseConfig) (i : Inputs) (c : LibConfig) (order : List (Str × Annotations) → List (Str × Annotations))
    (l l₁ : Library) (t : Taken) (s : SynStruct) (cs : List Cfg) (gs : List GArg) (m : Str) : Prop where
  given : SrcSpec.Given pc i t cs
  struct : structOf t = some s
  others : ∀ t' cs', SrcSpec.Given pc i t' cs' → typeName t' = some (unraw s.ident) → t' = t ∧ cs' = cs
  std : unraw s.ident ∉ stdNames
  name : m = c.manglePath (unraw s.ident) gs
  only : ∀ u, Requested c (l.before c order) u → ∀ items, (l.before c order).getItems c u.1 = some items → ∀ x ∈ items, ∀ z ∈ x.parts,
    c.manglePath z.path u.2.2.1 = m → z = x ∧ u.1 = unraw s.ident ∧ u.2.2.1 = gs
  free : ∀ z ∈ l.types, z.path ≠ m
  made : ∃ z ∈ l₁.types, z.path = m
  kept : m ∉ c.export_.exclude
  wanted : c.export_.shouldGenerate .structs = true

section
variable {pc : ParseConfig} {lc : LoadConfig} {fuel fuel' : Nat} {i : Inputs} {c : LibConfig}
  {order : List (Str × Annotations) → List (Str × Annotations)} {l l₁ l' : Library} {b : Bindings}

theorem types_before (c : LibConfig) (order : List (Str × Annotations) → List (Str × Annotations)) (l : Library) :
    (l.before c order).types = (l.transferAnnotations order).types.map (Container.mapTys (Ty.simplify c.language)) := by
  unfold Library.before
  show ((l.transferAnnotations order).simplify c).types = _
  exact types_simplify c _

theorem getItems_types {l : Library} (hw : l.WF) {p : Str} {its : List Container} (h : l.getItems c p = some its) :
    ∀ x ∈ its, x ∈ l.types ∧ x.path = p := by
  intro x hx
  refine ⟨?_, (Library.getItems_path hw h).2 x hx⟩
  rcases Library.getItems_cases h with ⟨_, xs, hx', rfl⟩ | ⟨_, xs, hx', rfl⟩ | ⟨_, xs, hx', rfl⟩ |
    ⟨_, xs, hx', rfl⟩ | ⟨_, xs, hx', rfl⟩ <;> obtain ⟨y, hy, rfl⟩ := List.mem_map.1 hx <;>
    have := ItemMap.mem_toVec_of_getItems hx' hy <;> exact mem_types.2 (by simp [this])

/-- The struct that an instance is. -/
def SrcSpec.instanceOf (s : SynStruct) (m : Str) (fields : List Field) (al : Option ReprAlign) (g : Option Cfg) (a : Annotations) : StructItem :=
  StructItem.new m [] fields false false al false (Cfg.append g (loadCfg s.attrs)) a (loadDoc s.attrs)

/-- All definitions named as the instance are the instance. -/
theorem instance_found (h : Stages pc lc fuel fuel' i c order l l₁ b) (hfo : Reorders lc.fieldOrder) {t : Taken} {s : SynStruct} {cs : List Cfg} {gs : List GArg} {m : Str}
    (hS : SoleInstance pc i c order l l₁ t s cs gs m) {B : Binding} {as : List SynGArg} {gs₀ : List GArg}
    (hB : Binds s.generics as B) (has : SynGArg.loadList as = .ok gs₀) (hgs : gs = gs₀.map (GArg.shape (some (unraw s.ident))))
    {al : Option ReprAlign} (hl : LayoutIs lc s.attrs .c al) {a : Annotations} (ha : Annotations.load s.attrs = .ok a)
    {fs' : List SynField} (hfs : FieldsOut (fun t t' => ∃ t₁, SrcSpec.Inst B t t₁ ∧
      WrittenOut (InstanceName c l (some (unraw s.ident))) t₁ t') (listOf s.fields) fs') {fields' : List Field}
    (hf' : loadFields (unraw s.ident) (countOf s.fields) fs' = .ok fields') (hcl : ∀ f ∈ fields', (f.ty.simplify .c).Clean)
    {ms : Monos} (hms : followAll (follow c ((l.before c order).getItems c) fuel') (l.before c order).monoUses {} = .ok ms) :
    ∀ w ∈ ((l.before c order).insertMonos ms).types, w.path = m → ∃ g a', ParserSpec.GuardIs (Taken.guard (t, g)) cs ∧ a.Alike a' ∧
      ∀ tag, w.finish c ms.find tag = (Container.struct (instanceOf s m fields' al g a')).final c ms.find tag := by
  intro w hw hwm
  have hcx : c.language ≠ .cxx := by rw [h.language]; decide
  obtain ⟨hwf, hsound, _⟩ := build_types h.built h.plain h.onePath
  have htr := h.transfer
  have hwf₀ : (l.before c order).WF := (l.simplified_shape c order).wf hwf
  have hp₀ : (l.before c order).Every (Cbindgen.before RefSpec.Plain c) := before_plain (build_plain hfo h.built)
  rcases (types_cases hwf₀ hw).2 with hw' | hw'
  · rw [types_before, htr] at hw'
    obtain ⟨x, hx, rfl⟩ := List.mem_map.1 hw'
    rw [Container.mapTys_path] at hwm
    exact absurd hwm (hS.free x hx)
  obtain ⟨u, items, x, z, σ, hu, hg, hx, hz, hσ, rfl⟩ := followAll_requested hms w hw'
  rw [Container.specialize_path] at hwm
  obtain ⟨rfl, hun, hug⟩ := hS.only u hu items hg x hx z hz hwm
  obtain ⟨hxt, hxp⟩ := getItems_types hwf₀ hg z hx
  have hplain : (Cbindgen.before RefSpec.Plain c).Of (z.specialize c u.2.2.1 σ) :=
    (before_mono hcx).spec _ _ _ ((before_mono hcx).parts _ (hp₀.getItems hg _ hx) _ hz) (Requested.plain hcx hp₀ hu) hσ
  have hhandled : ∀ v ∈ (z.specialize c u.2.2.1 σ).monoUses, Handled ((l.before c order).getItems c) v ms := by
    obtain ⟨hgr, _⟩ := followAll_grows (Library.definitions hcx hwf₀ hp₀) (hp₀.monoUses (before_mono hcx)) hms
    rcases hgr.monos _ hw' with h | ⟨_, h⟩
    · simp [Monos.all] at h
    · exact h
  have hpu : ∀ v ∈ (z.specialize c u.2.2.1 σ).monoUses, PlainUse v := (before_mono hcx).uses _ hplain
  clear hz
  rw [hun] at hxp
  rw [hug] at hσ hplain hhandled hpu ⊢
  rw [types_before, htr] at hxt
  obtain ⟨y, hy, rfl⟩ := List.mem_map.1 hxt
  rw [Container.mapTys_path] at hxp
  rcases hsound y hy with ⟨t', g, cs', y', h1, h2, h3, h4⟩ | ⟨_, s', hs', rfl⟩
  rotate_left
  · exact absurd (hxp ▸ std_names s' hs') hS.std
  obtain ⟨rfl, rfl⟩ := hS.others t' cs' h1 (by rw [container_name h3, ← h4.same.1, hxp])
  obtain ⟨j1, j2, j3, j4⟩ := structOf_container (lc := lc) hS.struct g
  rw [j1] at h3
  obtain ⟨params, hpar⟩ := container_params h3
  obtain ⟨σ', hσ'⟩ := binds_call (o := some (unraw s.ident)) hB hpar has
  have hA := binds_agrees hB hpar has hσ'
  obtain ⟨fields, k1, k2, k3⟩ := fieldsOut_ok (g := fun t => replaced (fullName c) (t.specialize σ'))
    (P := fun t => ∀ n gs, Uses (t.specialize σ') n gs → (l.getItems c n).isSome = true) (o := unraw s.ident)
    (by rintro t t' ⟨t₁, e1, e2⟩ r' e3 e4; exact instOut_ok hA instanceName_ok e1 e2 r' e3 e4) hfs hf' hcl
  rw [SynStruct.container, struct_load_params hpar hl (Or.inl rfl) ha ((fields_load _ _).trans k1)] at h3
  cases h3
  have hyy : ∃ a' ks, a.Alike a' ∧ y = .struct { StructItem.new (unraw s.ident) params fields false false al (decide (ReprStyle.c = .transparent))
      (Cfg.append g (loadCfg s.attrs)) a (loadDoc s.attrs) with annotations := a', assocConsts := ks } := by
    cases h4 with
    | refl => exact ⟨a, [], .refl a, rfl⟩
    | struct ha' => exact ⟨_, _, ha', rfl⟩
  obtain ⟨a', ks, hal, rfl⟩ := hyy
  have hσσ : σ = σ' := by
    have : callParams params gs = some σ := hσ
    rw [hgs, hσ'] at this
    exact (Option.some.inj this).symm
  subst hσσ
  refine ⟨g, a', h2, hal, fun tag => ?_⟩
  have key : (Container.specialize c gs σ (Container.mapTys (Ty.simplify c.language) (.struct
        { StructItem.new (unraw s.ident) params fields false false al (decide (ReprStyle.c = .transparent))
          (Cfg.append g (loadCfg s.attrs)) a (loadDoc s.attrs) with annotations := a', assocConsts := ks }))).mapTys (Ty.manglePaths ms.find) =
      ((Container.struct (instanceOf s m fields' al g a')).mapTys (Ty.simplify c.language)).mapTys (Ty.manglePaths ms.find) := by
    have e1 : ((fields.map (Field.mapTy (Ty.simplify c.language))).map (Field.mapTy (Ty.specialize σ))).map (Field.mapTy (Ty.manglePaths ms.find)) =
        fields.map (Field.mapTy fun t => replaced (fullName c) ((t.simplify .c).specialize σ)) := by
      rw [List.map_map, List.map_map, h.language]
      apply List.map_congr_left
      intro f hf
      simp only [Function.comp_apply, Field.mapTy]
      congr 1
      have hfm : Field.mapTy (Ty.specialize σ) (Field.mapTy (Ty.simplify c.language) f) ∈
          (fields.map (Field.mapTy (Ty.simplify c.language))).map (Field.mapTy (Ty.specialize σ)) :=
        List.mem_map.2 ⟨_, List.mem_map.2 ⟨f, hf, rfl⟩, rfl⟩
      have hpl : RefSpec.Plain ((f.ty.simplify .c).specialize σ) := by
        have := hplain.2.2.1 _ hfm
        rw [h.language] at this
        exact this
      rw [manglePaths_eq ms.find _ hpl]
      apply replaced_congr
      intro n gs' hu
      have hk := k3 f hf n gs' hu
      obtain ⟨e, k, hmu⟩ := (mem_genericUses _).2 hu
      rw [← h.language] at hmu
      have hmu := List.mem_flatMap (f := fun f : Field => f.ty.genericUses) |>.2 ⟨_, hfm, hmu⟩
      refine handled_find hcx hwf₀ hp₀ hms (u := (n, e, gs', k)) (hpu _ hmu) (hhandled _ hmu) ?_
      rw [← (l.simplified_shape c order).getItems c n] at hk
      intro hno
      rw [show (((l.transferAnnotations order).simplify c).sortFunctions c).getItems c n = none from hno] at hk
      cases hk
    have e2 : (fields'.map (Field.mapTy (Ty.simplify c.language))).map (Field.mapTy (Ty.manglePaths ms.find)) =
        fields'.map (Field.mapTy (Ty.simplify .c)) := by
      rw [List.map_map, h.language]
      apply List.map_congr_left
      intro f hf
      simp only [Function.comp_apply, Field.mapTy]
      rw [clean_mangle _ _ (hcl f hf)]
    simp only [Container.specialize, Container.mapTys, StructItem.specialize, StructItem.mapTys, StructItem.new, instanceOf, e1, e2, k2,
      hS.name, reduceCtorEq, decide_false, ite_self]
  unfold Container.finish Container.final
  rw [key]

/-- The instance is in the tables that the bindings are collected from. -/
theorem instance_prepared (h : Stages pc lc fuel fuel' i c order l l₁ b) (hfo : Reorders lc.fieldOrder) (hl' : l.prepare c order fuel' = .ok l')
    {t : Taken} {s : SynStruct} {cs : List Cfg} {gs : List GArg} {m : Str}
    (hS : SoleInstance pc i c order l l₁ t s cs gs m) {B : Binding} {as : List SynGArg} {gs₀ : List GArg}
    (hB : Binds s.generics as B) (has : SynGArg.loadList as = .ok gs₀) (hgs : gs = gs₀.map (GArg.shape (some (unraw s.ident))))
    {al : Option ReprAlign} (hl : LayoutIs lc s.attrs .c al) {a : Annotations} (ha : Annotations.load s.attrs = .ok a)
    {fs' : List SynField} (hfs : FieldsOut (fun t t' => ∃ t₁, SrcSpec.Inst B t t₁ ∧
      WrittenOut (InstanceName c l (some (unraw s.ident))) t₁ t') (listOf s.fields) fs') {fields' : List Field}
    (hf' : loadFields (unraw s.ident) (countOf s.fields) fs' = .ok fields') (hcl : ∀ f ∈ fields', (f.ty.simplify .c).Clean) :
    ∃ find g a' z its, ParserSpec.GuardIs (Taken.guard (t, g)) cs ∧ a.Alike a' ∧
      (Container.struct (instanceOf s m fields' al g a')).final c find (Resolver.typeFor (l₁.removeExcluded c).resolver) = some z ∧
      z.path = m ∧ l'.getItems c m = some its ∧ z ∈ its := by
  have hwf := (build_types h.built h.plain h.onePath).1
  obtain ⟨ms, hms, h8, h9⟩ := types_final_by h.language hwf h.transfer hl' h.expanded
  have hbe : (l.simplify c).sortFunctions c = l.before c order := by
    unfold Library.before
    rw [h.transfer]
  rw [hbe] at hms h8 h9
  have hfound := instance_found h hfo hS hB has hgs hl ha hfs hf' hcl hms
  have hmade : ∃ w ∈ ((l.before c order).insertMonos ms).types, w.path = m := by
    obtain ⟨z, hz, hzm⟩ := hS.made
    have hcx : c.language ≠ .cxx := by rw [h.language]; decide
    have he := h.expanded
    unfold Library.expand at he
    rw [if_neg hcx] at he
    obtain ⟨ms', hms', rfl⟩ := Library.instantiateMonomorphs_ok he
    rw [show ((l.transferAnnotations order).simplify c).sortFunctions c = l.before c order from rfl, hms] at hms'
    cases hms'
    rw [types_manglePaths] at hz
    obtain ⟨w, hw, rfl⟩ := List.mem_map.1 hz
    rw [Container.mapTys_path] at hzm
    exact ⟨w, hw, hzm⟩
  obtain ⟨w, hw, hwm⟩ := hmade
  obtain ⟨z, hz, hzf⟩ := h9 w hw (by rw [hwm]; exact hS.kept)
  obtain ⟨g, a', h1, h2, h3⟩ := hfound w hw hwm
  rw [h3] at hzf
  obtain ⟨k1, k2⟩ := Container.final_keeps hzf
  have hzm : z.path = m := k1
  obtain ⟨its, h10, h11⟩ := getItems_own (c := c) (Library.prepare_wf hl') hz (by
    intro y hy e
    obtain ⟨w', hw', _, hf'⟩ := (h8 y).1 hy
    obtain ⟨j1, _⟩ := Container.finish_keeps hf'
    obtain ⟨g', a'', _, _, h3'⟩ := hfound w' hw' (by rw [← j1, e, hzm])
    rw [h3'] at hf'
    rw [(Container.final_keeps hf').2, k2]
    rfl) (by rw [k2]; exact hS.wanted)
  exact ⟨ms.find, g, a', z, its, h1, h2, hzf, hzm, by rw [← hzm]; exact h10, h11⟩

end

end Cbindgen
