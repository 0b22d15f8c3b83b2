import Verif.Lemmas.SourceUses
import Verif.Lemmas.SourceItems
import Verif.Props.Library
import Verif.Props.Source

/-!
# From fields in the sources to members in the bindings (C64)
-/

namespace Cbindgen
open CSpec HeadSpec LexSpec ItemMap
open SrcSpec hiding Reaches Given Plain

/-! ## Fields -/

theorem load_guard (as : List SAttr) : ParserSpec.GuardIs (loadCfg as) (conds as) :=
  ⟨fun on => holdsOpt_load on _, fun _ h => mappedOpt_load h⟩

/-- The fields of a struct or union. -/
def loadFields (o : Str) : Option Nat → List SynField → LoadM (List Field)
  | none, fs => trySkipMap (SynField.load o) fs
  | some k, fs => loadTupleFields o k fs

theorem fields_load (o : Str) (fs : SynFields) : fs.load o = loadFields o (countOf fs) (listOf fs) := by
  cases fs <;> rfl

theorem natStr_toDigits (k : Nat) : natStr k = Nat.toDigits 10 k := rfl

section
variable {E : TyEnv} {d : DeclConfig} {o : Str}

theorem EnvFor.any (E : TyEnv) : ∃ d, EnvFor E d :=
  ⟨{ language := .c, nullableAttr := E.nullable, nonNullAttr := E.nonNull, noReturn := E.noReturn, usizeIsSizeT := E.usizeIsSizeT },
    rfl, rfl, rfl, rfl, rfl⟩

theorem loadFields_nothing {k : Option Nat} {f : SynField} {fs : List SynField} {fields : List Field} (hn : SrcSpec.Nothing f.ty)
    (h : loadFields o k fs = .ok fields) : loadFields o k (f :: fs) = .ok fields := by
  cases k with
  | none => exact trySkipMap_none (by simp only [SynField.load, load_nothing hn, bind, Except.bind]) h
  | some k =>
    simp only [loadFields] at h ⊢
    simp only [loadTupleFields, load_nothing hn, bind, Except.bind, h]

theorem loadFields_some {k k' : Option Nat} {f : SynField} {fs : List SynField} {fields : List Field} {n : Str} {ty : Ty} {a : Annotations}
    (hn : FieldName k f.ident n k') (ht : f.ty.load = .ok (some ty)) (ha : Annotations.load f.attrs = .ok a)
    (h : loadFields o k' fs = .ok fields) : loadFields o k (f :: fs) =
      .ok ({ name := n, ty := ty.replaceSelf o, cfg := loadCfg f.attrs, annotations := a, doc := loadDoc f.attrs } :: fields) := by
  cases hi : f.ident with
  | none =>
    rw [hi] at hn
    cases hn
    simp only [loadFields] at h ⊢
    simp only [loadTupleFields, ht, bind, Except.bind, ha, h, natStr_toDigits]
  | some i =>
    rw [hi] at hn
    cases hn with
    | named => exact trySkipMap_some (by simp only [SynField.load, ht, hi, ha, bind, Except.bind]) h
    | tuple =>
      simp only [loadFields] at h ⊢
      simp only [loadTupleFields, ht, bind, Except.bind, ha, h, natStr_toDigits]

/-- A field as a member in C. -/
def Field.asMember (E : TyEnv) (d : DeclConfig) (nm : Str → Str) (f : Field) : CItem :=
  .object false [] (nm f.name) ((f.ty.simplify .c).fin d E.tag E.name false).forgetFnPtr (bitsOf f)

theorem bits_ok {as : List SAttr} {bs : List Lx} (h : FieldBits as bs) :
    ∃ a, Annotations.load as = .ok a ∧ ∀ f : Field, f.annotations = a → bitsOf f = bs := by
  cases h with
  | none h1 h2 => exact ⟨_, h1, fun f hf => by simp [bitsOf, hf, h2]⟩
  | some h1 h2 => exact ⟨_, h1, fun f hf => by simp [bitsOf, hf, h2]⟩

/-- The fields of a definition are loaded, and their types and names are those of the members. -/
theorem members_ok (he : EnvFor E d) (ho : E.owner = some o) {nm : Str → Str} {rust : CfgSpec.Opt → Bool} {k : Option Nat}
    {fs : List SynField} {ms : List CItem} (h : Members E nm rust k fs ms) :
    ∃ fields, loadFields o k fs = .ok fields ∧ (∀ f ∈ fields, (f.ty.simplify .c).Clean) ∧
      ∀ (c : OutConfig) on, CfgSpec.Matches c.defines rust on → (∀ f ∈ fs, ∀ x ∈ conds f.attrs, CfgSpec.Mapped c.defines x) →
        (fields.filter fun f => shown c on f.cfg).map (Field.asMember E d nm) = ms := by
  induction h with
  | @nil k => exact ⟨[], by cases k <;> rfl, by simp, by simp⟩
  | @skip k f fs ms hn _ ih =>
    obtain ⟨fields, h1, h2, h3⟩ := ih
    exact ⟨fields, loadFields_nothing hn h1, h2, fun c on hm hc => h3 c on hm fun f hf => hc f (by simp [hf])⟩
  | @shown k k' f fs ms n u bs hn ht hb hc _ ih =>
    obtain ⟨fields, h1, h2, h3⟩ := ih
    obtain ⟨ty, ht1, ht2⟩ := ctype_ok he ht
    obtain ⟨a, ha, hbits⟩ := bits_ok hb
    refine ⟨_, loadFields_some hn ht1 ha h1, ?_, ?_⟩
    · intro g hg
      rcases List.mem_cons.1 hg with rfl | hg
      · have := ht2.clean
        rw [ho] at this
        exact this
      · exact h2 g hg
    · intro c on hm hmap
      have hs : shown c on (loadCfg f.attrs) = true := by
        rw [shown_guard hm (load_guard f.attrs) (hmap f (by simp)), List.all_eq_true]
        exact hc
      have hf := ht2.fin
      rw [ho] at hf
      simp only [List.filter_cons, hs, if_true, List.map_cons, h3 c on hm fun f hf => hmap f (by simp [hf])]
      congr 1
      simp only [Field.asMember]
      rw [hbits _ rfl, ← hf]
      rfl
  | @hidden k k' f fs ms n u bs hn ht hb hc _ ih =>
    obtain ⟨fields, h1, h2, h3⟩ := ih
    obtain ⟨ty, ht1, ht2⟩ := ctype_ok he ht
    obtain ⟨a, ha, hbits⟩ := bits_ok hb
    refine ⟨_, loadFields_some hn ht1 ha h1, ?_, ?_⟩
    · intro g hg
      rcases List.mem_cons.1 hg with rfl | hg
      · have := ht2.clean
        rw [ho] at this
        exact this
      · exact h2 g hg
    · intro c on hm hmap
      have hs : shown c on (loadCfg f.attrs) = false := by
        rw [shown_guard hm (load_guard f.attrs) (hmap f (by simp)), List.all_eq_false]
        obtain ⟨x, hx, hx'⟩ := hc
        exact ⟨x, hx, by simp [hx']⟩
      simp only [List.filter_cons, hs, Bool.false_eq_true, if_false, h3 c on hm fun f hf => hmap f (by simp [hf])]

theorem mem_tupleFields {f : SynField} : ∀ {fs : List SynField} {k : Nat} {fields : List Field},
    loadTupleFields o k fs = .ok fields → f ∈ fs → ∃ r, f.ty.load = .ok r ∧
      ∀ ty, r = some ty → ∃ g ∈ fields, g.ty = ty.replaceSelf o
  | [], k, fields, h, hm => by simp at hm
  | g :: fs, k, fields, h, hm => by
    simp only [loadTupleFields, bind, Except.bind] at h
    split at h
    · cases h
    rename_i r hr
    split at h
    · rcases List.mem_cons.1 hm with rfl | hm
      · exact ⟨_, hr, nofun⟩
      · exact mem_tupleFields h hm
    · split at h
      · cases h
      split at h
      · cases h
      rename_i fields' hf
      cases h
      rcases List.mem_cons.1 hm with rfl | hm
      · refine ⟨_, hr, ?_⟩
        rintro ty e
        cases e
        exact ⟨_, List.mem_cons_self .., rfl⟩
      · obtain ⟨r', h1, h2⟩ := mem_tupleFields hf hm
        exact ⟨r', h1, fun ty hty => let ⟨g, hg, e⟩ := h2 ty hty; ⟨g, by simp [hg], e⟩⟩

/-- What a field mentions is used by a loaded field. -/
theorem fields_uses {x : Str} (hx : x ∉ stdNames) {k : Option Nat} {f : SynField} {fs : List SynField} {fields : List Field}
    (h : loadFields o k fs = .ok fields) (hf : f ∈ fs) (hm : Mentions (some o) f.ty x) :
    ∃ g ∈ fields, LibSpec.TyUses (g.ty.simplify .c) x := by
  have key : ∃ r, f.ty.load = .ok r ∧ ∀ ty, r = some ty → ∃ g ∈ fields, g.ty = ty.replaceSelf o := by
    cases k with
    | some k => exact mem_tupleFields h hf
    | none =>
      obtain ⟨r, h1, h2⟩ := mem_trySkip h hf
      simp only [SynField.load, bind, Except.bind] at h1
      split at h1
      · cases h1
      rename_i r' hr
      split at h1
      · exact ⟨_, hr, nofun⟩
      · split at h1
        · cases h1
        split at h1
        · cases h1
        cases h1
        refine ⟨_, hr, ?_⟩
        rintro ty e
        cases e
        exact ⟨_, h2 _ rfl, rfl⟩
  obtain ⟨r, h1, h2⟩ := key
  obtain ⟨ty, rfl, hu⟩ := mentions_uses hx hm r h1
  obtain ⟨g, hg, e⟩ := h2 ty rfl
  exact ⟨g, hg, by rw [e]; exact hu⟩

end

/-! ## Parameters -/

theorem onlyLifetimes_load {gs : List SynGenericParam} (h : OnlyLifetimes gs) : loadParams gs = .ok [] := by
  unfold loadParams
  induction gs with
  | nil => rfl
  | cons g gs ih =>
    have := h g (by simp)
    subst this
    exact trySkipMap_none rfl (ih fun g hg => h g (by simp [hg]))

/-! ## The library stage -/

/-- A type after all steps. -/
def endTy (c : LibConfig) (find : Ty → Option Str) (tag : Str → Option DeclKind) (t : Ty) : Ty :=
  ((if c.generateTag then Ty.resolve tag else id) ((t.simplify .c).manglePaths find)).rename c.ren []

theorem setFieldNames_map (g : Str → Str) : ∀ fs : List Field, setFieldNames fs (fs.map fun f => g f.name) = fs.map fun f => { f with name := g f.name }
  | [] => rfl
  | f :: fs => by simp [setFieldNames, setFieldNames_map g fs]

section
variable {c : LibConfig} {find : Ty → Option Str} {tag : Str → Option DeclKind}

theorem mapTys_end (hc : c.language = .c) (fs : List Field) :
    ((if c.generateTag then (fs.map (Field.mapTy (Ty.simplify c.language))).map (Field.mapTy (Ty.manglePaths find)) |>.map (Field.mapTy (Ty.resolve tag))
      else (fs.map (Field.mapTy (Ty.simplify c.language))).map (Field.mapTy (Ty.manglePaths find))).map (Field.mapTy (Ty.rename c.ren []))) =
    fs.map (Field.mapTy (endTy c find tag)) := by
  rw [hc]
  unfold endTy
  cases c.generateTag <;> simp [Field.mapTy, Function.comp_def]

theorem structFieldNames_none (f : CaseFns) (rule : RenameRule) (ns : List Str) :
    structFieldNames f none rule ns = ns.map (memberName f rule) := by
  unfold structFieldNames memberName
  cases rule.notNone <;> simp

theorem unionFieldNames_none (f : CaseFns) (rule : RenameRule) (ns : List Str) :
    unionFieldNames f none rule false ns = ns.map (armName f rule) := by
  unfold unionFieldNames armName
  cases rule.notNone <;> simp

end

end Cbindgen
