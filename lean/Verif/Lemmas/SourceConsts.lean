import Verif.Lemmas.SourceStatics
import Verif.Lemmas.SourceEnums

/-!
# From constants in the sources to constants in the bindings (C67)
-/

namespace Cbindgen
open ItemMap

/-! ## Values -/

theorem atom_mono {K K' : Nat → Str → Int → Prop} (h : ∀ lim n v, K lim n v → K' lim n v) {e : SynExpr} {x : Nat} (ha : SrcSpec.Atom K e x) :
    SrcSpec.Atom K' e x := by
  induction ha with
  | int h => exact .int h
  | name hk hx => exact .name (h _ _ _ hk) hx
  | paren _ ih => exact .paren ih

theorem small_mono {K K' : Nat → Str → Int → Prop} (h : ∀ lim n v, K lim n v → K' lim n v) {lim : Nat} {e : SynExpr} {x : Nat}
    (ha : SrcSpec.SmallInt K lim e x) : SrcSpec.SmallInt K' lim e x := by
  induction ha with
  | int h => exact .int h
  | name hk hx => exact .name (h _ _ _ hk) hx
  | paren _ ih => exact .paren ih
  | cast ha ht hx => exact .cast (atom_mono h ha) ht hx
  | op _ _ hz h1 h2 ih1 ih2 => exact .op ih1 ih2 hz h1 h2
  | shift _ hb hz h1 h2 ih => exact .shift ih (atom_mono h hb) hz h1 h2

theorem value_mono {K K' : Nat → Str → Int → Prop} (h : ∀ lim n v, K lim n v → K' lim n v) {lim : Nat} {e : SynExpr} {v : Int}
    (hv : SrcSpec.RustValue K lim e v) : SrcSpec.RustValue K' lim e v := by
  induction hv with
  | int h h' => exact .int h h'
  | byte h => exact .byte h
  | bool => exact .bool
  | neg h h' => exact .neg h h'
  | not h h' h'' => exact .not h h' h''
  | name hk => exact .name (h _ _ _ hk)
  | limit h => exact .limit h
  | paren _ ih => exact .paren ih
  | small hs => exact .small (small_mono h hs)

/-- The rule for one constant. -/
theorem ConstVal.intro {pc : ParseConfig} {i : Inputs} {out : List Str} {rust : CfgSpec.Opt → Bool} {k : SynConst} {cs : List Cfg}
    {n : Str} {lim : Nat} {v : Int} (hS : SrcSpec.SoleConst pc i k cs n) (hc : ∀ x ∈ cs, CfgSpec.holds rust x = true) (hn : n ∉ out)
    (hl : SrcSpec.ScalarLimit k.ty lim) (ha : ∃ a, Annotations.load k.attrs = .ok a)
    (hv : SrcSpec.RustValue (SrcSpec.ConstVal pc i out rust) lim k.expr v) : SrcSpec.ConstVal pc i out rust lim n v := by
  intro P hP
  exact hP k cs n lim v hS hc hn hl ha (value_mono (fun _ _ _ h => h P hP) hv)

/-! ## Loading -/

/-- The constants that an item can put into the table of constants. -/
inductive ConstFrom (ord : List LitField → List LitField) : Taken × Option Cfg → ConstItem → Prop
  | const {k : SynConst} {m x} : loadConstant ord (unraw k.ident) m k.ty k.expr k.attrs none = .ok x → ConstFrom ord (.const k, m) x
  | assoc {r} {k : SynConst} {m x} : loadConstant ord (unraw k.ident ++ r) m k.ty k.expr k.attrs (some r) = .ok x → ConstFrom ord (.assoc r k, m) x
  | flag {b : SynBitflags} {m} {k : SynConst} {f x} : f ∈ b.flags → k.ident = f.name → k.attrs = f.attrs →
      loadConstant ord (unraw k.ident ++ unraw b.name) m k.ty k.expr k.attrs (some (unraw b.name)) = .ok x →
      ConstFrom ord (.bitflags b, m) x

/-- What loading adds to the constants. -/
def AddsConsts (P : ConstItem → Prop) (l l' : Library) (ks : List ConstItem) : Prop :=
  l'.constants = l.constants.insertAll ks ∧ ∀ x ∈ ks, P x

theorem AddsConsts.none {P : ConstItem → Prop} {l l' : Library} (h : l'.constants = l.constants) : AddsConsts P l l' [] :=
  ⟨h, nofun⟩

theorem addOpaque_constants {l l' : Library} {i : Str} {gs : List SynGenericParam} {as : List SAttr} {m : Option Cfg}
    (h : l.addOpaque i gs as m = some l') : l'.constants = l.constants := by
  unfold Library.addOpaque at h
  split at h
  · cases h; rfl
  · cases h

theorem loadStruct_constants {c : LoadConfig} {l l' : Library} {s : SynStruct} {m : Option Cfg}
    (h : l.loadStruct c m s = some l') : l'.constants = l.constants := by
  unfold Library.loadStruct at h
  split at h
  · cases h; rfl
  · exact addOpaque_constants h
  · cases h

theorem loadAssocConst_constants {c : LoadConfig} {l l' : Library} {p : Str} {s : SynConst} {m : Option Cfg}
    (h : l.loadAssocConst c m p s = some l') :
    ∃ ks, AddsConsts (fun x => loadConstant c.fieldOrder (unraw s.ident ++ p) m s.ty s.expr s.attrs (some p) = .ok x) l l' ks := by
  unfold Library.loadAssocConst at h
  split at h
  · rename_i x hx
    split at h
    · cases h
      exact ⟨[x], rfl, by simp [hx]⟩
    · cases h
      exact ⟨[], .none rfl⟩
  · cases h; exact ⟨[], .none rfl⟩
  · cases h

theorem loadAll_constants {α : Type} {f : Library → α → Option Library} {P : α → ConstItem → Prop}
    (hf : ∀ l y l', f l y = some l' → ∃ ks, AddsConsts (P y) l l' ks) : ∀ {ys : List α} {l l' : Library}, loadAll f l ys = some l' →
    ∃ ks, AddsConsts (fun x => ∃ y ∈ ys, P y x) l l' ks
  | [], l, l', h => by cases h; exact ⟨[], .none rfl⟩
  | y :: ys, l, l', h => by
    simp only [loadAll] at h
    split at h
    · rename_i l₁ h1
      obtain ⟨ks, h2, h3⟩ := hf _ _ _ h1
      obtain ⟨ks', h4, h5⟩ := loadAll_constants hf h
      refine ⟨ks ++ ks', by rw [h4, h2, insertAll_append], fun x hx => ?_⟩
      rcases List.mem_append.1 hx with hx | hx
      · exact ⟨y, by simp, h3 x hx⟩
      · obtain ⟨z, hz, hzx⟩ := h5 x hx
        exact ⟨z, by simp [hz], hzx⟩
    · cases h

theorem mem_takenConsts {k : SynConst} : ∀ {ks : List SynConst}, k ∈ takenConsts ks → k ∈ ks
  | [], h => by cases h
  | c :: cs, h => by
    simp only [takenConsts] at h
    split at h
    · simp [mem_takenConsts h]
    · split at h
      · cases h
      · rcases List.mem_cons.1 h with rfl | h
        · simp
        · simp [mem_takenConsts h]

theorem implRoot_path {n r : Str} (h : implRoot (.path n .none) = some r) : r = unraw n := by
  unfold implRoot at h
  by_cases hn : unraw n = c!"PhantomData"
  · simp only [SynTy.load, if_pos hn] at h
    cases h
  · simp only [SynTy.load, if_neg hn, SynArgs.load, bind, Except.bind] at h
    unfold typeOfPath at h
    by_cases h2 : unraw n = c!"PhantomData" ∨ unraw n = c!"PhantomPinned"
    · rw [if_pos h2] at h; cases h
    · rw [if_neg h2] at h
      cases hp : Prim.maybe (unraw n) with
      | some p => simp [hp, Ty.rootPath] at h
      | none =>
        simp only [hp, Ty.newPath, Ty.rootPath, Option.some.injEq] at h
        exact h.symm

theorem load_constants_one {c : LoadConfig} {l l' : Library} {x : Taken × Option Cfg} (h : Taken.load c l x = some l') :
    ∃ ks, AddsConsts (ConstFrom c.fieldOrder x) l l' ks ∧ ∀ k m y, x = (.const k, m) →
      loadConstant c.fieldOrder (unraw k.ident) m k.ty k.expr k.attrs none = .ok y → y ∈ ks := by
  obtain ⟨t, m⟩ := x
  cases t with
  | const k =>
    simp only [Taken.load, Library.loadConst] at h
    split at h
    · rename_i y hy
      cases h
      refine ⟨[y], ⟨rfl, by simpa using .const hy⟩, fun k' m' y' he hy' => ?_⟩
      cases he
      rw [hy] at hy'
      cases hy'
      simp
    · rename_i hy
      cases h
      refine ⟨[], .none rfl, fun k' m' y' he hy' => ?_⟩
      cases he
      rw [hy] at hy'
      cases hy'
    · cases h
  | assoc r k =>
    obtain ⟨ks, h1, h2⟩ := loadAssocConst_constants h
    exact ⟨ks, ⟨h1, fun x hx => .assoc (h2 x hx)⟩, nofun⟩
  | bitflags b =>
    simp only [Taken.load, Library.loadBitflags] at h
    split at h
    · cases h
    rename_i l₁ h1
    have h2 : l₁.constants = l.constants := by
      cases hs : b.structItem with
      | none => rw [hs] at h1; cases h1; rfl
      | some s => rw [hs] at h1; exact loadStruct_constants h1
    unfold Library.loadAssocs at h
    split at h
    · cases h
      exact ⟨[], .none h2, nofun⟩
    rename_i r hr
    obtain ⟨ks, h3, h4⟩ := loadAll_constants (fun _ _ _ h => loadAssocConst_constants h) h
    refine ⟨ks, ⟨by rw [h3]; show l₁.constants.insertAll ks = _; rw [h2], fun x hx => ?_⟩, nofun⟩
    obtain ⟨k, hk, hx⟩ := h4 x hx
    have hk := mem_takenConsts hk
    unfold SynBitflags.consts at hk
    rw [List.mem_map] at hk
    obtain ⟨f, hf, rfl⟩ := hk
    rw [implRoot_path hr] at hx
    exact .flag (List.mem_filter.1 hf).1 rfl rfl hx
  | fn path owner ext f =>
    refine ⟨[], .none ?_, nofun⟩
    simp only [Taken.load, Library.loadFn] at h
    split at h
    · cases h; rfl
    · cases h; rfl
    · cases h
  | static p s =>
    refine ⟨[], .none ?_, nofun⟩
    simp only [Taken.load, Library.loadStatic] at h
    split at h
    · cases h; rfl
    · cases h; rfl
    · cases h
  | struct s => exact ⟨[], .none (loadStruct_constants h), nofun⟩
  | union s =>
    refine ⟨[], .none ?_, nofun⟩
    simp only [Taken.load, Library.loadUnion] at h
    split at h
    · cases h; rfl
    · exact addOpaque_constants h
    · cases h
  | enum s =>
    refine ⟨[], .none ?_, nofun⟩
    simp only [Taken.load, Library.loadEnum] at h
    split at h
    · cases h; rfl
    · exact addOpaque_constants h
    · cases h
  | alias s =>
    refine ⟨[], .none ?_, nofun⟩
    simp only [Taken.load, Library.loadAlias] at h
    split at h
    · cases h; rfl
    · exact addOpaque_constants h
    · cases h

theorem load_constants {c : LoadConfig} : ∀ {ts : List (Taken × Option Cfg)} {l l' : Library}, loadTaken c l ts = some l' →
    ∃ ks, AddsConsts (fun x => ∃ t ∈ ts, ConstFrom c.fieldOrder t x) l l' ks ∧ ∀ k m y, (.const k, m) ∈ ts →
      loadConstant c.fieldOrder (unraw k.ident) m k.ty k.expr k.attrs none = .ok y → y ∈ ks
  | [], l, l', h => by cases h; exact ⟨[], .none rfl, nofun⟩
  | t :: ts, l, l', h => by
    simp only [loadTaken, loadAll] at h
    split at h
    · rename_i l₁ h1
      obtain ⟨ks, ⟨h2, h3⟩, h4⟩ := load_constants_one h1
      obtain ⟨ks', ⟨h5, h6⟩, h7⟩ := load_constants (l := l₁) h
      refine ⟨ks ++ ks', ⟨by rw [h5, h2, insertAll_append], fun x hx => ?_⟩, fun k m y hk hy => ?_⟩
      · rcases List.mem_append.1 hx with hx | hx
        · exact ⟨t, by simp, h3 x hx⟩
        · obtain ⟨z, hz, hzx⟩ := h6 x hx
          exact ⟨z, by simp [hz], hzx⟩
      · rcases List.mem_cons.1 hk with hk | hk
        · exact List.mem_append.2 (Or.inl (h4 k m y hk.symm hy))
        · exact List.mem_append.2 (Or.inr (h7 k m y hk hy))
    · cases h

theorem extendAll_constants : ∀ (rs : List Run) (l : Library),
    (extendAll l rs).constants = l.constants.insertAll (rs.flatMap fun r => r.2.constants.toVec)
  | [], l => rfl
  | r :: rs, l => by
    show (extendAll (l.extendWith r.2) rs).constants = _
    rw [extendAll_constants rs, List.flatMap_cons, insertAll_append]
    rfl

theorem base_constants (b : Bool) : (if b then Library.addStdTypes {} else ({} : Library)).constants = [] := by
  cases b <;> rfl

theorem const_load_keeps {ord : List LitField → List LitField} {path : Str} {m : Option Cfg} {ty : SynTy} {e : SynExpr} {as : List SAttr}
    {o : Option Str} {x : ConstItem} (h : loadConstant ord path m ty e as o = .ok x) :
    x.path = path ∧ x.cfg = Cfg.append m (loadCfg as) ∧ x.associatedTo = o ∧ Annotations.load as = .ok x.annotations ∧
      constExportName path o = .ok x.exportName ∧ ∃ v, e.load ord = .ok v ∧ (o = none → x.value = v) := by
  simp only [loadConstant, bind, Except.bind] at h
  split at h
  · cases h
  split at h
  · cases h
  split at h
  · cases h
  rename_i v hv
  split at h
  · cases h
  rename_i a ha
  split at h
  · cases h
  rename_i en hen
  cases h
  refine ⟨rfl, rfl, rfl, ha, hen, v, hv, ?_⟩
  rintro rfl
  rfl

theorem const_load_ok {ord : List LitField → List LitField} {path : Str} {ty : SynTy} {e : SynExpr} {as : List SAttr}
    {t : Ty} {v : Lit} {a : Annotations} (ht : ty.load = .ok (some t)) (hv : e.load ord = .ok v) (ha : Annotations.load as = .ok a)
    (m : Option Cfg) : ∃ x, loadConstant ord path m ty e as none = .ok x := by
  simp only [loadConstant, bind, Except.bind, ht, hv, ha, constExportName]
  exact ⟨_, rfl⟩

section
variable {pc : ParseConfig} {c : LoadConfig} {fuel : Nat} {i : Inputs} {l : Library}

/-- The constants of the tables are those of the sources. -/
theorem consts_sound (h : buildLibrary pc c fuel i = .ok l) (hp : SrcSpec.InputsPlain i) {x : ConstItem} (hx : x ∈ l.constants.toVec) :
    ∃ t m cs, SrcSpec.Given pc i t cs ∧ ParserSpec.GuardIs (Taken.guard (t, m)) cs ∧ ConstFrom c.fieldOrder (t, m) x := by
  obtain ⟨rs, rfl, hr⟩ := build_runs h
  rw [extendAll_constants, base_constants] at hx
  rcases mem_insertAll_of hx with hx | hx
  · simp [toVec] at hx
  rw [List.mem_flatMap] at hx
  obtain ⟨r, hr1, hx⟩ := hx
  obtain ⟨ks, ⟨h1, h2⟩, _⟩ := load_constants (hr.loaded r hr1)
  rw [h1] at hx
  rcases mem_insertAll_of hx with hx | hx
  · simp [toVec] at hx
  obtain ⟨⟨t, m⟩, ht, hx⟩ := h2 x hx
  obtain ⟨cs, h3, h4⟩ := hr.sound hp hr1 ht
  exact ⟨t, m, cs, h3, h4, hx⟩

theorem consts_wf (h : buildLibrary pc c fuel i = .ok l) : WF l.constants := by
  obtain ⟨rs, rfl, _⟩ := build_runs h
  rw [extendAll_constants, base_constants, insertAll_nil]
  exact wf_tableOf _

/-- What is in the table under the name of a sole constant. -/
theorem SrcSpec.SoleConst.from {k : SynConst} {cs : List Cfg} {n : Str} (hS : SrcSpec.SoleConst pc i k cs n) {t : Taken} {m : Option Cfg}
    {cs' : List Cfg} {ord : List LitField → List LitField} {x : ConstItem} (hg : SrcSpec.Given pc i t cs')
    (hx : ConstFrom ord (t, m) x) (hn : x.path = n) :
    ∃ k', t = .const k' ∧ loadConstant ord n m k'.ty k'.expr k'.attrs none = .ok x ∧
      (k' = k ∧ cs' = cs ∨ (SrcSpec.CanFail cs' ∧ SrcSpec.CanFail cs)) := by
  cases hx with
  | @const k' _ _ hx =>
    have := (const_load_keeps hx).1.symm.trans hn
    exact ⟨k', rfl, by rw [← this]; exact hx, hS.others k' cs' hg this⟩
  | @assoc r k' _ _ hx => exact absurd ((const_load_keeps hx).1.symm.trans hn) (hS.assoc r k' cs' hg)
  | @flag b _ k' f _ hf he _ hx =>
    have := (const_load_keeps hx).1.symm.trans hn
    rw [he] at this
    exact absurd this (hS.flags b cs' hg f hf)

theorem consts_complete (h : buildLibrary pc c fuel i = .ok l) (hp : SrcSpec.InputsPlain i) (ho : SrcSpec.OnePath pc i)
    {n : Str} {k : SynConst} {cs : List Cfg} (hS : SrcSpec.SoleConst pc i k cs n)
    (hl : ∀ m, ∃ x, loadConstant c.fieldOrder n m k.ty k.expr k.attrs none = .ok x) :
    ∃ x m, x ∈ l.constants.toVec ∧ ParserSpec.GuardIs (Taken.guard (.const k, m)) cs ∧
      loadConstant c.fieldOrder n m k.ty k.expr k.attrs none = .ok x := by
  obtain ⟨rs, hl', hr⟩ := build_runs h
  obtain ⟨r, hr1, m, hm, hg⟩ := hr.complete hp ho hS.given
  obtain ⟨x, hx⟩ := hl m
  obtain ⟨ks, ⟨hks, hks2⟩, hks'⟩ := load_constants (hr.loaded r hr1)
  have hxt : x ∈ ks := hks' k m x hm (by rw [hS.name]; exact hx)
  have hxp := (const_load_keeps hx).1
  have htab : l.constants = insertAll [] (rs.flatMap fun r => r.2.constants.toVec) := by
    rw [hl', extendAll_constants, base_constants]
  have hwf : WF ([] : ItemMap ConstItem) := wf_tableOf []
  by_cases hcf : SrcSpec.CanFail cs
  · have hall : ∀ r ∈ rs, ∀ t ∈ r.1, ∀ z, ConstFrom c.fieldOrder t z → z.path = n → z.cfg.isSome = true := by
      intro r hr1 ⟨t, m'⟩ ht z hz hzp
      obtain ⟨cs', h2, h3⟩ := hr.sound hp hr1 ht
      obtain ⟨k', rfl, hz, h4⟩ := hS.from h2 hz hzp
      rw [(const_load_keeps hz).2.1]
      rcases h4 with ⟨rfl, rfl⟩ | ⟨h4, _⟩
      · exact canFail_some h3 hcf
      · exact canFail_some h3 h4
    have hin : ∀ r ∈ rs, ∀ z ∈ r.2.constants.toVec, z.path = n → z.cfg.isSome = true := by
      intro r hr1 z hz hzp
      obtain ⟨ks, ⟨h1, h2⟩, _⟩ := load_constants (hr.loaded r hr1)
      rw [h1] at hz
      rcases mem_insertAll_of hz with hz | hz
      · simp [toVec] at hz
      · obtain ⟨t, ht, hz⟩ := h2 z hz
        exact hall r hr1 t ht z hz hzp
    have hxr : x ∈ r.2.constants.toVec := by
      rw [hks]
      refine insertAll_all hwf hxt fun y hy hyp => ?_
      rcases hy with hy | hy
      · simp [toVec] at hy
      · obtain ⟨t, ht, hy⟩ := hks2 y hy
        exact hall r hr1 t ht y hy (hyp.trans hxp)
    refine ⟨x, m, ?_, hg, hx⟩
    rw [htab]
    refine insertAll_all hwf (List.mem_flatMap.2 ⟨r, hr1, hxr⟩) fun y hy hyp => ?_
    rcases hy with hy | hy
    · simp [toVec] at hy
    · obtain ⟨r', hr', hy⟩ := List.mem_flatMap.1 hy
      exact hin r' hr' y hy (hyp.trans hxp)
  · obtain ⟨y, hy, hyp⟩ := insertAll_adds hwf hxt
    have hyr : y ∈ r.2.constants.toVec := by
      rw [hks]
      exact hy
    obtain ⟨z, hz, hzp⟩ := insertAll_adds hwf (xs := rs.flatMap fun r => r.2.constants.toVec) (List.mem_flatMap.2 ⟨r, hr1, hyr⟩)
    rw [← htab] at hz
    obtain ⟨t, m', cs', k1, k2, k3⟩ := consts_sound h hp hz
    obtain ⟨k', rfl, k4, k5⟩ := hS.from k1 k3 ((hzp.trans hyp).trans hxp)
    rcases k5 with ⟨rfl, rfl⟩ | ⟨_, h4⟩
    · exact ⟨z, m', hz, k2, k4⟩
    · exact absurd h4 hcf

end

/-! ## The library stage -/

theorem constants_final {c : LibConfig} {order : List (Str × Annotations) → List (Str × Annotations)} {fuel : Nat}
    {l : Library} {b : Bindings} (h : l.generate c order fuel = .ok b) (hw : WF l.constants)
    (hg : c.export_.shouldGenerate .constants = true) (x' : ConstItem) :
    x' ∈ b.constants ↔ ∃ x ∈ l.constants.toVec, x.path ∉ c.export_.exclude ∧ x' = x.renameFor c := by
  obtain ⟨l', hl', hb⟩ := Library.generate_ok h
  obtain ⟨l₂, hl₂, hfin⟩ := Library.prepare_ok hl'
  rw [Library.finish_eq] at hfin
  unfold Library.collect at hb
  rw [Option.map_eq_some_iff] at hb
  obtain ⟨d, _, rfl⟩ := hb
  dsimp only
  rw [if_pos hg, mem_sortIf]
  unfold Library.renameItems at hfin
  simp only [Option.bind_eq_bind, Option.bind_eq_some_iff] at hfin
  obtain ⟨ss, _, us, _, es, _, fs, hfs, hr⟩ := hfin
  simp only [Option.pure_def, Option.some.injEq] at hr
  subst hr
  dsimp only
  have h2 : (if c.language = .c then (l₂.removeExcluded c).resolveDeclTypes c
      else l₂.removeExcluded c).constants = (l₂.removeExcluded c).constants := by
    split
    · unfold Library.resolveDeclTypes
      split <;> rfl
    · rfl
  have h3 : l₂.constants = l.constants := by
    rw [(expand_other hl₂).2.1]
    show (l.transferAnnotations order).constants = _
    rw [(transferAnnotations_other order l).2.1]
  have h4 : (l₂.removeExcluded c).constants =
      l.constants.filter fun x => c.export_.exclude.contains x.path := by
    show l₂.constants.filter _ = _
    rw [h3]
  rw [h2, h4, rebuild_wf (wf_mapItems (ConstItem.renameFor c) (fun _ => rfl) (fun _ => rfl) (wf_filter _ hw)), toVec_mapItems,
    toVec_filter, List.mem_map]
  constructor
  · rintro ⟨x, hx, rfl⟩
    rw [List.mem_filter, not_contains] at hx
    exact ⟨x, hx.1, by simpa using hx.2, rfl⟩
  · rintro ⟨x, hx, hex, rfl⟩
    exact ⟨x, List.mem_filter.2 ⟨hx, by rw [not_contains]; simpa using hex⟩, rfl⟩

end Cbindgen
