import Verif.Lemmas.SourceTables
import Verif.Spec.SourceDefs

/-!
# From what is taken to the variables of the bindings (C65)
-/

namespace Cbindgen
open ItemMap

/-- The variable that is loaded. -/
def Taken.staticItem : Taken × Option Cfg → Option StaticItem
  | (.static path s, m) =>
    match s.load path m with
    | .ok x => some x
    | .error _ => none
  | _ => none

theorem insertAll_append {α : Type} [Item α] (m : ItemMap α) (xs ys : List α) :
    m.insertAll (xs ++ ys) = (m.insertAll xs).insertAll ys := List.foldl_append ..

theorem insertAll_none {α : Type} [Item α] (m : ItemMap α) : m.insertAll [] = m := rfl

theorem addOpaque_globals {l l' : Library} {i : Str} {gs : List SynGenericParam} {as : List SAttr} {m : Option Cfg}
    (h : l.addOpaque i gs as m = some l') : l'.globals = l.globals := by
  unfold Library.addOpaque at h
  split at h
  · cases h; rfl
  · cases h

theorem loadStruct_globals {c : LoadConfig} {l l' : Library} {s : SynStruct} {m : Option Cfg}
    (h : l.loadStruct c m s = some l') : l'.globals = l.globals := by
  unfold Library.loadStruct at h
  split at h
  · cases h; rfl
  · exact addOpaque_globals h
  · cases h

theorem loadAssocConst_globals {c : LoadConfig} {l l' : Library} {p : Str} {s : SynConst} {m : Option Cfg}
    (h : l.loadAssocConst c m p s = some l') : l'.globals = l.globals := by
  unfold Library.loadAssocConst at h
  split at h
  · split at h <;> (cases h; rfl)
  · cases h; rfl
  · cases h

theorem loadAssocs_globals {c : LoadConfig} {l l' : Library} {t : SynTy} {ks : List SynConst} {m : Option Cfg}
    (h : l.loadAssocs c m t ks = some l') : l'.globals = l.globals := by
  unfold Library.loadAssocs at h
  split at h
  · cases h; rfl
  · exact loadAll_keeps (·.globals) (fun _ _ _ h => loadAssocConst_globals h) h

theorem load_globals_one {c : LoadConfig} {l l' : Library} {x : Taken × Option Cfg} (h : Taken.load c l x = some l') :
    l'.globals = l.globals.insertAll (Taken.staticItem x).toList := by
  obtain ⟨t, m⟩ := x
  cases t with
  | fn path owner ext f =>
    simp only [Taken.load, Library.loadFn] at h
    split at h
    · cases h; rfl
    · cases h; rfl
    · cases h
  | const k =>
    simp only [Taken.load, Library.loadConst] at h
    split at h
    · cases h; rfl
    · cases h; rfl
    · cases h
  | static p s =>
    simp only [Taken.load, Library.loadStatic] at h
    simp only [Taken.staticItem]
    cases hx : s.load p m with
    | ok y => rw [hx] at h; cases h; rfl
    | error e =>
      rw [hx] at h
      cases e with
      | err => cases h; rfl
      | panic => cases h
  | struct s => rw [loadStruct_globals h]; rfl
  | union s =>
    simp only [Taken.load, Library.loadUnion] at h
    split at h
    · cases h; rfl
    · rw [addOpaque_globals h]; rfl
    · cases h
  | enum s =>
    simp only [Taken.load, Library.loadEnum] at h
    split at h
    · cases h; rfl
    · rw [addOpaque_globals h]; rfl
    · cases h
  | alias s =>
    simp only [Taken.load, Library.loadAlias] at h
    split at h
    · cases h; rfl
    · rw [addOpaque_globals h]; rfl
    · cases h
  | bitflags b =>
    simp only [Taken.load, Library.loadBitflags] at h
    split at h
    · cases h
    · rename_i l₁ h1
      rw [loadAssocs_globals h]
      have : l₁.globals = l.globals := by
        cases hs : b.structItem with
        | none => rw [hs] at h1; cases h1; rfl
        | some s => rw [hs] at h1; exact loadStruct_globals h1
      exact this
  | assoc r k => rw [loadAssocConst_globals h]; rfl

theorem load_globals {c : LoadConfig} : ∀ {ts : List (Taken × Option Cfg)} {l l' : Library}, loadTaken c l ts = some l' →
    l'.globals = l.globals.insertAll (ts.filterMap Taken.staticItem)
  | [], l, l', h => by cases h; rfl
  | x :: xs, l, l', h => by
    simp only [loadTaken, loadAll] at h
    split at h
    · rename_i l₁ h1
      rw [load_globals (l := l₁) h, load_globals_one h1, ← insertAll_append]
      congr 1
      cases hx : Taken.staticItem x with
      | none => rw [List.filterMap_cons_none hx]; rfl
      | some y => rw [List.filterMap_cons_some hx]; rfl
    · cases h

theorem extendAll_globals : ∀ (rs : List Run) (l : Library),
    (extendAll l rs).globals = l.globals.insertAll (rs.flatMap fun r => r.2.globals.toVec)
  | [], l => rfl
  | r :: rs, l => by
    show (extendAll (l.extendWith r.2) rs).globals = _
    rw [extendAll_globals rs, List.flatMap_cons, insertAll_append]
    rfl

theorem mem_insertAll_of {α : Type} [Item α] {x : α} : ∀ {xs : List α} {m : ItemMap α}, x ∈ (m.insertAll xs).toVec → x ∈ m.toVec ∨ x ∈ xs
  | [], m, h => Or.inl h
  | y :: ys, m, h => by
    rcases mem_insertAll_of (xs := ys) (m := (m.tryInsert y).1) h with h | h
    · rcases mem_tryInsert h with h | rfl
      · exact Or.inl h
      · exact Or.inr (by simp)
    · exact Or.inr (by simp [h])

theorem base_globals (b : Bool) : (if b then Library.addStdTypes {} else ({} : Library)).globals = [] := by
  cases b <;> rfl

theorem static_load_keeps {s : SynStatic} {path : Str} {m : Option Cfg} {x : StaticItem} (h : s.load path m = .ok x) :
    x.path = path ∧ x.exportName = path ∧ x.mutable = s.mutable ∧ x.cfg = Cfg.append m (loadCfg s.attrs) ∧
      Annotations.load s.attrs = .ok x.annotations ∧ s.ty.load = .ok (some x.ty) := by
  simp only [SynStatic.load, bind, Except.bind] at h
  split at h
  · cases h
  rename_i t ht
  split at h
  · cases h
  split at h
  · cases h
  rename_i a ha
  cases h
  exact ⟨rfl, rfl, rfl, rfl, ha, ht⟩

theorem static_load_ok {s : SynStatic} {t : Ty} {a : Annotations} (ht : s.ty.load = .ok (some t)) (ha : Annotations.load s.attrs = .ok a)
    (path : Str) (m : Option Cfg) : ∃ x, s.load path m = .ok x := by
  simp only [SynStatic.load, bind, Except.bind, ht, ha]
  exact ⟨_, rfl⟩

theorem canFail_some {g : Option Cfg} {cs : List Cfg} (hg : ParserSpec.GuardIs g cs) (h : SrcSpec.CanFail cs) : g.isSome = true := by
  obtain ⟨rust, x, hx, hf⟩ := h
  cases g with
  | some => rfl
  | none =>
    have := hg.1 rust
    have h2 : cs.all (CfgSpec.holds rust) = true := by rw [← this]; rfl
    rw [List.all_eq_true] at h2
    rw [h2 x hx] at hf
    cases hf

section
variable {pc : ParseConfig} {c : LoadConfig} {fuel : Nat} {i : Inputs} {l : Library}

/-- The variables of the tables are those of the sources. -/
theorem statics_sound (h : buildLibrary pc c fuel i = .ok l) (hp : SrcSpec.InputsPlain i) {x : StaticItem} (hx : x ∈ l.globals.toVec) :
    ∃ s m cs, SrcSpec.Given pc i (.static x.path s) cs ∧ ParserSpec.GuardIs (Taken.guard (.static x.path s, m)) cs ∧
      s.load x.path m = .ok x := by
  obtain ⟨rs, rfl, hr⟩ := build_runs h
  rw [extendAll_globals, base_globals] at hx
  rcases mem_insertAll_of hx with hx | hx
  · simp [toVec] at hx
  rw [List.mem_flatMap] at hx
  obtain ⟨r, hr1, hx⟩ := hx
  rw [load_globals (hr.loaded r hr1)] at hx
  rcases mem_insertAll_of hx with hx | hx
  · simp [toVec] at hx
  rw [List.mem_filterMap] at hx
  obtain ⟨⟨t, m⟩, ht, hx⟩ := hx
  obtain ⟨cs, h2, h3⟩ := hr.sound hp hr1 ht
  cases t with
  | static p s =>
    simp only [Taken.staticItem] at hx
    split at hx
    · rename_i y hy
      cases hx
      obtain rfl := (static_load_keeps hy).1
      exact ⟨s, m, cs, h2, h3, hy⟩
    · cases hx
  | _ => cases hx

theorem statics_wf (h : buildLibrary pc c fuel i = .ok l) : WF l.globals := by
  obtain ⟨rs, rfl, _⟩ := build_runs h
  rw [extendAll_globals, base_globals, insertAll_nil]
  exact wf_tableOf _

theorem statics_complete (h : buildLibrary pc c fuel i = .ok l) (hp : SrcSpec.InputsPlain i) (ho : SrcSpec.OnePath pc i)
    {path : Str} {s : SynStatic} {cs : List Cfg} (hS : SrcSpec.SoleStatic pc i path s cs) (hl : ∀ m, ∃ x, s.load path m = .ok x) :
    ∃ x m, x ∈ l.globals.toVec ∧ ParserSpec.GuardIs (Taken.guard (.static path s, m)) cs ∧ s.load path m = .ok x := by
  obtain ⟨rs, hl', hr⟩ := build_runs h
  obtain ⟨r, hr1, m, hm, hg⟩ := hr.complete hp ho hS.given
  obtain ⟨x, hx⟩ := hl m
  have hxt : x ∈ r.1.filterMap Taken.staticItem := List.mem_filterMap.2 ⟨_, hm, by simp [Taken.staticItem, hx]⟩
  have hxp := (static_load_keeps hx).1
  have hglob : l.globals = insertAll [] (rs.flatMap fun r => r.2.globals.toVec) := by
    rw [hl', extendAll_globals, base_globals]
  have hwf : WF ([] : ItemMap StaticItem) := wf_tableOf []
  by_cases hcf : SrcSpec.CanFail cs
  · have hall : ∀ r ∈ rs, ∀ z ∈ r.1.filterMap Taken.staticItem, z.path = path → z.cfg.isSome = true := by
      intro r hr1 z hz hzp
      rw [List.mem_filterMap] at hz
      obtain ⟨⟨t, m'⟩, ht, hz⟩ := hz
      obtain ⟨cs', h2, h3⟩ := hr.sound hp hr1 ht
      cases t with
      | static p s' =>
        simp only [Taken.staticItem] at hz
        split at hz
        · rename_i y hy
          cases hz
          obtain ⟨k1, _, _, k4, _⟩ := static_load_keeps hy
          rw [← k1, hzp] at h2 h3
          rw [k4]
          rcases hS.others s' cs' h2 with ⟨rfl, rfl⟩ | ⟨h4, _⟩
          · exact canFail_some h3 hcf
          · exact canFail_some h3 h4
        · cases hz
      | _ => cases hz
    have hxr : x ∈ r.2.globals.toVec := by
      rw [load_globals (hr.loaded r hr1)]
      refine insertAll_all hwf hxt fun y hy hyp => ?_
      rcases hy with hy | hy
      · simp [toVec] at hy
      · exact hall r hr1 y hy (hyp.trans hxp)
    refine ⟨x, m, ?_, hg, hx⟩
    rw [hglob]
    refine insertAll_all hwf (List.mem_flatMap.2 ⟨r, hr1, hxr⟩) fun y hy hyp => ?_
    rcases hy with hy | hy
    · simp [toVec] at hy
    · obtain ⟨r', hr', hy⟩ := List.mem_flatMap.1 hy
      rw [load_globals (hr.loaded r' hr')] at hy
      rcases mem_insertAll_of hy with hy | hy
      · simp [toVec] at hy
      · exact hall r' hr' y hy (hyp.trans hxp)
  · obtain ⟨y, hy, hyp⟩ := insertAll_adds hwf hxt
    have hyr : y ∈ r.2.globals.toVec := by
      rw [load_globals (hr.loaded r hr1)]
      exact hy
    obtain ⟨z, hz, hzp⟩ := insertAll_adds hwf (xs := rs.flatMap fun r => r.2.globals.toVec) (List.mem_flatMap.2 ⟨r, hr1, hyr⟩)
    rw [← hglob] at hz
    obtain ⟨s', m', cs', k1, k2, k3⟩ := statics_sound h hp hz
    have : z.path = path := (hzp.trans hyp).trans hxp
    rw [this] at k1 k2 k3
    rcases hS.others s' cs' k1 with ⟨rfl, rfl⟩ | ⟨_, h4⟩
    · exact ⟨z, m', hz, k2, k3⟩
    · exact absurd h4 hcf

end

/-! ## The library stage -/

/-- A variable after all steps of the library stage for C.  The names of instances are not put in. -/
def StaticItem.final (c : LibConfig) (tag : Str → Option DeclKind) (x : StaticItem) : StaticItem :=
  (if c.generateTag then (x.mapTys (Ty.simplify c.language)).mapTys (Ty.resolve tag) else x.mapTys (Ty.simplify c.language)).renameFor c

theorem globals_prepared {c : LibConfig} {order : List (Str × Annotations) → List (Str × Annotations)} {fuel : Nat}
    {l l₁ l' : Library} (hc : c.language = .c) (hl' : l.prepare c order fuel = .ok l')
    (he : (((l.transferAnnotations order).simplify c).sortFunctions c).expand c fuel = .ok l₁) (hw : WF l.globals) (x' : StaticItem) :
    x' ∈ l'.globals.toVec ↔ ∃ x ∈ l.globals.toVec, x.path ∉ c.export_.exclude ∧
      x' = x.final c (Resolver.typeFor (l₁.removeExcluded c).resolver) := by
  obtain ⟨l₂, hl₂, hfin⟩ := Library.prepare_ok hl'
  rw [he] at hl₂
  cases hl₂
  rw [Library.finish_eq, if_pos hc] at hfin
  unfold Library.renameItems at hfin
  simp only [Option.bind_eq_bind, Option.bind_eq_some_iff] at hfin
  obtain ⟨ss, _, us, _, es, _, fs, hfs, hr⟩ := hfin
  simp only [Option.pure_def, Option.some.injEq] at hr
  subst hr
  dsimp only
  have h3 : l₁.globals = l.globals.mapItems (StaticItem.mapTys (Ty.simplify c.language)) := by
    rw [(expand_other he).2.2]
    show ((l.transferAnnotations order).globals.mapItems _) = _
    rw [(transferAnnotations_other order l).2.2]
  have hw₂ : WF (l₁.removeExcluded c).globals := by
    show WF (l₁.globals.filter _)
    rw [h3]
    exact wf_filter _ (wf_mapItems (StaticItem.mapTys _) (fun _ => rfl) (fun _ => rfl) hw)
  have h4 : (l₁.removeExcluded c).globals.toVec =
      (l.globals.toVec.filter fun x => decide (x.path ∉ c.export_.exclude)).map
        (StaticItem.mapTys (Ty.simplify c.language)) := by
    show (l₁.globals.filter _).toVec = _
    rw [h3, toVec_filter, toVec_mapItems, List.filter_map]
    congr 1
    apply List.filter_congr
    intro x _
    exact not_contains _ _
  have h5 : (((l₁.removeExcluded c).resolveDeclTypes c).globals.mapItems (StaticItem.renameFor c)).rebuild.toVec =
      (l.globals.toVec.filter fun x => decide (x.path ∉ c.export_.exclude)).map
        (StaticItem.final c (Resolver.typeFor (l₁.removeExcluded c).resolver)) := by
    unfold Library.resolveDeclTypes
    cases hgt : c.generateTag with
    | false =>
      simp only [Bool.false_eq_true, if_false]
      rw [rebuild_wf (wf_mapItems (StaticItem.renameFor c) (fun _ => rfl) (fun _ => rfl) hw₂), toVec_mapItems, h4, List.map_map]
      apply List.map_congr_left
      intro x _
      simp [StaticItem.final, hgt]
    | true =>
      simp only [if_true]
      rw [rebuild_wf (wf_mapItems (StaticItem.renameFor c) (fun _ => rfl) (fun _ => rfl)
        (wf_mapItems (StaticItem.mapTys _) (fun _ => rfl) (fun _ => rfl) hw₂)), toVec_mapItems, toVec_mapItems, h4, List.map_map, List.map_map]
      apply List.map_congr_left
      intro x _
      simp [StaticItem.final, hgt]
  rw [h5, List.mem_map]
  constructor
  · rintro ⟨x, hx, rfl⟩
    rw [List.mem_filter] at hx
    exact ⟨x, hx.1, by simpa using hx.2, rfl⟩
  · rintro ⟨x, hx, hex, rfl⟩
    exact ⟨x, List.mem_filter.2 ⟨hx, by simpa using hex⟩, rfl⟩

theorem globals_final {c : LibConfig} {order : List (Str × Annotations) → List (Str × Annotations)} {fuel : Nat}
    {l l₁ : Library} {b : Bindings} (hc : c.language = .c) (h : l.generate c order fuel = .ok b)
    (he : (((l.transferAnnotations order).simplify c).sortFunctions c).expand c fuel = .ok l₁) (hw : WF l.globals)
    (hg : c.export_.shouldGenerate .globals = true) (x' : StaticItem) :
    x' ∈ b.globals ↔ ∃ x ∈ l.globals.toVec, x.path ∉ c.export_.exclude ∧
      x' = x.final c (Resolver.typeFor (l₁.removeExcluded c).resolver) := by
  obtain ⟨l', hl', hb⟩ := Library.generate_ok h
  unfold Library.collect at hb
  rw [Option.map_eq_some_iff] at hb
  obtain ⟨d, _, rfl⟩ := hb
  dsimp only
  rw [if_pos hg, mem_sortIf]
  exact globals_prepared hc hl' he hw x'

theorem StaticItem.final_keeps (c : LibConfig) (tag : Str → Option DeclKind) (x : StaticItem) :
    (x.final c tag).path = x.path ∧ (x.final c tag).exportName = x.exportName ∧ (x.final c tag).mutable = x.mutable ∧
      (x.final c tag).cfg = x.cfg ∧ (x.final c tag).annotations = x.annotations := by
  unfold StaticItem.final
  split <;> exact ⟨rfl, rfl, rfl, rfl, rfl⟩

theorem StaticItem.final_ty {c : LibConfig} (hc : c.language = .c) (tag : Str → Option DeclKind) (x : StaticItem) :
    (x.final c tag).ty = ((if c.generateTag then Ty.resolve tag else id) (x.ty.simplify .c)).rename c.ren [] := by
  unfold StaticItem.final
  rw [← hc]
  cases c.generateTag <;> rfl

end Cbindgen
