import Verif.Lemmas.Front
import Verif.Lemmas.SourceTypes
import Verif.Props.Library
import Verif.Lemmas.Every

/-!
# From what is taken to the functions of the bindings (C63)
-/

namespace Cbindgen

/-! ## Loading -/

/-- The function that is loaded. -/
def Taken.func : Taken × Option Cfg → Option FuncItem
  | (.fn path owner ext f, m) =>
    match f.sig.load path owner ext f.attrs m with
    | .ok x => some x
    | .error _ => none
  | _ => none

theorem loadAll_keeps {α β : Type} {f : Library → α → Option Library} (g : Library → β)
    (hf : ∀ l x l', f l x = some l' → g l' = g l) : ∀ {xs : List α} {l l' : Library}, loadAll f l xs = some l' → g l' = g l
  | [], l, l', h => by cases h; rfl
  | x :: xs, l, l', h => by
    simp only [loadAll] at h
    split at h
    · rename_i l₁ h1
      rw [loadAll_keeps g hf h, hf _ _ _ h1]
    · cases h

theorem addOpaque_functions {l l' : Library} {i : Str} {gs : List SynGenericParam} {as : List SAttr} {m : Option Cfg}
    (h : l.addOpaque i gs as m = some l') : l'.functions = l.functions := by
  unfold Library.addOpaque at h
  split at h
  · cases h; rfl
  · cases h

theorem loadStruct_functions {c : LoadConfig} {l l' : Library} {s : SynStruct} {m : Option Cfg}
    (h : l.loadStruct c m s = some l') : l'.functions = l.functions := by
  unfold Library.loadStruct at h
  split at h
  · cases h; rfl
  · exact addOpaque_functions h
  · cases h

theorem loadAssocConst_functions {c : LoadConfig} {l l' : Library} {p : Str} {s : SynConst} {m : Option Cfg}
    (h : l.loadAssocConst c m p s = some l') : l'.functions = l.functions := by
  unfold Library.loadAssocConst at h
  split at h
  · split at h <;> (cases h; rfl)
  · cases h; rfl
  · cases h

theorem loadAssocs_functions {c : LoadConfig} {l l' : Library} {t : SynTy} {ks : List SynConst} {m : Option Cfg}
    (h : l.loadAssocs c m t ks = some l') : l'.functions = l.functions := by
  unfold Library.loadAssocs at h
  split at h
  · cases h; rfl
  · exact loadAll_keeps (·.functions) (fun _ _ _ h => loadAssocConst_functions h) h

theorem load_functions_one {c : LoadConfig} {l l' : Library} {x : Taken × Option Cfg} (h : Taken.load c l x = some l') :
    l'.functions = l.functions ++ (Taken.func x).toList := by
  obtain ⟨t, m⟩ := x
  cases t with
  | fn path owner ext f =>
    simp only [Taken.load, Library.loadFn] at h
    simp only [Taken.func]
    cases hx : f.sig.load path owner ext f.attrs m with
    | ok y => rw [hx] at h; cases h; rfl
    | error e =>
      rw [hx] at h
      cases e with
      | err => cases h; simp
      | panic => cases h
  | const k =>
    simp only [Taken.load, Library.loadConst] at h
    split at h
    · cases h; simp [Taken.func]
    · cases h; simp [Taken.func]
    · cases h
  | static p s =>
    simp only [Taken.load, Library.loadStatic] at h
    split at h
    · cases h; simp [Taken.func]
    · cases h; simp [Taken.func]
    · cases h
  | struct s => rw [loadStruct_functions h]; simp [Taken.func]
  | union s =>
    simp only [Taken.load, Library.loadUnion] at h
    split at h
    · cases h; simp [Taken.func]
    · rw [addOpaque_functions h]; simp [Taken.func]
    · cases h
  | enum s =>
    simp only [Taken.load, Library.loadEnum] at h
    split at h
    · cases h; simp [Taken.func]
    · rw [addOpaque_functions h]; simp [Taken.func]
    · cases h
  | alias s =>
    simp only [Taken.load, Library.loadAlias] at h
    split at h
    · cases h; simp [Taken.func]
    · rw [addOpaque_functions h]; simp [Taken.func]
    · cases h
  | bitflags b =>
    simp only [Taken.load, Library.loadBitflags] at h
    split at h
    · cases h
    · rename_i l₁ h1
      rw [loadAssocs_functions h]
      have : l₁.functions = l.functions := by
        cases hs : b.structItem with
        | none => rw [hs] at h1; cases h1; rfl
        | some s => rw [hs] at h1; exact loadStruct_functions h1
      simp [Taken.func, Library.markFlags, this]
  | assoc r k => rw [loadAssocConst_functions h]; simp [Taken.func]

theorem load_functions {c : LoadConfig} : ∀ {ts : List (Taken × Option Cfg)} {l l' : Library}, loadTaken c l ts = some l' →
    l'.functions = l.functions ++ ts.filterMap Taken.func
  | [], l, l', h => by cases h; simp
  | x :: xs, l, l', h => by
    simp only [loadTaken, loadAll] at h
    split at h
    · rename_i l₁ h1
      rw [load_functions (l := l₁) h, load_functions_one h1, List.append_assoc]
      congr 1
      cases hx : Taken.func x with
      | none => rw [List.filterMap_cons_none hx]; rfl
      | some y => rw [List.filterMap_cons_some hx]; rfl
    · cases h

/-! ## Runs -/

/-- What a run took, and the tables it was loaded into. -/
abbrev Run := List (Taken × Option Cfg) × Library

/-- The runs that make up a library. -/
structure Runs (pc : ParseConfig) (c : LoadConfig) (fuel : Nat) (i : Inputs) (rs : List Run) : Prop where
  loaded : ∀ r ∈ rs, loadTaken c {} r.1 = some r.2
  from_ : ∀ r ∈ rs, (∃ name is st, (name, some is) ∈ i.srcs ∧ walkMod (SrcSpec.fileConfig pc name) name {} is = .ok st ∧ r.1 = st.out) ∨
    ∃ ws root st, i.lib = some (ws, root) ∧ walkCrate pc ws fuel root {} = .ok st ∧ r.1 = st.out
  srcs : ∀ name is, (name, some is) ∈ i.srcs → ∃ st r, r ∈ rs ∧ walkMod (SrcSpec.fileConfig pc name) name {} is = .ok st ∧ r.1 = st.out
  lib : ∀ ws root, i.lib = some (ws, root) → ∃ st r, r ∈ rs ∧ walkCrate pc ws fuel root {} = .ok st ∧ r.1 = st.out

/-- Put tables together. -/
def extendAll (l : Library) (rs : List Run) : Library := rs.foldl (fun l r => l.extendWith r.2) l

theorem loadRun_ok {c : LoadConfig} {x : Except PErr FState} {l : Library} (h : loadRun c x = .ok l) :
    ∃ st, x = .ok st ∧ loadTaken c {} st.out = some l := by
  cases x with
  | error e => cases h
  | ok st =>
    refine ⟨st, rfl, ?_⟩
    simp only [loadRun] at h
    split at h
    · rename_i l' h1
      cases h
      exact h1
    · cases h

theorem extendSrcs_runs {pc : ParseConfig} {c : LoadConfig} : ∀ {xs : List (Str × Option (List FItem))} {l l' : Library},
    extendSrcs pc c l xs = .ok l' → ∃ rs : List Run, l' = extendAll l rs ∧ (∀ r ∈ rs, loadTaken c {} r.1 = some r.2) ∧
      (∀ r ∈ rs, ∃ name is st, (name, some is) ∈ xs ∧ walkMod (SrcSpec.fileConfig pc name) name {} is = .ok st ∧ r.1 = st.out) ∧
      ∀ name is, (name, some is) ∈ xs → ∃ st r, r ∈ rs ∧ walkMod (SrcSpec.fileConfig pc name) name {} is = .ok st ∧ r.1 = st.out
  | [], l, l', h => by cases h; exact ⟨[], rfl, by simp, by simp, by simp⟩
  | (name, file) :: xs, l, l', h => by
    simp only [extendSrcs] at h
    split at h
    · rename_i o ho
      cases file with
      | none => cases ho
      | some is =>
        obtain ⟨st, h1, h2⟩ := loadRun_ok ho
        obtain ⟨rs, h3, h4, h5, h6⟩ := extendSrcs_runs h
        refine ⟨(st.out, o) :: rs, h3, ?_, ?_, ?_⟩
        · intro r hr
          rcases List.mem_cons.1 hr with rfl | hr
          · exact h2
          · exact h4 r hr
        · intro r hr
          rcases List.mem_cons.1 hr with rfl | hr
          · exact ⟨name, is, st, by simp, h1, rfl⟩
          · obtain ⟨n, is', st', h7, h8⟩ := h5 r hr
            exact ⟨n, is', st', by simp [h7], h8⟩
        · intro n is' hn
          rcases List.mem_cons.1 hn with hn | hn
          · cases hn
            exact ⟨st, (st.out, o), by simp, h1, rfl⟩
          · obtain ⟨st', r, h7, h8⟩ := h6 n is' hn
            exact ⟨st', r, by simp [h7], h8⟩
    · cases h

theorem build_runs {pc : ParseConfig} {c : LoadConfig} {fuel : Nat} {i : Inputs} {l : Library}
    (h : buildLibrary pc c fuel i = .ok l) :
    ∃ rs, l = extendAll (if i.stdTypes then Library.addStdTypes {} else {}) rs ∧ Runs pc c fuel i rs := by
  unfold buildLibrary at h
  split at h
  · rename_i l₁ h1
    obtain ⟨rs, h2, h3, h4, h5⟩ := extendSrcs_runs h1
    unfold extendLib at h
    split at h
    · rename_i hl
      cases h
      exact ⟨rs, h2, h3, fun r hr => Or.inl (h4 r hr), h5, by simp [hl]⟩
    · rename_i ws root hl
      split at h
      · rename_i o ho
        cases h
        obtain ⟨st, h6, h7⟩ := loadRun_ok ho
        refine ⟨rs ++ [(st.out, o)], by simp [extendAll, h2], ?_, ?_, ?_, ?_⟩
        · intro r hr
          rcases List.mem_append.1 hr with hr | hr
          · exact h3 r hr
          · obtain rfl := List.mem_singleton.1 hr
            exact h7
        · intro r hr
          rcases List.mem_append.1 hr with hr | hr
          · exact Or.inl (h4 r hr)
          · obtain rfl := List.mem_singleton.1 hr
            exact Or.inr ⟨ws, root, st, hl, h6, rfl⟩
        · intro n is hn
          obtain ⟨st', r, h8, h9⟩ := h5 n is hn
          exact ⟨st', r, by simp [h8], h9⟩
        · intro ws' root' hl'
          rw [hl] at hl'
          cases hl'
          exact ⟨st, (st.out, o), by simp, h6, rfl⟩
      · cases h
  · cases h

theorem extendAll_functions : ∀ (rs : List Run) (l : Library),
    (extendAll l rs).functions = l.functions ++ rs.flatMap (fun r => r.2.functions)
  | [], l => by simp [extendAll]
  | r :: rs, l => by
    show (extendAll (l.extendWith r.2) rs).functions = _
    rw [extendAll_functions rs]
    simp [Library.extendWith]

/-- What was taken is declared in the inputs. -/
theorem Runs.sound {pc : ParseConfig} {c : LoadConfig} {fuel : Nat} {i : Inputs} {rs : List Run} (h : Runs pc c fuel i rs)
    (hp : SrcSpec.InputsPlain i) {r : Run} (hr : r ∈ rs) {t : Taken} {m : Option Cfg} (ht : (t, m) ∈ r.1) :
    ∃ cs, SrcSpec.Given pc i t cs ∧ ParserSpec.GuardIs (Taken.guard (t, m)) cs := by
  rcases h.from_ r hr with ⟨name, is, st, h1, h2, h3⟩ | ⟨ws, root, st, h1, h2, h3⟩
  · rw [h3] at ht
    obtain ⟨cs, h4, h5⟩ := walkMod_sound _ _ h2 (hp.srcs _ _ h1).1 (hp.srcs _ _ h1).2 ht
    exact ⟨cs, .src h1 h4, h5⟩
  · rw [h3] at ht
    obtain ⟨p, edges, is, cs, h4, h5, h6, h7⟩ := walkCrate_sound _ h2 (fun p is hs => hp.lib ws root p is h1 hs) ht
    exact ⟨edges ++ cs, .lib h1 h4 h5 h6, h7⟩

/-- What is declared in the inputs is taken. -/
theorem Runs.complete {pc : ParseConfig} {c : LoadConfig} {fuel : Nat} {i : Inputs} {rs : List Run} (h : Runs pc c fuel i rs)
    (hp : SrcSpec.InputsPlain i) (ho : SrcSpec.OnePath pc i) {t : Taken} {cs : List Cfg} (ht : SrcSpec.Given pc i t cs) :
    ∃ r ∈ rs, ∃ m, (t, m) ∈ r.1 ∧ ParserSpec.GuardIs (Taken.guard (t, m)) cs := by
  cases ht with
  | src h1 h2 =>
    obtain ⟨st, r, h3, h4, h5⟩ := h.srcs _ _ h1
    obtain ⟨m, h6, h7⟩ := walkMod_complete _ _ h4 (hp.srcs _ _ h1).1 (hp.srcs _ _ h1).2 h2
    exact ⟨r, h3, m, by rw [h5]; exact h6, h7⟩
  | @lib ws root p edges is _ cs h1 h2 h3 h4 =>
    obtain ⟨st, r, h5, h6, h7⟩ := h.lib _ _ h1
    obtain ⟨edges', m, h8, h9, h10⟩ := walkCrate_complete _ h6 (fun p is hs => hp.lib ws root p is h1 hs)
      (fun p q cs cs' => ho.names ws root p q cs cs' h1) h2 h3 h4
    rw [← ho.paths ws root p edges edges' h1 h2 h8] at h10
    exact ⟨r, h5, m, by rw [h7]; exact h9, h10⟩

theorem base_functions (b : Bool) : (if b then Library.addStdTypes {} else ({} : Library)).functions = [] := by
  cases b <;> rfl

theorem load_cfg {s : SynSig} {path : Str} {owner : Option Str} {ext : Bool} {attrs : List SAttr} {m : Option Cfg}
    {f : FuncItem} (h : s.load path owner ext attrs m = .ok f) :
    f.path = path ∧ f.externDecl = ext ∧ f.cfg = Cfg.append m (loadCfg attrs) ∧ Annotations.load attrs = .ok f.annotations := by
  simp only [SynSig.load, bind, Except.bind] at h
  split at h
  · cases h
  · split at h
    · cases h
    · split at h
      · cases h
      · cases h
        refine ⟨rfl, rfl, rfl, ?_⟩
        assumption

theorem mem_functions {pc : ParseConfig} {c : LoadConfig} {fuel : Nat} {i : Inputs} {l : Library}
    (h : buildLibrary pc c fuel i = .ok l) : ∃ rs, Runs pc c fuel i rs ∧
      ∀ f, f ∈ l.functions ↔ ∃ r ∈ rs, ∃ path owner ext sf m, (Taken.fn path owner ext sf, m) ∈ r.1 ∧
        sf.sig.load path owner ext sf.attrs m = .ok f := by
  obtain ⟨rs, h1, h2⟩ := build_runs h
  refine ⟨rs, h2, fun f => ?_⟩
  have hf : ∀ x, Taken.func x = some f ↔ ∃ path owner ext sf m, x = (.fn path owner ext sf, m) ∧
      sf.sig.load path owner ext sf.attrs m = .ok f := by
    rintro ⟨t, m⟩
    constructor
    · intro hx
      cases t with
      | fn path owner ext sf =>
        refine ⟨path, owner, ext, sf, m, rfl, ?_⟩
        simp only [Taken.func] at hx
        split at hx
        · rename_i y hy
          cases hx
          exact hy
        · cases hx
      | _ => cases hx
    · rintro ⟨path, owner, ext, sf, m', hx, hy⟩
      cases hx
      simp only [Taken.func, hy]
  rw [h1, extendAll_functions, base_functions, List.nil_append, List.mem_flatMap]
  constructor
  · rintro ⟨r, hr, hm⟩
    have := load_functions (h2.loaded r hr)
    rw [show (({} : Library).functions) = [] from rfl, List.nil_append] at this
    rw [this, List.mem_filterMap] at hm
    obtain ⟨x, hx, hy⟩ := hm
    obtain ⟨path, owner, ext, sf, m, rfl, hl⟩ := (hf x).1 hy
    exact ⟨r, hr, path, owner, ext, sf, m, hx, hl⟩
  · rintro ⟨r, hr, path, owner, ext, sf, m, hx, hl⟩
    refine ⟨r, hr, ?_⟩
    have := load_functions (h2.loaded r hr)
    rw [show (({} : Library).functions) = [] from rfl, List.nil_append] at this
    rw [this, List.mem_filterMap]
    exact ⟨_, hx, (hf _).2 ⟨path, owner, ext, sf, m, rfl, hl⟩⟩

/-! ## The library stage -/

/-- A function after all steps of the library stage for C. -/
def FuncItem.final (c : LibConfig) (find : Ty → Option Str) (tag : Str → Option DeclKind) (f : FuncItem) : Option FuncItem :=
  let g := (f.mapTys (Ty.simplify c.language)).mapTys (Ty.manglePaths find)
  (if c.generateTag then g.mapTys (Ty.resolve tag) else g).renameFor c

theorem mem_mapM_iff {α β : Type} {f : α → Option β} : ∀ {xs : List α} {ys : List β}, xs.mapM f = some ys →
    ∀ y, y ∈ ys ↔ ∃ x ∈ xs, f x = some y
  | [], ys, h => by
    simp only [List.mapM_nil, Option.pure_def, Option.some.injEq] at h
    subst h
    simp
  | x :: xs, ys, h => by
    rw [List.mapM_cons] at h
    simp only [Option.bind_eq_bind, Option.bind_eq_some_iff, Option.pure_def, Option.some.injEq] at h
    obtain ⟨z, hz, zs, hzs, rfl⟩ := h
    intro y
    rw [List.mem_cons, mem_mapM_iff hzs]
    constructor
    · rintro (rfl | ⟨w, hw, hy⟩)
      · exact ⟨x, by simp, hz⟩
      · exact ⟨w, by simp [hw], hy⟩
    · rintro ⟨w, hw, hy⟩
      rcases List.mem_cons.1 hw with rfl | hw
      · rw [hz] at hy; cases hy; exact Or.inl rfl
      · exact Or.inr ⟨w, hw, hy⟩

theorem mapM_total {α β : Type} {f : α → Option β} : ∀ {xs : List α} {ys : List β}, xs.mapM f = some ys →
    ∀ x ∈ xs, ∃ y, f x = some y
  | [], _, _ => by simp
  | x :: xs, ys, h => by
    rw [List.mapM_cons] at h
    simp only [Option.bind_eq_bind, Option.bind_eq_some_iff, Option.pure_def, Option.some.injEq] at h
    obtain ⟨z, hz, zs, hzs, rfl⟩ := h
    intro w hw
    rcases List.mem_cons.1 hw with rfl | hw
    · exact ⟨z, hz⟩
    · exact mapM_total hzs w hw

theorem functions_prepared_by {c : LibConfig} {order : List (Str × Annotations) → List (Str × Annotations)} {fuel : Nat}
    {l l₁ l' : Library} (hc : c.language = .c) (hl' : l.prepare c order fuel = .ok l')
    (he : (((l.transferAnnotations order).simplify c).sortFunctions c).expand c fuel = .ok l₁) :
    ∃ ms, followAll (follow c ((((l.transferAnnotations order).simplify c).sortFunctions c).getItems c) fuel)
        (((l.transferAnnotations order).simplify c).sortFunctions c).monoUses {} = .ok ms ∧
      (∀ f', f' ∈ l'.functions ↔ ∃ f ∈ l.functions, f.path ∉ c.export_.exclude ∧
        f.final c ms.find (Resolver.typeFor (l₁.removeExcluded c).resolver) = some f') ∧
      ∀ f ∈ l.functions, f.path ∉ c.export_.exclude →
        ∃ f', f.final c ms.find (Resolver.typeFor (l₁.removeExcluded c).resolver) = some f' := by
  obtain ⟨l₂, hl₂, hfin⟩ := Library.prepare_ok hl'
  rw [he] at hl₂
  cases hl₂
  rw [Library.finish_eq, if_pos hc] at hfin
  unfold Library.renameItems at hfin
  simp only [Option.bind_eq_bind, Option.bind_eq_some_iff] at hfin
  obtain ⟨ss, _, us, _, es, _, fs, hfs, hr⟩ := hfin
  simp only [Option.pure_def, Option.some.injEq] at hr
  subst hr
  dsimp only
  have hcx : c.language ≠ .cxx := by rw [hc]; decide
  unfold Library.expand at he
  rw [if_neg hcx] at he
  unfold Library.instantiateMonomorphs at he
  simp only [bind, Except.bind] at he
  split at he
  · cases he
  rename_i ms hms
  simp only [pure, Except.pure, Except.ok.injEq] at he
  refine ⟨ms, hms, ?_⟩
  have hfun : ∀ f, f ∈ ((l₁.removeExcluded c).resolveDeclTypes c).functions ↔ ∃ g ∈ l.functions, g.path ∉ c.export_.exclude ∧
      f = if c.generateTag then ((g.mapTys (Ty.simplify c.language)).mapTys (Ty.manglePaths ms.find)).mapTys
        (Ty.resolve (Resolver.typeFor (l₁.removeExcluded c).resolver))
        else (g.mapTys (Ty.simplify c.language)).mapTys (Ty.manglePaths ms.find) := by
    intro f
    have h1 : ∀ f, f ∈ (l₁.removeExcluded c).functions ↔ ∃ g ∈ l.functions, g.path ∉ c.export_.exclude ∧
        f = (g.mapTys (Ty.simplify c.language)).mapTys (Ty.manglePaths ms.find) := by
      intro f
      have h2 : l₁.functions = (sortIf (c.functionSortBy.getD c.sortBy) FuncItem.path
          (l.functions.map (FuncItem.mapTys (Ty.simplify c.language)))).map (FuncItem.mapTys (Ty.manglePaths ms.find)) := by
        rw [← he]
        show (sortIf _ FuncItem.path ((l.transferAnnotations order).functions.map _)).map _ = _
        rw [(transferAnnotations_other order l).1]
      show f ∈ l₁.functions.filter _ ↔ _
      rw [h2, List.mem_filter, List.mem_map]
      constructor
      · rintro ⟨⟨g, hg1, rfl⟩, hx⟩
        rw [mem_sortIf, List.mem_map] at hg1
        obtain ⟨k, hk, rfl⟩ := hg1
        refine ⟨k, hk, ?_, rfl⟩
        simpa [FuncItem.mapTys] using hx
      · rintro ⟨k, hk, hx, rfl⟩
        refine ⟨⟨_, (mem_sortIf _ _ _ _).2 (List.mem_map.2 ⟨k, hk, rfl⟩), rfl⟩, ?_⟩
        simpa [FuncItem.mapTys] using hx
    unfold Library.resolveDeclTypes
    cases hgt : c.generateTag with
    | false => simpa using h1 f
    | true =>
      simp only [if_true, List.mem_map]
      constructor
      · rintro ⟨g, hg1, rfl⟩
        obtain ⟨k, hk, hx, rfl⟩ := (h1 g).1 hg1
        exact ⟨k, hk, hx, rfl⟩
      · rintro ⟨k, hk, hx, rfl⟩
        exact ⟨_, (h1 _).2 ⟨k, hk, hx, rfl⟩, rfl⟩
  constructor
  · intro f'
    rw [mem_mapM_iff hfs]
    constructor
    · rintro ⟨x, hx, hy⟩
      obtain ⟨g, hg1, hg2, rfl⟩ := (hfun x).1 hx
      exact ⟨g, hg1, hg2, hy⟩
    · rintro ⟨g, hg1, hg2, hy⟩
      exact ⟨_, (hfun _).2 ⟨g, hg1, hg2, rfl⟩, hy⟩
  · intro f hf hx
    exact mapM_total hfs _ ((hfun _).2 ⟨f, hf, hx, rfl⟩)

theorem functions_prepared {c : LibConfig} {order : List (Str × Annotations) → List (Str × Annotations)} {fuel : Nat}
    {l l₁ l' : Library} (hc : c.language = .c) (hl' : l.prepare c order fuel = .ok l')
    (he : (((l.transferAnnotations order).simplify c).sortFunctions c).expand c fuel = .ok l₁) :
    ∃ find, (∀ f', f' ∈ l'.functions ↔ ∃ f ∈ l.functions, f.path ∉ c.export_.exclude ∧
      f.final c find (Resolver.typeFor (l₁.removeExcluded c).resolver) = some f') ∧
      ∀ f ∈ l.functions, f.path ∉ c.export_.exclude →
        ∃ f', f.final c find (Resolver.typeFor (l₁.removeExcluded c).resolver) = some f' :=
  let ⟨ms, _, h⟩ := functions_prepared_by hc hl' he
  ⟨ms.find, h⟩

theorem functions_final {c : LibConfig} {order : List (Str × Annotations) → List (Str × Annotations)} {fuel : Nat}
    {l l₁ : Library} {b : Bindings} (hc : c.language = .c) (h : l.generate c order fuel = .ok b)
    (he : (((l.transferAnnotations order).simplify c).sortFunctions c).expand c fuel = .ok l₁)
    (hg : c.export_.shouldGenerate .functions = true) :
    ∃ find, (∀ f', f' ∈ b.functions ↔ ∃ f ∈ l.functions, f.path ∉ c.export_.exclude ∧
      f.final c find (Resolver.typeFor (l₁.removeExcluded c).resolver) = some f') ∧
      ∀ f ∈ l.functions, f.path ∉ c.export_.exclude →
        ∃ f', f.final c find (Resolver.typeFor (l₁.removeExcluded c).resolver) = some f' := by
  obtain ⟨l', hl', hb⟩ := Library.generate_ok h
  unfold Library.collect at hb
  rw [Option.map_eq_some_iff] at hb
  obtain ⟨d, _, rfl⟩ := hb
  dsimp only
  rw [if_pos hg]
  exact functions_prepared hc hl' he

/-! ## The type at the end -/

open CSpec SrcSpec

/-- The keyword in front of a name in C. -/
def tagFor (c : LibConfig) (l₁ : Library) (n : Str) : Option DeclKind :=
  if c.generateTag then Resolver.typeFor (l₁.removeExcluded c).resolver n else none

theorem final_typed {c : LibConfig} {d : DeclConfig} {find : Ty → Option Str} {tag : Str → Option DeclKind}
    {E : TyEnv} (hc : c.language = .c) (hn : E.name = c.ren) (ht : E.tag = fun n => if c.generateTag then tag n else none)
    {f f' : FuncItem} {T : CTy} (hT : FnTyped E d f T) {rule : RenameRule} (hr : f.annotations.ruleOr c.renameArgs = some rule)
    (ha : f.annotations.list c!"ptrs-as-arrays" = none) (harg : E.arg = argName c.caseFns rule)
    (h : f.final c find tag = some f') :
    f'.path = f.path ∧ f'.externDecl = f.externDecl ∧ f'.cfg = f.cfg ∧ f'.annotations = f.annotations ∧ f'.doc = f.doc ∧
      meaningFn d ⟨f'.path, f'.ret, f'.args, f'.neverReturn⟩ = T := by
  have hres : ∀ t : Ty, (t.simplify .c).Clean →
      ((if c.generateTag then Ty.resolve tag else id) ((t.simplify .c).manglePaths find)).rename c.ren [] =
        ((t.simplify .c).resolve E.tag).rename E.name [] := by
    intro t hcl
    rw [clean_mangle find _ hcl, ht, hn]
    cases c.generateTag with
    | true => rfl
    | false =>
      show (t.simplify .c).rename c.ren [] = ((t.simplify .c).resolve fun _ => none).rename c.ren []
      rw [clean_resolve _ hcl]
  have hg : (if c.generateTag then ((f.mapTys (Ty.simplify c.language)).mapTys (Ty.manglePaths find)).mapTys (Ty.resolve tag)
      else (f.mapTys (Ty.simplify c.language)).mapTys (Ty.manglePaths find)) =
      f.mapTys (fun t => (if c.generateTag then Ty.resolve tag else id) ((t.simplify .c).manglePaths find)) := by
    rw [hc]
    cases c.generateTag <;> simp [FuncItem.mapTys, FnArg.mapTy, Function.comp_def]
  simp only [FuncItem.final, hg] at h
  unfold FuncItem.renameFor at h
  simp only [FuncItem.mapTys, hr, ha, Option.bind_eq_bind, Option.bind_some, renameArgs, Option.pure_def, Option.some.injEq] at h
  subst h
  refine ⟨rfl, rfl, rfl, rfl, rfl, ?_⟩
  rw [hT.fin]
  simp only [meaningFn, hres _ hT.ret, List.map_map]
  congr 1
  apply List.map_congr_left
  intro a ha'
  simp only [Function.comp_apply, FnArg.mapTy, meaningFnArg, hres _ (hT.args a ha'), hT.lengths a ha', ite_self, harg]
  rfl

end Cbindgen
