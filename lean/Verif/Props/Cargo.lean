import Verif.Lemmas.Cargo

/-!
# C68: the dependencies that are parsed are those of cargo
-/

namespace Cbindgen
open CargoSpec

section
variable {c : Cargo} {l : Lock}

/-- **C68.** The dependencies of a package are the packages that its listing in the lock file names, in that order and with
their versions, in whatever order the set of packages is iterated over. -/
theorem C68_packages_partial (hi : ∀ xs, (c.iter xs).Perm xs) (hl : c.lock = some l) (hf : Fine l c.packages) {p : LockPkg}
    (hp : p ∈ locked l) : ∃ ds, c.dependencies (refOf p) = some ds ∧ ds.length = (written p).length ∧
      ∀ (i : Nat) d q, (written p)[i]? = some d → Names (locked l) d q → ∃ cf, ds[i]? = some (refOf q, cf) := by
  rw [dependencies_ref hf hl hp]
  obtain ⟨ds, hds⟩ := mapM_isSome (f := c.dependency (refOf p)) (xs := written p) fun d hd => by
    obtain ⟨q, hq⟩ := hf.strings p hp d hd
    exact ⟨_, dependency_names hi hf hq _⟩
  obtain ⟨h1, h2⟩ := mapM_getElem hds
  refine ⟨ds, hds, h1.symm, fun i d q hd hq => ?_⟩
  exact ⟨_, by rw [h2, hd]; exact dependency_names hi hf hq _⟩

/-- **C68.** The dependencies do not depend on the order in which the set of packages is iterated over, whatever the files
contain. -/
theorem C68_order (hi : ∀ xs, (c.iter xs).Perm xs) {iter : List MetaPkg → List MetaPkg} (hi' : ∀ xs, (iter xs).Perm xs) (p : Pkg) :
    ({ c with iter := iter }).dependencies p = c.dependencies p := by
  have hv : ∀ n, ({ c with iter := iter }).onlyVersion n = c.onlyVersion n := by
    intro n
    have h : ((iter (keepFirst c.packages)).filter fun m => decide (m.ref.name = n)).filterMap (·.ref.version) |>.Perm
        (((c.iter (keepFirst c.packages)).filter fun m => decide (m.ref.name = n)).filterMap (·.ref.version)) :=
      (((hi' _).trans (hi _).symm).filter _).filterMap _
    show (match ((iter (keepFirst c.packages)).filter fun m => decide (m.ref.name = n)).filterMap (·.ref.version) with
        | [v] => some v
        | _ => none) =
      (match ((c.iter (keepFirst c.packages)).filter fun m => decide (m.ref.name = n)).filterMap (·.ref.version) with
        | [v] => some v
        | _ => none)
    generalize ((iter (keepFirst c.packages)).filter fun m => decide (m.ref.name = n)).filterMap (·.ref.version) = xs at h ⊢
    generalize ((c.iter (keepFirst c.packages)).filter fun m => decide (m.ref.name = n)).filterMap (·.ref.version) = ys at h ⊢
    match xs, ys, h with
    | [], ys, h => rw [h.symm.eq_nil]
    | [v], ys, h => rw [List.singleton_perm.1 h]
    | _ :: _ :: _, [], h => exact absurd h.length_eq (by simp)
    | _ :: _ :: _, [_], h => exact absurd h.length_eq (by simp)
    | _ :: _ :: _, _ :: _ :: _, _ => rfl
  have hd : ({ c with iter := iter }).dependency p = c.dependency p := by
    funext d
    unfold Cargo.dependency
    simp only [hv]
    rfl
  unfold Cargo.dependencies
  rw [hd]

/-- **C68.** A dependency that the manifest declares once carries the predicate of its declaration, which holds exactly if the
library uses the package. -/
theorem C68_condition_partial (hi : ∀ xs, (c.iter xs).Perm xs) (hl : c.lock = some l) (hf : Fine l c.packages) {p q : LockPkg}
    {d : Str} (hp : p ∈ locked l) (hd : d ∈ written p) (hq : Names (locked l) d q) {m : MetaPkg} (hm : m ∈ c.packages)
    (hr : m.ref = refOf p) (ho : DeclaredOnce m q.name) :
    ∃ ds cf, c.dependencies (refOf p) = some ds ∧ (refOf q, cf) ∈ ds ∧ (∀ cf', (refOf q, cf') ∈ ds → cf' = cf) ∧ DeclaredUnder m q.name cf ∧
      ∀ on, (∀ x ∈ cf.toList, CfgSpec.holds on x = true) ↔ Uses on m q.name := by
  have hget : c.get (refOf p) = some m := by
    rw [← hr]
    exact get_of (fun m' hm' h => hf.once m' hm' m hm h) hm
  obtain ⟨x, hx, hxn, hfind, hcond, _⟩ := loadCfg_declared ho
  have hdep : ∀ {d : Str}, Names (locked l) d q → c.dependency (refOf p) d = some (refOf q, DepTarget.loadCfg x.target) := by
    intro d hq
    rw [dependency_names hi hf hq, hget]
    simp only [Option.bind_some, hfind]
  obtain ⟨ds, hds⟩ := mapM_isSome (f := c.dependency (refOf p)) (xs := written p) fun d hd => by
    obtain ⟨q, hq⟩ := hf.strings p hp d hd
    exact ⟨_, dependency_names hi hf hq _⟩
  obtain ⟨h1, h2⟩ := mapM_getElem hds
  obtain ⟨i, hid⟩ := List.mem_iff_getElem?.1 hd
  refine ⟨ds, _, by rw [dependencies_ref hf hl hp, hds], List.mem_iff_getElem?.2 ⟨i, by rw [h2, hid]; exact hdep hq⟩, ?_, hcond, ?_⟩
  · intro cf' hcf
    obtain ⟨j, hj⟩ := List.mem_iff_getElem?.1 hcf
    rw [h2] at hj
    cases hd' : (written p)[j]? with
    | none => rw [hd'] at hj; cases hj
    | some d' =>
      rw [hd'] at hj
      obtain ⟨q', hq'⟩ := hf.strings p hp d' (List.mem_iff_getElem?.2 ⟨j, hd'⟩)
      have h3 := dependency_names hi hf hq' (refOf p)
      have h4 : q' = q := by
        have : refOf q' = refOf q := by
          have hj' : c.dependency (refOf p) d' = some (refOf q, cf') := hj
          rw [h3] at hj'
          simp only [Option.some.injEq, Prod.mk.injEq] at hj'
          exact hj'.1
        simp only [refOf, Pkg.mk.injEq, Option.some.injEq] at this
        exact hf.one q' hq'.mem q hq.mem this.1 this.2
      subst h4
      have hj' : c.dependency (refOf p) d' = some (refOf q', cf') := hj
      rw [hdep hq'] at hj'
      simp only [Option.some.injEq, Prod.mk.injEq, true_and] at hj'
      exact hj'.symm
  · intro on
    obtain ⟨k0, k1, k2, k3, k4⟩ := ho.2 x hx hxn
    constructor
    · intro h
      refine ⟨x, hx, hxn, k0, ?_⟩
      rcases ht : x.target with _ | t
      · trivial
      cases t with
      | cfg y =>
        cases y with
        | none => exact absurd rfl (k1 none ht)
        | some y => exact ⟨y, rfl, h y (by rw [ht]; simp [DepTarget.loadCfg])⟩
      | list => exact absurd ht k2
      | ident n => exact absurd ht (k3 n)
      | text t =>
        have := h (.boolean t) (by rw [ht]; simp [DepTarget.loadCfg])
        simpa [CfgSpec.holds, targetHolds] using this
    · rintro ⟨y, hy, hyn, _, hty⟩ z hz
      rw [k4 y hy hyn] at hty
      rcases ht : x.target with _ | t
      · rw [ht] at hz; simp [DepTarget.loadCfg] at hz
      cases t with
      | cfg y =>
        rw [ht] at hz hty
        obtain ⟨w, rfl, hw⟩ := hty
        simp only [DepTarget.loadCfg, Option.toList_some, List.mem_singleton] at hz
        rw [hz]
        exact hw
      | list => exact absurd ht k2
      | ident n => exact absurd ht (k3 n)
      | text t =>
        rw [ht] at hz hty
        simp only [DepTarget.loadCfg, Option.toList_some, List.mem_singleton] at hz
        rw [hz]
        simpa [CfgSpec.holds, targetHolds] using hty

/-- Every dependency is declared once. -/
def AllOnce (l : Lock) (ms : List MetaPkg) : Prop :=
  ∀ p ∈ locked l, ∀ d ∈ written p, ∀ q, Names (locked l) d q → ∀ m ∈ ms, m.ref = refOf p → DeclaredOnce m q.name

/-- **C68.** The packages that the parser reaches, with the predicates on the way, are those of the lock file that the
declarations lead to. -/
theorem C68_reached_partial (hi : ∀ xs, (c.iter xs).Perm xs) (hl : c.lock = some l) (hf : Fine l c.packages)
    (ho : AllOnce l c.packages) {pc : ParseConfig} {read : Str → FSource} {r : LockPkg} (hr : r ∈ locked l) (x : Pkg) (cs : List Cfg) :
    SrcSpec.Reaches pc (c.workspace read) (refOf r) x cs ↔ ∃ q ∈ locked l, x = refOf q ∧ Chain pc l c.packages r q cs := by
  constructor
  · intro h
    induction h with
    | root => exact ⟨r, hr, rfl, .root⟩
    | @dep p cs d cf _ hd ha ih =>
      obtain ⟨q, hq, rfl, hc⟩ := ih
      have hd : (d, cf) ∈ (c.dependencies (refOf q)).getD [] := hd
      rw [dependencies_ref hf hl hq] at hd
      cases hds : (written q).mapM (c.dependency (refOf q)) with
      | none => rw [hds] at hd; cases hd
      | some ds =>
        rw [hds, Option.getD_some] at hd
        obtain ⟨j, hj⟩ := List.mem_iff_getElem?.1 hd
        rw [(mapM_getElem hds).2] at hj
        cases hd' : (written q)[j]? with
        | none => rw [hd'] at hj; cases hj
        | some d' =>
          rw [hd'] at hj
          have hmem := List.mem_iff_getElem?.2 ⟨j, hd'⟩
          obtain ⟨q', hq'⟩ := hf.strings q hq d' hmem
          have hj : c.dependency (refOf q) d' = some (d, cf) := hj
          rw [dependency_names hi hf hq'] at hj
          simp only [Option.some.injEq, Prod.mk.injEq] at hj
          obtain ⟨rfl, hcf⟩ := hj
          obtain ⟨m, hm, hmr⟩ := hf.described q hq
          have hget : c.get (refOf q) = some m := by
            rw [← hmr]
            exact get_of (fun m' hm' h => hf.once m' hm' m hm h) hm
          obtain ⟨y, _, _, hfind, hcond, _⟩ := loadCfg_declared (ho q hq d' hmem q' hq' m hm hmr)
          rw [hget] at hcf
          simp only [Option.bind_some, hfind] at hcf
          subst hcf
          exact ⟨q', hq'.mem, rfl, .dep hc hmem hq' hm hmr hcond ha⟩
  · rintro ⟨q, hq, rfl, h⟩
    induction h with
    | root => exact .root
    | @dep p cs d q' m cf h1 hd hq' hm hmr hcond ha ih =>
      have hp : p ∈ locked l := by
        cases h1 with
        | root => exact hr
        | dep _ _ h => exact h.mem
      refine .dep (ih hp) ?_ ha
      show _ ∈ (c.dependencies (refOf p)).getD []
      obtain ⟨ds, cf', h3, h4, _, h6, _⟩ := C68_condition_partial hi hl hf hp hd hq' hm hmr (ho p hp d hd q' hq' m hm hmr)
      obtain ⟨y, _, _, _, _, huniq⟩ := loadCfg_declared (ho p hp d hd q' hq' m hm hmr)
      rw [h3, (huniq _ hcond).trans (huniq _ h6).symm]
      exact h4

/-- The source of a package is that of its library. -/
theorem crateSrc_of {m : MetaPkg} (hm : m ∈ c.packages) (ho : ∀ m' ∈ c.packages, m'.ref = m.ref → m' = m)
    (ht : ∀ t ∈ m.targets, IsLibrary t → ∀ t' ∈ m.targets, IsLibrary t' → t' = t) (f : Str) :
    c.crateSrc m.ref = some f ↔ ∃ t ∈ m.targets, IsLibrary t ∧ t.srcPath = f := by
  have hiff : ∀ t : CrateTarget, t.isLib = true ↔ IsLibrary t := by
    intro t
    simp only [CrateTarget.isLib, Bool.or_eq_true, List.contains_iff_mem, IsLibrary, List.mem_cons, List.not_mem_nil, or_false, exists_eq_or_imp,
      exists_eq_left]
    grind
  unfold Cargo.crateSrc
  rw [get_of ho hm]
  simp only [Option.bind_some, Option.map_eq_some_iff]
  constructor
  · rintro ⟨t, h1, rfl⟩
    exact ⟨t, List.mem_of_find?_eq_some h1, (hiff t).1 (List.find?_some h1), rfl⟩
  · rintro ⟨t, h1, h2, rfl⟩
    cases hfind : m.targets.find? CrateTarget.isLib with
    | none => exact absurd ((hiff t).2 h2) (List.find?_eq_none.1 hfind t h1)
    | some t' =>
      exact ⟨t', rfl, by rw [ht t h1 h2 t' (List.mem_of_find?_eq_some hfind) ((hiff t').1 (List.find?_some hfind))]⟩

/-- **C68.** What the sources of the crates declare: the items in the library of a package that is reached, under the
predicates of the dependencies on the way and those around the item. -/
theorem C68_given_partial (hi : ∀ xs, (c.iter xs).Perm xs) (hl : c.lock = some l) (hf : Fine l c.packages)
    (ho : AllOnce l c.packages) (ht : ∀ m ∈ c.packages, ∀ t ∈ m.targets, IsLibrary t → ∀ t' ∈ m.targets, IsLibrary t' → t' = t)
    {pc : ParseConfig} {read : Str → FSource} {r : LockPkg} (hr : r ∈ locked l) (x : Taken) (cs : List Cfg) :
    SrcSpec.Given pc { lib := some (c.workspace read, refOf r) } x cs ↔
      ∃ q ∈ locked l, ∃ edges cs' m t is, Chain pc l c.packages r q edges ∧ m ∈ c.packages ∧ m.ref = refOf q ∧ t ∈ m.targets ∧
        IsLibrary t ∧ read t.srcPath = .items is ∧ SrcSpec.Occurs pc q.name is x cs' ∧ cs = edges ++ cs' := by
  have hsrc : ∀ {q : LockPkg} {m : MetaPkg}, m ∈ c.packages → m.ref = refOf q → ∀ is,
      (c.workspace read).source (refOf q) = .items is ↔ ∃ t ∈ m.targets, IsLibrary t ∧ read t.srcPath = .items is := by
    intro q m hm hmr is
    have h := fun f => crateSrc_of hm (fun m' hm' h => hf.once m' hm' m hm h) (ht m hm) f
    rw [hmr] at h
    show (match c.crateSrc (refOf q) with | some f => read f | none => FSource.missing) = .items is ↔ _
    constructor
    · intro hs
      split at hs
      · rename_i f hcs
        obtain ⟨t, h1, h2, rfl⟩ := (h f).1 hcs
        exact ⟨t, h1, h2, hs⟩
      · cases hs
    · rintro ⟨t, h1, h2, h3⟩
      rw [(h t.srcPath).2 ⟨t, h1, h2, rfl⟩]
      exact h3
  constructor
  · intro h
    cases h with
    | src h => cases h
    | @lib ws root p edges is t cs hlib hreach hs hocc =>
      cases hlib
      obtain ⟨q, hq, rfl, hc⟩ := (C68_reached_partial hi hl hf ho hr _ _).1 hreach
      obtain ⟨m, hm, hmr⟩ := hf.described q hq
      obtain ⟨t, h1, h2, h3⟩ := (hsrc hm hmr is).1 hs
      exact ⟨q, hq, edges, cs, m, t, is, hc, hm, hmr, h1, h2, h3, hocc, rfl⟩
  · rintro ⟨q, hq, edges, cs', m, t, is, hc, hm, hmr, h1, h2, h3, hocc, rfl⟩
    exact .lib rfl ((C68_reached_partial hi hl hf ho hr _ _).2 ⟨q, hq, rfl, hc⟩) ((hsrc hm hmr is).2 ⟨t, h1, h2, h3⟩) hocc

/-- **C68.** The crate that bindings are made for is the one with the given name, if there is one such crate, or else the one
in the given directory. -/
theorem C68_root_partial (hi : ∀ xs, (c.iter xs).Perm xs) {m : MetaPkg} (hm : m ∈ c.packages) (hn : m.ref.name = c.bindingCrate)
    (h : (∀ m' ∈ c.packages, m'.ref.name = c.bindingCrate → m'.ref = m.ref) ∨
      (m.manifestPath = c.manifestPath ∧ ∀ m' ∈ c.packages, m'.ref = m.ref ∨ m'.manifestPath = c.manifestPath → m' = m)) :
    c.bindingCrateRef = some m.ref := by
  obtain ⟨m₁, hm₁, hr₁⟩ := keepFirst_has hm
  unfold Cargo.bindingCrateRef
  rcases h with h | ⟨h1, h2⟩
  · obtain ⟨x, hx, hxr⟩ := filter_one (p := fun m => decide (m.ref.name = c.bindingCrate)) (r := m.ref) (all_distinct hi)
      (fun m' hm' hn' => h m' (mem_keepFirst_of ((cargo_mem_all hi).1 hm')) (of_decide_eq_true hn'))
      ⟨m₁, (cargo_mem_all hi).2 hm₁, decide_eq_true (by rw [hr₁]; exact hn)⟩
    simp only [hx]
    by_cases hp : x.manifestPath = c.manifestPath
    · simp [List.find?, hp, hxr]
    · simp [List.find?, hp, hxr]
  · have hm1 : m₁ = m := h2 m₁ (mem_keepFirst_of hm₁) (Or.inl hr₁)
    subst hm1
    cases hf : (c.all.filter fun m => decide (m.ref.name = c.bindingCrate)).find? fun m => decide (m.manifestPath = c.manifestPath) with
    | none =>
      exact absurd (decide_eq_true h1) (List.find?_eq_none.1 hf m₁ (List.mem_filter.2 ⟨(cargo_mem_all hi).2 hm₁, decide_eq_true hn⟩))
    | some x =>
      have hx := List.mem_of_find?_eq_some hf
      have hxp : x.manifestPath = c.manifestPath := by
        have := List.find?_some hf
        exact of_decide_eq_true this
      have : x = m₁ := h2 x (mem_keepFirst_of ((cargo_mem_all hi).1 (List.mem_filter.1 hx).1)) (Or.inr hxp)
      subst this
      simp only [hf]
      rfl

end

/-! ## A case -/

namespace CargoCases

/-- `app` depends on `util` and on two versions of `rand`, one of them only on Unix; `util` depends on `app`'s older `rand` on
one target. -/
def app : LockPkg := ⟨c!"app", c!"0.1.0", none, some [c!"util", c!"rand 0.8.0"]⟩
def util : LockPkg := ⟨c!"util", c!"1.0.0", some c!"registry", some [c!"rand 0.7.0 (registry)"]⟩
def rand7 : LockPkg := ⟨c!"rand", c!"0.7.0", some c!"registry", none⟩
def rand8 : LockPkg := ⟨c!"rand", c!"0.8.0", some c!"registry", some []⟩
def lock : Lock := { package := some [app, util, rand7, rand8] }

def appMeta : MetaPkg :=
  ⟨⟨c!"app", some c!"0.1.0"⟩, [{ name := c!"util" }, { name := c!"rand", target := some (.cfg (some (.boolean c!"unix"))) }],
    [⟨[c!"bin"], c!"/a/main.rs"⟩, ⟨[c!"staticlib", c!"cdylib"], c!"/a/lib.rs"⟩], c!"/a/Cargo.toml", none⟩
def utilMeta : MetaPkg :=
  ⟨⟨c!"util", some c!"1.0.0"⟩, [{ name := c!"rand", target := some (.text c!"x86_64-pc-windows-msvc") }],
    [⟨[c!"lib"], c!"/u/lib.rs"⟩], c!"/u/Cargo.toml", some c!"registry"⟩
def rand7Meta : MetaPkg := ⟨⟨c!"rand", some c!"0.7.0"⟩, [], [⟨[c!"lib"], c!"/7/lib.rs"⟩], c!"/7/Cargo.toml", some c!"registry"⟩
def rand8Meta : MetaPkg := ⟨⟨c!"rand", some c!"0.8.0"⟩, [], [⟨[c!"lib"], c!"/8/lib.rs"⟩], c!"/8/Cargo.toml", some c!"registry"⟩
def cargo : Cargo := ⟨c!"/a/Cargo.toml", c!"app", some lock, [rand7Meta, rand8Meta, utilMeta, appMeta], List.reverse⟩

theorem names_util : Names (locked lock) c!"util" util := .name (q := util) (by decide) (by decide)
theorem names_rand8 : Names (locked lock) c!"rand 0.8.0" rand8 := .version (q := rand8) (by decide) (by decide)
theorem names_rand7 : Names (locked lock) c!"rand 0.7.0 (registry)" rand7 :=
  .source (q := rand7) (s := c!"registry") (by decide) rfl (by decide)

theorem names_inj {d : Str} {q : LockPkg} {qs : List LockPkg} (h : Names qs d q) (hw : ∀ q ∈ qs, Word q.name ∧ Word q.version) :
    (parseDepString d).map (·.1) = some q.name := by
  rcases depString_names h (hw q h.mem).1 (hw q h.mem).2 with ⟨h, _⟩ | h <;> rw [h] <;> rfl

instance (s : Str) : Decidable (Word s) := by unfold Word; infer_instance

theorem words : ∀ q ∈ locked lock, Word q.name ∧ Word q.version := by decide

theorem fine : Fine lock cargo.packages where
  words := words
  one := by decide
  strings := by
    intro q hq d hd
    have hq : q = app ∨ q = util ∨ q = rand7 ∨ q = rand8 := by simpa [locked, lock] using hq
    rcases hq with rfl | rfl | rfl | rfl
    · have : d = c!"util" ∨ d = c!"rand 0.8.0" := by simpa [written, app] using hd
      rcases this with rfl | rfl
      · exact ⟨_, names_util⟩
      · exact ⟨_, names_rand8⟩
    · have : d = c!"rand 0.7.0 (registry)" := by simpa [written, util] using hd
      subst this
      exact ⟨_, names_rand7⟩
    · cases hd
    · cases hd
  described := by
    intro q hq
    have hq : q = app ∨ q = util ∨ q = rand7 ∨ q = rand8 := by simpa [locked, lock] using hq
    rcases hq with rfl | rfl | rfl | rfl
    · exact ⟨appMeta, by simp [cargo], rfl⟩
    · exact ⟨utilMeta, by simp [cargo], rfl⟩
    · exact ⟨rand7Meta, by simp [cargo], rfl⟩
    · exact ⟨rand8Meta, by simp [cargo], rfl⟩
  known := by
    intro m hm
    have hm : m = rand7Meta ∨ m = rand8Meta ∨ m = utilMeta ∨ m = appMeta := by simpa [cargo] using hm
    rcases hm with rfl | rfl | rfl | rfl
    · exact ⟨rand7, by decide, rfl⟩
    · exact ⟨rand8, by decide, rfl⟩
    · exact ⟨util, by decide, rfl⟩
    · exact ⟨app, by decide, rfl⟩
  once := by
    intro m hm m' hm' h
    have hm : m = rand7Meta ∨ m = rand8Meta ∨ m = utilMeta ∨ m = appMeta := by simpa [cargo] using hm
    have hm' : m' = rand7Meta ∨ m' = rand8Meta ∨ m' = utilMeta ∨ m' = appMeta := by simpa [cargo] using hm'
    rcases hm with rfl | rfl | rfl | rfl <;> rcases hm' with rfl | rfl | rfl | rfl <;>
      first | rfl | exact absurd h (by decide)

theorem once : AllOnce lock cargo.packages := by
  intro p hp d hd q hq m hm hmr
  have hn := names_inj hq words
  have hp : p = app ∨ p = util ∨ p = rand7 ∨ p = rand8 := by simpa [locked, lock] using hp
  have hm : m = rand7Meta ∨ m = rand8Meta ∨ m = utilMeta ∨ m = appMeta := by simpa [cargo] using hm
  rcases hp with rfl | rfl | rfl | rfl
  · rcases hm with rfl | rfl | rfl | rfl
    · exact absurd hmr (by decide)
    · exact absurd hmr (by decide)
    · exact absurd hmr (by decide)
    have : d = c!"util" ∨ d = c!"rand 0.8.0" := by simpa [written, app] using hd
    rcases this with rfl | rfl
    · have : q.name = c!"util" := (Option.some.inj hn).symm
      rw [this]
      refine ⟨⟨_, .head _, rfl⟩, ?_⟩
      simp [appMeta]
    · have : q.name = c!"rand" := (Option.some.inj hn).symm
      rw [this]
      refine ⟨⟨_, .tail _ (.head _), rfl⟩, ?_⟩
      simp [appMeta]
  · rcases hm with rfl | rfl | rfl | rfl
    · exact absurd hmr (by decide)
    · exact absurd hmr (by decide)
    · have : d = c!"rand 0.7.0 (registry)" := by simpa [written, util] using hd
      subst this
      have : q.name = c!"rand" := (Option.some.inj hn).symm
      rw [this]
      refine ⟨⟨_, .head _, rfl⟩, ?_⟩
      simp [utilMeta]
    · exact absurd hmr (by decide)
  · cases hd
  · cases hd

theorem reversed (xs : List MetaPkg) : (cargo.iter xs).Perm xs := List.reverse_perm xs

end CargoCases

open CargoCases in
/-- The hypotheses can be met: the dependencies of `app`, the older `rand` behind two declarations, and the crate itself. -/
example : (∃ ds, cargo.dependencies (refOf app) = some ds ∧ ds.length = 2 ∧ (∃ cf, ds[0]? = some (refOf util, cf)) ∧
      ∃ cf, ds[1]? = some (refOf rand8, cf)) ∧
    SrcSpec.Reaches { bindingCrate := c!"app", parseDeps := true } (cargo.workspace fun _ => .missing) (refOf app) (refOf rand7)
      [.boolean c!"x86_64-pc-windows-msvc"] ∧
    cargo.bindingCrateRef = some (refOf app) := by
  refine ⟨?_, ?_, C68_root_partial reversed (m := appMeta) (by simp [cargo]) rfl (.inl ?_)⟩
  · obtain ⟨ds, h1, h2, h3⟩ := C68_packages_partial reversed rfl fine (p := app) (by decide)
    exact ⟨ds, h1, h2, h3 0 _ util rfl names_util, h3 1 _ rand8 rfl names_rand8⟩
  · refine (C68_reached_partial reversed rfl fine once (by decide) _ _).2 ⟨rand7, by decide, rfl, ?_⟩
    exact .dep (cs := []) (.dep (c := none) .root (.head _) names_util (.tail _ (.tail _ (.tail _ (.head _)))) rfl
        (.always (.head _) rfl rfl) (by simp [ParserSpec.Allowed, util]; decide))
      (c := some _) (.head _) names_rand7 (.tail _ (.tail _ (.head _))) rfl (.target (.head _) rfl rfl)
      (by simp [ParserSpec.Allowed, rand7]; decide)
  · intro m hm hn
    have hm : m = rand7Meta ∨ m = rand8Meta ∨ m = utilMeta ∨ m = appMeta := by simpa [cargo] using hm
    rcases hm with rfl | rfl | rfl | rfl
    · exact absurd hn (by decide)
    · exact absurd hn (by decide)
    · exact absurd hn (by decide)
    · rfl

/-! ## Where the code deviates -/

namespace CargoCases

/-- `app` depends on `foo`; the manifest declares it by `ds`. -/
def foo : LockPkg := ⟨c!"foo", c!"1.0.0", some c!"registry", none⟩
def user : LockPkg := ⟨c!"app", c!"0.1.0", none, some [c!"foo"]⟩
def small : Lock := { package := some [user, foo] }
def userMeta (ds : List Dependency) : MetaPkg :=
  { ref := ⟨c!"app", some c!"0.1.0"⟩, dependencies := ds, targets := [⟨[c!"lib"], c!"/a/lib.rs"⟩], manifestPath := c!"/a/Cargo.toml" }
def fooMeta : MetaPkg :=
  { ref := ⟨c!"foo", some c!"1.0.0"⟩, targets := [⟨[c!"lib"], c!"/f/lib.rs"⟩], manifestPath := c!"/f/Cargo.toml",
    source := some c!"registry" }
def smallCargo (ds : List Dependency) : Cargo := { manifestPath := c!"/a/Cargo.toml", bindingCrate := c!"app", lock := some small, packages := [userMeta ds, fooMeta] }

theorem small_fine (ds : List Dependency) : Fine small (smallCargo ds).packages where
  words := by decide
  one := by decide
  strings := by
    intro q hq d hd
    have hq : q = user ∨ q = foo := by simpa [locked, small] using hq
    rcases hq with rfl | rfl
    · have : d = c!"foo" := by simpa [written, user] using hd
      subst this
      exact ⟨foo, .name (q := foo) (by decide) (by decide)⟩
    · cases hd
  described := by
    intro q hq
    have hq : q = user ∨ q = foo := by simpa [locked, small] using hq
    rcases hq with rfl | rfl
    · exact ⟨userMeta ds, by simp [smallCargo], rfl⟩
    · exact ⟨fooMeta, by simp [smallCargo], rfl⟩
  known := by
    intro m hm
    have hm : m = userMeta ds ∨ m = fooMeta := by simpa [smallCargo] using hm
    rcases hm with rfl | rfl
    · exact ⟨user, by decide, rfl⟩
    · exact ⟨foo, by decide, rfl⟩
  once := by
    intro m hm m' hm' h
    have hm : m = userMeta ds ∨ m = fooMeta := by simpa [smallCargo] using hm
    have hm' : m' = userMeta ds ∨ m' = fooMeta := by simpa [smallCargo] using hm'
    rcases hm with rfl | rfl <;> rcases hm' with rfl | rfl <;>
      first | rfl | exact absurd h (by simp [userMeta, fooMeta])

end CargoCases

open CargoCases in
/-- **C68** is false for a package that is declared for two targets: only the first declaration counts.  With `foo` under
`cfg(unix)` and under `cfg(windows)`, the items of `foo` are hidden on Windows. -/
theorem C68_two_targets_refuted : ∃ (c : Cargo) (l : Lock) (p q : LockPkg) (m : MetaPkg) (x : Cfg) (on : CfgSpec.Opt → Bool),
    c.lock = some l ∧ Fine l c.packages ∧ p ∈ locked l ∧ m ∈ c.packages ∧ m.ref = refOf p ∧ Uses on m q.name ∧
    c.dependencies (refOf p) = some [(refOf q, some x)] ∧ CfgSpec.holds on x = false := by
  refine ⟨smallCargo [⟨c!"foo", none, some (.cfg (some (.boolean c!"unix")))⟩, ⟨c!"foo", none, some (.cfg (some (.boolean c!"windows")))⟩],
    small, user, foo, _, .boolean c!"unix", fun o => decide (o = .flag c!"windows"), rfl, small_fine _, by decide, .head _, rfl,
    ⟨_, .tail _ (.head _), rfl, rfl, _, rfl, by simp [CfgSpec.holds]⟩, rfl, by simp [CfgSpec.holds]⟩

open CargoCases in
/-- **C68** is false for packages that only tests or build scripts use: they are parsed like dependencies of the library. -/
theorem C68_dev_refuted : ∃ (c : Cargo) (l : Lock) (p q : LockPkg) (m : MetaPkg),
    c.lock = some l ∧ Fine l c.packages ∧ p ∈ locked l ∧ m ∈ c.packages ∧ m.ref = refOf p ∧ (∀ on, ¬ Uses on m q.name) ∧
    c.dependencies (refOf p) = some [(refOf q, none)] := by
  refine ⟨smallCargo [⟨c!"foo", some c!"dev", none⟩], small, user, foo, _, rfl, small_fine _, by decide, .head _, rfl, ?_, rfl⟩
  rintro on ⟨d, hd, _, hk, _⟩
  have : d = ⟨c!"foo", some c!"dev", none⟩ := by simpa [userMeta] using hd
  subst this
  cases hk

open CargoCases in
/-- **C68** is false for a target whose name is an identifier: it is taken for an attribute, and the condition is lost. -/
theorem C68_target_name_refuted : ∃ (c : Cargo) (l : Lock) (p q : LockPkg) (m : MetaPkg) (on : CfgSpec.Opt → Bool),
    c.lock = some l ∧ Fine l c.packages ∧ p ∈ locked l ∧ m ∈ c.packages ∧ m.ref = refOf p ∧ ¬ Uses on m q.name ∧
    c.dependencies (refOf p) = some [(refOf q, none)] := by
  refine ⟨smallCargo [⟨c!"foo", none, some (.ident c!"kernel")⟩], small, user, foo, _, fun _ => false, rfl, small_fine _, by decide,
    .head _, rfl, ?_, rfl⟩
  rintro ⟨d, hd, _, _, ht⟩
  have : d = ⟨c!"foo", none, some (.ident c!"kernel")⟩ := by simpa [userMeta] using hd
  subst this
  cases ht

namespace CargoCases

/-- `foo 1.0.0` from a registry and `foo 1.0.0` from a repository; `app` depends on the second. -/
def forked : LockPkg := ⟨c!"app", c!"0.1.0", none, some [c!"foo 1.0.0 (git)"]⟩
def fooGit : LockPkg := ⟨c!"foo", c!"1.0.0", some c!"git", none⟩
def fooGitMeta : MetaPkg := ⟨⟨c!"foo", some c!"1.0.0"⟩, [], [⟨[c!"lib"], c!"/g/lib.rs"⟩], c!"/g/Cargo.toml", some c!"git"⟩
def forkedLock : Lock := { package := some [forked, foo, fooGit] }
def forkedCargo : Cargo := { smallCargo [] with lock := some forkedLock, packages := [userMeta [⟨c!"foo", none, none⟩], fooMeta, fooGitMeta] }

/-- Two crates named `app`, in a directory given by a relative path. -/
def app1 : MetaPkg := { ref := ⟨c!"app", some c!"1.0.0"⟩, manifestPath := c!"/a/Cargo.toml" }
def app2 : MetaPkg := { ref := ⟨c!"app", some c!"2.0.0"⟩, manifestPath := c!"/b/Cargo.toml" }
def twoCargo : Cargo := { smallCargo [] with manifestPath := c!"./Cargo.toml", lock := none, packages := [app1, app2] }

end CargoCases

open CargoCases in
/-- **C68** is false for packages with one name and version from two sources: the set keeps one of them. -/
theorem C68_sources_refuted : ∃ (c : Cargo) (l : Lock) (p q : LockPkg) (d : Str) (m m' : MetaPkg),
    c.lock = some l ∧ p ∈ locked l ∧ d ∈ written p ∧ Names (locked l) d q ∧ m ∈ c.packages ∧ m.ref = refOf q ∧ m.source = q.source ∧
    m' ∈ c.packages ∧ m'.source ≠ q.source ∧ c.dependencies (refOf p) = some [(refOf q, none)] ∧ (∃ t ∈ m'.targets, IsLibrary t ∧ c.crateSrc (refOf q) = some t.srcPath) ∧
    ∀ t ∈ m.targets, c.crateSrc (refOf q) ≠ some t.srcPath := by
  refine ⟨forkedCargo, forkedLock, forked, fooGit, c!"foo 1.0.0 (git)", fooGitMeta, fooMeta, rfl, .head _, .head _,
    .source (q := fooGit) (s := c!"git") (by decide) rfl (by decide), .tail _ (.tail _ (.head _)), rfl, rfl, .tail _ (.head _), by decide,
    rfl, ⟨_, .head _, ?_, rfl⟩, ?_⟩
  · exact ⟨c!"lib", by decide, by decide⟩
  intro t ht
  have : t = ⟨[c!"lib"], c!"/g/lib.rs"⟩ := by simpa [fooGitMeta] using ht
  subst this
  decide

open CargoCases in
/-- **C68** is false for the crate itself if two crates have its name and the directory is not the one in the metadata, for
instance because it is given as a relative path: the order of a hash set decides. -/
theorem C68_root_refuted : ∃ (c : Cargo) (p q : Pkg), p ≠ q ∧ (∀ xs, (c.iter xs).Perm xs) ∧ c.bindingCrateRef = some p ∧
    ({ c with iter := List.reverse }).bindingCrateRef = some q := by
  exact ⟨twoCargo, ⟨c!"app", some c!"1.0.0"⟩, ⟨c!"app", some c!"2.0.0"⟩, by decide, fun _ => .rfl, rfl, rfl⟩

end Cbindgen
