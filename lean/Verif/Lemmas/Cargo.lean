import Verif.Spec.Cargo

/-!
# Lemmas about the files of cargo (C68)
-/

namespace Cbindgen
open CargoSpec

/-! ## Words -/

theorem splitWsAux_word : ∀ {w : Str}, (∀ c ∈ w, isWs c = false) → ∀ acc rest, splitWsAux acc (w ++ rest) = splitWsAux (w.reverse ++ acc) rest
  | [], _, _, _ => rfl
  | c :: w, h, acc, rest => by
    have hc := h c (by simp)
    show splitWsAux acc (c :: (w ++ rest)) = _
    rw [splitWsAux, if_neg (by simp [hc]), splitWsAux_word (fun c h' => h c (by simp [h']))]
    simp

theorem splitWsAux_last {w : Str} (h : Word w) : splitWsAux [] w = [w] := by
  have := splitWsAux_word h.2 [] []
  rw [List.append_nil] at this
  rw [this, splitWsAux, if_neg (by simpa using h.1)]
  simp

theorem splitWsAux_space {w : Str} (h : Word w) (rest : Str) : splitWsAux [] (w ++ ' ' :: rest) = w :: splitWsAux [] rest := by
  rw [splitWsAux_word h.2, splitWsAux, if_pos (by decide), if_neg (by simpa using h.1)]
  simp

theorem depString_names {qs : List LockPkg} {d : Str} {q : LockPkg} (h : Names qs d q) (hn : Word q.name) (hv : Word q.version) :
    parseDepString d = some (q.name, none) ∧ (∀ q' ∈ qs, q'.name = q.name → q' = q) ∨
      parseDepString d = some (q.name, some q.version) := by
  unfold parseDepString
  cases h with
  | name _ h => exact .inl ⟨by rw [splitWsAux_last hn]; rfl, h⟩
  | version _ h => exact .inr (by rw [splitWsAux_space hn, splitWsAux_last hv]; rfl)
  | source _ _ h => exact .inr (by rw [splitWsAux_space hn, splitWsAux_space hv]; rfl)

theorem CargoSpec.Names.mem {qs : List LockPkg} {d : Str} {q : LockPkg} (h : Names qs d q) : q ∈ qs := by
  cases h <;> assumption

/-! ## Sets -/

theorem mem_keepFirst_of {m : MetaPkg} : ∀ {ms : List MetaPkg}, m ∈ keepFirst ms → m ∈ ms
  | [], h => by cases h
  | p :: ps, h => by
    rcases List.mem_cons.1 h with rfl | h
    · simp
    · exact List.mem_cons_of_mem _ (mem_keepFirst_of (List.mem_filter.1 h).1)

theorem keepFirst_has {m : MetaPkg} : ∀ {ms : List MetaPkg}, m ∈ ms → ∃ m' ∈ keepFirst ms, m'.ref = m.ref
  | p :: ps, h => by
    by_cases hr : p.ref = m.ref
    · exact ⟨p, by simp [keepFirst], hr⟩
    · rcases List.mem_cons.1 h with rfl | h
      · exact absurd rfl hr
      · obtain ⟨m', h1, h2⟩ := keepFirst_has h
        exact ⟨m', List.mem_cons_of_mem _ (List.mem_filter.2 ⟨h1, by simpa [h2] using fun h => hr h.symm⟩), h2⟩

theorem keepFirst_distinct : ∀ ms : List MetaPkg, (keepFirst ms).Pairwise fun a b => a.ref ≠ b.ref
  | [] => .nil
  | p :: ps => by
    refine List.Pairwise.cons ?_ ((keepFirst_distinct ps).filter _)
    intro q hq
    have := (List.mem_filter.1 hq).2
    simp only [ne_eq, decide_not, Bool.not_eq_eq_eq_not, Bool.not_true, decide_eq_false_iff_not] at this
    exact fun h => this h.symm

section
variable {c : Cargo}

theorem cargo_mem_all (hi : ∀ xs, (c.iter xs).Perm xs) {m : MetaPkg} : m ∈ c.all ↔ m ∈ keepFirst c.packages := (hi _).mem_iff

theorem all_distinct (hi : ∀ xs, (c.iter xs).Perm xs) : c.all.Pairwise fun a b => a.ref ≠ b.ref :=
  (hi _).symm.pairwise (keepFirst_distinct _) (fun h => fun h' => h h'.symm)

/-- Packages with one reference are one package. -/
theorem filter_one {p : MetaPkg → Bool} {r : Pkg} {ms : List MetaPkg} (hd : ms.Pairwise fun a b => a.ref ≠ b.ref)
    (ho : ∀ m ∈ ms, p m = true → m.ref = r) (he : ∃ m ∈ ms, p m = true) : ∃ m, ms.filter p = [m] ∧ m.ref = r := by
  have hd' := hd.filter p
  have ho' : ∀ m ∈ ms.filter p, m.ref = r := fun m hm => ho m (List.mem_filter.1 hm).1 (List.mem_filter.1 hm).2
  obtain ⟨m, hm, hp⟩ := he
  have hm' : m ∈ ms.filter p := List.mem_filter.2 ⟨hm, hp⟩
  generalize ms.filter p = xs at hd' ho' hm'
  match xs, hm' with
  | [x], _ => exact ⟨x, rfl, ho' x (by simp)⟩
  | x :: y :: xs, _ =>
    exact absurd ((ho' x (by simp)).trans (ho' y (by simp)).symm) ((List.pairwise_cons.1 hd').1 y (by simp))

end

/-! ## Dependencies -/

section
variable {c : Cargo} {l : Lock}

theorem onlyVersion_of (hi : ∀ xs, (c.iter xs).Perm xs) (hf : Fine l c.packages) {q : LockPkg} (hq : q ∈ locked l)
    (ho : ∀ q' ∈ locked l, q'.name = q.name → q' = q) : c.onlyVersion q.name = some q.version := by
  obtain ⟨m, hm, hr⟩ := hf.described q hq
  obtain ⟨m', hm', hr'⟩ := keepFirst_has hm
  obtain ⟨x, hx, hxr⟩ := filter_one (p := fun m => decide (m.ref.name = q.name)) (r := refOf q) (all_distinct hi)
    (fun m hm h => by
      obtain ⟨q', hq', hr⟩ := hf.known m (mem_keepFirst_of ((cargo_mem_all hi).1 hm))
      rw [hr] at h
      rw [hr, ho q' hq' (of_decide_eq_true h)])
    ⟨m', (cargo_mem_all hi).2 hm', by rw [hr', hr]; simp [refOf]⟩
  unfold Cargo.onlyVersion
  rw [hx]
  simp [hxr, refOf]

/-- A dependency is the package that the lock file names. -/
theorem dependency_names (hi : ∀ xs, (c.iter xs).Perm xs) (hf : Fine l c.packages) {d : Str} {q : LockPkg}
    (h : Names (locked l) d q) (p : Pkg) :
    c.dependency p d = some (refOf q,
      ((c.get p).bind fun m => m.dependencies.find? fun d => d.name = q.name).bind fun d => DepTarget.loadCfg d.target) := by
  obtain ⟨hn, hv⟩ := hf.words q h.mem
  unfold Cargo.dependency
  rcases depString_names h hn hv with ⟨h1, h2⟩ | h1
  · rw [h1]
    simp only [Option.none_or, onlyVersion_of hi hf h.mem h2]
    rfl
  · rw [h1]
    rfl

theorem isFor_ref {q p : LockPkg} : q.isFor (refOf p) = true ↔ q.name = p.name ∧ q.version = p.version := by
  unfold LockPkg.isFor
  rw [Bool.and_eq_true]
  exact ⟨fun h => ⟨of_decide_eq_true h.1, (of_decide_eq_true h.2).symm⟩, fun h => ⟨decide_eq_true h.1, decide_eq_true h.2.symm⟩⟩

theorem listed_ref (hf : Fine l c.packages) {p : LockPkg} (hp : p ∈ locked l) :
    ((l.rootDeps (refOf p)).or (l.packageDeps (refOf p))).getD [] = written p := by
  have hone : ∀ q ∈ locked l, q.isFor (refOf p) = true → q = p := fun q hq h => by
    obtain ⟨h1, h2⟩ := isFor_ref.1 h
    exact hf.one q hq p hp h1 h2
  have hself : p.isFor (refOf p) = true := isFor_ref.2 ⟨rfl, rfl⟩
  unfold written
  have hroot : l.rootDeps (refOf p) = none ∨ l.rootDeps (refOf p) = p.dependencies := by
    unfold Lock.rootDeps
    split
    · rename_i r hr
      split
      · rename_i h
        rw [hone r (by simp [locked, hr]) h]
        exact .inr rfl
      · exact .inl rfl
    · exact .inl rfl
  have hpack : l.packageDeps (refOf p) = none ∨ l.packageDeps (refOf p) = p.dependencies := by
    unfold Lock.packageDeps
    split
    · rename_i qs hqs
      cases hfind : qs.find? fun q => q.isFor (refOf p) with
      | none => exact .inl rfl
      | some x =>
        rw [hone x (by simp [locked, hqs, List.mem_of_find?_eq_some hfind]) (by simpa using List.find?_some hfind)]
        exact .inr rfl
    · exact .inl rfl
  have hany : l.rootDeps (refOf p) = p.dependencies ∨ l.packageDeps (refOf p) = p.dependencies := by
    rcases List.mem_append.1 hp with h | h
    · left
      cases hr : l.root with
      | none => rw [hr] at h; cases h
      | some r =>
        rw [hr] at h
        have : p = r := by simpa using h
        subst this
        simp [Lock.rootDeps, hr, hself]
    · right
      cases hqs : l.package with
      | none => rw [hqs] at h; cases h
      | some qs =>
        rw [hqs] at h
        simp only [Option.getD_some] at h
        unfold Lock.packageDeps
        rw [hqs]
        dsimp only
        cases hfind : qs.find? fun q => q.isFor (refOf p) with
        | none => exact absurd hself (by simpa using List.find?_eq_none.1 hfind p h)
        | some x =>
          rw [hone x (by simp [locked, hqs, List.mem_of_find?_eq_some hfind]) (by simpa using List.find?_some hfind)]
          rfl
  cases hd : p.dependencies with
  | none =>
    rw [hd] at hroot hpack
    simp only [or_self] at hroot hpack
    rw [hroot, hpack]
    rfl
  | some ds =>
    rw [hd] at hroot hpack hany
    rcases hroot with h1 | h1 <;> rcases hpack with h2 | h2 <;> simp_all

theorem dependencies_ref (hf : Fine l c.packages) (hl : c.lock = some l) {p : LockPkg} (hp : p ∈ locked l) :
    c.dependencies (refOf p) = (written p).mapM (c.dependency (refOf p)) := by
  unfold Cargo.dependencies
  rw [hl]
  simp only
  have := listed_ref (c := c) hf hp
  split
  · rename_i h
    rw [h] at this
    rw [← this]
    rfl
  · rename_i ds h
    rw [h] at this
    rw [← this]
    rfl

theorem mapM_some_map {α β : Type} {f : α → Option β} {g : α → β} : ∀ {xs : List α}, (∀ x ∈ xs, f x = some (g x)) → xs.mapM f = some (xs.map g)
  | [], _ => rfl
  | x :: xs, h => by
    rw [List.mapM_cons, h x (by simp), mapM_some_map fun y hy => h y (by simp [hy])]
    rfl

theorem mapM_getElem {α β : Type} {f : α → Option β} : ∀ {xs : List α} {ys : List β}, xs.mapM f = some ys →
    xs.length = ys.length ∧ ∀ i : Nat, ys[i]? = xs[i]?.bind f
  | [], ys, h => by cases h; simp
  | x :: xs, ys, h => by
    rw [List.mapM_cons] at h
    simp only [Option.bind_eq_bind, Option.bind_eq_some_iff, Option.pure_def, Option.some.injEq] at h
    obtain ⟨y, hy, zs, hz, rfl⟩ := h
    obtain ⟨h1, h2⟩ := mapM_getElem hz
    refine ⟨by simp [h1], fun i => ?_⟩
    cases i with
    | zero => simp [hy]
    | succ i => simpa using h2 i

theorem mapM_isSome {α β : Type} {f : α → Option β} : ∀ {xs : List α}, (∀ x ∈ xs, ∃ y, f x = some y) → ∃ ys, xs.mapM f = some ys
  | [], _ => ⟨[], rfl⟩
  | x :: xs, h => by
    obtain ⟨y, hy⟩ := h x (by simp)
    obtain ⟨ys, hys⟩ := mapM_isSome (xs := xs) (f := f) fun z hz => h z (by simp [hz])
    exact ⟨y :: ys, by rw [List.mapM_cons, hy, hys]; rfl⟩

theorem get_of {m : MetaPkg} (ho : ∀ m' ∈ c.packages, m'.ref = m.ref → m' = m) (hm : m ∈ c.packages) : c.get m.ref = some m := by
  unfold Cargo.get
  cases hf : c.packages.find? fun m' => m'.ref = m.ref with
  | none => exact absurd (decide_eq_true rfl) (List.find?_eq_none.1 hf m hm)
  | some x => rw [ho x (List.mem_of_find?_eq_some hf) (by simpa using List.find?_some hf)]

/-- The predicate of a dependency is that of its declaration. -/
theorem loadCfg_declared {m : MetaPkg} {n : Str} (hd : DeclaredOnce m n) :
    ∃ d ∈ m.dependencies, d.name = n ∧ (m.dependencies.find? fun d => d.name = n) = some d ∧
      DeclaredUnder m n (DepTarget.loadCfg d.target) ∧ ∀ cf, DeclaredUnder m n cf → cf = DepTarget.loadCfg d.target := by
  obtain ⟨⟨d₀, h1, h2⟩, h3⟩ := hd
  cases hf : m.dependencies.find? fun d => d.name = n with
  | none => exact absurd h2 (by simpa using List.find?_eq_none.1 hf d₀ h1)
  | some d =>
    have hm := List.mem_of_find?_eq_some hf
    have hn : d.name = n := by simpa using List.find?_some hf
    obtain ⟨_, k1, k2, k3, k4⟩ := h3 d hm hn
    refine ⟨d, hm, hn, rfl, ?_, ?_⟩
    · rcases ht : d.target with _ | t
      · exact .always hm hn ht
      cases t with
      | cfg x =>
        cases x with
        | none => exact absurd rfl (k1 none ht)
        | some x => exact .cfg hm hn ht
      | list => exact absurd ht k2
      | ident n => exact absurd ht (k3 n)
      | text t => exact .target hm hn ht
    · intro cf hcf
      cases hcf with
      | always h4 h5 h6 => rw [← k4 _ h4 h5, h6]; rfl
      | cfg h4 h5 h6 => rw [← k4 _ h4 h5, h6]; rfl
      | target h4 h5 h6 => rw [← k4 _ h4 h5, h6]; rfl

end

end Cbindgen
