import Verif.Lemmas.Library

/-!
# C10 – C13, C53, C54: which items are written, and in which order
-/

namespace Cbindgen

open LibSpec

/-! ## C12 -/

/-- **C12** Sorting the items gives the layered order, and this is the only list with that order: the
result does not depend on how the sorting is done. -/
theorem C12_layers (xs r : List Container) : Layered xs r ↔ r = sortItems xs := layered_iff xs r

theorem mem_sortItems (xs : List Container) (x : Container) : x ∈ sortItems xs ↔ x ∈ xs := by
  unfold sortItems
  exact (List.mergeSort_perm _ _).mem_iff

/-- **C12** Nothing is lost or doubled. -/
theorem C12_permutation (xs : List Container) : (sortItems xs).Perm xs := by
  unfold sortItems
  exact List.mergeSort_perm _ _

/-- A case: a struct, two opaque types in the wrong order, an enum without data. -/
example :
    let s : Container := .struct { path := c!"A", exportName := c!"A", fields := [] }
    let o1 : Container := .opaque { path := c!"Z", exportName := c!"Z" }
    let o2 : Container := .opaque { path := c!"B", exportName := c!"B" }
    let e : Container := .enum { path := c!"E", exportName := c!"E", variants := [] }
    sortItems [s, o1, e, o2] = [e, o2, o1, s] := by
  intro s o1 o2 e
  have h : Layered [s, o1, e, o2] [e, o2, o1, s] := by
    refine ⟨[o2, o1], ⟨by simp [o1, o2, Container.path]; decide, ?_⟩, by rfl⟩
    intro n
    simp only [s, o1, o2, e, isOpaque, List.filter_cons, Bool.false_eq_true, ↓reduceIte,
      Container.path, List.filter_nil]
    by_cases h1 : (c!"B" : Str) = n
    · subst h1; rfl
    · by_cases h2 : (c!"Z" : Str) = n
      · subst h2; rfl
      · simp [h1, h2]
  exact ((C12_layers _ _).1 h).symm

/-! ## C11 -/

/-- The names from which the collection starts. -/
def LibSpec.Root (inc : List Str) (l : Library) (n : Str) : Prop :=
  (∃ f ∈ l.functions, FuncUses f n) ∨ (∃ g ∈ l.globals.toVec, TyUses g.ty n) ∨
    (∃ k ∈ l.constants.toVec, ConstUses k n) ∨ n ∈ inc

theorem mem_rootPaths (c : LibConfig) (l : Library) (n : Str) :
    n ∈ l.rootPaths c ↔ Root c.export_.inc l n := by
  unfold Library.rootPaths Root
  simp only [List.mem_append, List.mem_flatMap, FuncItem.mem_depPaths, StaticItem.mem_depPaths,
    ConstItem.mem_depPaths, or_assoc]

/-- A name is known if one of the tables of the generated kinds has it. -/
def LibSpec.Known (c : LibConfig) (l : Library) (n : Str) : Prop :=
  (c.export_.shouldGenerate .enums = true ∧ (l.enums.getItems n).isSome) ∨
  (c.export_.shouldGenerate .structs = true ∧ (l.structs.getItems n).isSome) ∨
  (c.export_.shouldGenerate .unions = true ∧ (l.unions.getItems n).isSome) ∨
  (c.export_.shouldGenerate .opaqueItems = true ∧ (l.opaqueItems.getItems n).isSome) ∨
  (c.export_.shouldGenerate .typedefs = true ∧ (l.typedefs.getItems n).isSome)

theorem findItems_isSome {α : Type} (c : LibConfig) (t : ItemType) (mk : α → Container)
    (m : ItemMap α) (p : Str) : (findItems c t mk m p).isSome = true ↔
      c.export_.shouldGenerate t = true ∧ (m.getItems p).isSome = true := by
  unfold findItems
  cases c.export_.shouldGenerate t <;> simp

/-- **C11** A name can be found exactly if it is known. -/
theorem C11_known (c : LibConfig) (l : Library) (n : Str) :
    (l.getItems c n).isSome = true ↔ Known c l n := by
  unfold Library.getItems Known
  simp only [← findItems_isSome c _ Container.enum, ← findItems_isSome c _ Container.struct,
    ← findItems_isSome c _ Container.union, ← findItems_isSome c _ Container.opaque,
    ← findItems_isSome c _ Container.typedef]
  cases findItems c .enums .enum l.enums n <;> cases findItems c .structs .struct l.structs n <;>
    cases findItems c .unions .union l.unions n <;>
    cases findItems c .opaqueItems .opaque l.opaqueItems n <;> simp

/-- **C11** The collection of items always ends, and gives the definitions of exactly the known names
that can be reached from functions, statics, constants and the include list; no name is taken twice. -/
theorem C11_reachable (c : LibConfig) (l : Library) :
    ∃ (b : Bindings) (ps : List Str), l.collect c = some b ∧ ps.Nodup ∧
      (∀ p, p ∈ ps ↔ ∃ r, Root c.export_.inc l r ∧ Known c l r ∧ Reaches (l.getItems c) r p) ∧
      b.items.Perm (ps.flatMap fun p => (l.getItems c p).getD []) := by
  obtain ⟨ps, d, hd, hord, hnd, hmem, _⟩ := Deps.addAll_spec (l.getItems c) l.keys
    (fun p hp => Library.getItems_key hp) (l.rootPaths c) (l.depth + 1) (by rw [Library.keys_length])
  refine ⟨_, ps, by unfold Library.collect; rw [hd]; rfl, hnd, ?_, ?_⟩
  · intro p
    rw [hmem]
    constructor
    · rintro ⟨r, hr, hk, hreach⟩
      exact ⟨r, (mem_rootPaths c l r).1 hr, (C11_known c l r).1 hk, hreach⟩
    · rintro ⟨r, hr, hk, hreach⟩
      exact ⟨r, (mem_rootPaths c l r).2 hr, (C11_known c l r).2 hk, hreach⟩
  · show (sortItems d.order).Perm _
    rw [hord]
    exact C12_permutation _

/-- **C11** In the result of the whole stage: an item is written exactly if it is a definition, found
after renaming, of a reachable known name; and the names are the ones that the items carry. -/
theorem C11_generate {c : LibConfig} {order : List (Str × Annotations) → List (Str × Annotations)}
    {fuel : Nat} {l : Library} {b : Bindings} (h : l.generate c order fuel = .ok b) :
    ∃ l', l.prepare c order fuel = .ok l' ∧ ∀ x, x ∈ b.items ↔
      (∃ its, l'.getItems c x.path = some its ∧ x ∈ its) ∧
        ∃ r, Root c.export_.inc l' r ∧ Known c l' r ∧ Reaches (l'.getItems c) r x.path := by
  obtain ⟨l', hl', hb⟩ := Library.generate_ok h
  refine ⟨l', hl', ?_⟩
  have hwf := Library.prepare_wf hl'
  obtain ⟨b', ps, hb', hnd, hmem, hperm⟩ := C11_reachable c l'
  rw [hb] at hb'
  simp only [Option.some.injEq] at hb'
  subst hb'
  intro x
  rw [hperm.mem_iff, List.mem_flatMap]
  constructor
  · rintro ⟨p, hp, hx⟩
    cases hg : l'.getItems c p with
    | none => rw [hg] at hx; simp at hx
    | some its =>
      rw [hg, Option.getD_some] at hx
      have hpath := (Library.getItems_path hwf hg).2 x hx
      subst hpath
      exact ⟨⟨its, hg, hx⟩, (hmem _).1 hp⟩
  · rintro ⟨⟨its, hg, hx⟩, hr⟩
    exact ⟨x.path, (hmem _).2 hr, by rw [hg]; exact hx⟩

/-! ## C10 -/

/-- The state of the search that C10 is about. -/
theorem order_before (c : LibConfig) {l : Library} (hwf : l.WF) {b : Bindings}
    (h : l.collect c = some b) {pre post : List Container} {x : Container}
    (hs : b.items = pre ++ x :: post) (hx : isPlainEnum x = false) {q : Str}
    (hu : ItemUses x q) {its : List Container} (hq : l.getItems c q = some its) :
    (∀ i ∈ its, i ∈ pre) ∨ Reaches (l.getItems c) q x.path := by
  obtain ⟨ps, d, hd, hord, hnd, hmem, hbefore⟩ := Deps.addAll_spec (l.getItems c) l.keys
    (fun p hp => Library.getItems_key hp) (l.rootPaths c) (l.depth + 1) (by rw [Library.keys_length])
  unfold Library.collect at h
  rw [hd, Option.map_some, Option.some.injEq] at h
  subst h
  have hs : sortItems d.order = pre ++ x :: post := hs
  have hxo : isOpaque x = false := by
    cases x <;> first | rfl | exact absurd hu (by simp [ItemUses])
  obtain ⟨os, hos, hlay⟩ := (C12_layers d.order _).2 rfl
  -- the position of `x` among the items that are neither plain enums nor opaque
  have hnot : ∀ y ∈ d.order.filter isPlainEnum ++ os, isPlainEnum y = true ∨ isOpaque y = true := by
    intro y hy
    rcases List.mem_append.1 hy with hy | hy
    · exact .inl (List.mem_filter.1 hy).2
    · exact .inr (List.mem_filter.1 ((mem_of_stable hos y).1 hy)).2
  rw [hlay] at hs
  obtain ⟨pre', hpre, hrest⟩ : ∃ pre', pre = d.order.filter isPlainEnum ++ os ++ pre' ∧
      d.order.filter (fun x => !isPlainEnum x && !isOpaque x) = pre' ++ x :: post := by
    rw [List.append_eq_append_iff] at hs
    rcases hs with ⟨c', h1, h2⟩ | ⟨c', h1, h2⟩
    · exact ⟨c', h1, h2⟩
    · cases c' with
      | nil => exact ⟨[], by simpa using h1.symm, by simpa using h2.symm⟩
      | cons y c' =>
        simp only [List.cons_append, List.cons.injEq] at h2
        have := hnot y (by rw [h1]; simp)
        rw [← h2.1, hx, hxo] at this
        simp at this
  obtain ⟨a, b', hab, ha⟩ : ∃ a b', d.order = a ++ x :: b' ∧
      a.filter (fun x => !isPlainEnum x && !isOpaque x) = pre' := by
    obtain ⟨l₁, l₂, e, h1, h2⟩ := List.filter_eq_append_iff.1 hrest
    obtain ⟨m₁, m₂, e', h3, _, _⟩ := List.filter_eq_cons_iff.1 h2
    refine ⟨l₁ ++ m₁, m₂, by rw [e, e']; simp, ?_⟩
    rw [List.filter_append, h1, List.filter_eq_nil_iff.2 h3, List.append_nil]
  rw [hord] at hab
  obtain ⟨pa, p, pb, u, v, e1, e2, e3⟩ := flatMap_split (itemsAt (l.getItems c)) hab
  have hxp : x ∈ itemsAt (l.getItems c) p := by rw [e2]; simp
  have hpath : x.path = p := by
    unfold itemsAt at hxp
    cases hg : l.getItems c p with
    | none => rw [hg] at hxp; simp at hxp
    | some its' => rw [hg] at hxp; exact (Library.getItems_path hwf hg).2 x hxp
  rcases hbefore pa p pb e1 x hxp q hu (by rw [hq]; rfl) with hqa | hreach
  · left
    intro i hi
    have hia : i ∈ a := by
      rw [e3, List.mem_append, List.mem_flatMap]
      exact .inl ⟨q, hqa, by unfold itemsAt; rw [hq]; exact hi⟩
    rw [hpre]
    by_cases hpe : isPlainEnum i = true
    · have : i ∈ d.order.filter isPlainEnum := List.mem_filter.2 ⟨by rw [hord, hab]; simp [hia], hpe⟩
      simp [this]
    · by_cases hop : isOpaque i = true
      · have : i ∈ os := (mem_of_stable hos i).2
          (List.mem_filter.2 ⟨by rw [hord, hab]; simp [hia], hop⟩)
        simp [this]
      · have : i ∈ pre' := by
          rw [← ha, List.mem_filter]
          simp only [Bool.not_eq_true] at hpe hop
          simp [hia, hpe, hop]
        simp [this]
  · right
    rw [hpath]
    exact hreach

/-- **C10** In the result, every item that is not an enum without data stands behind all definitions
of every name it uses, unless that name leads back to the item. -/
theorem C10_before {c : LibConfig} {order : List (Str × Annotations) → List (Str × Annotations)}
    {fuel : Nat} {l : Library} {b : Bindings} (h : l.generate c order fuel = .ok b) :
    ∃ l', l.prepare c order fuel = .ok l' ∧
      ∀ pre x post, b.items = pre ++ x :: post → isPlainEnum x = false →
        ∀ q its, ItemUses x q → l'.getItems c q = some its →
          (∀ i ∈ its, i ∈ pre) ∨ Reaches (l'.getItems c) q x.path := by
  obtain ⟨l', hl', hb⟩ := Library.generate_ok h
  exact ⟨l', hl', fun pre x post hs hx q its hu hq =>
    order_before c (Library.prepare_wf hl') hb hs hx hu hq⟩

/-- **C10** What a function, a static or a constant uses is in the result, if it is known. -/
theorem C10_roots {c : LibConfig} {order : List (Str × Annotations) → List (Str × Annotations)}
    {fuel : Nat} {l : Library} {b : Bindings} (h : l.generate c order fuel = .ok b) :
    ∃ l', l.prepare c order fuel = .ok l' ∧ ∀ q its, Root c.export_.inc l' q →
      l'.getItems c q = some its → ∀ i ∈ its, i ∈ b.items := by
  obtain ⟨l', hl', hall⟩ := C11_generate h
  refine ⟨l', hl', ?_⟩
  intro q its hr hq i hi
  have hp := (Library.getItems_path (Library.prepare_wf hl') hq).2 i hi
  rw [hall]
  subst hp
  exact ⟨⟨its, hq, hi⟩, i.path, hr, (C11_known c l' _).1 (by rw [hq]; rfl), .refl _⟩

/-- **C10** What an item of the result uses is in the result, if it is known. -/
theorem C10_closed {c : LibConfig} {order : List (Str × Annotations) → List (Str × Annotations)}
    {fuel : Nat} {l : Library} {b : Bindings} (h : l.generate c order fuel = .ok b) :
    ∃ l', l.prepare c order fuel = .ok l' ∧ ∀ x ∈ b.items, ∀ q its, ItemUses x q →
      l'.getItems c q = some its → ∀ i ∈ its, i ∈ b.items := by
  obtain ⟨l', hl', hall⟩ := C11_generate h
  refine ⟨l', hl', ?_⟩
  intro x hx q its hu hq i hi
  have hp := (Library.getItems_path (Library.prepare_wf hl') hq).2 i hi
  obtain ⟨⟨its', hg, hx'⟩, r, hr, hk, hreach⟩ := (hall x).1 hx
  rw [hall]
  subst hp
  exact ⟨⟨its, hq, hi⟩, r, hr, hk, hreach.step hg hx' hu (by rw [hq]; rfl)⟩

/-! ## C13 -/

/-- **C13** Nothing whose name is in the exclude list is in the result. -/
theorem C13_generate {c : LibConfig} {order : List (Str × Annotations) → List (Str × Annotations)}
    {fuel : Nat} {l : Library} {b : Bindings} (h : l.generate c order fuel = .ok b) :
    (∀ x ∈ b.items, x.path ∉ c.export_.exclude) ∧ (∀ x ∈ b.functions, x.path ∉ c.export_.exclude) ∧
      (∀ x ∈ b.constants, x.path ∉ c.export_.exclude) ∧
      ∀ x ∈ b.globals, x.path ∉ c.export_.exclude := by
  obtain ⟨l', hl', hb⟩ := Library.generate_ok h
  have hall := Library.prepare_excluded hl'
  obtain ⟨l'', hl'', hitems⟩ := C11_generate h
  rw [hl'] at hl''
  simp only [Except.ok.injEq] at hl''
  subst hl''
  refine ⟨?_, ?_, ?_, ?_⟩
  · intro x hx
    obtain ⟨⟨its, hg, hx'⟩, _⟩ := (hitems x).1 hx
    exact hall.getItems hg x hx'
  all_goals
    unfold Library.collect at hb
    rw [Option.map_eq_some_iff] at hb
    obtain ⟨d, _, rfl⟩ := hb
    intro x hx
    dsimp only at hx
    split at hx
    case isFalse => simp at hx
  · exact hall.functions x hx
  · unfold sortIf sortByPath at hx
    split at hx
    · exact hall.constants x ((List.mergeSort_perm _ _).mem_iff.1 hx)
    · exact hall.constants x hx
  · unfold sortIf sortByPath at hx
    split at hx
    · exact hall.globals x ((List.mergeSort_perm _ _).mem_iff.1 hx)
    · exact hall.globals x hx

/-! ## C54 -/

/-- In input order, or by name. -/
def LibSpec.Ordered {α : Type} (k : SortKey) (name : α → Str) (xs r : List α) : Prop :=
  match k with
  | .none => r = xs
  | .name => StableByName name xs r

theorem ordered_sortIf {α : Type} (k : SortKey) (name : α → Str) (xs : List α) :
    Ordered k name xs (sortIf k name xs) := by
  cases k with
  | none => rfl
  | name => exact (stableByName_iff name xs _).2 rfl

theorem sortByPath_map {α β : Type} (n₁ : α → Str) (n₂ : β → Str) (f : α → β)
    (hf : ∀ x, n₂ (f x) = n₁ x) (xs : List α) :
    sortByPath n₂ (xs.map f) = (sortByPath n₁ xs).map f := by
  unfold sortByPath
  rw [List.map_mergeSort (s := fun a b => !strLt (n₂ b) (n₂ a))]
  intro a _ b _
  rw [hf, hf]

theorem sortIf_map {α β : Type} (k : SortKey) (n₁ : α → Str) (n₂ : β → Str) (f : α → β)
    (hf : ∀ x, n₂ (f x) = n₁ x) (xs : List α) :
    sortIf k n₂ (xs.map f) = (sortIf k n₁ xs).map f := by
  cases k with
  | none => rfl
  | name => exact sortByPath_map n₁ n₂ f hf xs

theorem sortByPath_filter {α : Type} (name : α → Str) (p : α → Bool) (xs : List α) :
    (sortByPath name xs).filter p = sortByPath name (xs.filter p) := by
  rw [← stableByName_iff]
  have h := (stableByName_iff name xs _).2 rfl
  constructor
  · exact h.1.filter _
  · intro n
    rw [List.filter_filter, List.filter_filter]
    have : ∀ l : List α, l.filter (fun x => decide (name x = n) && p x) =
        (l.filter (fun x => name x = n)).filter p := by
      intro l
      rw [List.filter_filter]
      congr 1
      funext x
      rw [Bool.and_comm]
    rw [this, this, h.2]

theorem sortIf_filter {α : Type} (k : SortKey) (name : α → Str) (p : α → Bool) (xs : List α) :
    (sortIf k name xs).filter p = sortIf k name (xs.filter p) := by
  cases k with
  | none => rfl
  | name => exact sortByPath_filter name p xs

theorem not_contains (ns : List Str) (n : Str) : (!ns.contains n) = decide (n ∉ ns) := by
  by_cases h : n ∈ ns <;> simp [h]

/-- What the library stage keeps of a function. -/
def LibSpec.funcKey (x : FuncItem) : Str × Option Cfg × List Str × Nat × Bool × Option Str :=
  (x.path, x.cfg, x.doc, x.args.length, x.neverReturn, x.selfTypePath)

/-- What the library stage keeps of a constant. -/
def LibSpec.constKey (x : ConstItem) : Str × Option Cfg × List Str × Option Str :=
  (x.path, x.cfg, x.doc, x.associatedTo)

/-- What the library stage keeps of a static. -/
def LibSpec.staticKey (x : StaticItem) : Str × Str × Option Cfg × List Str × Bool :=
  (x.path, x.exportName, x.cfg, x.doc, x.mutable)

theorem funcKey_mapTys (g : Ty → Ty) (x : FuncItem) : funcKey (x.mapTys g) = funcKey x := by
  simp [funcKey, FuncItem.mapTys]

theorem renameArgs_length {f : CaseFns} {renTy : Ty → Ty} {rule : RenameRule}
    {arrays : Option (List Str)} {args out : List FnArg}
    (h : renameArgs f renTy rule arrays args = some out) : out.length = args.length := by
  unfold renameArgs at h
  cases arrays with
  | none => simp at h; subst h; simp
  | some ts =>
    simp only [Option.map_eq_some_iff] at h
    obtain ⟨m, _, rfl⟩ := h
    simp

theorem funcKey_renameFor {c : LibConfig} {x y : FuncItem} (h : x.renameFor c = some y) :
    funcKey y = funcKey x := by
  unfold FuncItem.renameFor at h
  simp only [Option.bind_eq_bind, Option.bind_eq_some_iff] at h
  obtain ⟨r, _, as, has, h⟩ := h
  simp only [Option.pure_def, Option.some.injEq] at h
  subst h
  simp [funcKey, renameArgs_length has]

theorem mapM_key {α β : Type} {f : α → Option α} {key : α → β}
    (hf : ∀ x y, f x = some y → key y = key x) : ∀ {xs ys : List α}, xs.mapM f = some ys →
    ys.map key = xs.map key
  | [], ys, h => by simp at h; subst h; rfl
  | x :: xs, ys, h => by
    rw [List.mapM_cons] at h
    cases hx : f x with
    | none => rw [hx] at h; simp at h
    | some z =>
      rw [hx] at h
      cases hxs : xs.mapM f with
      | none => rw [hxs] at h; simp at h
      | some zs =>
        rw [hxs] at h
        simp at h
        subst h
        rw [List.map_cons, List.map_cons, hf x z hx, mapM_key hf hxs]

theorem giveOne_other (l : Library) (pa : Str × Annotations) :
    (l.giveOne pa).functions = l.functions ∧ (l.giveOne pa).constants = l.constants ∧
      (l.giveOne pa).globals = l.globals := by
  unfold Library.giveOne
  dsimp only
  split
  · exact ⟨rfl, rfl, rfl⟩
  · split
    · exact ⟨rfl, rfl, rfl⟩
    · split
      · exact ⟨rfl, rfl, rfl⟩
      · split <;> exact ⟨rfl, rfl, rfl⟩

theorem transferAnnotations_other (order : List (Str × Annotations) → List (Str × Annotations))
    (l : Library) :
    (l.transferAnnotations order).functions = l.functions ∧
      (l.transferAnnotations order).constants = l.constants ∧
      (l.transferAnnotations order).globals = l.globals := by
  unfold Library.transferAnnotations
  have : ∀ (ps : List (Str × Annotations)) (l : Library),
      (ps.foldl Library.giveOne l).functions = l.functions ∧
      (ps.foldl Library.giveOne l).constants = l.constants ∧
      (ps.foldl Library.giveOne l).globals = l.globals := by
    intro ps
    induction ps with
    | nil => intro l; exact ⟨rfl, rfl, rfl⟩
    | cons pa ps ih =>
      intro l
      obtain ⟨h1, h2, h3⟩ := ih (l.giveOne pa)
      obtain ⟨g1, g2, g3⟩ := giveOne_other l pa
      exact ⟨h1.trans g1, h2.trans g2, h3.trans g3⟩
  exact this _ _

theorem expand_other {c : LibConfig} {fuel : Nat} {l l' : Library} (h : l.expand c fuel = .ok l') :
    l'.functions.map funcKey = l.functions.map funcKey ∧ l'.constants = l.constants ∧
      l'.globals = l.globals := by
  unfold Library.expand at h
  split at h
  · simp only [Except.ok.injEq] at h
    subst h
    exact ⟨rfl, rfl, rfl⟩
  · unfold Library.instantiateMonomorphs at h
    simp only [bind, Except.bind] at h
    split at h
    · simp at h
    · rename_i m _
      simp only [pure, Except.pure, Except.ok.injEq] at h
      subst h
      refine ⟨?_, rfl, rfl⟩
      simp only [Library.manglePaths, Library.insertMonos, List.map_map]
      congr 1
      funext x
      exact funcKey_mapTys _ x

theorem map_key_filter {α : Type} {β : Type} (key : α → β) (name : β → Str) (p : Str → Bool)
    (xs ys : List α) (h : xs.map key = ys.map key) :
    (xs.filter fun x => p (name (key x))).map key = (ys.filter fun x => p (name (key x))).map key := by
  have : ∀ zs : List α, (zs.filter fun x => p (name (key x))).map key =
      (zs.map key).filter fun k => p (name k) := by
    intro zs
    rw [List.filter_map]
    rfl
  rw [this, this, h]

/-- **C54** The functions of the result are exactly those of the input that are not excluded, each
with its condition, documentation and number of arguments, in input order or sorted by name. -/
theorem C54_functions {c : LibConfig} {order : List (Str × Annotations) → List (Str × Annotations)}
    {fuel : Nat} {l : Library} {b : Bindings} (h : l.generate c order fuel = .ok b)
    (hg : c.export_.shouldGenerate .functions = true) :
    ∃ r, Ordered (c.functionSortBy.getD c.sortBy) FuncItem.path
        (l.functions.filter fun x => decide (x.path ∉ c.export_.exclude)) r ∧
      b.functions.map funcKey = r.map funcKey := by
  refine ⟨_, ordered_sortIf _ _ _, ?_⟩
  obtain ⟨l', hl', hb⟩ := Library.generate_ok h
  obtain ⟨l₂, hl₂, hfin⟩ := Library.prepare_ok hl'
  rw [Library.finish_eq] at hfin
  unfold Library.collect at hb
  rw [Option.map_eq_some_iff] at hb
  obtain ⟨d, _, rfl⟩ := hb
  dsimp only
  rw [if_pos hg]
  unfold Library.renameItems at hfin
  simp only [Option.bind_eq_bind, Option.bind_eq_some_iff] at hfin
  obtain ⟨ss, _, us, _, es, _, fs, hfs, hr⟩ := hfin
  simp only [Option.pure_def, Option.some.injEq] at hr
  subst hr
  show fs.map funcKey = _
  have h1 := mapM_key (key := funcKey) (fun x y hxy => funcKey_renameFor hxy) hfs
  have h2 : (if c.language = .c then (l₂.removeExcluded c).resolveDeclTypes c
      else l₂.removeExcluded c).functions.map funcKey =
      (l₂.removeExcluded c).functions.map funcKey := by
    split
    · unfold Library.resolveDeclTypes
      split
      · dsimp only
        rw [List.map_map]
        congr 1
        funext x
        exact funcKey_mapTys _ x
      · rfl
    · rfl
  have h3 := (expand_other hl₂).1
  have h4 : (l₂.removeExcluded c).functions.map funcKey =
      ((((l.transferAnnotations order).simplify c).sortFunctions c).functions.filter fun x =>
        !c.export_.exclude.contains x.path).map funcKey :=
    map_key_filter funcKey (fun k => k.1) (fun n => !c.export_.exclude.contains n) _ _ h3
  have h5 : (((l.transferAnnotations order).simplify c).sortFunctions c).functions =
      (sortIf (c.functionSortBy.getD c.sortBy) FuncItem.path l.functions).map
        (FuncItem.mapTys (Ty.simplify c.language)) := by
    show sortIf _ FuncItem.path ((l.transferAnnotations order).functions.map _) = _
    rw [(transferAnnotations_other order l).1]
    exact sortIf_map _ _ _ _ (fun _ => rfl) _
  rw [h1, h2, h4, h5, List.filter_map, List.map_map]
  have hkey : (funcKey ∘ FuncItem.mapTys (Ty.simplify c.language)) = funcKey := by
    funext x
    exact funcKey_mapTys _ x
  rw [hkey]
  have hp : ((fun x : FuncItem => !c.export_.exclude.contains x.path) ∘
      FuncItem.mapTys (Ty.simplify c.language)) =
      fun x : FuncItem => decide (x.path ∉ c.export_.exclude) := by
    funext x
    exact not_contains _ _
  rw [hp, sortIf_filter]

/-- **C54** The constants of the result are exactly those of the input that are not excluded, in input
order or sorted by name. -/
theorem C54_constants {c : LibConfig} {order : List (Str × Annotations) → List (Str × Annotations)}
    {fuel : Nat} {l : Library} {b : Bindings} (h : l.generate c order fuel = .ok b)
    (hg : c.export_.shouldGenerate .constants = true) (xs : List ConstItem)
    (hwf : l.constants = ItemMap.insertAll [] xs) :
    ∃ r, Ordered (c.constantSortBy.getD c.sortBy) ConstItem.path
        (l.constants.toVec.filter fun x => decide (x.path ∉ c.export_.exclude)) r ∧
      b.constants.map constKey = r.map constKey := by
  refine ⟨_, ordered_sortIf _ _ _, ?_⟩
  obtain ⟨l', hl', hb⟩ := Library.generate_ok h
  obtain ⟨l₂, hl₂, hfin⟩ := Library.prepare_ok hl'
  rw [Library.finish_eq] at hfin
  unfold Library.collect at hb
  rw [Option.map_eq_some_iff] at hb
  obtain ⟨d, _, rfl⟩ := hb
  dsimp only
  rw [if_pos hg]
  unfold Library.renameItems at hfin
  simp only [Option.bind_eq_bind, Option.bind_eq_some_iff] at hfin
  obtain ⟨ss, _, us, _, es, _, fs, hfs, hr⟩ := hfin
  simp only [Option.pure_def, Option.some.injEq] at hr
  subst hr
  dsimp only
  have h2 : (if c.language = .c then (l₂.removeExcluded c).resolveDeclTypes c
      else l₂.removeExcluded c).constants = (l₂.removeExcluded c).constants := by
    split
    · unfold Library.resolveDeclTypes
      split <;> rfl
    · rfl
  have h3 : l₂.constants = l.constants := by
    rw [(expand_other hl₂).2.1]
    show (l.transferAnnotations order).constants = _
    rw [(transferAnnotations_other order l).2.1]
  have hw : ItemMap.WF l.constants := by
    rw [hwf, ItemMap.insertAll_nil]
    exact ItemMap.wf_tableOf xs
  have h4 : (l₂.removeExcluded c).constants =
      l.constants.filter fun x => c.export_.exclude.contains x.path := by
    show l₂.constants.filter _ = _
    rw [h3]
  rw [h2, h4, ItemMap.rebuild_wf
    (ItemMap.wf_mapItems (ConstItem.renameFor c) (fun _ => rfl) (fun _ => rfl)
      (ItemMap.wf_filter _ hw)), ItemMap.toVec_mapItems, ItemMap.toVec_filter,
    sortIf_map _ ConstItem.path ConstItem.path (ConstItem.renameFor c) (fun _ => rfl), List.map_map]
  have hp : (fun x : ConstItem => !c.export_.exclude.contains x.path) =
      fun x : ConstItem => decide (x.path ∉ c.export_.exclude) := by
    funext x
    simp
  rw [hp]
  rfl

/-- **C54** The statics of the result are exactly those of the input that are not excluded, with the
names under which they are linked, in input order or sorted by name (the key is that of constants). -/
theorem C54_globals {c : LibConfig} {order : List (Str × Annotations) → List (Str × Annotations)}
    {fuel : Nat} {l : Library} {b : Bindings} (h : l.generate c order fuel = .ok b)
    (hg : c.export_.shouldGenerate .globals = true) (xs : List StaticItem)
    (hwf : l.globals = ItemMap.insertAll [] xs) :
    ∃ r, Ordered (c.constantSortBy.getD c.sortBy) StaticItem.path
        (l.globals.toVec.filter fun x => decide (x.path ∉ c.export_.exclude)) r ∧
      b.globals.map staticKey = r.map staticKey := by
  refine ⟨_, ordered_sortIf _ _ _, ?_⟩
  obtain ⟨l', hl', hb⟩ := Library.generate_ok h
  obtain ⟨l₂, hl₂, hfin⟩ := Library.prepare_ok hl'
  rw [Library.finish_eq] at hfin
  unfold Library.collect at hb
  rw [Option.map_eq_some_iff] at hb
  obtain ⟨d, _, rfl⟩ := hb
  dsimp only
  rw [if_pos hg]
  unfold Library.renameItems at hfin
  simp only [Option.bind_eq_bind, Option.bind_eq_some_iff] at hfin
  obtain ⟨ss, _, us, _, es, _, fs, hfs, hr⟩ := hfin
  simp only [Option.pure_def, Option.some.injEq] at hr
  subst hr
  dsimp only
  have h3 : l₂.globals = l.globals.mapItems (StaticItem.mapTys (Ty.simplify c.language)) := by
    rw [(expand_other hl₂).2.2]
    show ((l.transferAnnotations order).globals.mapItems _) = _
    rw [(transferAnnotations_other order l).2.2]
  have hw : ItemMap.WF l.globals := by
    rw [hwf, ItemMap.insertAll_nil]
    exact ItemMap.wf_tableOf xs
  have hw₂ : ItemMap.WF (l₂.removeExcluded c).globals := by
    show ItemMap.WF (l₂.globals.filter _)
    rw [h3]
    exact ItemMap.wf_filter _ (ItemMap.wf_mapItems (StaticItem.mapTys _) (fun _ => rfl) (fun _ => rfl) hw)
  obtain ⟨g, hg1, hg2⟩ : ∃ g : Ty → Ty, ((if c.language = .c then
      (l₂.removeExcluded c).resolveDeclTypes c else l₂.removeExcluded c).globals.mapItems
        (StaticItem.renameFor c)).toVec = (l₂.removeExcluded c).globals.toVec.map
        (StaticItem.mapTys g) ∧
      ItemMap.WF ((if c.language = .c then
      (l₂.removeExcluded c).resolveDeclTypes c else l₂.removeExcluded c).globals.mapItems
        (StaticItem.renameFor c)) := by
    have hid : ∀ x : StaticItem, x.mapTys id = x := fun x => rfl
    split
    · unfold Library.resolveDeclTypes
      split
      · refine ⟨fun t => (t.resolve (Resolver.typeFor (l₂.removeExcluded c).resolver)).rename c.ren [],
          ?_, ?_⟩
        · rw [ItemMap.toVec_mapItems, ItemMap.toVec_mapItems, List.map_map]
          rfl
        · exact ItemMap.wf_mapItems (StaticItem.renameFor c) (fun _ => rfl) (fun _ => rfl)
            (ItemMap.wf_mapItems (StaticItem.mapTys _) (fun _ => rfl) (fun _ => rfl) hw₂)
      · refine ⟨fun t => t.rename c.ren [], ?_, ?_⟩
        · rw [ItemMap.toVec_mapItems]
          rfl
        · exact ItemMap.wf_mapItems (StaticItem.renameFor c) (fun _ => rfl) (fun _ => rfl) hw₂
    · refine ⟨fun t => t.rename c.ren [], ?_, ?_⟩
      · rw [ItemMap.toVec_mapItems]
        rfl
      · exact ItemMap.wf_mapItems (StaticItem.renameFor c) (fun _ => rfl) (fun _ => rfl) hw₂
  rw [ItemMap.rebuild_wf hg2, hg1, sortIf_map _ StaticItem.path StaticItem.path (StaticItem.mapTys g) (fun _ => rfl),
    List.map_map]
  have h4 : (l₂.removeExcluded c).globals.toVec =
      (l.globals.toVec.filter fun x => decide (x.path ∉ c.export_.exclude)).map
        (StaticItem.mapTys (Ty.simplify c.language)) := by
    show (l₂.globals.filter _).toVec = _
    rw [h3, ItemMap.toVec_filter, ItemMap.toVec_mapItems, List.filter_map]
    congr 1
    apply List.filter_congr
    intro x _
    exact not_contains _ _
  rw [h4, sortIf_map _ StaticItem.path StaticItem.path (StaticItem.mapTys _) (fun _ => rfl), List.map_map]
  rfl

/-! ## C53 -/

/-- The literal is cast to a type that is built from the named one. -/
inductive LibSpec.LitCasts : Lit → Str → Prop
  | here {t : Ty} {v : Lit} {n : Str} : TyUses t n → LitCasts (.cast t v) n
  | cast {t : Ty} {v : Lit} {n : Str} : LitCasts v n → LitCasts (.cast t v) n
  | field {p e : Str} {fs : List LitField} {f : Str} {v : Lit} {c : Option Cfg} {n : Str} :
    LitField.mk f v c ∈ fs → LitCasts v n → LitCasts (.struct p e fs) n
  | unary {op : Str} {v : Lit} {n : Str} : LitCasts v n → LitCasts (.unary op v) n
  | left {op : Str} {l r : Lit} {n : Str} : LitCasts l n → LitCasts (.binop l op r) n
  | right {op : Str} {l r : Lit} {n : Str} : LitCasts r n → LitCasts (.binop l op r) n
  | base {b : Lit} {f n : Str} : LitCasts b n → LitCasts (.field b f) n
  | item {is : List Lit} {i : Lit} {n : Str} : i ∈ is → LitCasts i n → LitCasts (.array is) n

/-- A configuration in which nothing is renamed. -/
def plainConfig (lang : Language) (f : CaseFns) : LibConfig := { language := lang, caseFns := f }

/-- `pub type T = u32; pub const K: u32 = 1 as T;` -/
def castLibrary : Library :=
  { constants := ItemMap.insertAll []
      [{ path := c!"K", exportName := c!"K", ty := .prim (.integer true false .b32),
         value := .cast (.path c!"T" c!"T" [] none) (.expr c!"1") }]
    typedefs := ItemMap.insertAll []
      [{ path := c!"T", exportName := c!"T", aliased := .prim (.integer true false .b32) }] }

/-- **C53** is false: a constant whose value is cast to a known typedef is written, the typedef is
not. -/
theorem C53_cast_type_missing (f : CaseFns) :
    ∃ l' b, castLibrary.prepare (plainConfig .c f) id 1 = .ok l' ∧
      castLibrary.generate (plainConfig .c f) id 1 = .ok b ∧
      (∃ k ∈ b.constants, LitCasts k.value c!"T") ∧ Known (plainConfig .c f) l' c!"T" ∧
      ∀ x ∈ b.items, x.path ≠ c!"T" := by
  obtain ⟨l', hl'⟩ : ∃ l', castLibrary.prepare (plainConfig .c f) id 1 = .ok l' := ⟨_, rfl⟩
  have hl'' := hl'
  simp only [show castLibrary.prepare (plainConfig .c f) id 1 = .ok castLibrary from rfl,
    Except.ok.injEq] at hl''
  subst hl''
  have hc : castLibrary.collect (plainConfig .c f) = some
      { constants := castLibrary.constants.toVec, globals := [], items := sortItems [],
        functions := [] } := rfl
  refine ⟨castLibrary, _, rfl, by unfold Library.generate; rw [hl']; dsimp only; rw [hc], ?_, ?_, ?_⟩
  · exact ⟨_, List.mem_cons_self, .here (.here _ _ _ _)⟩
  · exact .inr (.inr (.inr (.inr ⟨rfl, rfl⟩)))
  · intro x hx
    rw [mem_sortItems] at hx
    simp at hx

/-- **C53 (partial)** Every known type that a constant of the result names otherwise than in a cast is
in the result. -/
theorem C53_named_types_partial {c : LibConfig}
    {order : List (Str × Annotations) → List (Str × Annotations)}
    {fuel : Nat} {l : Library} {b : Bindings} (h : l.generate c order fuel = .ok b) :
    ∃ l', l.prepare c order fuel = .ok l' ∧ ∀ k ∈ b.constants, ∀ q, ConstUses k q →
      Known c l' q → ∃ x ∈ b.items, x.path = q := by
  obtain ⟨l', hl', hroots⟩ := C10_roots h
  refine ⟨l', hl', ?_⟩
  intro k hk q hu hq
  obtain ⟨its, hits⟩ := Option.isSome_iff_exists.1 ((C11_known c l' q).2 hq)
  obtain ⟨l'', hl'', hb⟩ := Library.generate_ok h
  rw [hl'] at hl''
  simp only [Except.ok.injEq] at hl''
  subst hl''
  have hk' : k ∈ l'.constants.toVec := by
    unfold Library.collect at hb
    rw [Option.map_eq_some_iff] at hb
    obtain ⟨d, _, rfl⟩ := hb
    dsimp only at hk
    split at hk
    · unfold sortIf sortByPath at hk
      split at hk
      · exact (List.mergeSort_perm _ _).mem_iff.1 hk
      · exact hk
    · simp at hk
  have hwf := Library.getItems_path (Library.prepare_wf hl') hits
  cases its with
  | nil => exact absurd rfl hwf.1
  | cons x xs =>
    exact ⟨x, hroots q _ (.inr (.inr (.inl ⟨k, hk', hu⟩))) hits x (by simp), hwf.2 x (by simp)⟩

/-! ## A case -/

/-- `struct A { next: *mut A, b: B }` -/
def caseA : StructItem :=
  { path := c!"A", exportName := c!"A",
    fields := [{ name := c!"next", ty := .ptr (.path c!"A" c!"A" [] none) false true false },
               { name := c!"b", ty := .path c!"B" c!"B" [] none }] }

/-- `struct B { x: u32 }` -/
def caseB : StructItem :=
  { path := c!"B", exportName := c!"B",
    fields := [{ name := c!"x", ty := .prim (.integer true false .b32) }] }

/-- The two structs, `struct C {}`, which is not used, and `fn f(a: *mut A)`. -/
def caseLibrary : Library :=
  { structs := ItemMap.insertAll []
      [caseA, caseB, { path := c!"C", exportName := c!"C", fields := [] }]
    functions :=
      [{ path := c!"f", ret := .prim .void,
         args := [{ name := some c!"a",
                    ty := .ptr (.path c!"A" c!"A" [] none) false true false }] }] }

/-- The stage succeeds on it, and the items are `B`, `A`. -/
example (f : CaseFns) : ∃ b, caseLibrary.generate (plainConfig .cxx f) id 1 = .ok b ∧
    b.items.map Container.path = [c!"B", c!"A"] := by
  obtain ⟨l', hl'⟩ : ∃ l', caseLibrary.prepare (plainConfig .cxx f) id 1 = .ok l' := ⟨_, rfl⟩
  have hl'' := hl'
  simp only [show caseLibrary.prepare (plainConfig .cxx f) id 1 = .ok caseLibrary from rfl,
    Except.ok.injEq] at hl''
  subst hl''
  have hc : caseLibrary.collect (plainConfig .cxx f) = some
      { constants := [], globals := [], items := sortItems [.struct caseB, .struct caseA],
        functions := caseLibrary.functions } := rfl
  refine ⟨_, by unfold Library.generate; rw [hl']; dsimp only; rw [hc], ?_⟩
  have : Layered [.struct caseB, .struct caseA] [.struct caseB, .struct caseA] :=
    ⟨[], ⟨by simp, by simp [isOpaque]⟩, rfl⟩
  show (sortItems [.struct caseB, .struct caseA]).map Container.path = _
  rw [← (C12_layers _ _).1 this]
  rfl

end Cbindgen
