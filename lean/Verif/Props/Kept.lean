import Verif.Props.Transfer
import Verif.Props.SourceDefCases

/-!
# C78: the annotations of an item are kept

`Annotations` has the entries of `cbindgen:` comments, `must_use` and the note of `deprecated`.
-/

namespace Cbindgen

namespace LibSpec

/-- Two lists with the same items, up to `P`. -/
inductive EachPair {α : Type} (P : α → α → Prop) : List α → List α → Prop
  | nil : EachPair P [] []
  | cons {x y xs ys} : P x y → EachPair P xs ys → EachPair P (x :: xs) (y :: ys)

/-- Two tables with the same names and the same items, up to `P`. -/
inductive TablePair {α : Type} (P : Str → α → α → Prop) : ItemMap α → ItemMap α → Prop
  | nil : TablePair P [] []
  | single {k x y m m'} : P k x y → TablePair P m m' → TablePair P ((k, .single x) :: m) ((k, .single y) :: m')
  | cfg {k xs ys m m'} : EachPair (P k) xs ys → TablePair P m m' → TablePair P ((k, .cfg xs) :: m) ((k, .cfg ys) :: m')

/-- Some alias of `k` has the annotations `a`. -/
def AliasHas (l : Library) (k : Str) (a : Annotations) : Prop :=
  (a.entries ≠ [] ∨ a.mustUse = true) ∧ ∃ t ∈ l.typedefs.toVec, t.annotations = a ∧ t.aliased.rootPath = some k

/-- An item is kept, or it had no entries and no `must_use`, and has the annotations of an alias of it. -/
def KeptOrGiven {α : Type} [Annotated α] (l : Library) (k : Str) (x y : α) : Prop :=
  y = x ∨ (Annotated.get x).entries = [] ∧ (Annotated.get x).mustUse = false ∧ ∃ a, AliasHas l k a ∧ y = Annotated.set x a

end LibSpec

open LibSpec

theorem LibSpec.EachPair.same {α : Type} {P : α → α → Prop} (h : ∀ x, P x x) : ∀ xs, EachPair P xs xs
  | [] => .nil
  | x :: xs => .cons (h x) (EachPair.same h xs)

theorem LibSpec.EachPair.then {α : Type} {P : α → α → Prop} {f : α → α} (h : ∀ x y, P x y → P x (f y)) {xs ys : List α} (hp : EachPair P xs ys) :
    EachPair P xs (ys.map f) := by
  induction hp with
  | nil => exact .nil
  | cons hx _ ih => exact .cons (h _ _ hx) ih

theorem LibSpec.TablePair.same {α : Type} {P : Str → α → α → Prop} (h : ∀ k x, P k x x) : ∀ m, TablePair P m m
  | [] => .nil
  | (k, .single x) :: m => .single (h k x) (TablePair.same h m)
  | (k, .cfg xs) :: m => .cfg (EachPair.same (h k) xs) (TablePair.same h m)

theorem LibSpec.TablePair.then {α : Type} {P : Str → α → α → Prop} {p : Str} {f : α → α} (h : ∀ x y, P p x y → P p x (f y)) {m m' : ItemMap α}
    (hp : TablePair P m m') (b : Bool) : TablePair P m (mapIf b p f m') := by
  cases b
  · exact hp
  · simp only [mapIf, if_true]
    induction hp with
    | nil => exact .nil
    | @single k x y m m' hx hm ih =>
      simp only [ItemMap.mapItemsAt]
      split
      · rename_i e; subst e; exact .single (h _ _ hx) hm
      · exact .single hx ih
    | @cfg k xs ys m m' hx hm ih =>
      simp only [ItemMap.mapItemsAt]
      split
      · rename_i e; subst e; exact .cfg (EachPair.then h hx) hm
      · exact .cfg hx ih

theorem isEmpty_iff {a : Annotations} : a.isEmpty = true ↔ a.entries = [] ∧ a.mustUse = false := by
  simp [Annotations.isEmpty]

theorem isEmpty_iff_not {a : Annotations} : a.isEmpty = false ↔ a.entries ≠ [] ∨ a.mustUse = true := by
  simp only [Annotations.isEmpty, Bool.and_eq_false_iff, List.isEmpty_eq_false_iff, Bool.not_eq_false']

theorem KeptOrGiven.give {α : Type} [Annotated α] (hs : ∀ (x : α) a, Annotated.get (Annotated.set x a) = a) {l : Library} {k : Str}
    {a : Annotations} (ha : AliasHas l k a) (x y : α) (h : KeptOrGiven l k x y) : KeptOrGiven l k x (giveAnnotations a y) := by
  unfold giveAnnotations
  rcases h with rfl | ⟨h1, h1', b, h2, rfl⟩
  · by_cases he : (Annotated.get y).isEmpty = true
    · rw [if_pos he]
      exact .inr ⟨(isEmpty_iff.1 he).1, (isEmpty_iff.1 he).2, a, ha, rfl⟩
    · rw [if_neg he]
      exact .inl rfl
  · rw [hs, isEmpty_iff_not.2 h2.1]
    exact .inr ⟨h1, h1', b, h2, rfl⟩

/-- The four tables, each kept or given. -/
structure LibSpec.TablesGiven (l₀ l l' : Library) : Prop where
  enums : TablePair (KeptOrGiven l₀) l.enums l'.enums
  structs : TablePair (KeptOrGiven l₀) l.structs l'.structs
  unions : TablePair (KeptOrGiven l₀) l.unions l'.unions
  opaqueItems : TablePair (KeptOrGiven l₀) l.opaqueItems l'.opaqueItems

theorem giveOne_given {l₀ l l' : Library} {pa : Str × Annotations} (ha : AliasHas l₀ pa.1 pa.2) (h : TablesGiven l₀ l l') :
    TablesGiven l₀ l (l'.giveOne pa) := by
  rw [Library.giveOne_eq]
  exact ⟨h.enums.then (KeptOrGiven.give (fun _ _ => rfl) ha) _, h.structs.then (KeptOrGiven.give (fun _ _ => rfl) ha) _,
    h.unions.then (KeptOrGiven.give (fun _ _ => rfl) ha) _, h.opaqueItems.then (KeptOrGiven.give (fun _ _ => rfl) ha) _⟩

theorem take_from {P : Str × Annotations → Prop} {xs : List (Str × Annotations)} (h : ∀ x ∈ xs, P x) {t : TypedefItem}
    (ht : t.annotations.isEmpty = false → ∀ k, t.aliased.rootPath = some k → P (k, t.annotations)) :
    ∀ x ∈ (t.takeAnnotations xs).1, P x := by
  unfold TypedefItem.takeAnnotations
  split
  · exact h
  · rename_i he
    split
    · exact h
    · rename_i k hk
      split
      · exact h
      · intro x hx
        rcases List.mem_append.1 hx with hx | hx
        · exact h x hx
        · obtain rfl := List.mem_singleton.1 hx
          exact ht (by simpa using he) k hk

theorem accum_from {α σ : Type} {f : σ → α → σ × α} {I : σ → Prop} : ∀ (xs : List α) (s : σ),
    (∀ s, ∀ x ∈ xs, I s → I (f s x).1) → I s → I (Cbindgen.mapAccum f s xs).1
  | [], _, _, h => h
  | x :: xs, s, hf, h => accum_from xs _ (fun s y hy => hf s y (by simp [hy])) (hf s x (by simp) h)

theorem accum_table_from {α σ : Type} {f : σ → α → σ × α} {I : σ → Prop} : ∀ (m : ItemMap α) (s : σ),
    (∀ s, ∀ x ∈ m.toVec, I s → I (f s x).1) → I s → I (m.mapAccum f s).1
  | [], _, _, h => h
  | (k, .cfg xs) :: m, s, hf, h => by
    have h1 : ∀ x ∈ xs, x ∈ ItemMap.toVec ((k, .cfg xs) :: m) := fun x hx => by simp [ItemMap.toVec, ItemValue.items, hx]
    have h2 : ∀ x ∈ ItemMap.toVec m, x ∈ ItemMap.toVec ((k, .cfg xs) :: m) := fun x hx => by
      simp only [ItemMap.toVec, List.flatMap_cons, List.mem_append] at hx ⊢
      exact .inr hx
    exact accum_table_from m _ (fun s y hy => hf s y (h2 y hy)) (accum_from xs s (fun s y hy => hf s y (h1 y hy)) h)
  | (k, .single x) :: m, s, hf, h => by
    have h2 : ∀ x' ∈ ItemMap.toVec m, x' ∈ ItemMap.toVec ((k, .single x) :: m) := fun x hx => by
      simp only [ItemMap.toVec, List.flatMap_cons, List.mem_append] at hx ⊢
      exact .inr hx
    exact accum_table_from m _ (fun s y hy => hf s y (h2 y hy)) (hf s x (by simp [ItemMap.toVec, ItemValue.items]) h)

/-- **C78.** The transfer of annotations changes nothing else, and enums, structs, unions and opaque items with entries or
`must_use` keep all their annotations; the others are kept or have the annotations of one alias of them. -/
theorem C78_kept_partial (l : Library) (o : List (Str × Annotations) → List (Str × Annotations)) (ho : ∀ xs, (o xs).Perm xs) :
    TablesGiven l l (l.transferAnnotations o) := by
  unfold Library.transferAnnotations
  have hk : ∀ pa ∈ (l.typedefs.mapAccum TypedefItem.takeAnnotations []).1, AliasHas l pa.1 pa.2 :=
    accum_table_from (I := fun xs => ∀ pa ∈ xs, AliasHas l pa.1 pa.2) l.typedefs []
      (fun s t ht h => take_from h fun he k hk => ⟨isEmpty_iff_not.1 he, t, ht, rfl, hk⟩) nofun
  have : ∀ xs : List (Str × Annotations), (∀ pa ∈ xs, AliasHas l pa.1 pa.2) → ∀ l', TablesGiven l l l' →
      TablesGiven l l (xs.foldl Library.giveOne l') := by
    intro xs
    induction xs with
    | nil => exact fun _ _ h => h
    | cons x xs ih => exact fun hx l' h => ih (fun pa h => hx pa (by simp [h])) _ (giveOne_given (hx x (by simp)) h)
  refine this _ (fun pa h => hk pa ((ho _).mem_iff.1 h)) _ ⟨?_, ?_, ?_, ?_⟩
  all_goals exact TablePair.same (fun _ _ => .inl rfl) _

/-- The struct of this library has no annotations, and gets those of its alias; with `must_use` it keeps its own. -/
theorem C78_kept_case :
    (aliasLibrary.transferAnnotations id).structs.toVec.map (fun x : StructItem => x.annotations.mustUse) = [true] ∧
    ({ aliasLibrary with
        unions := [(c!"U", .single { path := c!"U", exportName := c!"U", fields := [], annotations := { mustUse := true } })] }.transferAnnotations
      id).unions.toVec.map (fun x : UnionItem => (x.annotations.mustUse, x.annotations.shouldExport)) = [(true, true)] := ⟨rfl, rfl⟩

namespace KeptCases
open SourceCases (pc)
open DefCases (fn reprC u8)

/-- `#[deprecated] #[repr(C)] union U { x: u8 }` -/
def union : SynUnion := ⟨c!"U", [], [⟨some c!"x", .path c!"u8" .none, []⟩], [{ attr := .word c!"deprecated" }, reprC]⟩
/-- `#[must_use] type T = U;` -/
def alias : SynAlias := ⟨c!"T", [], .path c!"U" .none, [{ attr := .word c!"must_use" }]⟩
def alone : Inputs := { srcs := [(c!"lib", some [.union union, .fn fn])] }
def beside : Inputs := { srcs := [(c!"lib", some [.union union, .alias alias, .fn fn])] }

def u (a : Annotations) : UnionItem := { path := c!"U", exportName := c!"U", fields := [{ name := c!"x", ty := u8 }], annotations := a }
def t (a : Annotations) : TypedefItem := { path := c!"T", exportName := c!"T", aliased := Ty.newPath c!"U" [], annotations := a }
def f : FuncItem := ScopeCases.takes (Ty.newPath c!"U" [])

def old : Annotations := { deprecated := some [] }
def lib : Library := { unions := [(c!"U", .single (u old))], functions := [f] }
def lib' : Library :=
  { unions := [(c!"U", .single (u old))], typedefs := [(c!"T", .single (t { mustUse := true }))], functions := [f] }

end KeptCases

open KeptCases in
/-- **C78** is false for `deprecated`: `#[deprecated] union U { .. }` alone keeps it, but beside `#[must_use] type T = U;` the
union is not deprecated any more, for all orders of the map. -/
theorem C78_deprecated_refuted (F : CaseFns) (o : List (Str × Annotations) → List (Str × Annotations)) (ho : ∀ xs, (o xs).Perm xs) :
    buildLibrary SourceCases.pc { caseFns := F } 1 alone = .ok lib ∧ buildLibrary SourceCases.pc { caseFns := F } 1 beside = .ok lib' ∧
    (lib.transferAnnotations o).unions.toVec.map (fun x : UnionItem => x.annotations.deprecated) = [some []] ∧
    (lib'.transferAnnotations o).unions.toVec.map (fun x : UnionItem => x.annotations.deprecated) = [none] := by
  refine ⟨rfl, rfl, ?_, ?_⟩
  · rw [C34_order_irrelevant lib o id ho (fun _ => .refl _)]
    rfl
  · rw [C34_order_irrelevant lib' o id ho (fun _ => .refl _)]
    rfl

end Cbindgen
