import Verif.Model.Library

/-! # C34: annotations of type aliases -/

namespace Cbindgen

section
variable {α : Type}

theorem ItemMap.mapItemsAt_comm {p q : Str} (h : p ≠ q) (f g : α → α) : ∀ m : ItemMap α,
    (m.mapItemsAt p f).mapItemsAt q g = (m.mapItemsAt q g).mapItemsAt p f
  | [] => rfl
  | (k, v) :: rest => by
    by_cases hp : k = p
    · subst hp; simp [ItemMap.mapItemsAt, h]
    · by_cases hq : k = q
      · subst hq; simp [ItemMap.mapItemsAt, hp]
      · simp [ItemMap.mapItemsAt, hp, hq, ItemMap.mapItemsAt_comm h f g rest]

theorem ItemMap.lookup_mapItemsAt {p q : Str} (h : p ≠ q) (f : α → α) : ∀ m : ItemMap α,
    (m.mapItemsAt p f).lookup q = m.lookup q
  | [] => rfl
  | (k, v) :: rest => by
    by_cases hp : k = p
    · subst hp
      have : (q == k) = false := by simpa using fun e => h e.symm
      simp [ItemMap.mapItemsAt, List.lookup, this]
    · simp only [ItemMap.mapItemsAt, hp, if_false, List.lookup,
        ItemMap.lookup_mapItemsAt h f rest]

/-- Change the items of a name, or not. -/
def mapIf (b : Bool) (p : Str) (f : α → α) (m : ItemMap α) : ItemMap α :=
  if b then m.mapItemsAt p f else m

theorem mapIf_comm {p q : Str} (h : p ≠ q) (b c : Bool) (f g : α → α) (m : ItemMap α) :
    mapIf c q g (mapIf b p f m) = mapIf b p f (mapIf c q g m) := by
  cases b <;> cases c <;> simp [mapIf, ItemMap.mapItemsAt_comm h]

theorem transferred_mapIf [Annotated α] {p q : Str} (h : p ≠ q) (b : Bool) (f : α → α)
    (m : ItemMap α) : transferred q (mapIf b p f m) = transferred q m := by
  cases b <;> simp [mapIf, transferred, ItemMap.getItems, ItemMap.lookup_mapItemsAt h]

end

theorem Library.giveOne_eq (l : Library) (pa : Str × Annotations) :
    l.giveOne pa =
      let t1 := transferred pa.1 l.enums
      let t2 := transferred pa.1 l.structs
      let t3 := transferred pa.1 l.unions
      let t4 := transferred pa.1 l.opaqueItems
      { l with
        enums := mapIf t1 pa.1 (giveAnnotations pa.2) l.enums
        structs := mapIf (!t1 && t2) pa.1 (giveAnnotations pa.2) l.structs
        unions := mapIf (!t1 && !t2 && t3) pa.1 (giveAnnotations pa.2) l.unions
        opaqueItems := mapIf (!t1 && !t2 && !t3 && t4) pa.1 (giveAnnotations pa.2) l.opaqueItems
        typedefs := mapIf (!t1 && !t2 && !t3 && !t4) pa.1 (giveAnnotations pa.2) l.typedefs } := by
  unfold Library.giveOne
  cases h1 : transferred pa.1 l.enums <;> cases h2 : transferred pa.1 l.structs <;>
    cases h3 : transferred pa.1 l.unions <;> cases h4 : transferred pa.1 l.opaqueItems <;>
    simp [mapIf]

theorem Library.giveOne_comm (l : Library) {a b : Str × Annotations} (h : a.1 ≠ b.1) :
    (l.giveOne a).giveOne b = (l.giveOne b).giveOne a := by
  simp only [Library.giveOne_eq, transferred_mapIf h, transferred_mapIf (Ne.symm h)]
  simp only [mapIf_comm h]

/-- The collected annotations have different keys. -/
def KeysNodup (out : List (Str × Annotations)) : Prop := (out.map Prod.fst).Nodup

theorem annLookup_none {out : List (Str × Annotations)} {p : Str} (h : out.lookup p = none) :
    p ∉ out.map Prod.fst := by
  induction out with
  | nil => simp
  | cons x xs ih =>
    obtain ⟨q, y⟩ := x
    by_cases hq : p = q
    · subst hq; simp [List.lookup] at h
    · have : (p == q) = false := by simpa using hq
      simp only [List.lookup, this] at h
      simp [hq, ih h]

theorem takeAnnotations_nodup {out : List (Str × Annotations)} (h : KeysNodup out)
    (x : TypedefItem) : KeysNodup (x.takeAnnotations out).1 := by
  unfold TypedefItem.takeAnnotations
  split
  · exact h
  · split
    · exact h
    · split
      · exact h
      · rename_i p _ hp
        have hp : out.lookup p = none := by
          cases hl : out.lookup p <;> simp [hl] at hp ⊢
        have := annLookup_none hp
        simp only [KeysNodup, List.map_append, List.map_cons, List.map_nil, List.nodup_append]
        refine ⟨h, by simp, ?_⟩
        intro a ha b hb e
        simp at hb
        subst hb; subst e
        exact this ha

theorem mapAccum_inv {α σ : Type} {f : σ → α → σ × α} {I : σ → Prop}
    (hf : ∀ s x, I s → I (f s x).1) : ∀ (xs : List α) (s : σ), I s → I (mapAccum f s xs).1
  | [], _, h => h
  | x :: xs, s, h => mapAccum_inv hf xs _ (hf s x h)

theorem ItemMap.mapAccum_inv {α σ : Type} {f : σ → α → σ × α} {I : σ → Prop}
    (hf : ∀ s x, I s → I (f s x).1) : ∀ (m : ItemMap α) (s : σ), I s → I (m.mapAccum f s).1
  | [], _, h => h
  | (_, .cfg xs) :: rest, s, h =>
    ItemMap.mapAccum_inv hf rest _ (Cbindgen.mapAccum_inv hf xs s h)
  | (_, .single x) :: rest, s, h => ItemMap.mapAccum_inv hf rest _ (hf s x h)

theorem foldl_giveOne_perm {xs ys : List (Str × Annotations)} (h : xs.Perm ys) :
    ∀ l, KeysNodup xs → xs.foldl Library.giveOne l = ys.foldl Library.giveOne l := by
  induction h with
  | nil => intro l _; rfl
  | cons x _ ih =>
    intro l hk
    simp only [KeysNodup, List.map_cons, List.nodup_cons] at hk
    exact ih _ hk.2
  | swap x y zs =>
    intro l hk
    simp only [KeysNodup, List.map_cons, List.nodup_cons, List.mem_cons, not_or] at hk
    simp only [List.foldl_cons]
    rw [Library.giveOne_comm l hk.1.1]
  | trans h1 _ ih1 ih2 =>
    intro l hk
    rw [ih1 l hk]
    exact ih2 l ((h1.map _).nodup_iff.mp hk)

/-- **C34.** The library after the transfer of annotations is the same for all orders in which the map
of annotations can be iterated. -/
theorem C34_order_irrelevant (l : Library)
    (o₁ o₂ : List (Str × Annotations) → List (Str × Annotations))
    (h₁ : ∀ xs, (o₁ xs).Perm xs) (h₂ : ∀ xs, (o₂ xs).Perm xs) :
    l.transferAnnotations o₁ = l.transferAnnotations o₂ := by
  unfold Library.transferAnnotations
  have hk : KeysNodup (l.typedefs.mapAccum TypedefItem.takeAnnotations []).1 :=
    ItemMap.mapAccum_inv (I := KeysNodup) (fun s x h => takeAnnotations_nodup h x) _ _
      (by simp [KeysNodup])
  refine foldl_giveOne_perm ((h₁ _).trans (h₂ _).symm) _ ?_
  exact ((h₁ _).map _).nodup_iff.mpr hk

/-- **C34.** Hence the bindings do not depend on that order either. -/
theorem C34_generate (c : LibConfig) (fuel : Nat) (l : Library)
    (o₁ o₂ : List (Str × Annotations) → List (Str × Annotations))
    (h₁ : ∀ xs, (o₁ xs).Perm xs) (h₂ : ∀ xs, (o₂ xs).Perm xs) :
    l.generate c o₁ fuel = l.generate c o₂ fuel := by
  simp only [Library.generate, Library.prepare, C34_order_irrelevant l o₁ o₂ h₁ h₂]

/-- Two aliases of the same struct: the first one gives its annotations, whatever the order. -/
def aliasLibrary : Library :=
  { structs := [(c!"S", .single { path := c!"S", exportName := c!"S", fields := [] })]
    unions := [(c!"U", .single { path := c!"U", exportName := c!"U", fields := [] })]
    typedefs :=
      [(c!"A", .single { path := c!"A", exportName := c!"A", aliased := Ty.newPath c!"S" [],
                         annotations := { mustUse := true } }),
       (c!"B", .single { path := c!"B", exportName := c!"B", aliased := Ty.newPath c!"U" [],
                         annotations := { entries := [(c!"no-export", .bool true)] } })] }

example : ((aliasLibrary.transferAnnotations List.reverse).structs.toVec.map (·.annotations.mustUse),
    (aliasLibrary.transferAnnotations id).unions.toVec.map (·.annotations.shouldExport)) =
    ([true], [false]) := by rfl

end Cbindgen
