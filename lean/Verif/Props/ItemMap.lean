import Verif.Lemmas.ItemMap
import Verif.Model.Library

/-!
# C09, C13: item tables and exclusion
-/

namespace Cbindgen

open LibSpec

variable {α : Type} [Item α]

/-- **C09** After any sequence of definitions the table lists the names in the order of their first
occurrences, and under each name exactly the definitions that should be kept. -/
theorem C09_contents (xs : List α) :
    (ItemMap.insertAll [] xs).toVec = (firsts (xs.map Item.path)).flatMap (kept xs) := by
  rw [ItemMap.insertAll_nil, ItemMap.toVec_tableOf]

/-- **C09** Looking up a name gives the definitions that should be kept. -/
theorem C09_lookup (xs : List α) (p : Str) :
    (ItemMap.insertAll [] xs).getItems p =
      if p ∈ xs.map Item.path then some (kept xs p) else none := by
  rw [ItemMap.insertAll_nil, ItemMap.getItems_tableOf]

/-- **C09** A name has either exactly one definition, without condition, or only definitions with
one. -/
theorem C09_never_mixed (xs : List α) (p : Str) (ys : List α)
    (h : (ItemMap.insertAll [] xs).getItems p = some ys) :
    (∃ y, ys = [y] ∧ (Item.cfg y).isSome = false ∧
        (xs.filter fun x => Item.path x = p).head? = some y) ∨
      (ys = (xs.filter fun x => Item.path x = p).filter (fun x => (Item.cfg x).isSome) ∧
        ys ≠ [] ∧ ∀ y ∈ ys, (Item.cfg y).isSome) := by
  rw [C09_lookup] at h
  split at h
  case isFalse => simp at h
  case isTrue hp =>
    simp only [Option.some.injEq] at h
    subst h
    unfold kept
    cases hf : xs.filter (fun x => Item.path x = p) with
    | nil =>
      rw [List.filter_eq_nil_iff] at hf
      obtain ⟨x, hx, e⟩ := List.mem_map.1 hp
      exact absurd (by simpa using e) (hf x hx)
    | cons y ys =>
      cases hy : (Item.cfg y).isSome
      · left
        exact ⟨y, by simp [hy], hy, by simp⟩
      · right
        simp only [hy, ↓reduceIte]
        refine ⟨by simp [hy], by simp, ?_⟩
        intro z hz
        rcases List.mem_cons.1 hz with rfl | hz
        · exact hy
        · exact (List.mem_filter.1 hz).2

/-- **C09** A definition is accepted exactly if the name is new, or the name and the first definition
of that name both have conditions; a rejected definition leaves the table as it is, an accepted one
is stored last under its name. -/
theorem C09_rejected_iff (xs : List α) (x : α) :
    let r := (ItemMap.insertAll [] xs).tryInsert x
    (r.2 = true ↔ ∀ y, (xs.filter fun z => Item.path z = Item.path x).head? = some y →
        (Item.cfg y).isSome ∧ (Item.cfg x).isSome) ∧
      (r.2 = false → r.1 = ItemMap.insertAll [] xs) ∧
      (r.2 = true → ∃ ys, r.1.getItems (Item.path x) = some (ys ++ [x])) := by
  intro r
  have hr1 : r.1 = ItemMap.tableOf (xs ++ [x]) := by
    simp only [r]; rw [ItemMap.insertAll_nil, ItemMap.tryInsert_tableOf]
  have hget := ItemMap.getItems_tableOf (xs ++ [x]) (Item.path x)
  rw [← hr1, if_pos (by simp)] at hget
  have hr : r = (ItemMap.tableOf xs).tryInsert x := by simp only [r]; rw [ItemMap.insertAll_nil]
  unfold ItemMap.tryInsert at hr
  rw [ItemMap.lookup_tableOf] at hr
  unfold kept at hget
  rw [List.filter_append] at hget
  unfold ItemMap.valueOf at hr
  rw [ItemMap.insertAll_nil]
  cases hf : xs.filter (fun z => Item.path z = Item.path x) with
  | nil =>
    rw [hf] at hr hget
    cases hx : (Item.cfg x).isSome <;> simp [hx] at hr hget <;> (rw [hr] at hget ⊢; simp [hget]) <;>
      exact ⟨[], rfl⟩
  | cons y ys =>
    rw [hf] at hr hget
    cases hy : (Item.cfg y).isSome <;> cases hx : (Item.cfg x).isSome <;>
      simp [hx, hy] at hr hget <;> rw [hr] at hget ⊢ <;> simp [hy, hget]
    exact ⟨y :: ys.filter (fun z => (Item.cfg z).isSome), by simp⟩

/-- **C09** Rebuilding a table that comes from insertions changes nothing. -/
theorem C09_rebuild (xs : List α) :
    (ItemMap.insertAll [] xs).rebuild = ItemMap.insertAll [] xs := by
  apply ItemMap.rebuild_wf
  rw [ItemMap.insertAll_nil]
  exact ItemMap.wf_tableOf xs

/-- A case: two conditional definitions of `A`, a rejected plain one between them, and a plain `B` that
keeps its first definition. -/
example :
    let a1 : OpaqueItem := { path := c!"A", exportName := c!"A", cfg := some (.boolean c!"x"), doc := [c!"1"] }
    let a2 : OpaqueItem := { path := c!"A", exportName := c!"A" }
    let a3 : OpaqueItem := { path := c!"A", exportName := c!"A", cfg := some (.boolean c!"y") }
    let b1 : OpaqueItem := { path := c!"B", exportName := c!"B" }
    let b2 : OpaqueItem := { path := c!"B", exportName := c!"B", cfg := some (.boolean c!"z") }
    (ItemMap.insertAll [] [a1, b1, a2, a3, b2]).toVec = [a1, a3, b1] := rfl

/-! ## C13 -/

/-- **C13** Exclusion removes exactly the items whose names are in the list, from every table, and
keeps the order of the others. -/
theorem C13_excluded (c : LibConfig) (l : Library) :
    let r := l.removeExcluded c
    let keep := fun n : Str => decide (n ∉ c.export_.exclude)
    r.functions = l.functions.filter (fun x => keep x.path) ∧
    r.enums.toVec = l.enums.toVec.filter (fun x => keep x.path) ∧
    r.structs.toVec = l.structs.toVec.filter (fun x => keep x.path) ∧
    r.unions.toVec = l.unions.toVec.filter (fun x => keep x.path) ∧
    r.opaqueItems.toVec = l.opaqueItems.toVec.filter (fun x => keep x.path) ∧
    r.typedefs.toVec = l.typedefs.toVec.filter (fun x => keep x.path) ∧
    r.globals.toVec = l.globals.toVec.filter (fun x => keep x.path) ∧
    r.constants.toVec = l.constants.toVec.filter (fun x => keep x.path) := by
  simp [Library.removeExcluded, ItemMap.toVec_filter]

end Cbindgen
