import Verif.Spec.Library
import Verif.Model.ItemMap

namespace Cbindgen

open LibSpec

theorem mem_firsts {p : Str} : ∀ {ps : List Str}, p ∈ firsts ps ↔ p ∈ ps
  | [] => by simp [firsts]
  | q :: ps => by
    simp only [firsts, List.mem_cons, List.mem_filter, mem_firsts (ps := ps)]
    by_cases h : p = q <;> simp [h]

theorem firsts_nodup : ∀ ps : List Str, (firsts ps).Nodup
  | [] => by simp [firsts]
  | q :: ps => by
    simp only [firsts, List.nodup_cons]
    exact ⟨by simp, (firsts_nodup ps).filter _⟩

theorem firsts_snoc (q : Str) : ∀ ps : List Str,
    firsts (ps ++ [q]) = if q ∈ ps then firsts ps else firsts ps ++ [q]
  | [] => by simp [firsts]
  | p :: ps => by
    simp only [List.cons_append, firsts, firsts_snoc q ps]
    by_cases hq : q ∈ ps
    · simp [hq]
    · by_cases hp : q = p
      · subst hp
        simp [hq]
      · simp [hq, hp]

theorem firsts_of_nodup : ∀ {ps : List Str}, ps.Nodup → firsts ps = ps
  | [], _ => rfl
  | p :: ps, h => by
    rw [List.nodup_cons] at h
    simp only [firsts, firsts_of_nodup h.2]
    congr 1
    rw [List.filter_eq_self]
    intro a ha
    simp only [ne_eq, decide_eq_true_eq]
    intro hap
    exact h.1 (hap ▸ ha)

namespace ItemMap

variable {α : Type}

/-- A table whose value for each name is given by a function. -/
def tabulate (ps : List Str) (f : Str → Option (ItemValue α)) : ItemMap α :=
  ps.filterMap fun p => (f p).map fun v => (p, v)

theorem lookup_tabulate (f : Str → Option (ItemValue α)) (q : Str) : ∀ ps : List Str,
    (tabulate ps f).lookup q = if q ∈ ps then f q else none
  | [] => by simp [tabulate]
  | p :: ps => by
    have ih := lookup_tabulate f q ps
    unfold tabulate at ih ⊢
    rw [List.filterMap_cons]
    cases hf : f p with
    | none =>
      simp only [Option.map_none]
      rw [ih]
      by_cases hp : q = p
      · subst hp; simp [hf]
      · simp [hp]
    | some v =>
      simp only [Option.map_some, List.lookup_cons]
      by_cases hp : q = p
      · subst hp; simp [hf]
      · have : (q == p) = false := by simp [hp]
        rw [this, ih]
        simp [hp]

/-- Append to a value. -/
def pushValue (x : α) : ItemValue α → ItemValue α
  | .cfg xs => .cfg (xs ++ [x])
  | .single y => .single y

theorem push_cons_ne {k p : Str} (h : k ≠ p) (v : ItemValue α) (x : α) (m : ItemMap α) :
    push p x ((k, v) :: m) = (k, v) :: push p x m := by
  cases v <;> simp [push, h]

theorem tabulate_congr {f g : Str → Option (ItemValue α)} {ps : List Str}
    (h : ∀ p ∈ ps, f p = g p) : tabulate ps f = tabulate ps g := by
  unfold tabulate
  induction ps with
  | nil => rfl
  | cons p ps ih =>
    rw [List.filterMap_cons, List.filterMap_cons, h p (by simp),
      ih (fun q hq => h q (by simp [hq]))]

theorem push_tabulate (f : Str → Option (ItemValue α)) (q : Str) (x : α) : ∀ ps : List Str, ps.Nodup →
    push q x (tabulate ps f) =
      tabulate ps (fun p => if p = q then (f p).map (pushValue x) else f p)
  | [], _ => rfl
  | p :: ps, hn => by
    rw [List.nodup_cons] at hn
    have ih := push_tabulate f q x ps hn.2
    have hcons : ∀ g : Str → Option (ItemValue α), tabulate (p :: ps) g =
        match g p with
        | none => tabulate ps g
        | some v => (p, v) :: tabulate ps g := by
      intro g
      unfold tabulate
      rw [List.filterMap_cons]
      cases g p <;> rfl
    rw [hcons, hcons]
    by_cases hp : p = q
    · subst hp
      have hc : tabulate ps (fun r => if r = p then (f r).map (pushValue x) else f r) =
          tabulate ps f := by
        apply tabulate_congr
        intro r hr
        have : r ≠ p := fun e => hn.1 (e ▸ hr)
        simp [this]
      cases hf : f p with
      | none =>
        simp only [↓reduceIte, Option.map_none]
        rw [ih]
      | some v =>
        simp only [↓reduceIte, Option.map_some, hc]
        cases v <;> simp [push, pushValue]
    · cases hf : f p with
      | none =>
        simp only [hp, ↓reduceIte]
        exact ih
      | some v =>
        simp only [hp, ↓reduceIte]
        rw [push_cons_ne hp, ih]

variable [Item α]

/-- The value for a name after inserting a list of items. -/
def valueOf (xs : List α) (p : Str) : Option (ItemValue α) :=
  match xs.filter fun x => Item.path x = p with
  | [] => none
  | y :: ys =>
    if (Item.cfg y).isSome then some (.cfg (y :: ys.filter fun z => (Item.cfg z).isSome))
    else some (.single y)

theorem valueOf_items (xs : List α) (p : Str) :
    valueOf xs p = none ∧ kept xs p = [] ∨ ∃ v, valueOf xs p = some v ∧ v.items = kept xs p := by
  unfold valueOf kept
  cases xs.filter (fun x => Item.path x = p) with
  | nil => simp
  | cons y ys => cases h : (Item.cfg y).isSome <;> simp [h, ItemValue.items]

theorem valueOf_snoc_ne (xs : List α) (x : α) {p : Str} (h : p ≠ Item.path x) :
    valueOf (xs ++ [x]) p = valueOf xs p := by
  unfold valueOf
  have : ¬ Item.path x = p := fun e => h e.symm
  simp [this]

theorem valueOf_eq_none {xs : List α} {p : Str} : valueOf xs p = none ↔ p ∉ xs.map Item.path := by
  unfold valueOf
  cases h : xs.filter (fun x => Item.path x = p) with
  | nil =>
    simp only [true_iff, List.mem_map, not_exists, not_and]
    rw [List.filter_eq_nil_iff] at h
    intro x hx e
    exact h x hx (by simp [e])
  | cons y ys =>
    have hy : y ∈ xs.filter (fun x => Item.path x = p) := by rw [h]; simp
    rw [List.mem_filter] at hy
    have : p ∈ xs.map Item.path := List.mem_map.2 ⟨y, hy.1, by simpa using hy.2⟩
    simp only [this, not_true_eq_false, iff_false]
    split <;> simp

/-- The table that the insertion of a list of items gives. -/
def tableOf (xs : List α) : ItemMap α := tabulate (firsts (xs.map Item.path)) (valueOf xs)

theorem lookup_tableOf (xs : List α) (p : Str) : (tableOf xs).lookup p = valueOf xs p := by
  unfold tableOf
  rw [lookup_tabulate]
  by_cases h : p ∈ xs.map Item.path
  · rw [if_pos (mem_firsts.2 h)]
  · rw [if_neg (fun h' => h (mem_firsts.1 h'))]
    exact (valueOf_eq_none.2 h).symm

omit [Item α] in
theorem tabulate_append (ps qs : List Str) (f : Str → Option (ItemValue α)) :
    tabulate (ps ++ qs) f = tabulate ps f ++ tabulate qs f := by
  unfold tabulate
  rw [List.filterMap_append]

theorem tryInsert_tableOf (xs : List α) (x : α) :
    ((tableOf xs).tryInsert x).1 = tableOf (xs ++ [x]) := by
  unfold tryInsert
  rw [lookup_tableOf]
  have hother : ∀ p, p ≠ Item.path x → valueOf (xs ++ [x]) p = valueOf xs p :=
    fun p hp => valueOf_snoc_ne xs x hp
  cases hv : valueOf xs (Item.path x) with
  | none =>
    have hmem := valueOf_eq_none.1 hv
    have hfil : xs.filter (fun z => Item.path z = Item.path x) = [] := by
      rw [List.filter_eq_nil_iff]
      intro z hz e
      exact hmem (List.mem_map.2 ⟨z, hz, by simpa using e⟩)
    have hnew : valueOf (xs ++ [x]) (Item.path x) =
        some (if (Item.cfg x).isSome then .cfg [x] else .single x) := by
      unfold valueOf
      rw [List.filter_append, hfil]
      cases h : (Item.cfg x).isSome <;> simp [h]
    have htab : tableOf (xs ++ [x]) = tableOf xs ++
        [(Item.path x, if (Item.cfg x).isSome then .cfg [x] else .single x)] := by
      unfold tableOf
      rw [List.map_append, List.map_singleton, firsts_snoc, if_neg hmem, tabulate_append]
      congr 1
      · apply tabulate_congr
        intro p hp
        exact hother p (fun e => hmem (e ▸ mem_firsts.1 hp))
      · unfold tabulate
        simp [hnew]
    rw [htab]
    cases h : (Item.cfg x).isSome <;> simp
  | some v =>
    have hmem : Item.path x ∈ xs.map Item.path := by
      by_cases h : Item.path x ∈ xs.map Item.path
      · exact h
      · rw [valueOf_eq_none.2 h] at hv; simp at hv
    have htab : ∀ g : Str → Option (ItemValue α),
        (∀ p ∈ firsts (xs.map Item.path), valueOf (xs ++ [x]) p = g p) →
        tableOf (xs ++ [x]) = tabulate (firsts (xs.map Item.path)) g := by
      intro g hg
      unfold tableOf
      rw [List.map_append, List.map_singleton, firsts_snoc, if_pos hmem]
      exact tabulate_congr hg
    -- the value for the name of the new item
    have hnew : valueOf (xs ++ [x]) (Item.path x) =
        some (if (Item.cfg x).isSome then pushValue x v else v) := by
      unfold valueOf at hv ⊢
      rw [List.filter_append]
      cases hf : xs.filter (fun z => Item.path z = Item.path x) with
      | nil => rw [hf] at hv; simp at hv
      | cons y ys =>
        rw [hf] at hv
        simp only at hv
        cases hy : (Item.cfg y).isSome
        · simp only [hy, Bool.false_eq_true, ↓reduceIte, Option.some.injEq] at hv
          subst hv
          simp [hy, pushValue]
        · simp only [hy, ↓reduceIte, Option.some.injEq] at hv
          subst hv
          cases hx : (Item.cfg x).isSome <;> simp [hy, hx, pushValue]
    have hsame : (if (Item.cfg x).isSome then pushValue x v else v) = v →
        tableOf (xs ++ [x]) = tableOf xs := by
      intro e
      rw [htab (valueOf xs)]
      · rfl
      · intro p hp
        by_cases hpx : p = Item.path x
        · subst hpx; rw [hnew, hv, e]
        · exact hother p hpx
    cases hx : (Item.cfg x).isSome
    · simp only
      exact (hsame (by simp [hx])).symm
    · cases v with
      | single y =>
        simp only
        exact (hsame (by simp [hx, pushValue])).symm
      | cfg ys =>
        simp only
        unfold tableOf
        rw [push_tabulate _ _ _ _ (firsts_nodup _)]
        symm
        apply htab
        intro p hp
        by_cases hpx : p = Item.path x
        · subst hpx; simp [hnew, hv, hx]
        · simp [hpx, hother p hpx]

theorem insertAll_tableOf (xs : List α) : ∀ ys : List α,
    insertAll (tableOf ys) xs = tableOf (ys ++ xs) := by
  induction xs with
  | nil => intro ys; simp [insertAll]
  | cons x xs ih =>
    intro ys
    have := ih (ys ++ [x])
    unfold insertAll at this ⊢
    rw [List.foldl_cons, tryInsert_tableOf, this]
    simp

theorem insertAll_nil (xs : List α) : insertAll [] xs = tableOf xs := by
  have := insertAll_tableOf xs []
  simpa [tableOf, tabulate, firsts] using this

omit [Item α] in
theorem toVec_tabulate (f : Str → Option (ItemValue α)) (g : Str → List α) : ∀ ps : List Str,
    (∀ p ∈ ps, f p = none ∧ g p = [] ∨ ∃ v, f p = some v ∧ v.items = g p) →
    toVec (tabulate ps f) = ps.flatMap g
  | [], _ => rfl
  | p :: ps, h => by
    have ih := toVec_tabulate f g ps (fun q hq => h q (by simp [hq]))
    unfold tabulate toVec at *
    rw [List.filterMap_cons, List.flatMap_cons]
    rcases h p (by simp) with ⟨hf, hg⟩ | ⟨v, hf, hg⟩
    · rw [hf, hg]; simpa using ih
    · rw [hf]
      simp only [Option.map_some, List.flatMap_cons]
      rw [hg, ih]

theorem toVec_tableOf (xs : List α) :
    toVec (tableOf xs) = (firsts (xs.map Item.path)).flatMap (kept xs) :=
  toVec_tabulate _ _ _ (fun p _ => valueOf_items xs p)

theorem getItems_tableOf (xs : List α) (p : Str) :
    getItems (tableOf xs) p = if p ∈ xs.map Item.path then some (kept xs p) else none := by
  unfold getItems
  rw [lookup_tableOf]
  by_cases h : p ∈ xs.map Item.path
  · rw [if_pos h]
    rcases valueOf_items xs p with ⟨hv, _⟩ | ⟨v, hv, hk⟩
    · exact absurd h (valueOf_eq_none.1 hv)
    · rw [hv, Option.map_some, hk]
  · rw [if_neg h, valueOf_eq_none.2 h]; rfl

/-! ## Well-formed tables -/

/-- A value under its key: items of that name, all with a condition or one without. -/
def WFValue (k : Str) : ItemValue α → Prop
  | .cfg xs => xs ≠ [] ∧ ∀ x ∈ xs, Item.path x = k ∧ (Item.cfg x).isSome
  | .single x => Item.path x = k ∧ (Item.cfg x).isSome = false

/-- A table that comes from insertions. -/
def WF (m : ItemMap α) : Prop := (m.map Prod.fst).Nodup ∧ ∀ kv ∈ m, WFValue kv.1 kv.2

omit [Item α] in
theorem lookup_none_of_not_mem {m : ItemMap α} {k : Str} (h : k ∉ m.map Prod.fst) :
    m.lookup k = none := by
  rw [List.lookup_eq_none_iff]
  intro p hp
  cases hb : k == p.1 with
  | false => simp [bne, hb]
  | true => exact absurd (List.mem_map.2 ⟨p, hp, (by simpa using hb : k = p.1).symm⟩) h

omit [Item α] in
theorem lookup_append_last {m : ItemMap α} {k : Str} (h : k ∉ m.map Prod.fst) (v : ItemValue α) :
    (m ++ [(k, v)]).lookup k = some v := by
  induction m with
  | nil => simp
  | cons kv m ih =>
    obtain ⟨k', v'⟩ := kv
    simp only [List.map_cons, List.mem_cons, not_or] at h
    rw [List.cons_append, List.lookup_cons]
    have : (k == k') = false := by simp [h.1]
    rw [this]
    exact ih h.2

omit [Item α] in
theorem push_append_last {m : ItemMap α} {k : Str} (h : k ∉ m.map Prod.fst) (v : ItemValue α) (x : α) :
    push k x (m ++ [(k, v)]) = m ++ [(k, pushValue x v)] := by
  induction m with
  | nil => cases v <;> simp [push, pushValue]
  | cons kv m ih =>
    obtain ⟨k', v'⟩ := kv
    simp only [List.map_cons, List.mem_cons, not_or] at h
    rw [List.cons_append, push_cons_ne (fun e => h.1 e.symm), ih h.2]
    rfl

theorem insertAll_cfg {m : ItemMap α} {k : Str} (h : k ∉ m.map Prod.fst) : ∀ (xs ys : List α),
    (∀ x ∈ xs, Item.path x = k ∧ (Item.cfg x).isSome) →
    insertAll (m ++ [(k, .cfg ys)]) xs = m ++ [(k, .cfg (ys ++ xs))]
  | [], ys, _ => by simp [insertAll]
  | x :: xs, ys, hx => by
    have ih := insertAll_cfg h xs (ys ++ [x]) (fun z hz => hx z (by simp [hz]))
    unfold insertAll at ih ⊢
    rw [List.foldl_cons]
    have hx' := hx x (by simp)
    have : (tryInsert (m ++ [(k, .cfg ys)]) x).1 = m ++ [(k, .cfg (ys ++ [x]))] := by
      unfold tryInsert
      rw [hx'.1, hx'.2, lookup_append_last h]
      simp [push_append_last h, pushValue]
    rw [this, ih]
    simp

theorem insertAll_append (m : ItemMap α) (xs ys : List α) :
    insertAll m (xs ++ ys) = insertAll (insertAll m xs) ys := by
  unfold insertAll
  rw [List.foldl_append]

theorem insertAll_wf : ∀ (m' m : ItemMap α), WF m' → (∀ k ∈ m'.map Prod.fst, k ∉ m.map Prod.fst) →
    insertAll m (toVec m') = m ++ m'
  | [], m, _, _ => by simp [toVec, insertAll]
  | (k, v) :: m', m, hwf, hd => by
    obtain ⟨hn, hv⟩ := hwf
    rw [List.map_cons, List.nodup_cons] at hn
    have hk : k ∉ m.map Prod.fst := hd k (by simp)
    have hfirst : insertAll m v.items = m ++ [(k, v)] := by
      have hval := hv (k, v) (by simp)
      cases v with
      | single x =>
        obtain ⟨hp, hc⟩ := hval
        simp only at hp
        unfold insertAll
        simp only [ItemValue.items, List.foldl_cons, List.foldl_nil]
        unfold tryInsert
        rw [hp, hc, lookup_none_of_not_mem hk]
      | cfg xs =>
        obtain ⟨hne, hall⟩ := hval
        cases xs with
        | nil => exact absurd rfl hne
        | cons x xs =>
          have hx := hall x (by simp)
          have h1 : insertAll m [x] = m ++ [(k, .cfg [x])] := by
            unfold insertAll
            simp only [List.foldl_cons, List.foldl_nil]
            unfold tryInsert
            rw [hx.1, hx.2, lookup_none_of_not_mem hk]
          have := insertAll_cfg hk xs [x] (fun z hz => hall z (by simp [hz]))
          rw [ItemValue.items, show x :: xs = [x] ++ xs from rfl, insertAll_append, h1, this]
    have hrest := insertAll_wf m' (m ++ [(k, v)]) ⟨hn.2, fun kv hkv => hv kv (by simp [hkv])⟩ (by
      intro k' hk'
      rw [List.map_append, List.mem_append, not_or]
      refine ⟨hd k' (by simp [hk']), ?_⟩
      simp only [List.map_cons, List.map_nil, List.mem_singleton]
      intro e
      exact hn.1 (e ▸ hk'))
    have : toVec ((k, v) :: m') = v.items ++ toVec m' := by simp [toVec]
    rw [this, insertAll_append, hfirst, hrest]
    simp

/-- Rebuilding a well-formed table changes nothing. -/
theorem rebuild_wf {m : ItemMap α} (h : WF m) : rebuild m = m := by
  unfold rebuild
  rw [insertAll_wf m [] h (by simp)]
  rfl

theorem wf_eq_tableOf {m : ItemMap α} (h : WF m) : m = tableOf (toVec m) := by
  rw [← insertAll_nil]
  exact (rebuild_wf h).symm

theorem wf_tableOf (xs : List α) : WF (tableOf xs) := by
  unfold tableOf
  constructor
  · have : ∀ ps : List Str, ps.Nodup → ((tabulate ps (valueOf xs)).map Prod.fst).Nodup ∧
        ∀ k ∈ (tabulate ps (valueOf xs)).map Prod.fst, k ∈ ps := by
      intro ps
      induction ps with
      | nil => simp [tabulate]
      | cons p ps ih =>
        intro h
        rw [List.nodup_cons] at h
        have ih := ih h.2
        unfold tabulate at ih ⊢
        rw [List.filterMap_cons]
        cases valueOf xs p with
        | none =>
          refine ⟨ih.1, fun k hk => List.mem_cons_of_mem _ (ih.2 k hk)⟩
        | some v =>
          simp only [Option.map_some, List.map_cons, List.nodup_cons]
          refine ⟨⟨fun hc => h.1 (ih.2 p hc), ih.1⟩, ?_⟩
          intro k hk
          rcases List.mem_cons.1 hk with rfl | hk
          · simp
          · exact List.mem_cons_of_mem _ (ih.2 k hk)
    exact (this _ (firsts_nodup _)).1
  · intro kv hkv
    unfold tabulate at hkv
    rw [List.mem_filterMap] at hkv
    obtain ⟨p, _, hp⟩ := hkv
    rw [Option.map_eq_some_iff] at hp
    obtain ⟨v, hv, rfl⟩ := hp
    unfold valueOf at hv
    cases hf : xs.filter (fun x => Item.path x = p) with
    | nil => rw [hf] at hv; simp at hv
    | cons y ys =>
      have hpath : ∀ z ∈ y :: ys, Item.path z = p := by
        intro z hz
        rw [← hf, List.mem_filter] at hz
        simpa using hz.2
      rw [hf] at hv
      simp only at hv
      cases hy : (Item.cfg y).isSome
      · simp only [hy, Bool.false_eq_true, ↓reduceIte, Option.some.injEq] at hv
        subst hv
        exact ⟨hpath y (by simp), hy⟩
      · simp only [hy, ↓reduceIte, Option.some.injEq] at hv
        subst hv
        refine ⟨by simp, ?_⟩
        intro z hz
        rcases List.mem_cons.1 hz with rfl | hz
        · exact ⟨hpath z (by simp), hy⟩
        · rw [List.mem_filter] at hz
          exact ⟨hpath z (by simp [hz.1]), hz.2⟩

theorem wf_insertAll {m : ItemMap α} (h : WF m) (xs : List α) : WF (insertAll m xs) := by
  rw [wf_eq_tableOf h, insertAll_tableOf]
  exact wf_tableOf _

/-! ## Filtering and mapping -/

omit [Item α] in
theorem filter_cons (drop : α → Bool) (kv : Str × ItemValue α) (m : ItemMap α) :
    filter drop (kv :: m) =
      match filterValue drop kv.2 with
      | none => filter drop m
      | some v => (kv.1, v) :: filter drop m := by
  unfold filter
  rw [List.filterMap_cons]
  cases filterValue drop kv.2 <;> rfl

omit [Item α] in
theorem toVec_filter (drop : α → Bool) (m : ItemMap α) :
    toVec (filter drop m) = (toVec m).filter fun x => !drop x := by
  induction m with
  | nil => rfl
  | cons kv m ih =>
    rw [filter_cons]
    unfold toVec at ih ⊢
    rw [List.flatMap_cons, List.filter_append, ← ih]
    cases hkv : kv.2 with
    | single x =>
      cases hx : drop x <;> simp [filterValue, hx, ItemValue.items]
    | cfg xs =>
      cases hx : (xs.filter fun x => !drop x).isEmpty
      · simp [filterValue, hx, ItemValue.items]
      · rw [List.isEmpty_iff] at hx
        simp [filterValue, hx, ItemValue.items]

omit [Item α] in
theorem filterValue_mem {drop : α → Bool} {v w : ItemValue α} (h : filterValue drop v = some w) :
    ∀ x, x ∈ w.items ↔ x ∈ v.items ∧ drop x = false := by
  intro x
  cases v with
  | single y =>
    cases hy : drop y
    · simp [filterValue, hy] at h
      subst h
      simp only [ItemValue.items, List.mem_singleton]
      constructor
      · rintro rfl; exact ⟨rfl, hy⟩
      · exact fun h => h.1
    · simp [filterValue, hy] at h
  | cfg xs =>
    cases hx : (xs.filter fun x => !drop x).isEmpty
    · simp only [filterValue, hx, Bool.false_eq_true, ↓reduceIte, Option.some.injEq] at h
      subst h
      simp [ItemValue.items]
    · simp [filterValue, hx] at h

omit [Item α] in
theorem filter_keys_sublist (drop : α → Bool) (m : ItemMap α) :
    ((filter drop m).map Prod.fst).Sublist (m.map Prod.fst) := by
  induction m with
  | nil => simp [filter]
  | cons kv m ih =>
    rw [filter_cons]
    cases filterValue drop kv.2 with
    | none => exact ih.cons _
    | some v => exact ih.cons_cons _

theorem wf_filter (drop : α → Bool) {m : ItemMap α} (h : WF m) : WF (filter drop m) := by
  refine ⟨h.1.sublist (filter_keys_sublist drop m), ?_⟩
  intro kv hkv
  unfold filter at hkv
  rw [List.mem_filterMap] at hkv
  obtain ⟨kv', hm, hf⟩ := hkv
  rw [Option.map_eq_some_iff] at hf
  obtain ⟨v, hv, rfl⟩ := hf
  have hw := h.2 kv' hm
  cases hkv' : kv'.2 with
  | single x =>
    rw [hkv'] at hv hw
    cases hx : drop x
    · simp [filterValue, hx] at hv
      subst hv
      exact hw
    · simp [filterValue, hx] at hv
  | cfg xs =>
    rw [hkv'] at hv hw
    cases hx : (xs.filter fun x => !drop x).isEmpty
    · simp only [filterValue, hx, Bool.false_eq_true, ↓reduceIte, Option.some.injEq] at hv
      subst hv
      refine ⟨by simpa using hx, ?_⟩
      intro x hxm
      exact hw.2 x (List.mem_filter.1 hxm).1
    · simp [filterValue, hx] at hv

omit [Item α] in
theorem toVec_mapItems {β : Type} (f : α → β) (m : ItemMap α) :
    toVec (mapItems f m) = (toVec m).map f := by
  induction m with
  | nil => rfl
  | cons kv m ih =>
    unfold toVec mapItems at ih ⊢
    rw [List.map_cons, List.flatMap_cons, List.flatMap_cons, List.map_append, ih]
    cases kv.2 <;> simp [mapValue, ItemValue.items]

omit [Item α] in
theorem lookup_mapItems {β : Type} (f : α → β) (p : Str) (m : ItemMap α) :
    (mapItems f m).lookup p = (m.lookup p).map (mapValue f) := by
  induction m with
  | nil => rfl
  | cons kv m ih =>
    obtain ⟨k, v⟩ := kv
    unfold mapItems at ih ⊢
    rw [List.map_cons, List.lookup_cons, List.lookup_cons, ih]
    cases p == k <;> rfl

omit [Item α] in
theorem getItems_mapItems {β : Type} (f : α → β) (p : Str) (m : ItemMap α) :
    getItems (mapItems f m) p = (getItems m p).map (List.map f) := by
  unfold getItems
  rw [lookup_mapItems]
  cases m.lookup p with
  | none => rfl
  | some v => cases v <;> simp [mapValue, ItemValue.items]

theorem wf_mapItems (f : α → α) (hp : ∀ x, Item.path (f x) = Item.path x)
    (hc : ∀ x, Item.cfg (f x) = Item.cfg x) {m : ItemMap α} (h : WF m) : WF (mapItems f m) := by
  unfold mapItems
  constructor
  · rw [List.map_map]
    exact h.1
  · intro kv hkv
    rw [List.mem_map] at hkv
    obtain ⟨kv', hm, rfl⟩ := hkv
    have hw := h.2 kv' hm
    revert hw
    cases kv'.2 with
    | single x => simp [mapValue, WFValue, hp, hc]
    | cfg xs => simp [mapValue, WFValue, hp, hc]

end ItemMap

end Cbindgen
