import Verif.Model.Output
import Verif.Spec.Output
import Verif.Props.Output

/-!
# The order of fields of a struct with several variants
-/

namespace Cbindgen

open OutSpec

/-- Where the first common name of two lists in the same order is. -/
theorem OutSpec.SameOrder.split {f : Str} {fs B : List Str} (h : SameOrder (f :: fs) B) (hf : f ∈ B)
    (hB : B.Nodup) (hfs : (f :: fs).Nodup) :
    ∃ B1 B2, B = B1 ++ f :: B2 ∧ (∀ x ∈ B1, x ∉ f :: fs) ∧ SameOrder fs B2 := by
  induction B with
  | nil => simp at hf
  | cons b B ih =>
    unfold SameOrder at h
    have hn := List.nodup_cons.1 hB
    have hff := List.nodup_cons.1 hfs
    by_cases hb : b = f
    · subst hb
      refine ⟨[], B, rfl, by simp, ?_⟩
      unfold SameOrder
      simp only [List.filter_cons, List.mem_cons, true_or, decide_true, if_true,
        List.cons.injEq, true_and] at h
      have h1 : (fs.filter fun x => decide (x = b ∨ x ∈ B)) = fs.filter fun x => decide (x ∈ B) := by
        apply List.filter_congr
        intro x hx
        have : x ≠ b := fun e => hff.1 (e ▸ hx)
        simp [this]
      have h2 : (B.filter fun y => decide (y = b ∨ y ∈ fs)) = B.filter fun y => decide (y ∈ fs) := by
        apply List.filter_congr
        intro x hx
        have : x ≠ b := fun e => hn.1 (e ▸ hx)
        simp [this]
      rw [h1, h2] at h
      exact h
    · have hfB : f ∈ B := by simpa [Ne.symm hb, hb, eq_comm] using hf
      have hbf : b ∉ f :: fs := by
        intro hbm
        rw [List.filter_cons, if_pos (by simp [hf]), List.filter_cons, if_pos (by simpa using hbm)] at h
        exact hb (List.cons.inj h).1.symm
      have h' : SameOrder (f :: fs) B := by
        unfold SameOrder
        have h1 : ((f :: fs).filter fun x => decide (x ∈ b :: B)) =
            (f :: fs).filter fun x => decide (x ∈ B) := by
          apply List.filter_congr
          intro x hx
          have : x ≠ b := fun e => hbf (e ▸ hx)
          simp [this]
        have h2 : ((b :: B).filter fun x => decide (x ∈ f :: fs)) =
            B.filter fun x => decide (x ∈ f :: fs) := by
          rw [List.filter_cons, if_neg (by simpa using hbf)]
        rw [h1, h2] at h
        exact h
      obtain ⟨B1, B2, he, hd, hs⟩ := ih h' hfB hn.2
      refine ⟨b :: B1, B2, by simp [he], ?_, hs⟩
      intro x hx
      rcases List.mem_cons.1 hx with rfl | hx
      · exact hbf
      · exact hd x hx

theorem OutSpec.SameOrder.of_not_mem {f : Str} {fs B : List Str} (h : SameOrder (f :: fs) B) (hf : f ∉ B) :
    SameOrder fs B := by
  unfold SameOrder at h ⊢
  rw [List.filter_cons, if_neg (by simpa using hf)] at h
  rw [h]
  apply List.filter_congr
  intro x hx
  have : x ≠ f := fun e => hf (e ▸ hx)
  simp [this]

theorem insertIdx_append (A B : List Str) (f : Str) :
    (A ++ B).insertIdx A.length f = A ++ f :: B := by
  induction A with
  | nil => simp
  | cons a A ih => simp [ih]

theorem idxOf_append_cons (A B : List Str) (f : Str) (h : f ∉ A) :
    (A ++ f :: B).idxOf f = A.length := by
  induction A with
  | nil => simp
  | cons a A ih =>
    have : (a == f) = false := by simpa using fun e : a = f => h (by simp [e])
    simp [List.idxOf_cons, this, ih (fun hh => h (by simp [hh]))]

theorem placeField_run (fs : List Str) :
    ∀ (A B done : List Str), (A ++ B).Nodup → fs.Nodup → (∀ x ∈ A, x ∉ fs) → SameOrder fs B →
      done.Sublist A →
      let R := (fs.foldl placeField (A ++ B, A.length)).1
      R.Nodup ∧ (A ++ B).Sublist R ∧ (done ++ fs).Sublist R ∧ ∀ x ∈ R, x ∈ A ++ B ∨ x ∈ fs := by
  induction fs with
  | nil =>
    intro A B done hn _ _ _ hd
    simp only [List.foldl_nil, List.append_nil]
    exact ⟨hn, List.Sublist.refl _, hd.trans (List.sublist_append_left A B), fun x hx => .inl hx⟩
  | cons f fs ih =>
    intro A B done hn hfs hA hs hd
    have hfA : f ∉ A := fun h => hA f h (by simp)
    have hff := List.nodup_cons.1 hfs
    simp only [List.foldl_cons]
    by_cases hf : f ∈ A ++ B
    · have hfB : f ∈ B := by
        rcases List.mem_append.1 hf with h | h
        · exact absurd h hfA
        · exact h
      obtain ⟨B1, B2, rfl, hB1, hs'⟩ := SameOrder.split hs hfB (List.nodup_append.1 hn).2.1 hfs
      have hf1 : f ∉ A ++ B1 := by
        intro h
        rcases List.mem_append.1 h with h | h
        · exact hfA h
        · exact hB1 f h (by simp)
      have hstep : placeField (A ++ (B1 ++ f :: B2), A.length) f =
          ((A ++ B1 ++ [f]) ++ B2, (A ++ B1 ++ [f]).length) := by
        unfold placeField
        rw [if_pos hf]
        have := idxOf_append_cons (A ++ B1) B2 f hf1
        simp only [List.append_assoc] at this
        simp [this]
        omega
      rw [hstep]
      have heq : A ++ (B1 ++ f :: B2) = (A ++ B1 ++ [f]) ++ B2 := by simp
      have hdone : (done ++ [f]).Sublist (A ++ B1 ++ [f]) :=
        (hd.trans (List.sublist_append_left A B1)).append (List.Sublist.refl _)
      have := ih (A ++ B1 ++ [f]) B2 (done ++ [f]) (heq ▸ hn) hff.2 (by
        intro x hx
        simp only [List.mem_append, List.mem_singleton] at hx
        rcases hx with (hx | hx) | rfl
        · exact fun h => hA x hx (by simp [h])
        · exact fun h => hB1 x hx (by simp [h])
        · exact hff.1) hs' hdone
      refine ⟨this.1, heq ▸ this.2.1, by simpa using this.2.2.1, fun x hx => ?_⟩
      rcases this.2.2.2 x hx with h | h
      · left; rw [heq]; exact h
      · right; simp [h]
    · have hstep : placeField (A ++ B, A.length) f = ((A ++ [f]) ++ B, (A ++ [f]).length) := by
        unfold placeField
        rw [if_neg hf]
        simp [insertIdx_append]
      rw [hstep]
      have hfB : f ∉ B := fun h => hf (by simp [h])
      have hn' : ((A ++ [f]) ++ B).Nodup := by
        have := (List.perm_middle (a := f) (l₁ := A) (l₂ := B))
        rw [List.append_assoc, List.singleton_append]
        exact this.symm.nodup (List.nodup_cons.2 ⟨hf, hn⟩)
      have := ih (A ++ [f]) B (done ++ [f]) hn' hff.2 (by
        intro x hx
        simp only [List.mem_append, List.mem_singleton] at hx
        rcases hx with hx | rfl
        · exact fun h => hA x hx (by simp [h])
        · exact hff.1) (SameOrder.of_not_mem hs hfB) (hd.append (List.Sublist.refl _))
      have hsub : (A ++ B).Sublist ((A ++ [f]) ++ B) :=
        (List.sublist_append_left A [f]).append (List.Sublist.refl _)
      refine ⟨this.1, hsub.trans this.2.1, by simpa using this.2.2.1, fun x hx => ?_⟩
      rcases this.2.2.2 x hx with h | h
      · simp only [List.mem_append, List.mem_singleton] at h
        rcases h with (h | h) | h
        · left; simp [h]
        · right; simp [h]
        · left; simp [h]
      · right; simp [h]

/-- Adding a variant whose common fields are in the same order keeps both orders. -/
theorem mergeFields_spec {names fields : List Str} (hn : names.Nodup) (hf : fields.Nodup)
    (hs : SameOrder fields names) :
    (mergeFields names fields).Nodup ∧ names.Sublist (mergeFields names fields) ∧
      fields.Sublist (mergeFields names fields) ∧
      ∀ x ∈ mergeFields names fields, x ∈ names ∨ x ∈ fields := by
  have := placeField_run fields [] names [] (by simpa using hn) hf (by simp) hs (List.Sublist.refl _)
  simpa [mergeFields] using this

/-- In any case each name is there exactly once. -/
theorem placeField_set (fs : List Str) :
    ∀ (L : List Str) (pos : Nat), L.Nodup → pos ≤ L.length →
      let R := (fs.foldl placeField (L, pos)).1
      R.Nodup ∧ ∀ x, x ∈ R ↔ x ∈ L ∨ x ∈ fs := by
  induction fs with
  | nil => intro L pos hn _; simp [hn]
  | cons f fs ih =>
    intro L pos hn hp
    simp only [List.foldl_cons]
    by_cases hf : f ∈ L
    · have hstep : placeField (L, pos) f = (L, L.idxOf f + 1) := by
        unfold placeField
        rw [if_pos hf]
      rw [hstep]
      have := ih L (L.idxOf f + 1) hn (by have := List.idxOf_lt_length_of_mem hf; omega)
      refine ⟨this.1, fun x => ?_⟩
      rw [this.2]
      simp only [List.mem_cons]
      constructor
      · rintro (h | h) <;> simp [h]
      · rintro (h | rfl | h)
        · simp [h]
        · simp [hf]
        · simp [h]
    · have hstep : placeField (L, pos) f = (L.insertIdx pos f, pos + 1) := by
        unfold placeField
        rw [if_neg hf]
      rw [hstep]
      have hsplit : L.insertIdx pos f = L.take pos ++ f :: L.drop pos := by
        have := insertIdx_append (L.take pos) (L.drop pos) f
        rwa [List.take_append_drop, List.length_take, Nat.min_eq_left hp] at this
      have hperm : (L.insertIdx pos f).Perm (f :: L) := by
        rw [hsplit]
        have := List.perm_middle (a := f) (l₁ := L.take pos) (l₂ := L.drop pos)
        rwa [List.take_append_drop] at this
      have := ih (L.insertIdx pos f) (pos + 1) (hperm.symm.nodup (List.nodup_cons.2 ⟨hf, hn⟩)) (by
        have := hperm.length_eq
        simp at this
        omega)
      refine ⟨this.1, fun x => ?_⟩
      rw [this.2, hperm.mem_iff]
      simp only [List.mem_cons]
      constructor
      · rintro ((h | h) | h) <;> simp [h]
      · rintro (h | h | h) <;> simp [h]

theorem mergeFields_set {names fields : List Str} (hn : names.Nodup) :
    (mergeFields names fields).Nodup ∧
      ∀ x, x ∈ mergeFields names fields ↔ x ∈ names ∨ x ∈ fields :=
  placeField_set fields names 0 hn (by simp)

/-- The names of all variants, each once. -/
theorem fieldNames_fold (vs : List (List Str)) :
    ∀ names : List Str, names.Nodup →
      (vs.foldl mergeFields names).Nodup ∧
        ∀ x, x ∈ vs.foldl mergeFields names ↔ x ∈ names ∨ ∃ v ∈ vs, x ∈ v := by
  induction vs with
  | nil => intro names hn; simp [hn]
  | cons v vs ih =>
    intro names hn
    have h1 := mergeFields_set (fields := v) hn
    have h2 := ih _ h1.1
    refine ⟨h2.1, fun x => ?_⟩
    rw [List.foldl_cons, h2.2, h1.2]
    simp only [List.mem_cons, exists_eq_or_imp]
    constructor
    · rintro ((h | h) | h) <;> simp [h]
    · rintro (h | h | h) <;> simp [h]

/-- The fields of the variants of the struct at a path. -/
def variantFields (sm : ItemMap StructItem) (p : Str) : List (List Str) :=
  ((sm.getItems p).getD []).map fun s => s.fields.map Field.name

theorem fieldNamesAt_eq (sm : ItemMap StructItem) (p : Str) :
    fieldNamesAt sm p = (variantFields sm p).foldl mergeFields [] := by
  simp [fieldNamesAt, variantFields, List.foldl_map]

theorem OutSpec.SameOrder.nil_right (xs : List Str) : SameOrder xs [] := by
  unfold SameOrder
  simp

/-- The first variant is taken as it is. -/
theorem mergeFields_nil {fields : List Str} (hf : fields.Nodup) : mergeFields [] fields = fields := by
  have := mergeFields_spec .nil hf (SameOrder.nil_right fields)
  have hl : (mergeFields [] fields).length ≤ fields.length :=
    nodup_length_le this.1 fun x hx => by simpa using this.2.2.2 x hx
  exact (this.2.2.1.eq_of_length_le hl).symm

/-- A variant without fields of its own changes nothing. -/
theorem mergeFields_sub {names fields : List Str} (hmem : ∀ x ∈ fields, x ∈ names) :
    mergeFields names fields = names := by
  unfold mergeFields
  suffices ∀ pos, (fields.foldl placeField (names, pos)).1 = names from this 0
  induction fields with
  | nil => intro pos; rfl
  | cons f fs ih =>
    intro pos
    rw [List.foldl_cons]
    have : placeField (names, pos) f = (names, names.idxOf f + 1) := by
      unfold placeField
      rw [if_pos (hmem f (by simp))]
    rw [this]
    exact ih (fun x hx => hmem x (by simp [hx])) _

end Cbindgen
