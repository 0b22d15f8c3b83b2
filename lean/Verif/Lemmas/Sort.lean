import Verif.Model.Library
import Verif.Spec.Library
import Verif.Lemmas.Names

/-!
# Stable sorting
-/

namespace Cbindgen

variable {α : Type}

/-- Sorting keeps the order of elements that are not smaller than each other. -/
theorem mergeSort_filter {le : α → α → Bool} (htrans : ∀ a b c, le a b → le b c → le a c)
    (htotal : ∀ a b, le a b || le b a) (p : α → Bool)
    (hp : ∀ a b, p a = true → p b = true → le a b = true) (xs : List α) :
    (xs.mergeSort le).filter p = xs.filter p := by
  have hsub : (xs.filter p).Sublist (xs.mergeSort le) := by
    apply List.sublist_mergeSort htrans htotal
    · rw [List.pairwise_filter]
      apply List.Pairwise.imp_of_mem (R := fun _ _ => True)
      · intro a b _ _ _ ha hb
        exact hp a b ha hb
      · rw [List.pairwise_iff_forall_sublist]
        intros; trivial
    · exact List.filter_sublist
  have h2 := hsub.filter p
  rw [List.filter_filter] at h2
  simp only [Bool.and_self] at h2
  refine (h2.eq_of_length ?_).symm
  exact ((List.mergeSort_perm xs le).filter p).length_eq.symm

/-- A sorted list is determined by its classes of equivalent elements. -/
theorem sorted_unique {le : α → α → Bool} (hrefl : ∀ a, le a a = true) :
    ∀ {r₁ r₂ : List α}, r₁.Pairwise (fun a b => le a b = true) →
    r₂.Pairwise (fun a b => le a b = true) →
    (∀ a, r₁.filter (fun b => le a b && le b a) = r₂.filter (fun b => le a b && le b a)) → r₁ = r₂
  | [], [], _, _, _ => rfl
  | [], y :: r₂, _, _, h => by
    have := h y
    rw [List.filter_cons] at this
    simp [hrefl y] at this
  | x :: r₁, [], _, _, h => by
    have := h x
    rw [List.filter_cons] at this
    simp [hrefl x] at this
  | x :: r₁, y :: r₂, h₁, h₂, h => by
    rw [List.pairwise_cons] at h₁ h₂
    have hx₂ : x ∈ y :: r₂ := by
      have : x ∈ (x :: r₁).filter (fun b => le x b && le b x) := by simp [hrefl x]
      rw [h x] at this
      exact (List.mem_filter.1 this).1
    have hy₁ : y ∈ x :: r₁ := by
      have : y ∈ (y :: r₂).filter (fun b => le y b && le b y) := by simp [hrefl y]
      rw [← h y] at this
      exact (List.mem_filter.1 this).1
    have hxy : le x y = true := by
      rcases List.mem_cons.1 hy₁ with e | hm
      · subst e; exact hrefl _
      · exact h₁.1 y hm
    have hyx : le y x = true := by
      rcases List.mem_cons.1 hx₂ with e | hm
      · subst e; exact hrefl _
      · exact h₂.1 x hm
    have heq : x = y := by
      have := h x
      rw [List.filter_cons, List.filter_cons] at this
      simp [hrefl x, hxy, hyx] at this
      exact this.1
    subst heq
    congr 1
    apply sorted_unique hrefl h₁.2 h₂.2
    intro a
    have := h a
    rw [List.filter_cons, List.filter_cons] at this
    split at this
    · exact (List.cons.inj this).2
    · exact this

/-! ## Layers -/

theorem Layer.le_refl (a : Layer) : a.le a = true := by
  cases a <;> simp [Layer.le, strLt_irrefl]

theorem strLt_total (a b : Str) : strLt a b = true ∨ a = b ∨ strLt b a = true := by
  induction a generalizing b with
  | nil => cases b <;> simp [strLt]
  | cons x a ih =>
    cases b with
    | nil => simp [strLt]
    | cons y b =>
      simp only [strLt]
      by_cases h1 : x.toNat < y.toNat
      · simp [h1]
      · by_cases h2 : y.toNat < x.toNat
        · simp [h2]
        · have hxy : x = y := by
            have : x.toNat = y.toNat := by omega
            exact Char.toNat_inj.mp this
          subst hxy
          simp only [Nat.lt_irrefl, ↓reduceIte, List.cons.injEq, true_and]
          rcases ih b with h | h | h
          · exact .inl h
          · exact .inr (.inl h)
          · exact .inr (.inr h)

theorem strLt_le_trans {a b c : Str} (h₁ : strLt b a = false) (h₂ : strLt c b = false) :
    strLt c a = false := by
  cases h : strLt c a with
  | false => rfl
  | true =>
    rcases strLt_total b c with hbc | hbc | hbc
    · rw [strLt_trans _ _ _ hbc h] at h₁; exact h₁
    · subst hbc; rw [h] at h₁; exact h₁
    · rw [hbc] at h₂; simp at h₂

theorem Layer.le_trans (a b c : Layer) (h₁ : a.le b = true) (h₂ : b.le c = true) :
    a.le c = true := by
  cases a <;> cases b <;> cases c <;> simp_all [Layer.le]
  rename_i x y z
  exact strLt_le_trans h₁ h₂

theorem Layer.le_total (a b : Layer) : (a.le b || b.le a) = true := by
  cases a <;> cases b <;> simp [Layer.le]
  rename_i x y
  rcases strLt_total x y with h | h | h
  · left
    cases hc : strLt y x with
    | false => rfl
    | true => exact absurd (strLt_trans _ _ _ h hc) (by simp [strLt_irrefl])
  · subst h; simp [strLt_irrefl]
  · right
    cases hc : strLt x y with
    | false => rfl
    | true => exact absurd (strLt_trans _ _ _ h hc) (by simp [strLt_irrefl])

open LibSpec

theorem strLt_iff (a b : Str) : strLt a b = true ↔ a < b := by
  induction a generalizing b with
  | nil => cases b <;> simp [strLt]
  | cons x a ih =>
    cases b with
    | nil => simp [strLt]
    | cons y b =>
      rw [List.cons_lt_cons_iff]
      have hlt : x < y ↔ x.toNat < y.toNat := by
        rw [Char.lt_def, UInt32.lt_iff_toNat_lt]
        rfl
      unfold strLt
      by_cases h : x.toNat < y.toNat
      · simp [h, hlt]
      · by_cases h' : x = y
        · subst h'
          have : ¬ x < x := by rw [hlt]; omega
          simp [ih, this]
        · simp [h, h', hlt]

theorem strLe_iff (a b : Str) : (!strLt b a) = true ↔ a ≤ b := by
  have := strLt_iff b a
  rw [← List.not_lt]
  cases h : strLt b a <;> simp_all

theorem strLt_antisymm {a b : Str} (h₁ : strLt a b = false) (h₂ : strLt b a = false) : a = b := by
  rcases strLt_total a b with h | h | h
  · simp [h] at h₁
  · exact h
  · simp [h] at h₂

/-- The order by name is the only stable one. -/
theorem stableByName_iff (name : α → Str) (xs r : List α) :
    StableByName name xs r ↔ r = sortByPath name xs := by
  have htrans : ∀ a b c : α, (!strLt (name b) (name a)) = true → (!strLt (name c) (name b)) = true →
      (!strLt (name c) (name a)) = true := by
    intro a b c h₁ h₂
    simp only [Bool.not_eq_true'] at *
    exact strLt_le_trans h₁ h₂
  have htotal : ∀ a b : α, (!strLt (name b) (name a) || !strLt (name a) (name b)) = true := by
    intro a b
    cases h : strLt (name b) (name a) with
    | false => rfl
    | true =>
      cases h' : strLt (name a) (name b) with
      | false => rfl
      | true =>
        have := strLt_trans _ _ _ h h'
        rw [strLt_irrefl] at this
        simp at this
  have hsorted : StableByName name xs (sortByPath name xs) := by
    constructor
    · have := List.pairwise_mergeSort (le := fun a b => !strLt (name b) (name a)) htrans htotal xs
      exact this.imp fun {a b} h => (strLe_iff _ _).1 h
    · intro n
      apply mergeSort_filter htrans htotal
      intro a b ha hb
      have ha : name a = n := by simpa using ha
      have hb : name b = n := by simpa using hb
      rw [ha, hb, strLt_irrefl]
      rfl
  constructor
  · intro h
    apply sorted_unique (le := fun a b => !strLt (name b) (name a))
    · intro a; rw [strLt_irrefl]; rfl
    · exact h.1.imp fun {a b} h => (strLe_iff _ _).2 h
    · exact hsorted.1.imp fun {a b} h => (strLe_iff _ _).2 h
    · intro a
      have hclass : ∀ b, ((!strLt (name b) (name a)) && (!strLt (name a) (name b))) =
          decide (name b = name a) := by
        intro b
        by_cases e : name b = name a
        · rw [e, strLt_irrefl]; simp
        · rw [decide_eq_false e]
          cases h₁ : strLt (name b) (name a) with
          | true => rfl
          | false =>
            cases h₂ : strLt (name a) (name b) with
            | true => rfl
            | false => exact absurd (strLt_antisymm h₁ h₂) e
      simp only [hclass]
      rw [h.2, hsorted.2]
  · rintro rfl
    exact hsorted

theorem mem_of_stable {name : α → Str} {xs r : List α} (h : StableByName name xs r) (x : α) :
    x ∈ r ↔ x ∈ xs := by
  have : ∀ l : List α, x ∈ l ↔ x ∈ l.filter (fun y => name y = name x) := by
    intro l; simp
  rw [this r, this xs, h.2]

/-- The result of `Dependencies::sort` is the layered order, and the only such list. -/
theorem layered_iff (xs r : List Container) : Layered xs r ↔ r = sortItems xs := by
  have hle : ∀ a b : Container, isPlainEnum a = true → a.layer.le b.layer = true := by
    intro a b h
    have : a.layer = .plainEnum := by
      cases a <;> simp [isPlainEnum] at h
      simp [Container.layer, h]
    rw [this]
    generalize b.layer = y
    cases y <;> rfl
  have layer_enum : ∀ a : Container, isPlainEnum a = true → a.layer = .plainEnum := by
    intro a h
    cases a <;> simp [isPlainEnum] at h
    simp [Container.layer, h]
  have layer_opaque : ∀ a : Container, isOpaque a = true → a.layer = .opaque a.path := by
    intro a h
    cases a <;> simp [isOpaque] at h
    rfl
  have layer_other : ∀ a : Container, isPlainEnum a = false → isOpaque a = false →
      a.layer = .other := by
    intro a h h'
    cases a with
    | enum x =>
      have h : x.tag.isNone = false := h
      simp [Container.layer, h]
    | «opaque» x => simp [isOpaque] at h'
    | _ => rfl
  have excl : ∀ a : Container, isOpaque a = true → isPlainEnum a = false := by
    intro a h
    cases a <;> simp [isOpaque] at h
    rfl
  have key : ∀ os, StableByName Container.path (xs.filter isOpaque) os →
      xs.filter isPlainEnum ++ os ++ xs.filter (fun x => !isPlainEnum x && !isOpaque x) =
        sortItems xs := by
    intro os hos
    have hmem : ∀ x ∈ os, isOpaque x = true := fun x hx =>
      (List.mem_filter.1 ((mem_of_stable hos x).1 hx)).2
    apply sorted_unique (le := fun a b : Container => a.layer.le b.layer)
    · intro a; exact Layer.le_refl _
    · rw [List.pairwise_append, List.pairwise_append]
      refine ⟨⟨?_, ?_, ?_⟩, ?_, ?_⟩
      · apply List.Pairwise.imp_of_mem (R := fun _ _ => True)
        · intro a b ha _ _
          exact hle a b (List.mem_filter.1 ha).2
        · rw [List.pairwise_iff_forall_sublist]; intros; trivial
      · apply hos.1.imp_of_mem
        intro a b ha hb h
        rw [layer_opaque a (hmem a ha), layer_opaque b (hmem b hb)]
        exact (strLe_iff _ _).2 h
      · intro a ha b _
        exact hle a b (List.mem_filter.1 ha).2
      · apply List.Pairwise.imp_of_mem (R := fun _ _ => True)
        · intro a b ha hb _
          have ha := (List.mem_filter.1 ha).2
          have hb := (List.mem_filter.1 hb).2
          simp only [Bool.and_eq_true, Bool.not_eq_true'] at ha hb
          rw [layer_other a ha.1 ha.2, layer_other b hb.1 hb.2]
          rfl
        · rw [List.pairwise_iff_forall_sublist]; intros; trivial
      · intro a ha b hb
        have hb := (List.mem_filter.1 hb).2
        simp only [Bool.and_eq_true, Bool.not_eq_true'] at hb
        rw [layer_other b hb.1 hb.2]
        rcases List.mem_append.1 ha with ha | ha
        · rw [layer_enum a (List.mem_filter.1 ha).2]; rfl
        · rw [layer_opaque a (hmem a ha)]; rfl
    · exact List.pairwise_mergeSort (fun a b c => Layer.le_trans a.layer b.layer c.layer)
        (fun a b => Layer.le_total a.layer b.layer) xs
    · intro a
      unfold sortItems
      rw [mergeSort_filter (fun a b c => Layer.le_trans a.layer b.layer c.layer)
        (fun a b => Layer.le_total a.layer b.layer)]
      · rw [List.filter_append, List.filter_append]
        have hnil : ∀ (l : List Container) (p : Container → Bool), (∀ x ∈ l, p x = false) →
            l.filter p = [] := by
          intro l p h
          rw [List.filter_eq_nil_iff]
          intro x hx
          simp [h x hx]
        have hcongr : ∀ (p q : Container → Bool), (∀ x, p x = q x) → xs.filter p = xs.filter q := by
          intro p q h
          rw [funext h]
        by_cases he : isPlainEnum a = true
        · have hc : ∀ b : Container, (a.layer.le b.layer && b.layer.le a.layer) = isPlainEnum b := by
            intro b
            rw [layer_enum a he]
            by_cases hb : isPlainEnum b = true
            · rw [layer_enum b hb, hb]; rfl
            · have hb : isPlainEnum b = false := by simpa using hb
              by_cases ho : isOpaque b = true
              · rw [layer_opaque b ho, hb]; rfl
              · rw [layer_other b hb (by simpa using ho), hb]; rfl
          simp only [hc]
          rw [hnil os _ (fun x hx => excl x (hmem x hx)),
            hnil (xs.filter fun x => !isPlainEnum x && !isOpaque x) _ (fun x hx => by
              have := (List.mem_filter.1 hx).2
              simp at this
              exact this.1), List.filter_filter]
          simp
        · have he : isPlainEnum a = false := by simpa using he
          by_cases ho : isOpaque a = true
          · have hc : ∀ b : Container, (a.layer.le b.layer && b.layer.le a.layer) =
                (isOpaque b && decide (b.path = a.path)) := by
              intro b
              rw [layer_opaque a ho]
              by_cases hb : isPlainEnum b = true
              · have hbo : isOpaque b = false := by
                  cases hx : isOpaque b with
                  | false => rfl
                  | true => rw [excl b hx] at hb; simp at hb
                rw [layer_enum b hb, hbo]; rfl
              · have hb : isPlainEnum b = false := by simpa using hb
                by_cases hbo : isOpaque b = true
                · rw [layer_opaque b hbo, hbo]
                  simp only [Layer.le, Bool.true_and]
                  by_cases e : b.path = a.path
                  · rw [e, strLt_irrefl]; simp
                  · rw [decide_eq_false e]
                    cases h₁ : strLt b.path a.path with
                    | true => rfl
                    | false =>
                      cases h₂ : strLt a.path b.path with
                      | true => rfl
                      | false => exact absurd (strLt_antisymm h₁ h₂) e
                · have hbo : isOpaque b = false := by simpa using hbo
                  rw [layer_other b hb hbo, hbo]; rfl
            simp only [hc]
            rw [hnil (xs.filter isPlainEnum), hnil (xs.filter fun x => !isPlainEnum x && !isOpaque x)]
            · simp only [List.nil_append, List.append_nil]
              have h1 : os.filter (fun b => isOpaque b && decide (b.path = a.path)) =
                  os.filter (fun b => decide (b.path = a.path)) := by
                apply List.filter_congr
                intro b hb
                rw [hmem b hb, Bool.true_and]
              rw [h1, hos.2, List.filter_filter]
              apply hcongr
              intro x
              rw [Bool.and_comm]
            · intro x hx
              have := (List.mem_filter.1 hx).2
              simp at this
              simp [this.2]
            · intro x hx
              have := (List.mem_filter.1 hx).2
              cases hxo : isOpaque x with
              | false => rfl
              | true => rw [excl x hxo] at this; simp at this
          · have ho : isOpaque a = false := by simpa using ho
            have hc : ∀ b : Container, (a.layer.le b.layer && b.layer.le a.layer) =
                (!isPlainEnum b && !isOpaque b) := by
              intro b
              rw [layer_other a he ho]
              by_cases hb : isPlainEnum b = true
              · rw [layer_enum b hb, hb]; rfl
              · have hb : isPlainEnum b = false := by simpa using hb
                by_cases hbo : isOpaque b = true
                · rw [layer_opaque b hbo, hbo, hb]; rfl
                · have hbo : isOpaque b = false := by simpa using hbo
                  rw [layer_other b hb hbo, hb, hbo]; rfl
            simp only [hc]
            rw [hnil (xs.filter isPlainEnum), hnil os]
            · simp only [List.nil_append, List.filter_filter, Bool.and_self]
            · intro x hx
              simp [hmem x hx]
            · intro x hx
              simp [(List.mem_filter.1 hx).2]
      · intro b d hb hd
        simp only [Bool.and_eq_true] at hb hd
        exact Layer.le_trans _ _ _ hb.2 hd.1
  constructor
  · rintro ⟨os, hos, rfl⟩
    exact key os hos
  · rintro rfl
    have hos := (stableByName_iff Container.path (xs.filter isOpaque) _).2 rfl
    exact ⟨_, hos, (key _ hos).symm⟩

end Cbindgen
