import Verif.Spec.Names
import Verif.Lemmas.Cfg
import Verif.Lemmas.Text

/-! # Lemmas about names -/

namespace Cbindgen

open CfgSpec NameSpec

theorem strLt_irrefl : ∀ a : Str, strLt a a = false
  | [] => rfl
  | c :: cs => by simp [strLt, strLt_irrefl cs]

theorem strLt_trans : ∀ a b c : Str, strLt a b = true → strLt b c = true → strLt a c = true
  | [], [], _, h, _ => by simp [strLt] at h
  | [], _ :: _, [], _, h => by simp [strLt] at h
  | [], _ :: _, _ :: _, _, _ => rfl
  | _ :: _, [], _, h, _ => by simp [strLt] at h
  | _ :: _, _ :: _, [], _, h => by simp [strLt] at h
  | a :: as, b :: bs, c :: cs, h1, h2 => by
    simp only [strLt] at h1 h2 ⊢
    by_cases hab : a.toNat < b.toNat
    · by_cases hbc : b.toNat < c.toNat
      · rw [if_pos (Nat.lt_trans hab hbc)]
      · simp only [hbc, if_false] at h2
        split at h2
        · rename_i e; subst e; rw [if_pos hab]
        · simp at h2
    · simp only [hab, if_false] at h1
      split at h1
      · rename_i e; subst e
        by_cases hbc : a.toNat < c.toNat
        · rw [if_pos hbc]
        · simp only [hbc, if_false] at h2 ⊢
          split at h2
          · rename_i e
            simp [e, strLt_trans as bs cs h1 h2]
          · simp at h2
      · simp at h1

theorem binarySearch_iff (x : Str) : ∀ (n : Nat) (l : List Str), l.length ≤ n →
    l.Pairwise (fun a b => strLt a b = true) → (binarySearch x n l = true ↔ x ∈ l) := by
  intro n
  induction n with
  | zero =>
    intro l hl _
    have : l = [] := List.length_eq_zero_iff.mp (by omega)
    subst this; simp [binarySearch]
  | succ n ih =>
    intro l hl hp
    match l, hl, hp with
    | [], _, _ => simp [binarySearch]
    | [y], _, _ => simp [binarySearch]
    | a :: b :: t, hl, hp =>
      generalize hL : a :: b :: t = L at *
      have hlen : 2 ≤ L.length := by rw [← hL]; simp
      have hbs : binarySearch x (n + 1) L =
          match L.drop (L.length / 2) with
          | [] => false
          | y :: rest => if strLt x y then binarySearch x n (L.take (L.length - L.length / 2))
            else binarySearch x n (y :: rest) := by
        rw [← hL]; rfl
      rw [hbs]
      have hsplit := List.take_append_drop (L.length / 2) L
      cases hd : L.drop (L.length / 2) with
      | nil =>
        have := congrArg List.length hd
        simp at this
        omega
      | cons y rest =>
        have hdl : (y :: rest).length = L.length - L.length / 2 := by rw [← hd]; simp
        rw [hd] at hsplit
        have hp' := hp
        rw [← hsplit, List.pairwise_append] at hp'
        obtain ⟨hpt, hpd, hcross⟩ := hp'
        simp only
        by_cases hlt : strLt x y = true
        · simp only [hlt, if_true]
          rw [ih _ (by simp; omega) (hp.sublist (List.take_sublist _ _))]
          constructor
          · exact fun h => List.mem_of_mem_take h
          · intro hx
            rw [← hsplit, List.mem_append] at hx
            rcases hx with hx | hx
            · have hle : L.length / 2 ≤ L.length - L.length / 2 := by omega
              exact (List.take_subset_take_left L hle) hx
            · exfalso
              rcases List.mem_cons.mp hx with rfl | hx
              · rw [strLt_irrefl] at hlt; cases hlt
              · have h1 := (List.pairwise_cons.mp hpd).1 x hx
                have := strLt_trans _ _ _ hlt h1
                rw [strLt_irrefl] at this; cases this
        · simp only [hlt]
          have hle : (y :: rest).length ≤ n := by rw [hdl]; omega
          rw [if_neg (by simp), ih _ hle hpd]
          constructor
          · intro hx; rw [← hsplit]; exact List.mem_append_right _ hx
          · intro hx
            rw [← hsplit, List.mem_append] at hx
            rcases hx with hx | hx
            · exact absurd (hcross x hx y (by simp)) hlt
            · exact hx

theorem reserved_sorted : reservedKeywords.Pairwise (fun a b => strLt a b = true) := by
  decide +kernel

theorem escape_eq (s : Str) : escape s = if s ∈ reservedKeywords then s ++ c!"_" else s := by
  unfold escape
  by_cases h : s ∈ reservedKeywords
  · rw [if_pos h, if_pos ((binarySearch_iff s _ _ (Nat.le_refl _) reserved_sorted).mpr h)]
  · rw [if_neg h, if_neg]
    intro hb
    exact h ((binarySearch_iff s _ _ (Nat.le_refl _) reserved_sorted).mp hb)

/-- No keyword with an underscore appended is a keyword of the table. -/
theorem underscore_not_reserved : ∀ k ∈ reservedKeywords, k ++ c!"_" ∉ reservedKeywords := by
  decide +kernel

theorem escape_not_reserved (s : Str) : escape s ∉ reservedKeywords := by
  rw [escape_eq]
  split
  · rename_i h; exact underscore_not_reserved s h
  · rename_i h; exact h

theorem escape_of_not_mem (s : Str) (h : s ∉ reservedKeywords) : escape s = s := by
  rw [escape_eq, if_neg h]

theorem escape_escape (s : Str) : escape (escape s) = escape s :=
  escape_of_not_mem _ (escape_not_reserved s)

theorem escape_inj_of (s t : Str) (hs : ∀ k ∈ reservedKeywords, s ≠ k ++ c!"_")
    (ht : ∀ k ∈ reservedKeywords, t ≠ k ++ c!"_") (h : escape s = escape t) : s = t := by
  rw [escape_eq, escape_eq] at h
  split at h <;> split at h
  · exact List.append_cancel_right h
  · rename_i h1 _; exact absurd h.symm (ht s h1)
  · rename_i h1; exact absurd h (hs t h1)
  · exact h

/-! ## Keywords -/

theorem table_keywords : ∀ k ∈ reservedKeywords, Keyword k := by
  simp only [Keyword]; decide +kernel

theorem keyword_split (s : Str) : Keyword s ↔ s ∈ reservedKeywords ∨ s ∈ missingKeywords := by
  constructor
  · have h1 : ∀ k ∈ c11Keywords, k ∈ reservedKeywords ∨ k ∈ missingKeywords := by decide +kernel
    have h2 : ∀ k ∈ cxx20Keywords, k ∈ reservedKeywords ∨ k ∈ missingKeywords := by decide +kernel
    rintro (h | h)
    · exact h1 s h
    · exact h2 s h
  · have h2 : ∀ k ∈ missingKeywords, k ∈ c11Keywords ∨ k ∈ cxx20Keywords := by decide +kernel
    rintro (h | h)
    · exact table_keywords s h
    · exact h2 s h

theorem missing_not_table : ∀ k ∈ missingKeywords, k ∉ reservedKeywords := by decide +kernel

theorem underscore_not_missing : ∀ k ∈ reservedKeywords, k ++ c!"_" ∉ missingKeywords := by
  decide +kernel

theorem escape_keyword_iff (s : Str) : Keyword (escape s) ↔ s ∈ missingKeywords := by
  rw [keyword_split]
  constructor
  · rintro (h | h)
    · exact absurd h (escape_not_reserved s)
    · rw [escape_eq] at h
      split at h
      · rename_i hs; exact absurd h (underscore_not_missing s hs)
      · exact h
  · intro h
    rw [escape_of_not_mem s (missing_not_table s h)]
    exact Or.inr h

/-! ## Enumerations -/

theorem enumValues_map {α β D E : Type} (ev : D → Int) (ew : E → Int) (da : α → Option D)
    (db : β → Option E) (g : α → β) (h : ∀ a, (db (g a)).map ew = (da a).map ev) :
    ∀ (l : List α) (n : Int), enumValues ew db n (l.map g) =
      (enumValues ev da n l).map fun x => (g x.1, x.2)
  | [], _ => rfl
  | a :: as, n => by
    simp only [List.map_cons, enumValues]
    have ha := h a
    cases h1 : da a with
    | none =>
      cases h2 : db (g a) with
      | none => simp only [enumValues_map ev ew da db g h as]
      | some e => simp [h1, h2] at ha
    | some d =>
      cases h2 : db (g a) with
      | none => simp [h1, h2] at ha
      | some e =>
        simp [h1, h2] at ha
        simp only [ha, enumValues_map ev ew da db g h as]

theorem filter_map_comm {α β : Type} (g : α → β) (p : β → Bool) (q : α → Bool) (l : List α)
    (h : ∀ a ∈ l, p (g a) = q a) : (l.map g).filter p = (l.filter q).map g := by
  induction l with
  | nil => rfl
  | cons a as ih =>
    have ih := ih (fun a ha => h a (by simp [ha]))
    simp only [List.map_cons, List.filter_cons, h a (by simp)]
    cases q a <;> simp [ih]

end Cbindgen
