import Verif.Model.Text

/-! # Lemmas about string primitives -/

namespace Cbindgen

theorem dropWhile_append_of_all {α : Type} {p : α → Bool} {xs ys : List α}
    (h : ∀ x ∈ xs, p x = true) : (xs ++ ys).dropWhile p = ys.dropWhile p := by
  induction xs with
  | nil => rfl
  | cons x xs ih =>
    simp [List.dropWhile_cons, h x (by simp), ih (fun y hy => h y (by simp [hy]))]

theorem dropWhile_append_cons_of_not {α : Type} {p : α → Bool} {xs ys : List α} {y : α}
    (h : p y = false) : (xs ++ y :: ys).dropWhile p = xs.dropWhile p ++ y :: ys := by
  induction xs with
  | nil => simp [List.dropWhile_cons, h]
  | cons x xs ih =>
    by_cases hx : p x = true
    · simp [List.dropWhile_cons, hx, ih]
    · simp [List.dropWhile_cons, hx]

theorem dropWhile_prefix {α : Type} (p : α → Bool) (xs : List α) :
    ∃ u, xs = u ++ xs.dropWhile p ∧ ∀ x ∈ u, p x = true := by
  refine ⟨xs.takeWhile p, (List.takeWhile_append_dropWhile).symm, ?_⟩
  intro x hx
  exact (List.all_eq_true.mp (List.all_takeWhile (l := xs) (p := p))) x hx

theorem dropWhile_idem {α : Type} (p : α → Bool) (xs : List α) :
    (xs.dropWhile p).dropWhile p = xs.dropWhile p := by
  induction xs with
  | nil => rfl
  | cons x xs ih =>
    by_cases hx : p x = true
    · simp [List.dropWhile_cons, hx, ih]
    · simp [List.dropWhile_cons, hx]

theorem trimStart_prefix (s : Str) : ∃ u, s = u ++ trimStart s ∧ ∀ c ∈ u, isWs c = true :=
  dropWhile_prefix isWs s

theorem trimEnd_suffix (s : Str) : ∃ u, s = trimEnd s ++ u ∧ ∀ c ∈ u, isWs c = true := by
  obtain ⟨u, h1, h2⟩ := dropWhile_prefix isWs s.reverse
  refine ⟨u.reverse, ?_, by simpa using h2⟩
  have := congrArg List.reverse h1
  simpa [trimEnd] using this

theorem trim_decomp (s : Str) :
    ∃ u v, s = u ++ trim s ++ v ∧ (∀ c ∈ u, isWs c = true) ∧ ∀ c ∈ v, isWs c = true := by
  obtain ⟨u, h1, h2⟩ := trimStart_prefix s
  obtain ⟨v, h3, h4⟩ := trimEnd_suffix (trimStart s)
  exact ⟨u, v, by rw [List.append_assoc, ← h3' h3]; exact h1, h2, h4⟩
where
  h3' {s v : Str} (h : trimStart s = trimEnd (trimStart s) ++ v) :
      trimStart s = trim s ++ v := h

theorem trimStart_append_of_ws {u s : Str} (h : ∀ c ∈ u, isWs c = true) :
    trimStart (u ++ s) = trimStart s := dropWhile_append_of_all h

theorem trimEnd_append_of_ws {s v : Str} (h : ∀ c ∈ v, isWs c = true) :
    trimEnd (s ++ v) = trimEnd s := by
  simp only [trimEnd, List.reverse_append]
  rw [dropWhile_append_of_all (by simpa using h)]

theorem trimStart_trimEnd_comm (s : Str) : trimStart (trimEnd s) = trimEnd (trimStart s) := by
  by_cases hs : ∀ c ∈ s, isWs c = true
  · have h1 : trimStart s = [] := by
      have := trimStart_append_of_ws (u := s) (s := []) hs
      simpa [trimStart] using this
    have h2 : trimEnd s = [] := by
      have := trimEnd_append_of_ws (s := []) (v := s) hs
      simpa [trimEnd] using this
    rw [h1, h2]; rfl
  · simp only [Classical.not_forall] at hs
    obtain ⟨c, hc, hw⟩ := hs
    obtain ⟨a, b, rfl⟩ := List.append_of_mem hc
    have hw' : isWs c = false := by simpa using hw
    have e1 : trimStart (a ++ c :: b) = trimStart a ++ c :: b := dropWhile_append_cons_of_not hw'
    have e2 : ∀ x : Str, trimEnd (x ++ c :: b) = x ++ c :: trimEnd b := by
      intro x
      simp only [trimEnd, List.reverse_append, List.reverse_cons, List.append_assoc,
        List.singleton_append]
      rw [dropWhile_append_cons_of_not hw']
      simp
    rw [e1, e2, e2]
    exact dropWhile_append_cons_of_not hw'

theorem trim_append_of_ws {u s v : Str} (hu : ∀ c ∈ u, isWs c = true)
    (hv : ∀ c ∈ v, isWs c = true) : trim (u ++ s ++ v) = trim s := by
  rw [trim, List.append_assoc, trimStart_append_of_ws hu, ← trimStart_trimEnd_comm,
    trimEnd_append_of_ws hv, trimStart_trimEnd_comm, trim]

theorem trim_trimStart (s : Str) : trim (trimStart s) = trim s := by
  simp only [trim]
  congr 1
  exact dropWhile_idem isWs s

theorem trim_trimEnd (s : Str) : trim (trimEnd s) = trim s := by
  obtain ⟨u, h1, h2⟩ := trimEnd_suffix s
  have := trim_append_of_ws (u := []) (s := trimEnd s) (v := u) (by simp) h2
  rw [List.nil_append, ← h1] at this
  exact this.symm

/-- Trimming around a separator that is not white space. -/
theorem trim_append_cons {x y : Str} {c : Char} (hc : isWs c = false) :
    trim (x ++ c :: y) = trimStart x ++ c :: trimEnd y := by
  have e1 : trimStart (x ++ c :: y) = trimStart x ++ c :: y := dropWhile_append_cons_of_not hc
  rw [trim, e1]
  simp only [trimEnd, List.reverse_append, List.reverse_cons, List.append_assoc,
    List.singleton_append]
  rw [dropWhile_append_cons_of_not hc]
  simp

theorem mem_trimStart {s : Str} {c : Char} (h : c ∈ trimStart s) : c ∈ s := by
  obtain ⟨u, h1, _⟩ := trimStart_prefix s
  rw [h1]; simp [h]

theorem mem_trimEnd {s : Str} {c : Char} (h : c ∈ trimEnd s) : c ∈ s := by
  obtain ⟨u, h1, _⟩ := trimEnd_suffix s
  rw [h1]; simp [h]

theorem mem_trim {s : Str} {c : Char} (h : c ∈ trim s) : c ∈ s := mem_trimStart (mem_trimEnd h)

theorem splitChar_ne_nil (sep : Char) (s : Str) : splitChar sep s ≠ [] := by
  cases s with
  | nil => simp [splitChar]
  | cons c cs =>
    simp only [splitChar]
    split
    · simp
    · split <;> simp

theorem splitChar_of_not_mem {sep : Char} {s : Str} (h : sep ∉ s) : splitChar sep s = [s] := by
  induction s with
  | nil => rfl
  | cons c cs ih =>
    simp only [List.mem_cons, not_or] at h
    simp [splitChar, Ne.symm h.1, ih h.2]

theorem splitChar_append_cons {sep : Char} {x y : Str} (h : sep ∉ x) :
    splitChar sep (x ++ sep :: y) = x :: splitChar sep y := by
  induction x with
  | nil => simp [splitChar]
  | cons c cs ih =>
    simp only [List.mem_cons, not_or] at h
    simp [splitChar, Ne.symm h.1, ih h.2]

theorem joinChar_splitChar (sep : Char) (s : Str) : joinChar sep (splitChar sep s) = s := by
  induction s with
  | nil => rfl
  | cons c cs ih =>
    simp only [splitChar]
    split
    · rename_i h
      subst h
      cases hs : splitChar c cs with
      | nil => exact absurd hs (splitChar_ne_nil _ _)
      | cons p ps => rw [hs] at ih; simp [joinChar, ih]
    · cases hs : splitChar sep cs with
      | nil => exact absurd hs (splitChar_ne_nil _ _)
      | cons p ps =>
        rw [hs] at ih
        cases ps with
        | nil => simp [joinChar] at ih ⊢; exact ih
        | cons q qs => simp [joinChar] at ih ⊢; exact ih

theorem not_mem_of_mem_splitChar {sep : Char} {s p : Str} (h : p ∈ splitChar sep s) : sep ∉ p := by
  induction s generalizing p with
  | nil => simp [splitChar] at h; simp [h]
  | cons c cs ih =>
    simp only [splitChar] at h
    split at h
    · rcases List.mem_cons.mp h with h | h
      · simp [h]
      · exact ih h
    · rename_i hne
      split at h
      · simp at h; subst h; simp; exact fun e => hne e.symm
      · rename_i p' ps hs
        rcases List.mem_cons.mp h with h | h
        · subst h
          simp only [List.mem_cons, not_or]
          exact ⟨fun e => hne e.symm, ih (by rw [hs]; simp)⟩
        · exact ih (by rw [hs]; simp [h])

end Cbindgen
