import Verif.Spec.Docs
import Verif.Lemmas.Text

/-!
# C22: documentation is passed through
-/

namespace Cbindgen

open DocSpec

theorem isBlank_iff (l : Str) : isBlank l = true ↔ Ws l := by
  simp only [isBlank, beq_iff_eq]
  constructor
  · intro h
    obtain ⟨u, v, e, hu, hv⟩ := trim_decomp l
    rw [h] at e
    intro c hc
    rw [e] at hc
    simp at hc
    rcases hc with hc | hc
    · exact hu c hc
    · exact hv c hc
  · intro h
    have : trimStart l = [] := by
      unfold trimStart
      have := dropWhile_append_of_all (ys := []) h
      simpa using this
    simp [trim, this, trimEnd]

theorem isBlank_false_iff (l : Str) : isBlank l = false ↔ ¬ Ws l := by
  rw [← isBlank_iff]; simp

theorem first_occurrence {c : Char} {s : Str} (h : c ∈ s) : ∃ x y, s = x ++ c :: y ∧ c ∉ x := by
  induction s with
  | nil => cases h
  | cons d ds ih =>
    by_cases hc : d = c
    · exact ⟨[], ds, by simp [hc], by simp⟩
    · have : c ∈ ds := by
        cases h with
        | head => exact absurd rfl hc
        | tail _ h => exact h
      obtain ⟨x, y, e, hx⟩ := ih this
      exact ⟨d :: x, y, by simp [e], by simp [hx]; exact fun e => hc e.symm⟩

theorem splitChar_cons_form (sep : Char) (s : Str) :
    (sep ∉ s ∧ splitChar sep s = [s]) ∨
      ∃ x y, sep ∉ x ∧ s = x ++ sep :: y ∧ splitChar sep s = x :: splitChar sep y := by
  by_cases h : sep ∈ s
  · right
    obtain ⟨x, y, e, hx⟩ := first_occurrence h
    exact ⟨x, y, hx, e, by rw [e, splitChar_append_cons hx]⟩
  · exact .inl ⟨h, splitChar_of_not_mem h⟩

theorem stripCr_cases (l : Str) :
    ((∀ m, l ≠ m ++ ['\r']) ∧ stripCr l = l) ∨ ∃ m, l = m ++ ['\r'] ∧ stripCr l = m := by
  unfold stripCr
  by_cases h : l.getLast? = some '\r'
  · right
    obtain ⟨m, e⟩ := List.getLast?_eq_some_iff.1 h
    refine ⟨m, e, ?_⟩
    subst e
    simp
  · left
    refine ⟨?_, by rw [if_neg h]⟩
    intro m e
    subst e
    simp at h

/-- `strLines` gives the lines. -/
theorem strLines_lines (t : Str) : Lines t (strLines t) := by
  generalize hn : t.length = n
  induction n using Nat.strongRecOn generalizing t with
  | ind n ih =>
    unfold strLines
    rcases splitChar_cons_form '\n' t with ⟨h, e⟩ | ⟨x, y, hx, e, e'⟩
    · rw [e]
      by_cases ht : t = []
      · subst ht; exact .nil
      · simp only [linesOf, ht, if_false]
        exact .last ht h
    · rw [e']
      have hne := splitChar_ne_nil '\n' y
      have hl : linesOf (x :: splitChar '\n' y) = stripCr x :: strLines y := by
        unfold strLines
        cases hs : splitChar '\n' y with
        | nil => exact absurd hs hne
        | cons p ps => rfl
      rw [hl, e]
      have hy : Lines y (strLines y) := ih y.length (by subst e; simp at hn; omega) y rfl
      rcases stripCr_cases x with ⟨h1, h2⟩ | ⟨m, h1, h2⟩
      · rw [h2]; exact .lf hx h1 hy
      · rw [h2, h1]
        have : '\n' ∉ m := fun hm => hx (by rw [h1]; simp [hm])
        have := Lines.crlf (l := m) this hy
        simpa using this

theorem foldl_min_le (ns : List Nat) (n : Nat) :
    ns.foldl min n ≤ n ∧ (∀ m ∈ ns, ns.foldl min n ≤ m) ∧ (ns.foldl min n = n ∨ ns.foldl min n ∈ ns) := by
  induction ns generalizing n with
  | nil => simp
  | cons k ks ih =>
    obtain ⟨h1, h2, h3⟩ := ih (min n k)
    simp only [List.foldl_cons, List.mem_cons, forall_eq_or_imp]
    refine ⟨by omega, ⟨by omega, h2⟩, ?_⟩
    rcases h3 with h3 | h3
    · rcases Nat.le_total n k with h | h
      · left; rw [h3]; omega
      · right; left; rw [h3]; omega
    · exact .inr (.inr h3)

theorem minOr0_le {ns : List Nat} {n : Nat} (h : n ∈ ns) : minOr0 ns ≤ n := by
  cases ns with
  | nil => cases h
  | cons k ks =>
    obtain ⟨h1, h2, _⟩ := foldl_min_le ks k
    cases h with
    | head => exact h1
    | tail _ h => exact h2 n h

theorem minOr0_mem {ns : List Nat} (h : ns ≠ []) : minOr0 ns ∈ ns := by
  cases ns with
  | nil => exact absurd rfl h
  | cons k ks =>
    obtain ⟨_, _, h3⟩ := foldl_min_le ks k
    simp only [minOr0, List.mem_cons]
    exact h3

/-- A text with something other than white space: its indentation and its first character. -/
theorem not_ws_form {l : Str} (h : ¬ Ws l) : ∃ w c rest, l = w ++ c :: rest ∧ Ws w ∧
    w.length = (l.takeWhile isWs).length ∧ isWs c = false := by
  induction l with
  | nil => exact absurd (by intro c hc; cases hc) h
  | cons d ds ih =>
    by_cases hd : isWs d = true
    · have : ¬ Ws ds := by
        intro hw
        apply h
        intro c hc
        cases hc with
        | head => exact hd
        | tail _ hc => exact hw c hc
      obtain ⟨w, c, rest, e, hw, hl, hc⟩ := ih this
      refine ⟨d :: w, c, rest, by simp [e], ?_, ?_, hc⟩
      · intro x hx
        cases hx with
        | head => exact hd
        | tail _ hx => exact hw x hx
      · simp [List.takeWhile_cons, hd, hl]
    · refine ⟨[], d, ds, rfl, ?_, by simp [List.takeWhile_cons, hd], by simpa using hd⟩
      intro c hc
      cases hc

theorem not_ws_of_mem {s : Str} {c : Char} (h : c ∈ s) (hc : isWs c = false) : ¬ Ws s := by
  intro hw
  rw [hw c h] at hc
  cases hc

/-- One line of the dedented text. -/
def outdentLine (k : Nat) (l : Str) : Str := if isBlank l then [] else ' ' :: l.drop k

theorem outdentLine_outdent {k : Nat} {l : Str} (h : ¬ Ws l → k ≤ (l.takeWhile isWs).length) :
    Outdent k l (outdentLine k l) ∧ (Ws (outdentLine k l) ↔ Ws l) := by
  unfold outdentLine
  by_cases hl : Ws l
  · rw [if_pos ((isBlank_iff l).2 hl)]
    exact ⟨.blank hl, by simp only [hl, iff_true]; intro c hc; cases hc⟩
  · have := (isBlank_false_iff l).2 hl
    rw [this]
    simp only [Bool.false_eq_true, if_false]
    have hk := h hl
    obtain ⟨w, c, rest, e, hw, hwl, hc⟩ := not_ws_form hl
    rw [← hwl] at hk
    have hd : l.drop k = w.drop k ++ c :: rest := by rw [e, List.drop_append_of_le_length hk]
    have hrest : ¬ Ws (l.drop k) := not_ws_of_mem (c := c) (by rw [hd]; simp) hc
    constructor
    · have ht : Ws (l.take k) := by
        intro x hx
        rw [e, List.take_append_of_le_length hk] at hx
        exact hw x (List.mem_of_mem_take hx)
      have := Outdent.text (k := k) (w := l.take k) (rest := l.drop k) ht
        (by rw [List.length_take, e]; simp; omega) hrest
      rwa [List.take_append_drop] at this
    · constructor
      · intro h'
        exact absurd (fun x hx => h' x (List.mem_cons_of_mem _ hx)) hrest
      · intro h'; exact absurd h' hl

theorem dropWhile_map {α β : Type} (f : α → β) (p : β → Bool) (xs : List α) :
    (xs.map f).dropWhile p = (xs.dropWhile fun x => p (f x)).map f := by
  induction xs with
  | nil => rfl
  | cons x xs ih =>
    simp only [List.map_cons, List.dropWhile_cons]
    split
    · exact ih
    · rfl

theorem dropWhile_congr' {α : Type} {p q : α → Bool} {xs : List α} (h : ∀ x ∈ xs, p x = q x) :
    xs.dropWhile p = xs.dropWhile q := by
  induction xs with
  | nil => rfl
  | cons x xs ih =>
    simp only [List.dropWhile_cons, h x (by simp)]
    split
    · exact ih fun y hy => h y (by simp [hy])
    · rfl

theorem dropWhile_head {α : Type} {p : α → Bool} {xs : List α} {x : α}
    (h : (xs.dropWhile p).head? = some x) : p x = false := by
  induction xs with
  | nil => cases h
  | cons y ys ih =>
    rw [List.dropWhile_cons] at h
    split at h
    · exact ih h
    · rename_i hp; cases h; simpa using hp

/-- A text with newlines is dedented. -/
theorem splitDocAttr_dedented {t : Str} (h : '\n' ∈ t) : Dedented (strLines t) (splitDocAttr t) := by
  unfold splitDocAttr
  rw [if_neg (by simpa using h)]
  generalize strLines t = ls
  simp only
  generalize hk : minOr0 ((ls.filter fun l => !isBlank l).map fun l => (l.takeWhile isWs).length) = k
  have hle : ∀ l ∈ ls, ¬ Ws l → k ≤ (l.takeWhile isWs).length := by
    intro l hl hw
    rw [← hk]
    apply minOr0_le
    rw [List.mem_map]
    refine ⟨l, ?_, rfl⟩
    rw [List.mem_filter]
    exact ⟨hl, by rw [(isBlank_false_iff l).2 hw]; rfl⟩
  obtain ⟨pre, e1, hpre⟩ := dropWhile_prefix isBlank ls
  obtain ⟨post, e2, hpost⟩ := dropWhile_prefix isBlank (ls.dropWhile isBlank).reverse
  have hmid : ∀ l ∈ ls.dropWhile isBlank, l ∈ ls := by
    intro l hl; rw [e1]; simp [hl]
  have hout : dropBlankEnd ((ls.dropWhile isBlank).map fun l =>
      if isBlank l = true then [] else ' ' :: l.drop k) =
      (dropBlankEnd (ls.dropWhile isBlank)).map (outdentLine k) := by
    show dropBlankEnd ((ls.dropWhile isBlank).map (outdentLine k)) = _
    unfold dropBlankEnd
    rw [← List.map_reverse, dropWhile_map, ← List.map_reverse]
    congr 2
    apply dropWhile_congr'
    intro l hl
    have hl : l ∈ ls := hmid l (by simpa using hl)
    have := (outdentLine_outdent (hle l hl)).2
    rw [← isBlank_iff, ← isBlank_iff] at this
    exact Bool.eq_iff_iff.2 this
  rw [hout]
  have e3 : ls.dropWhile isBlank = dropBlankEnd (ls.dropWhile isBlank) ++ post.reverse := by
    unfold dropBlankEnd
    rw [← List.reverse_append, ← e2, List.reverse_reverse]
  have hcore : ∀ l ∈ dropBlankEnd (ls.dropWhile isBlank), l ∈ ls := by
    intro l hl
    apply hmid
    rw [e3]; simp [hl]
  have hlast : ∀ l, (dropBlankEnd (ls.dropWhile isBlank)).getLast? = some l → ¬ Ws l := by
    intro l hl
    rw [← isBlank_false_iff]
    unfold dropBlankEnd at hl
    rw [List.getLast?_reverse] at hl
    exact dropWhile_head hl
  refine ⟨k, pre, dropBlankEnd (ls.dropWhile isBlank), post.reverse, ?_, ?_, ?_, ?_, hlast, ?_, ?_⟩
  · rw [List.append_assoc, ← e3]; exact e1
  · intro l hl; exact (isBlank_iff l).1 (hpre l hl)
  · intro l hl; exact (isBlank_iff l).1 (hpost l (List.mem_reverse.1 hl))
  · intro l hl
    rw [← isBlank_false_iff]
    have : (ls.dropWhile isBlank).head? = some l := by
      rw [e3]
      cases hd : dropBlankEnd (ls.dropWhile isBlank) with
      | nil => rw [hd] at hl; cases hl
      | cons x xs => rw [hd] at hl; cases hl; rfl
    exact dropWhile_head this
  · clear hout e2 e3 hlast hpost
    generalize dropBlankEnd (ls.dropWhile isBlank) = core at hcore
    induction core with
    | nil => exact .nil
    | cons l core ih =>
      exact .cons (outdentLine_outdent (hle l (hcore l (by simp)))).1
        (ih fun x hx => hcore x (by simp [hx]))
  · intro hne
    obtain ⟨x, hx⟩ : ∃ x, (dropBlankEnd (ls.dropWhile isBlank)).getLast? = some x := by
      cases hg : (dropBlankEnd (ls.dropWhile isBlank)).getLast? with
      | some x => exact ⟨x, rfl⟩
      | none => exact absurd (List.getLast?_eq_none_iff.1 hg) hne
    have hxw := hlast x hx
    have hxl := hcore x (List.mem_of_getLast? hx)
    have hne' : (ls.filter fun l => !isBlank l).map (fun l => (l.takeWhile isWs).length) ≠ [] := by
      intro he
      rw [List.map_eq_nil_iff, List.filter_eq_nil_iff] at he
      have := he x hxl
      rw [(isBlank_false_iff x).2 hxw] at this
      simp at this
    have hmem := minOr0_mem hne'
    rw [hk, List.mem_map] at hmem
    obtain ⟨l, hl, hlk⟩ := hmem
    rw [List.mem_filter] at hl
    have hlw : ¬ Ws l := (isBlank_false_iff l).1 (by simpa using hl.2)
    obtain ⟨w, c, rest, e, hw, hwl, hc⟩ := not_ws_form hlw
    refine ⟨w, c, rest, ?_, hw, by omega, hc⟩
    rw [← e]
    have : l ∈ pre ++ (dropBlankEnd (ls.dropWhile isBlank) ++ post.reverse) := by
      rw [← e3, ← e1]; exact hl.1
    simp only [List.mem_append, List.mem_reverse] at this
    rcases this with h' | h' | h'
    · exact absurd ((isBlank_iff l).1 (hpre l h')) hlw
    · exact h'
    · exact absurd ((isBlank_iff l).1 (hpost l h')) hlw

theorem commentLines_docLines (attrs : List SAttr) : DocLines attrs (commentLines attrs) := by
  induction attrs with
  | nil => exact .nil
  | cons a as ih =>
    have hc : commentLines (a :: as) = (match docText a with
        | some t => splitDocAttr t
        | none => []) ++ commentLines as := by
      simp only [commentLines, List.flatMap_cons]
      congr 1
      unfold docText
      obtain ⟨o, at'⟩ := a
      cases o with
      | false => rfl
      | true =>
        cases at' with
        | nameValue n v =>
          cases v with
          | none => rfl
          | some v =>
            by_cases hn : n = c!"doc"
            · simp [hn]
            · simp only [hn, if_false]
        | _ => rfl
    rw [hc]
    cases hd : docText a with
    | none => exact .other hd ih
    | some t =>
      by_cases hn : '\n' ∈ t
      · exact .lines hd hn (strLines_lines t) (splitDocAttr_dedented hn) ih
      · have : splitDocAttr t = [t] := by unfold splitDocAttr; rw [if_pos hn]
        simp only [this, List.singleton_append]
        exact .line hd hn ih

theorem isAnnLine_iff (l : Str) : isAnnLine l = true ↔ ForCbindgen l := by
  unfold isAnnLine
  constructor
  · intro h
    obtain ⟨u, e, hu⟩ := trimStart_prefix l
    obtain ⟨rest, hr⟩ := List.isPrefixOf_iff_prefix.1 h
    exact ⟨u, rest, hu, by rw [List.append_assoc, hr]; exact e⟩
  · rintro ⟨w, rest, hw, rfl⟩
    rw [List.append_assoc, trimStart_append_of_ws hw]
    rfl

/-- The documentation of an item is its doc lines in order without those for cbindgen. -/
theorem C22_documentation_exact (attrs : List SAttr) : ∃ ls, DocLines attrs ls ∧
    (loadDoc attrs).Sublist ls ∧ (∀ l ∈ loadDoc attrs, ¬ ForCbindgen l) ∧
    (∀ kept : List Str, kept.Sublist ls → (∀ l ∈ kept, ¬ ForCbindgen l) → kept.Sublist (loadDoc attrs)) := by
  refine ⟨commentLines attrs, commentLines_docLines attrs, List.filter_sublist, ?_, ?_⟩
  · intro l hl
    have := (List.mem_filter.1 hl).2
    rw [← isAnnLine_iff]
    simpa using this
  · intro kept hk hn
    have h1 := hk.filter fun l => !isAnnLine l
    have h2 : kept.filter (fun l => !isAnnLine l) = kept := by
      rw [List.filter_eq_self]
      intro l hl
      have := hn l hl
      rw [← isAnnLine_iff] at this
      simpa using this
    rw [h2] at h1
    exact h1

end Cbindgen
