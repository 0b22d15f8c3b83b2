import Verif.Props.Docs

/-!
# C21: annotation comments are parsed as written
-/

namespace Cbindgen

open DocSpec

theorem ws_nil : Ws [] := by intro c hc; cases hc

theorem ws_not_mem {s : Str} {c : Char} (h : Ws s) (hc : isWs c = false) : c ∉ s := by
  intro hm
  rw [h c hm] at hc
  cases hc

theorem trim_tight {s : Str} (h : Tight s) : trim s = s := by
  have h1 : trimStart s = s := by
    unfold trimStart
    cases s with
    | nil => rfl
    | cons c cs => rw [List.dropWhile_cons, h.1 c rfl]; rfl
  have h2 : trimEnd s = s := by
    unfold trimEnd
    have : s.reverse.dropWhile isWs = s.reverse := by
      cases hr : s.reverse with
      | nil => rfl
      | cons c cs =>
        have : s.getLast? = some c := by rw [← List.head?_reverse, hr]; rfl
        rw [List.dropWhile_cons, h.2 c this]; rfl
    rw [this, List.reverse_reverse]
  rw [trim, h1, h2]

theorem trim_pad {a s b : Str} (ha : Ws a) (hb : Ws b) (h : Tight s) : trim (a ++ s ++ b) = s := by
  rw [trim_append_of_ws ha hb, trim_tight h]

theorem tight_trim (s : Str) : Tight (trim s) := by
  constructor
  · intro c hc
    have : trim s = trimStart (trimEnd s) := by rw [trim, trimStart_trimEnd_comm]
    rw [this] at hc
    exact dropWhile_head hc
  · intro c hc
    unfold trim trimEnd at hc
    rw [List.getLast?_reverse] at hc
    exact dropWhile_head hc

theorem items_split {t : Str} {xs : List Str} (h : Items t xs) : (splitChar ',' t).map trim = xs := by
  induction h with
  | one ha hb hx hc =>
    rename_i a x b
    have : ',' ∉ a ++ x ++ b := by
      simp only [List.mem_append, not_or]
      exact ⟨⟨ws_not_mem ha (by decide), hc⟩, ws_not_mem hb (by decide)⟩
    rw [splitChar_of_not_mem this]
    simp only [List.map_cons, List.map_nil, trim_pad ha hb hx]
  | cons ha hb hx hc _ ih =>
    rename_i a x b t xs _
    have : ',' ∉ a ++ x ++ b := by
      simp only [List.mem_append, not_or]
      exact ⟨⟨ws_not_mem ha (by decide), hc⟩, ws_not_mem hb (by decide)⟩
    rw [splitChar_append_cons this]
    simp only [List.map_cons, trim_pad ha hb hx, ih]

theorem items_total (t : Str) : Items t ((splitChar ',' t).map trim) := by
  generalize hn : t.length = n
  induction n using Nat.strongRecOn generalizing t with
  | ind n ih =>
    rcases splitChar_cons_form ',' t with ⟨h, e⟩ | ⟨x, y, hx, e, e'⟩
    · rw [e]
      obtain ⟨u, v, e1, hu, hv⟩ := trim_decomp t
      have := Items.one (a := u) (x := trim t) (b := v) hu hv (tight_trim t)
        (fun hm => h (mem_trim hm))
      simp only [List.map_cons, List.map_nil]
      rwa [← e1] at this
    · rw [e']
      obtain ⟨u, v, e1, hu, hv⟩ := trim_decomp x
      have := Items.cons (a := u) (x := trim x) (b := v) hu hv (tight_trim x)
        (fun hm => hx (mem_trim hm)) (ih y.length (by subst e; simp at hn; omega) y rfl)
      rw [← e1, ← e] at this
      exact this

theorem parseList_bracket (t : Str) :
    parseList ('[' :: t ++ c!"]") = some ((splitChar ',' t).map trim) := by
  show (if (t ++ c!"]").getLast? = some ']' then some ((splitChar ',' (t ++ c!"]").dropLast).map trim)
    else none) = _
  rw [if_pos (by simp)]
  simp

theorem parseList_none {s : Str} (h : ∀ t, s ≠ '[' :: t ++ c!"]") : parseList s = none := by
  cases s with
  | nil => rfl
  | cons c cs =>
    by_cases hc : c = '['
    · subst hc
      show (if cs.getLast? = some ']' then _ else none) = none
      rw [if_neg]
      intro hl
      obtain ⟨m, e⟩ := List.getLast?_eq_some_iff.1 hl
      exact h m (by rw [e]; rfl)
    · unfold parseList
      split
      · rename_i heq; cases heq; exact absurd rfl hc
      · rfl

theorem annValue_text {s : Str} {v : AnnValue} (h : ValueText s v) (hv : v ≠ .list []) :
    annValue s = v := by
  cases h with
  | true => rfl
  | false => rfl
  | empty _ => exact absurd rfl hv
  | list hi _ => simp only [annValue, parseList_bracket, items_split hi]
  | none => rfl
  | atom ht h0 h1 h2 h3 => simp only [annValue, parseList_none h3, h0, h1, h2, if_false]

theorem bracket_tight (t : Str) : Tight ('[' :: t ++ c!"]") := by
  constructor
  · intro c hc; cases hc; decide
  · intro c hc
    have : ('[' :: t ++ c!"]").getLast? = some ']' := List.getLast?_eq_some_iff.2 ⟨'[' :: t, rfl⟩
    rw [this] at hc
    cases hc; decide

theorem valueText_tight {s : Str} {v : AnnValue} (h : ValueText s v) : Tight s := by
  cases h with
  | true => constructor <;> (intro c hc; cases hc; decide)
  | false => constructor <;> (intro c hc; cases hc; decide)
  | empty _ => exact bracket_tight _
  | list _ _ => exact bracket_tight _
  | none => constructor <;> (intro c hc; cases hc)
  | atom ht _ _ _ _ => exact ht

theorem valueText_total {s : Str} (h : Tight s) : ∃ v, ValueText s v := by
  by_cases h0 : s = []
  · subst h0; exact ⟨_, .none⟩
  by_cases h1 : s = c!"true"
  · subst h1; exact ⟨_, .true⟩
  by_cases h2 : s = c!"false"
  · subst h2; exact ⟨_, .false⟩
  by_cases h3 : ∃ t, s = '[' :: t ++ c!"]"
  · obtain ⟨t, rfl⟩ := h3
    by_cases hw : Ws t
    · exact ⟨_, .empty hw⟩
    · exact ⟨_, .list (items_total t) hw⟩
  · exact ⟨_, .atom h h0 h1 h2 fun t e => h3 ⟨t, e⟩⟩

/-- A line for cbindgen sets an annotation exactly if it has at most one `=`. -/
theorem C21_says_total {w rest : Str} (hw : Ws w) (h : rest.count '=' ≤ 1) :
    ∃ n v, Says (w ++ c!"cbindgen:" ++ rest) n v := by
  rcases splitChar_cons_form '=' rest with ⟨h1, _⟩ | ⟨x, y, hx, e, _⟩
  · obtain ⟨u, v, e1, hu, hv⟩ := trim_decomp rest
    have := Says.flag (a := w) (b := u) (n := trim rest) (c := v) hw hu hv (tight_trim rest)
      (fun hm => h1 (mem_trim hm))
    rw [← e1] at this
    exact ⟨_, _, this⟩
  · have hy : '=' ∉ y := by
      intro hm
      have := List.count_pos_iff.2 hm
      rw [e] at h
      simp at h
      omega
    obtain ⟨u, v, e1, hu, hv⟩ := trim_decomp x
    obtain ⟨u', v', e2, hu', hv'⟩ := trim_decomp y
    obtain ⟨val, hval⟩ := valueText_total (tight_trim y)
    have := Says.value (a := w) (b := u) (n := trim x) (c := v) (d := u') (v := trim y) (e := v')
      hw hu hv hu' hv' (tight_trim x) (fun hm => hx (mem_trim hm)) (fun hm => hy (mem_trim hm)) hval
    rw [← e1, ← e2, ← e] at this
    exact ⟨_, _, this⟩

theorem drop_prefix (rest : Str) : (c!"cbindgen:" ++ rest).drop 9 = rest := rfl

theorem says_step {l n : Str} {v : AnnValue} (h : Says l n v) (hv : v ≠ .list [])
    (m : List (Str × AnnValue)) : annStep m (trimStart l) = .ok (annInsert m n v) := by
  cases h with
  | flag ha hb hc hn he =>
    rename_i a b c
    rw [List.append_assoc, trimStart_append_of_ws ha]
    have e0 : trimStart (c!"cbindgen:" ++ (b ++ n ++ c)) = c!"cbindgen:" ++ (b ++ n ++ c) := rfl
    have : '=' ∉ b ++ n ++ c := by
      simp only [List.mem_append, not_or]
      exact ⟨⟨ws_not_mem hb (by decide), he⟩, ws_not_mem hc (by decide)⟩
    rw [e0]
    simp only [annStep]
    rw [drop_prefix, splitChar_of_not_mem this]
    simp only [List.map_cons, List.map_nil, trim_pad hb hc hn]
  | value ha hb hc hd he hn h1 h2 hval =>
    rename_i a b c d vt e
    rw [List.append_assoc, trimStart_append_of_ws ha]
    have e0 : trimStart (c!"cbindgen:" ++ (b ++ n ++ c ++ '=' :: (d ++ vt ++ e))) =
        c!"cbindgen:" ++ (b ++ n ++ c ++ '=' :: (d ++ vt ++ e)) := rfl
    have g1 : '=' ∉ b ++ n ++ c := by
      simp only [List.mem_append, not_or]
      exact ⟨⟨ws_not_mem hb (by decide), h1⟩, ws_not_mem hc (by decide)⟩
    have g2 : '=' ∉ d ++ vt ++ e := by
      simp only [List.mem_append, not_or]
      exact ⟨⟨ws_not_mem hd (by decide), h2⟩, ws_not_mem he (by decide)⟩
    rw [e0]
    simp only [annStep]
    rw [drop_prefix, splitChar_append_cons g1, splitChar_of_not_mem g2]
    simp only [List.map_cons, List.map_nil, trim_pad hb hc hn, trim_pad hd he (valueText_tight hval),
      annValue_text hval hv]

theorem lookup_filter_ne {m : List (Str × AnnValue)} {n k : Str} (h : k ≠ n) :
    (m.filter fun e => e.1 != n).lookup k = m.lookup k := by
  induction m with
  | nil => rfl
  | cons e es ih =>
    obtain ⟨a, b⟩ := e
    by_cases ha : a = n
    · subst ha
      have : (k == a) = false := by simpa using h
      simp [List.lookup_cons, this, ih]
    · rw [List.filter_cons_of_pos (by simpa using ha), List.lookup_cons, List.lookup_cons, ih]

theorem annInsert_lookup (m : List (Str × AnnValue)) (n k : Str) (v : AnnValue) :
    (annInsert m n v).lookup k = if k = n then some v else m.lookup k := by
  unfold annInsert
  rw [List.lookup_cons]
  by_cases h : k = n
  · simp [h]
  · have : (k == n) = false := by simpa using h
    rw [this, if_neg h, lookup_filter_ne h]

theorem lastValue_append_single (nvs : List (Str × AnnValue)) (n k : Str) (v : AnnValue) :
    lastValue ((n, v) :: nvs) k = match lastValue nvs k with
      | some x => some x
      | none => if k = n then some v else none := by
  unfold lastValue
  by_cases h : n = k
  · subst h
    rw [List.filter_cons_of_pos (by simp), List.getLast?_cons]
    cases hg : (nvs.filter fun e => decide (e.1 = n)).getLast? with
    | none => simp
    | some x => simp
  · rw [List.filter_cons_of_neg (by simpa using h)]
    have h' : ¬ k = n := fun e => h e.symm
    cases (nvs.filter fun e => decide (e.1 = k)).getLast? with
    | none => simp [h']
    | some x => simp

theorem says_forCbindgen {l n : Str} {v : AnnValue} (h : Says l n v) : ForCbindgen l := by
  cases h with
  | flag ha => exact ⟨_, _, ha, rfl⟩
  | value ha => exact ⟨_, _, ha, rfl⟩

/-- The lines for cbindgen without white space before them. -/
def cbindgenLines (ls : List Str) : List Str :=
  ls.filterMap fun l => if isAnnLine l then some (trimStart l) else none

theorem annSteps_allSay {ls : List Str} {nvs : List (Str × AnnValue)} (h : AllSay ls nvs)
    (hv : ∀ e ∈ nvs, e.2 ≠ .list []) (m : List (Str × AnnValue)) :
    ∃ m', annSteps m (cbindgenLines ls) = .ok m' ∧
      ∀ k, m'.lookup k = match lastValue nvs k with
        | some x => some x
        | none => m.lookup k := by
  induction h generalizing m with
  | nil => exact ⟨m, rfl, fun k => rfl⟩
  | other hl _ ih =>
    rename_i l ls nvs _
    have : isAnnLine l = false := by
      rw [← isAnnLine_iff] at hl; simpa using hl
    have e : cbindgenLines (l :: ls) = cbindgenLines ls := by simp [cbindgenLines, this]
    rw [e]
    exact ih hv m
  | cons hs _ ih =>
    rename_i l n v ls nvs _
    have : isAnnLine l = true := (isAnnLine_iff l).2 (says_forCbindgen hs)
    have e : cbindgenLines (l :: ls) = trimStart l :: cbindgenLines ls := by simp [cbindgenLines, this]
    obtain ⟨m', h1, h2⟩ := ih (fun e he => hv e (by simp [he])) (annInsert m n v)
    refine ⟨m', ?_, ?_⟩
    · rw [e]
      simp only [annSteps, says_step hs (hv (n, v) (by simp)) m, h1]
    · intro k
      rw [h2, lastValue_append_single, annInsert_lookup]
      cases lastValue nvs k with
      | some x => rfl
      | none => by_cases hk : k = n <;> simp [hk]

/-- If every comment line for cbindgen sets an annotation, each name has the value set last.  Missing: the
list without items. -/
theorem C21_annotations_as_written_partial (attrs : List SAttr) : ∃ ls, DocLines attrs ls ∧
    ∀ nvs, AllSay ls nvs → (∀ e ∈ nvs, e.2 ≠ .list []) →
      ∃ a, Annotations.load attrs = .ok a ∧ ∀ n, a.entries.lookup n = lastValue nvs n := by
  refine ⟨commentLines attrs, commentLines_docLines attrs, ?_⟩
  intro nvs h hv
  obtain ⟨m, h1, h2⟩ := annSteps_allSay h hv []
  have h1 : annSteps [] (annLines attrs) = .ok m := h1
  refine ⟨_, by simp only [Annotations.load, bind, Except.bind, h1]; rfl, ?_⟩
  intro n
  show m.lookup n = _
  rw [h2]
  cases lastValue nvs n <;> rfl

/-- The `cbindgen:` line of a doc comment has more than one `=`. -/
def DocSpec.TooMany (l : Str) : Prop :=
  ∃ w rest, Ws w ∧ l = w ++ c!"cbindgen:" ++ rest ∧ 2 ≤ rest.count '='

theorem splitChar_count (c : Char) (s : Str) : (splitChar c s).length = s.count c + 1 := by
  induction s with
  | nil => rfl
  | cons d ds ih =>
    unfold splitChar
    by_cases h : d = c
    · subst h; simp [ih]
    · rw [if_neg h]
      have hne : ¬ (d == c) = true := by simpa using h
      rw [List.count_cons, if_neg hne, Nat.add_zero]
      cases hs : splitChar c ds with
      | nil => rw [hs] at ih; simp at ih
      | cons p ps => rw [hs] at ih; simpa using ih

theorem annStep_ok_iff (m : List (Str × AnnValue)) (rest : Str) :
    (∃ m', annStep m (c!"cbindgen:" ++ rest) = .ok m') ↔ rest.count '=' ≤ 1 := by
  have hlen : ((splitChar '=' rest).map trim).length = rest.count '=' + 1 := by
    rw [List.length_map, splitChar_count]
  unfold annStep
  rw [drop_prefix]
  match hm : (splitChar '=' rest).map trim with
  | [] => rw [hm] at hlen; simp at hlen
  | [a] => rw [hm] at hlen; simp at hlen; simp; omega
  | [a, b] => rw [hm] at hlen; simp at hlen; simp; omega
  | a :: b :: c :: xs => rw [hm] at hlen; simp at hlen; simp [loadErr]; omega

theorem annStep_no_panic (m : List (Str × AnnValue)) (l : Str) : annStep m l ≠ .error .panic := by
  unfold annStep loadErr
  split <;> (intro h; cases h)

theorem annSteps_err_iff (ls : List Str) (m : List (Str × AnnValue)) :
    annSteps m (cbindgenLines ls) = .error .err ↔ ∃ l ∈ ls, TooMany l := by
  induction ls generalizing m with
  | nil => simp [cbindgenLines, annSteps]
  | cons l ls ih =>
    by_cases hl : ForCbindgen l
    · have ha : isAnnLine l = true := (isAnnLine_iff l).2 hl
      have e : cbindgenLines (l :: ls) = trimStart l :: cbindgenLines ls := by simp [cbindgenLines, ha]
      obtain ⟨w, rest, hw, rfl⟩ := hl
      have ht : trimStart (w ++ c!"cbindgen:" ++ rest) = c!"cbindgen:" ++ rest := by
        rw [List.append_assoc, trimStart_append_of_ws hw]; rfl
      rw [e, ht]
      have hT : TooMany (w ++ c!"cbindgen:" ++ rest) ↔ 2 ≤ rest.count '=' := by
        constructor
        · rintro ⟨w', rest', hw', e', hc⟩
          have : trimStart (w ++ c!"cbindgen:" ++ rest) = c!"cbindgen:" ++ rest' := by
            rw [e', List.append_assoc, trimStart_append_of_ws hw']; rfl
          rw [ht] at this
          have := List.append_cancel_left this
          rw [this]; exact hc
        · intro hc; exact ⟨w, rest, hw, rfl, hc⟩
      simp only [annSteps, List.mem_cons, exists_eq_or_imp, hT]
      cases hs : annStep m (c!"cbindgen:" ++ rest) with
      | ok m' =>
        have := (annStep_ok_iff m rest).1 ⟨m', hs⟩
        simp only [ih]
        constructor
        · exact .inr
        · rintro (h | h)
          · omega
          · exact h
      | error x =>
        have : ¬ rest.count '=' ≤ 1 := by
          rw [← annStep_ok_iff m rest, hs]
          rintro ⟨_, h⟩; cases h
        cases x with
        | panic => exact absurd hs (annStep_no_panic m _)
        | err => simp only [true_iff]; left; omega
    · have ha : isAnnLine l = false := by
        rw [← isAnnLine_iff] at hl; simpa using hl
      have e : cbindgenLines (l :: ls) = cbindgenLines ls := by simp [cbindgenLines, ha]
      rw [e, ih]
      simp only [List.mem_cons, exists_eq_or_imp]
      constructor
      · exact .inr
      · rintro (⟨w, rest, hw, e', _⟩ | h)
        · exact absurd ⟨w, rest, hw, e'⟩ hl
        · exact h

/-- Annotations are rejected exactly if a line for cbindgen has more than one `=`. -/
theorem C21_annotations_rejected_iff (attrs : List SAttr) : ∃ ls, DocLines attrs ls ∧
    (Annotations.load attrs = .error .err ↔ ∃ l ∈ ls, TooMany l) := by
  refine ⟨commentLines attrs, commentLines_docLines attrs, ?_⟩
  rw [← annSteps_err_iff _ []]
  show _ ↔ annSteps [] (annLines attrs) = .error .err
  simp only [Annotations.load, bind, Except.bind]
  cases h : annSteps [] (annLines attrs) with
  | ok m => simp
  | error e => simp

/-- A doc comment of one line. -/
def docLine (t : Str) : SAttr := { attr := .nameValue c!"doc" (some t) }

/-- `cbindgen:field-names=[]` is the list without items, but it is read as a list of one empty name. -/
theorem C21_empty_list_has_one_item :
    Says c!" cbindgen:field-names=[]" c!"field-names" (.list []) ∧
    ∃ a, Annotations.load [docLine c!" cbindgen:field-names=[]"] = .ok a ∧
      a.entries.lookup c!"field-names" = some (.list [[]]) := by
  refine ⟨?_, _, rfl, rfl⟩
  have := Says.value (a := c!" ") (b := []) (n := c!"field-names") (c := []) (d := []) (v := c!"[]") (e := [])
    (by intro c hc; simp at hc; subst hc; decide) ws_nil ws_nil ws_nil ws_nil
    (by constructor <;> (intro c hc; cases hc; decide)) (by decide) (by decide) (.empty (t := []) ws_nil)
  exact this

/-- Two annotations, one set twice, and a line of documentation. -/
theorem C21_annotations_case :
    (∃ a, Annotations.load [docLine c!" Some text", docLine c!" cbindgen:rename-all = CamelCase",
        docLine c!" cbindgen:field-names=[a, b]", docLine c!" cbindgen:rename-all=SnakeCase"] = .ok a ∧
      a.entries.lookup c!"rename-all" = some (.atom (some c!"SnakeCase")) ∧
      a.entries.lookup c!"field-names" = some (.list [c!"a", c!"b"])) ∧
    loadDoc [docLine c!" Some text", docLine c!" cbindgen:no-export"] = [c!" Some text"] ∧
    Annotations.load [docLine c!" cbindgen:prefix=a=b"] = .error .err :=
  ⟨⟨_, rfl, rfl, rfl⟩, rfl, rfl⟩

/-- A block comment loses the indentation its lines have in common, and the blank lines around it. -/
theorem C22_documentation_case :
    loadDoc [docLine c!"\n     First\n       - item\n\n     last\n    "] =
      [c!" First", c!"   - item", [], c!" last"] := rfl

end Cbindgen
