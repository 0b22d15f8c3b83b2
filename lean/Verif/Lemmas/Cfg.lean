import Verif.Spec.Cfg
import Verif.Lemmas.Text

/-! # Lemmas about `cfg` predicates -/

namespace Cbindgen

open CfgSpec

theorem isWs_eq : isWs '=' = false := by decide

theorem load_named_iff (key n v : Str) :
    DefineKey.load key = .named n v ↔ KeyMeans key (.kv n v) := by
  constructor
  · intro h
    simp only [DefineKey.load] at h
    split at h
    · split at h
      · rename_i a b hs
        injection h with h1 h2
        obtain ⟨u, w, hk, hu, hw⟩ := trim_decomp key
        have hj := joinChar_splitChar '=' (trim key)
        rw [hs] at hj
        simp only [joinChar] at hj
        have ha : '=' ∉ a := not_mem_of_mem_splitChar (s := trim key) (by rw [hs]; simp)
        have hb : '=' ∉ b := not_mem_of_mem_splitChar (s := trim key) (by rw [hs]; simp)
        have hu' : '=' ∉ u := fun hm => by simpa [isWs_eq] using hu _ hm
        have hw' : '=' ∉ w := fun hm => by simpa [isWs_eq] using hw _ hm
        refine ⟨u ++ a, b ++ w, ?_, by simp [hu', ha], by simp [hb, hw'], ?_, ?_⟩
        · rw [hk, ← hj]; simp
        · have := trim_append_of_ws (u := u) (s := a) (v := []) hu (by simp)
          simp only [List.append_nil] at this
          rw [this, h1]
        · have := trim_append_of_ws (u := []) (s := b) (v := w) (by simp) hw
          simp only [List.nil_append] at this
          rw [this, h2]
      · cases h
    · cases h
  · rintro ⟨x, y, rfl, hx, hy, rfl, rfl⟩
    have hs : splitChar '=' (trim (x ++ '=' :: y)) = [trimStart x, trimEnd y] := by
      rw [trim_append_cons isWs_eq, splitChar_append_cons (fun h => hx (mem_trimStart h)),
        splitChar_of_not_mem (fun h => hy (mem_trimEnd h))]
    simp [DefineKey.load, hs, trim_trimStart, trim_trimEnd]

theorem load_boolean_of (key n : Str) (h : KeyMeans key (.flag n)) :
    DefineKey.load key = .boolean n := by
  obtain ⟨h1, rfl⟩ := h
  simp [DefineKey.load, h1]

theorem load_boolean_inv (key n : Str) (hn : '=' ∉ n) (h : DefineKey.load key = .boolean n) :
    KeyMeans key (.flag n) := by
  simp only [DefineKey.load] at h
  split at h
  · split at h
    · cases h
    · injection h with h; subst h; contradiction
  · injection h with h; subst h; exact ⟨hn, rfl⟩

theorem findDefine_flag {defines : List (Str × Str)} {n : Str}
    (h : ∃ e ∈ defines, KeyMeans e.1 (.flag n)) :
    ∃ e ∈ defines, KeyMeans e.1 (.flag n) ∧ findDefine defines (.boolean n) = some e.2 := by
  obtain ⟨e, he, hk⟩ := h
  have hn : '=' ∉ n := by obtain ⟨h1, rfl⟩ := hk; exact h1
  cases hf : defines.find? (fun e => decide (DefineKey.boolean n = DefineKey.load e.1)) with
  | none =>
    have := List.find?_eq_none.mp hf e he
    simp [load_boolean_of _ _ hk] at this
  | some e' =>
    have h1 := List.find?_some hf
    have h2 := List.mem_of_find?_eq_some hf
    simp at h1
    exact ⟨e', h2, load_boolean_inv _ _ hn h1.symm, by simp [findDefine, hf]⟩

theorem findDefine_kv {defines : List (Str × Str)} {n v : Str}
    (h : ∃ e ∈ defines, KeyMeans e.1 (.kv n v)) :
    ∃ e ∈ defines, KeyMeans e.1 (.kv n v) ∧ findDefine defines (.named n v) = some e.2 := by
  obtain ⟨e, he, hk⟩ := h
  cases hf : defines.find? (fun e => decide (DefineKey.named n v = DefineKey.load e.1)) with
  | none =>
    have := List.find?_eq_none.mp hf e he
    simp [(load_named_iff _ _ _).mpr hk] at this
  | some e' =>
    have h1 := List.find?_some hf
    have h2 := List.mem_of_find?_eq_some hf
    simp at h1
    exact ⟨e', h2, (load_named_iff _ _ _).mp h1.symm, by simp [findDefine, hf]⟩

theorem collapse_any (defined : Str → Bool) (cs : List Condition) (h : cs ≠ []) :
    ∃ c, collapse .any cs = some c ∧ condHolds defined c = condHoldsAny defined cs := by
  match cs with
  | [] => exact absurd rfl h
  | [c] => exact ⟨c, rfl, by simp [condHoldsAny]⟩
  | c :: d :: cs => exact ⟨_, rfl, by simp [condHolds]⟩

theorem collapse_all (defined : Str → Bool) (cs : List Condition) (h : cs ≠ []) :
    ∃ c, collapse .all cs = some c ∧ condHolds defined c = condHoldsAll defined cs := by
  match cs with
  | [] => exact absurd rfl h
  | [c] => exact ⟨c, rfl, by simp [condHoldsAll]⟩
  | c :: d :: cs => exact ⟨_, rfl, by simp [condHolds]⟩

mutual
theorem toCondition_holds (defines : List (Str × Str)) (on : Opt → Bool) (defined : Str → Bool)
    (hm : Matches defines on defined) : ∀ (c : Cfg), Mapped defines c →
    ∃ k, c.toCondition defines = some k ∧ condHolds defined k = holds on c
  | .boolean n, h => by
    obtain ⟨e, he, hk, hf⟩ := findDefine_flag h
    exact ⟨.define e.2, by simp [Cfg.toCondition, hf], by simp [condHolds, holds, hm e he _ hk]⟩
  | .named n v, h => by
    obtain ⟨e, he, hk, hf⟩ := findDefine_kv h
    exact ⟨.define e.2, by simp [Cfg.toCondition, hf], by simp [condHolds, holds, hm e he _ hk]⟩
  | .any cs, h => by
    obtain ⟨h1, h2, h3⟩ := toConditions_holds defines on defined hm cs h.2
    obtain ⟨k, hk1, hk2⟩ := collapse_any defined (Cfg.toConditions defines cs) (by
      intro he; rw [he] at h1; exact h.1 (by simpa using h1.symm))
    exact ⟨k, by simp [Cfg.toCondition, hk1], by rw [hk2, h2, holds]⟩
  | .all cs, h => by
    obtain ⟨h1, h2, h3⟩ := toConditions_holds defines on defined hm cs h.2
    obtain ⟨k, hk1, hk2⟩ := collapse_all defined (Cfg.toConditions defines cs) (by
      intro he; rw [he] at h1; exact h.1 (by simpa using h1.symm))
    exact ⟨k, by simp [Cfg.toCondition, hk1], by rw [hk2, h3, holds]⟩
  | .not c, h => by
    obtain ⟨k, h1, h2⟩ := toCondition_holds defines on defined hm c h
    exact ⟨.not k, by simp [Cfg.toCondition, h1], by simp [condHolds, holds, h2]⟩
theorem toConditions_holds (defines : List (Str × Str)) (on : Opt → Bool) (defined : Str → Bool)
    (hm : Matches defines on defined) : ∀ (cs : List Cfg), MappedAll defines cs →
    (Cfg.toConditions defines cs).length = cs.length ∧
    condHoldsAny defined (Cfg.toConditions defines cs) = holdsAny on cs ∧
    condHoldsAll defined (Cfg.toConditions defines cs) = holdsAll on cs
  | [], _ => by simp [Cfg.toConditions, condHoldsAny, condHoldsAll, holdsAny, holdsAll]
  | c :: cs, h => by
    obtain ⟨k, h1, h2⟩ := toCondition_holds defines on defined hm c h.1
    obtain ⟨h3, h4, h5⟩ := toConditions_holds defines on defined hm cs h.2
    simp [Cfg.toConditions, h1, consOption, condHoldsAny, condHoldsAll, holdsAny, holdsAll, h2, h3,
      h4, h5]
end

/-! ## Names in conditions -/

theorem findDefine_mem {defines : List (Str × Str)} {k : DefineKey} {d : Str}
    (h : findDefine defines k = some d) : ∃ e ∈ defines, e.2 = d := by
  simp only [findDefine, Option.map_eq_some_iff] at h
  obtain ⟨e, h1, h2⟩ := h
  exact ⟨e, List.mem_of_find?_eq_some h1, h2⟩

theorem collapse_wf (w : List Condition → Condition) (cs : List Condition) (k : Condition)
    (hw : ∀ l : List Condition, 2 ≤ l.length → WellFormedAll l → WellFormed (w l))
    (h : collapse w cs = some k) (hc : WellFormedAll cs) : WellFormed k := by
  match cs, h with
  | [c], h => simp [collapse] at h; subst h; exact hc.1
  | c :: d :: cs, h => simp [collapse] at h; subst h; exact hw _ (by simp) hc

mutual
theorem toCondition_wf (defines : List (Str × Str)) (hd : ∀ e ∈ defines, GoodName e.2) :
    ∀ (c : Cfg) (k : Condition), c.toCondition defines = some k → WellFormed k
  | .boolean n, k, h => by
    simp only [Cfg.toCondition, Option.map_eq_some_iff] at h
    obtain ⟨d, h1, rfl⟩ := h
    obtain ⟨e, he, rfl⟩ := findDefine_mem h1
    exact hd e he
  | .named n v, k, h => by
    simp only [Cfg.toCondition, Option.map_eq_some_iff] at h
    obtain ⟨d, h1, rfl⟩ := h
    obtain ⟨e, he, rfl⟩ := findDefine_mem h1
    exact hd e he
  | .any cs, k, h => by
    simp only [Cfg.toCondition] at h
    exact collapse_wf .any _ k (fun l h1 h2 => ⟨h1, h2⟩) h (toConditions_wf defines hd cs)
  | .all cs, k, h => by
    simp only [Cfg.toCondition] at h
    exact collapse_wf .all _ k (fun l h1 h2 => ⟨h1, h2⟩) h (toConditions_wf defines hd cs)
  | .not c, k, h => by
    simp only [Cfg.toCondition, Option.map_eq_some_iff] at h
    obtain ⟨d, h1, rfl⟩ := h
    exact toCondition_wf defines hd c d h1
theorem toConditions_wf (defines : List (Str × Str)) (hd : ∀ e ∈ defines, GoodName e.2) :
    ∀ (cs : List Cfg), WellFormedAll (Cfg.toConditions defines cs)
  | [] => by simp [Cfg.toConditions, WellFormedAll]
  | c :: cs => by
    have ih := toConditions_wf defines hd cs
    cases h : c.toCondition defines with
    | none => simpa [Cfg.toConditions, h, consOption] using ih
    | some k =>
      simp only [Cfg.toConditions, h, consOption, WellFormedAll]
      exact ⟨toCondition_wf defines hd c k h, ih⟩
end

/-! ## Lexing -/

mutual
/-- The tokens of a condition. -/
def condToks (lang : Language) : Condition → List BTok
  | .define d => if lang = .cython then [.id d] else [.id c!"defined", .lp, .id d, .rp]
  | .any cs => .lp :: (condToksList lang .oror cs ++ [.rp])
  | .all cs => .lp :: (condToksList lang .andand cs ++ [.rp])
  | .not c => .bang :: condToks lang c
def condToksList (lang : Language) (sep : BTok) : List Condition → List BTok
  | [] => []
  | c :: cs => condToks lang c ++ condToksRest lang sep cs
def condToksRest (lang : Language) (sep : BTok) : List Condition → List BTok
  | [] => []
  | c :: cs => sep :: (condToks lang c ++ condToksRest lang sep cs)
end

/-- A word ends here. -/
def WordEnd : List Char → Prop
  | [] => True
  | c :: _ => isIdChar c = false

theorem word_good (lang : Language) (d : Str) (h : GoodName d) : word lang d = [.id d] := by
  obtain ⟨h1, _, h3, h4, h5⟩ := h
  simp [word, h1, h3, h4, h5]

theorem idChar_ne {c : Char} (h : isIdChar c = true) :
    c ≠ '(' ∧ c ≠ ')' ∧ c ≠ ' ' ∧ c ≠ '|' ∧ c ≠ '&' ∧ c ≠ '!' := by
  refine ⟨?_, ?_, ?_, ?_, ?_, ?_⟩ <;> (rintro rfl; revert h; decide)

theorem lex_idChar (lang : Language) (cur : Str) (c : Char) (cs : List Char)
    (h : isIdChar c = true) : lex lang cur (c :: cs) = lex lang (cur ++ [c]) cs := by
  obtain ⟨h1, h2, h3, h4, h5, h6⟩ := idChar_ne h
  rw [lex.eq_def]
  split <;> simp_all

theorem lex_ids (lang : Language) (d : Str) : ∀ (cur rest : List Char),
    (∀ c ∈ d, isIdChar c = true) → lex lang cur (d ++ rest) = lex lang (cur ++ d) rest := by
  induction d with
  | nil => simp
  | cons c cs ih =>
    intro cur rest h
    rw [List.cons_append, lex_idChar lang cur c _ (h c (by simp)),
      ih _ _ (fun x hx => h x (by simp [hx]))]
    simp

theorem lex_flush (lang : Language) (cur rest : List Char) (h : WordEnd rest) :
    lex lang cur rest = (lex lang [] rest).map fun ts => word lang cur ++ ts := by
  match rest, h with
  | [], _ => simp [lex, word]
  | c :: cs, h =>
    simp only [WordEnd] at h
    unfold lex
    split <;> simp_all [word] <;> rfl

theorem lex_name (lang : Language) (d rest : Str) (hd : GoodName d) (hr : WordEnd rest) :
    lex lang [] (d ++ rest) = (lex lang [] rest).map fun ts => .id d :: ts := by
  rw [lex_ids lang d [] rest hd.2.1, List.nil_append, lex_flush lang d rest hr, word_good lang d hd]
  rfl

theorem goodName_defined : GoodName c!"defined" := by
  refine ⟨by decide, by decide, by decide, by decide, by decide⟩

theorem lex_defined (lang : Language) (rest : Str) :
    lex lang [] (c!"defined(" ++ rest) =
      (lex lang [] rest).map fun ts => .id c!"defined" :: .lp :: ts := by
  have h : (c!"defined(" ++ rest : Str) = c!"defined" ++ '(' :: rest := rfl
  rw [h, lex_name lang _ _ goodName_defined (by simp [WordEnd]; decide), lex]
  cases lex lang [] rest <;> simp [word]

theorem map_map' {α : Type} (f g : α → α) (o : Option α) :
    (o.map f).map g = o.map (fun x => g (f x)) := by cases o <;> rfl

theorem lex_or (lang : Language) (rest : Str) :
    lex lang [] (orText lang ++ rest) = (lex lang [] rest).map fun ts => .oror :: ts := by
  cases lang
  · simp [orText, lex, word, Function.comp_def]
  · simp [orText, lex, word, Function.comp_def]
  · have : lex .cython [] (c!" or " ++ rest) = (lex .cython [] rest).map fun ts => .oror :: ts := by
      have h1 : isIdChar 'o' = true := by decide
      have h2 : isIdChar 'r' = true := by decide
      simp [lex, word, h1, h2, Function.comp_def]
    exact this

theorem lex_and (lang : Language) (rest : Str) :
    lex lang [] (andText lang ++ rest) = (lex lang [] rest).map fun ts => .andand :: ts := by
  cases lang
  · simp [andText, lex, word, Function.comp_def]
  · simp [andText, lex, word, Function.comp_def]
  · have h1 : isIdChar 'a' = true := by decide
    have h2 : isIdChar 'n' = true := by decide
    have h3 : isIdChar 'd' = true := by decide
    simp [andText, lex, word, h1, h2, h3, Function.comp_def]

theorem lex_not (lang : Language) (rest : Str) :
    lex lang [] (notText lang ++ rest) = (lex lang [] rest).map fun ts => .bang :: ts := by
  cases lang
  · simp [notText, lex, word]
  · simp [notText, lex, word]
  · have h1 : isIdChar 'n' = true := by decide
    have h2 : isIdChar 'o' = true := by decide
    have h3 : isIdChar 't' = true := by decide
    simp [notText, lex, word, h1, h2, h3]

theorem wordEnd_or (lang : Language) (rest : Str) : WordEnd (orText lang ++ rest) := by
  cases lang <;> (simp [orText, WordEnd]; decide)

theorem wordEnd_and (lang : Language) (rest : Str) : WordEnd (andText lang ++ rest) := by
  cases lang <;> (simp [andText, WordEnd]; decide)

/-- The text of a separator and its token. -/
def SepText (lang : Language) (sep : Str) (t : BTok) : Prop :=
  (∀ rest, lex lang [] (sep ++ rest) = (lex lang [] rest).map fun ts => t :: ts) ∧
  ∀ rest, WordEnd (sep ++ rest)

theorem sep_or (lang : Language) : SepText lang (orText lang) .oror :=
  ⟨lex_or lang, wordEnd_or lang⟩

theorem sep_and (lang : Language) : SepText lang (andText lang) .andand :=
  ⟨lex_and lang, wordEnd_and lang⟩

theorem wordEnd_rest (lang : Language) (sep : Str) (t : BTok) (hs : SepText lang sep t)
    (cs : List Condition) (rest : Str) :
    WordEnd (Condition.textsRest lang sep cs ++ ')' :: rest) := by
  cases cs with
  | nil => simp [Condition.textsRest, WordEnd]; decide
  | cons c cs =>
    simp only [Condition.textsRest, List.append_assoc]
    exact hs.2 _

mutual
theorem lex_text (lang : Language) : ∀ (c : Condition) (rest : Str), WellFormed c → WordEnd rest →
    lex lang [] (c.text lang ++ rest) = (lex lang [] rest).map fun ts => condToks lang c ++ ts
  | .define d, rest, h, hr => by
    simp only [WellFormed] at h
    have hw : WordEnd (')' :: rest) := by simp [WordEnd]; decide
    cases lang
    case cython => simp [Condition.text, defineText, condToks, lex_name _ d rest h hr]
    all_goals
      simp only [Condition.text, defineText, List.append_assoc]
      rw [lex_defined]
      simp only [List.cons_append, List.nil_append]
      rw [lex_name _ d _ h hw, lex]
      simp [condToks, word, Function.comp_def]
  | .any cs, rest, h, hr => by
    simp only [Condition.text, List.append_assoc, List.cons_append, List.nil_append]
    rw [lex]
    rw [lex_texts lang (orText lang) .oror (sep_or lang) cs rest h.2]
    simp [condToks, word, Function.comp_def]
  | .all cs, rest, h, hr => by
    simp only [Condition.text, List.append_assoc, List.cons_append, List.nil_append]
    rw [lex]
    rw [lex_texts lang (andText lang) .andand (sep_and lang) cs rest h.2]
    simp [condToks, word, Function.comp_def]
  | .not c, rest, h, hr => by
    simp only [Condition.text, List.append_assoc]
    rw [lex_not, lex_text lang c rest h hr]
    simp [condToks, Function.comp_def]
theorem lex_texts (lang : Language) (sep : Str) (t : BTok) (hs : SepText lang sep t) :
    ∀ (cs : List Condition) (rest : Str), WellFormedAll cs →
    lex lang [] (Condition.texts lang sep cs ++ ')' :: rest) =
      (lex lang [] rest).map fun ts => condToksList lang t cs ++ .rp :: ts
  | [], rest, _ => by
    simp only [Condition.texts, List.nil_append]
    rw [lex]
    simp [condToksList, word]
  | c :: cs, rest, h => by
    simp only [Condition.texts, List.append_assoc]
    rw [lex_text lang c _ h.1 (wordEnd_rest lang sep t hs cs rest),
      lex_textsRest lang sep t hs cs rest h.2]
    simp [condToksList, Function.comp_def]
theorem lex_textsRest (lang : Language) (sep : Str) (t : BTok) (hs : SepText lang sep t) :
    ∀ (cs : List Condition) (rest : Str), WellFormedAll cs →
    lex lang [] (Condition.textsRest lang sep cs ++ ')' :: rest) =
      (lex lang [] rest).map fun ts => condToksRest lang t cs ++ .rp :: ts
  | [], rest, _ => by
    simp only [Condition.textsRest, List.nil_append]
    rw [lex]
    simp [condToksRest, word]
  | c :: cs, rest, h => by
    simp only [Condition.textsRest, List.append_assoc]
    rw [hs.1, lex_text lang c _ h.1 (wordEnd_rest lang sep t hs cs rest),
      lex_textsRest lang sep t hs cs rest h.2]
    simp [condToksRest, Function.comp_def]
end

/-! ## Parsing -/

theorem condToks_pos (lang : Language) (c : Condition) : 1 ≤ (condToks lang c).length := by
  cases c <;> simp [condToks]
  split <;> simp

/-- Parsing continues after an operand with something that is not `&&`. -/
def NotAnd : List BTok → Prop
  | .andand :: _ => False
  | _ => True

def NotOr : List BTok → Prop
  | .oror :: _ => False
  | _ => True

theorem pAndRest_stop (lang : Language) (n : Nat) (e : BExpr) (ts : List BTok) (h : NotAnd ts) :
    pAndRest (n + 1) lang e ts = some (e, ts) := by
  cases ts with
  | nil => rfl
  | cons t ts => cases t <;> first | rfl | exact absurd h (by simp [NotAnd])

theorem pOrRest_stop (lang : Language) (n : Nat) (e : BExpr) (ts : List BTok) (h : NotOr ts) :
    pOrRest (n + 1) lang e ts = some (e, ts) := by
  cases ts with
  | nil => rfl
  | cons t ts => cases t <;> first | rfl | exact absurd h (by simp [NotOr])

theorem notAnd_rest_or (lang : Language) (cs : List Condition) (rest : List BTok) :
    NotAnd (condToksRest lang .oror cs ++ .rp :: rest) := by
  cases cs <;> simp [condToksRest, NotAnd]

mutual
theorem pUn_cond (lang : Language) : ∀ (c : Condition) (fuel : Nat) (rest : List BTok),
    WellFormed c → 4 * (condToks lang c).length ≤ fuel →
    pUn fuel lang (condToks lang c ++ rest) = some (exprOf c, rest)
  | .define d, fuel, rest, h, hf => by
    obtain ⟨n, rfl⟩ : ∃ n, fuel = n + 1 := ⟨fuel - 1, by
      have := condToks_pos lang (.define d); omega⟩
    cases lang <;> simp [condToks, exprOf, pUn]
  | .any [], _, _, h, _ => by simp [WellFormed] at h
  | .any (c :: cs), fuel, rest, h, hf => by
    simp only [condToks, condToksList, List.length_cons, List.length_append, List.length_nil] at hf
    obtain ⟨n, rfl⟩ : ∃ n, fuel = n + 4 := ⟨fuel - 4, by omega⟩
    have h1 := pUn_cond lang c (n + 1) (condToksRest lang .oror cs ++ .rp :: rest) h.2.1 (by omega)
    have h2 := pOrRest_cond lang cs (n + 2) (exprOf c) rest h.2.2 (by omega)
    simp only [condToks, condToksList, List.cons_append, List.append_assoc,
      List.nil_append, exprOf]
    rw [pUn]
    simp only [pOr, pAnd, h1]
    rw [pAndRest_stop lang n _ _ (notAnd_rest_or lang cs rest)]
    simp only [h2]
  | .all [], _, _, h, _ => by simp [WellFormed] at h
  | .all (c :: cs), fuel, rest, h, hf => by
    simp only [condToks, condToksList, List.length_cons, List.length_append, List.length_nil] at hf
    obtain ⟨n, rfl⟩ : ∃ n, fuel = n + 4 := ⟨fuel - 4, by omega⟩
    have h1 := pUn_cond lang c (n + 1) (condToksRest lang .andand cs ++ .rp :: rest) h.2.1 (by omega)
    have h2 := pAndRest_cond lang cs (n + 1) (exprOf c) rest h.2.2 (by omega)
    simp only [condToks, condToksList, List.cons_append, List.append_assoc,
      List.nil_append, exprOf]
    rw [pUn]
    simp only [pOr, pAnd, h1, h2]
    rw [pOrRest_stop lang (n + 1) _ _ (by simp [NotOr])]
  | .not c, fuel, rest, h, hf => by
    simp only [condToks, List.length_cons] at hf
    obtain ⟨n, rfl⟩ : ∃ n, fuel = n + 1 := ⟨fuel - 1, by omega⟩
    simp only [condToks, List.cons_append, exprOf]
    rw [pUn, pUn_cond lang c n rest h (by omega)]
theorem pOrRest_cond (lang : Language) : ∀ (cs : List Condition) (fuel : Nat) (e : BExpr)
    (rest : List BTok), WellFormedAll cs → 4 * (condToksRest lang .oror cs).length + 1 ≤ fuel →
    pOrRest fuel lang e (condToksRest lang .oror cs ++ .rp :: rest) =
      some (orFrom e cs, .rp :: rest)
  | [], fuel, e, rest, _, hf => by
    obtain ⟨n, rfl⟩ : ∃ n, fuel = n + 1 := ⟨fuel - 1, by omega⟩
    simp [condToksRest, orFrom, pOrRest]
  | c :: cs, fuel, e, rest, h, hf => by
    simp only [condToksRest, List.length_cons, List.length_append] at hf
    obtain ⟨n, rfl⟩ : ∃ n, fuel = n + 3 := ⟨fuel - 3, by omega⟩
    have h1 := pUn_cond lang c (n + 1) (condToksRest lang .oror cs ++ .rp :: rest) h.1 (by omega)
    have h2 := pOrRest_cond lang cs (n + 2) (.or e (exprOf c)) rest h.2 (by omega)
    simp only [condToksRest, List.cons_append, List.append_assoc]
    rw [pOrRest]
    simp only [pAnd, h1]
    rw [pAndRest_stop lang n _ _ (notAnd_rest_or lang cs rest)]
    simp only [h2, orFrom]
theorem pAndRest_cond (lang : Language) : ∀ (cs : List Condition) (fuel : Nat) (e : BExpr)
    (rest : List BTok), WellFormedAll cs → 4 * (condToksRest lang .andand cs).length + 1 ≤ fuel →
    pAndRest fuel lang e (condToksRest lang .andand cs ++ .rp :: rest) =
      some (andFrom e cs, .rp :: rest)
  | [], fuel, e, rest, _, hf => by
    obtain ⟨n, rfl⟩ : ∃ n, fuel = n + 1 := ⟨fuel - 1, by omega⟩
    simp [condToksRest, andFrom, pAndRest]
  | c :: cs, fuel, e, rest, h, hf => by
    simp only [condToksRest, List.length_cons, List.length_append] at hf
    obtain ⟨n, rfl⟩ : ∃ n, fuel = n + 1 := ⟨fuel - 1, by omega⟩
    have h1 := pUn_cond lang c n (condToksRest lang .andand cs ++ .rp :: rest) h.1 (by omega)
    have h2 := pAndRest_cond lang cs n (.and e (exprOf c)) rest h.2 (by omega)
    simp only [condToksRest, List.cons_append, List.append_assoc]
    rw [pAndRest]
    simp only [h1, h2, andFrom]
end

theorem readCondition_text (lang : Language) (c : Condition) (h : WellFormed c) :
    readCondition lang (c.text lang) = some (exprOf c) := by
  have h1 := lex_text lang c [] h (by simp [WordEnd])
  rw [List.append_nil] at h1
  have h2 : lex lang [] [] = some [] := by simp [lex, word]
  rw [h2] at h1
  simp only [Option.map_some, List.append_nil] at h1
  unfold readCondition
  simp only [h1]
  have h3 := pUn_cond lang c (6 * (condToks lang c).length + 4) [] h (by omega)
  rw [List.append_nil] at h3
  rw [show 6 * (condToks lang c).length + 6 = (6 * (condToks lang c).length + 4) + 1 + 1 from rfl,
    pOr, pAnd, h3]
  simp only []
  rw [pAndRest_stop lang _ _ _ (by simp [NotAnd])]
  simp only []
  rw [pOrRest_stop lang _ _ _ (by simp [NotOr])]

/-! ## Evaluation of the expression -/

mutual
theorem eval_exprOf (defined : Str → Bool) : ∀ (c : Condition), WellFormed c →
    (exprOf c).eval defined = condHolds defined c
  | .define d, _ => rfl
  | .any [], h => by simp [WellFormed] at h
  | .any (c :: cs), h => by
    rw [exprOf, eval_orFrom defined cs _ h.2.2, eval_exprOf defined c h.2.1]; rfl
  | .all [], h => by simp [WellFormed] at h
  | .all (c :: cs), h => by
    rw [exprOf, eval_andFrom defined cs _ h.2.2, eval_exprOf defined c h.2.1]; rfl
  | .not c, h => by simp [exprOf, BExpr.eval, condHolds, eval_exprOf defined c h]
theorem eval_orFrom (defined : Str → Bool) : ∀ (cs : List Condition) (e : BExpr),
    WellFormedAll cs → (orFrom e cs).eval defined = (e.eval defined || condHoldsAny defined cs)
  | [], e, _ => by simp [orFrom, condHoldsAny]
  | c :: cs, e, h => by
    rw [orFrom, eval_orFrom defined cs _ h.2]
    simp [BExpr.eval, condHoldsAny, eval_exprOf defined c h.1, Bool.or_assoc]
theorem eval_andFrom (defined : Str → Bool) : ∀ (cs : List Condition) (e : BExpr),
    WellFormedAll cs → (andFrom e cs).eval defined = (e.eval defined && condHoldsAll defined cs)
  | [], e, _ => by simp [andFrom, condHoldsAll]
  | c :: cs, e, h => by
    rw [andFrom, eval_andFrom defined cs _ h.2]
    simp [BExpr.eval, condHoldsAll, eval_exprOf defined c h.1, Bool.and_assoc]
end

end Cbindgen
