import Verif.Lemmas.HeadRun
import Verif.Lemmas.LexDecl
import Verif.Lemmas.Cfg
import Verif.Spec.Words

/-!
# Conditions, documentation and braces, as the reader of headers finds them
-/

namespace Cbindgen.HeadSpec
open LexSpec CSpec

/-! ## The tokens of a condition -/

/-- The tokens of the text of a token of a condition. -/
def bLx : CfgSpec.BTok → List Lx
  | .id s => [.word s]
  | .lp => [.punct '(']
  | .rp => [.punct ')']
  | .oror => [.punct '|', .punct '|']
  | .andand => [.punct '&', .punct '&']
  | .bang => [.punct '!']

def condLx (x : Condition) : List Lx := (Cbindgen.condToks .c x).flatMap bLx

theorem condToks_bLx : ∀ ts : List CfgSpec.BTok, condToks (ts.flatMap bLx) = some ts
  | [] => rfl
  | t :: ts => by
    have ih := condToks_bLx ts
    rw [List.flatMap_cons]
    cases t with
    | id s =>
      have e : condToks (.word s :: ts.flatMap bLx) = (condToks (ts.flatMap bLx)).map fun ts => .id s :: ts := by
        cases ts with
        | nil => rfl
        | cons u us => cases u <;> rfl
      show condToks (.word s :: ts.flatMap bLx) = _
      rw [e, ih]; rfl
    | _ => simp only [bLx, List.cons_append, List.nil_append, condToks, ih, Option.map_some]

theorem goodName_word {d : Str} (h : CfgSpec.GoodName d) : Word d :=
  ⟨h.1, List.all_eq_true.mpr fun c hc => by
    have := h.2.1 c hc
    unfold CfgSpec.isIdChar at this
    unfold wordChar
    rw [this, Bool.true_or]⟩

theorem endsWord_append {a b : Str} (h : b ≠ []) : endsWord (a ++ b) = endsWord b := by
  unfold endsWord
  rw [List.getLast?_append]
  cases hb : b.getLast? with
  | none => exact absurd (List.getLast?_eq_none_iff.mp hb) h
  | some c => rfl

/-- A text of a condition. -/
def CText (t : Str) (ls : List Lx) : Prop := simple t = true ∧ endsWord t = false ∧ simpleToks none t = ls

theorem ctext_append {a b : Str} {ls ks : List Lx} (h1 : CText a ls) (h2 : CText b ks) : CText (a ++ b) (ls ++ ks) := by
  refine ⟨by rw [simple_append, h1.1, h2.1]; rfl, ?_, ?_⟩
  · by_cases hb : b = []
    · rw [hb, List.append_nil]; exact h1.2.1
    · rw [endsWord_append hb]; exact h2.2.1
  · rw [simpleToks_append (.inl h1.2.1) none (fun _ => .inl rfl), h1.2.2, h2.2.2]

mutual
theorem ctext_cond : ∀ (x : Condition), CfgSpec.WellFormed x → CText (x.text .c) (condLx x)
  | .define d, h => by
    simp only [CfgSpec.WellFormed] at h
    have hw := goodName_word h
    have h1 : CText c!"defined(" [.word c!"defined", .punct '('] := ⟨by decide, by decide, by decide⟩
    have h2 : CText (d ++ c!")") [.word d, .punct ')'] := by
      refine ⟨by rw [simple_append, simple_word hw]; rfl, by rw [endsWord_append (by simp)]; decide, ?_⟩
      rw [simpleToks_append (.inr rfl) none (fun _ => .inl rfl), simpleToks_word hw]; rfl
    have h3 := ctext_append h1 h2
    rw [← List.append_assoc] at h3
    exact h3
  | .any cs, h => by
    have h0 : CText c!"(" [.punct '('] := ⟨by decide, by decide, by decide⟩
    have h1 : CText c!")" [.punct ')'] := ⟨by decide, by decide, by decide⟩
    have h2 := ctext_append (ctext_append h0 (ctext_conds (sep := c!" || ") (t := .oror) ⟨by decide, by decide, by decide⟩ cs h.2)) h1
    simp only [condLx, Cbindgen.condToks, List.flatMap_cons, List.flatMap_append]
    exact h2
  | .all cs, h => by
    have h0 : CText c!"(" [.punct '('] := ⟨by decide, by decide, by decide⟩
    have h1 : CText c!")" [.punct ')'] := ⟨by decide, by decide, by decide⟩
    have h2 := ctext_append (ctext_append h0 (ctext_conds (sep := c!" && ") (t := .andand) ⟨by decide, by decide, by decide⟩ cs h.2)) h1
    simp only [condLx, Cbindgen.condToks, List.flatMap_cons, List.flatMap_append]
    exact h2
  | .not x, h => by
    have h0 : CText c!"!" [.punct '!'] := ⟨by decide, by decide, by decide⟩
    have h1 := ctext_append h0 (ctext_cond x h)
    simp only [condLx, Cbindgen.condToks, List.flatMap_cons]
    exact h1
theorem ctext_conds {sep : Str} {t : CfgSpec.BTok} (hs : CText sep (bLx t)) : ∀ (cs : List Condition),
    CfgSpec.WellFormedAll cs → CText (Condition.texts .c sep cs) ((condToksList .c t cs).flatMap bLx)
  | [], _ => by simp only [Condition.texts, condToksList]; exact ⟨by decide, by decide, by decide⟩
  | x :: cs, h => by
    simp only [CfgSpec.WellFormedAll] at h
    simp only [Condition.texts, condToksList, List.flatMap_append]
    exact ctext_append (ctext_cond x h.1) (ctext_condsRest hs cs h.2)
theorem ctext_condsRest {sep : Str} {t : CfgSpec.BTok} (hs : CText sep (bLx t)) : ∀ (cs : List Condition),
    CfgSpec.WellFormedAll cs → CText (Condition.textsRest .c sep cs) ((condToksRest .c t cs).flatMap bLx)
  | [], _ => by simp only [Condition.textsRest, condToksRest]; exact ⟨by decide, by decide, by decide⟩
  | x :: cs, h => by
    simp only [CfgSpec.WellFormedAll] at h
    simp only [Condition.textsRest, condToksRest, List.flatMap_cons, List.flatMap_append]
    have := ctext_append (ctext_append hs (ctext_cond x h.1)) (ctext_condsRest hs cs h.2)
    rw [List.append_assoc (bLx t)] at this
    exact this
end

theorem condLx_noEol (x : Condition) : Lx.eol ∉ condLx x := by
  unfold condLx
  intro h
  obtain ⟨t, _, ht⟩ := List.mem_flatMap.mp h
  cases t <;> simp [bLx] at ht

mutual
/-- The names in a condition. -/
def condNames : Condition → List Str
  | .define d => [d]
  | .any cs => condsNames cs
  | .all cs => condsNames cs
  | .not c => condNames c
def condsNames : List Condition → List Str
  | [] => []
  | c :: cs => condNames c ++ condsNames cs
end

mutual
theorem condHolds_congr {f g : Str → Bool} : ∀ (x : Condition), (∀ n ∈ condNames x, f n = g n) →
    CfgSpec.condHolds f x = CfgSpec.condHolds g x
  | .define d, h => by simp only [CfgSpec.condHolds]; exact h d (by simp [condNames])
  | .any cs, h => by
    simp only [CfgSpec.condHolds]; exact (condsHold_congr cs (by simpa only [condNames] using h)).1
  | .all cs, h => by
    simp only [CfgSpec.condHolds]; exact (condsHold_congr cs (by simpa only [condNames] using h)).2
  | .not c, h => by
    simp only [CfgSpec.condHolds]; rw [condHolds_congr c (by simpa only [condNames] using h)]
theorem condsHold_congr {f g : Str → Bool} : ∀ (cs : List Condition), (∀ n ∈ condsNames cs, f n = g n) →
    CfgSpec.condHoldsAny f cs = CfgSpec.condHoldsAny g cs ∧ CfgSpec.condHoldsAll f cs = CfgSpec.condHoldsAll g cs
  | [], _ => ⟨rfl, rfl⟩
  | c :: cs, h => by
    simp only [condsNames, List.mem_append] at h
    have h1 := condHolds_congr c fun n hn => h n (.inl hn)
    have h2 := condsHold_congr cs fun n hn => h n (.inr hn)
    simp only [CfgSpec.condHoldsAny, CfgSpec.condHoldsAll, h1, h2.1, h2.2, and_self]
end

theorem collapse_names {wrap : List Condition → Condition} (hw : ∀ cs, condNames (wrap cs) = condsNames cs) {cs : List Condition}
    {c : Condition} (hc : collapse wrap cs = some c) : condNames c = condsNames cs := by
  match cs, hc with
  | [], hc => simp [collapse] at hc
  | [x], hc => simp only [collapse, Option.some.injEq] at hc; subst hc; simp [condsNames]
  | x :: y :: ys, hc => simp only [collapse, Option.some.injEq] at hc; subst hc; exact hw _

mutual
/-- The names in a condition come from the table. -/
theorem toCondition_names {ds : List (Str × Str)} : ∀ {g : Cfg} {c : Condition}, g.toCondition ds = some c →
    ∀ n ∈ condNames c, n ∈ ds.map (·.2)
  | .boolean n, c, hc => by
    simp only [Cfg.toCondition, Option.map_eq_some_iff] at hc
    obtain ⟨s, hs, rfl⟩ := hc
    obtain ⟨e, he, rfl⟩ := findDefine_mem hs
    intro n hn
    simp only [condNames, List.mem_singleton] at hn
    subst hn; exact List.mem_map.mpr ⟨e, he, rfl⟩
  | .named n v, c, hc => by
    simp only [Cfg.toCondition, Option.map_eq_some_iff] at hc
    obtain ⟨s, hs, rfl⟩ := hc
    obtain ⟨e, he, rfl⟩ := findDefine_mem hs
    intro n hn
    simp only [condNames, List.mem_singleton] at hn
    subst hn; exact List.mem_map.mpr ⟨e, he, rfl⟩
  | .any cs, c, hc => by
    simp only [Cfg.toCondition] at hc
    rw [collapse_names (fun _ => rfl) hc]; exact toConditions_names
  | .all cs, c, hc => by
    simp only [Cfg.toCondition] at hc
    rw [collapse_names (fun _ => rfl) hc]; exact toConditions_names
  | .not g, c, hc => by
    simp only [Cfg.toCondition, Option.map_eq_some_iff] at hc
    obtain ⟨x, hx, rfl⟩ := hc
    simp only [condNames]; exact toCondition_names hx
theorem toConditions_names {ds : List (Str × Str)} : ∀ {cs : List Cfg}, ∀ n ∈ condsNames (Cfg.toConditions ds cs), n ∈ ds.map (·.2)
  | [] => by simp [Cfg.toConditions, condsNames]
  | g :: cs => by
    intro n hn
    simp only [Cfg.toConditions] at hn
    cases hg : g.toCondition ds with
    | none => rw [hg] at hn; exact toConditions_names n hn
    | some c =>
      rw [hg] at hn
      simp only [consOption, condsNames, List.mem_append] at hn
      rcases hn with hn | hn
      · exact toCondition_names hg n hn
      · exact toConditions_names n hn
end

theorem evalCond_cond {truth : Str → Bool} {x : Condition} (h : CfgSpec.WellFormed x) :
    evalCond truth (condLx x) = some (CfgSpec.condHolds truth x) := by
  have hp : 3 ≤ (Cbindgen.condToks .c x).length ∨ ∃ y, x = .not y := by
    cases x with
    | define d => left; simp [Cbindgen.condToks]
    | any cs =>
      left
      cases cs with
      | nil => simp [CfgSpec.WellFormed] at h
      | cons c cs =>
        simp only [Cbindgen.condToks, condToksList, List.length_cons, List.length_append, List.length_nil]
        have := condToks_pos .c c
        omega
    | all cs =>
      left
      cases cs with
      | nil => simp [CfgSpec.WellFormed] at h
      | cons c cs =>
        simp only [Cbindgen.condToks, condToksList, List.length_cons, List.length_append, List.length_nil]
        have := condToks_pos .c c
        omega
    | not y => exact .inr ⟨y, rfl⟩
  have h0 : condLx x ≠ [.word c!"0"] := by
    intro he
    have := condToks_bLx (Cbindgen.condToks .c x)
    rw [show (Cbindgen.condToks .c x).flatMap bLx = condLx x from rfl, he] at this
    simp only [condToks, Option.map_some, Option.some.injEq] at this
    rcases hp with hp | ⟨y, rfl⟩
    · rw [← this] at hp; simp at hp
    · simp [Cbindgen.condToks] at this
  unfold evalCond
  rw [if_neg h0, condLx, condToks_bLx]
  simp only []
  have h3 := pUn_cond .c x (6 * (Cbindgen.condToks .c x).length + 4) [] h (by omega)
  rw [List.append_nil] at h3
  rw [show 6 * (Cbindgen.condToks .c x).length + 6 = (6 * (Cbindgen.condToks .c x).length + 4) + 1 + 1 from rfl,
    CfgSpec.pOr, CfgSpec.pAnd, h3]
  simp only []
  rw [pAndRest_stop .c _ _ _ (by simp [NotAnd])]
  simp only []
  rw [pOrRest_stop .c _ _ _ (by simp [NotOr])]
  simp only [eval_exprOf truth x h]

/-! ## Items under a condition -/

/-- What the options must be like for the conditions in the header. -/
structure CondsFine (c : OutConfig) (D : List Str) : Prop where
  text : c.language ≠ .cython := by decide
  names : ∀ e ∈ c.defines, CfgSpec.GoodName e.2
  asked : ∀ e ∈ c.defines, e.2 ∈ D

/-- Whether something with this condition is compiled. -/
def shown (c : OutConfig) (on : Str → Bool) (g : Option Cfg) : Bool :=
  match c.cond g with
  | none => true
  | some x => CfgSpec.condHolds on x

section
variable {wc : WConfig} {c : OutConfig} {R : Dialect} {on : Str → Bool} {D : List Str}

theorem cond_fine (h : CondsFine c D) {g : Option Cfg} {x : Condition} (hx : c.cond g = some x) :
    CfgSpec.WellFormed x ∧ ∀ n ∈ condNames x, n ∈ D := by
  unfold OutConfig.cond optToCondition at hx
  obtain ⟨g', rfl, hg⟩ := Option.bind_eq_some_iff.mp hx
  refine ⟨toCondition_wf c.defines h.names g' x hg, fun n hn => ?_⟩
  obtain ⟨e, he, rfl⟩ := List.mem_map.mp (toCondition_names hg n hn)
  exact h.asked e he

theorem opens_cond (h : CondsFine c D) {g : Option Cfg} {x : Condition} (hx : c.cond g = some x) :
    Opens on D (.word c!"if" :: condLx x) (shown c on g) := by
  obtain ⟨h1, h2⟩ := cond_fine h hx
  refine opens_if (condLx_noEol x) fun truth ht => ?_
  rw [evalCond_cond h1, shown, hx, condHolds_congr x fun n hn => ht n (h2 n hn)]

theorem scans_hash : Scans .at c!"#" [.hash] (.gap true) := by
  intro s hs
  cases hs
  exact ⟨_, _, rfl, ⟨rfl, rfl⟩, rfl⟩

theorem tri_hash {t : Str} {ls : List Lx} {e : Bool} (h : isText t false ls e = true) :
    Tri wc .at [.text ('#' :: t)] (.hash :: ls) (.mid true e) := by
  simp only [isText, Bool.and_eq_true, Bool.or_eq_true, Bool.not_eq_true', beq_iff_eq] at h
  obtain ⟨⟨⟨h1, h2⟩, h3⟩, h4⟩ := h
  have h5 := scans_append scans_hash (scans_simple (d := true) (b := false) h1 nofun)
  rw [h3] at h5
  refine tri_post (tri_anyText spaces_at h5) (mid_le fun he => ?_)
  rcases h4 with h4 | h4
  · rw [he] at h4; exact absurd h4 (by simp)
  · exact h4

mutual
/-- Conditions are written the same way in C and in C++. -/
theorem text_cxx : ∀ (x : Condition), x.text .cxx = x.text .c
  | .define _ => rfl
  | .any cs => by simp only [Condition.text, orText, texts_cxx _ cs]
  | .all cs => by simp only [Condition.text, andText, texts_cxx _ cs]
  | .not c => by simp only [Condition.text, notText, text_cxx c]
theorem texts_cxx (sep : Str) : ∀ (cs : List Condition), Condition.texts .cxx sep cs = Condition.texts .c sep cs
  | [] => rfl
  | c :: cs => by simp only [Condition.texts, text_cxx c, textsRest_cxx sep cs]
theorem textsRest_cxx (sep : Str) : ∀ (cs : List Condition), Condition.textsRest .cxx sep cs = Condition.textsRest .c sep cs
  | [] => rfl
  | c :: cs => by simp only [Condition.textsRest, text_cxx c, textsRest_cxx sep cs]
end

theorem tri_condBefore (h : CondsFine c D) {g : Option Cfg} {x : Condition} (hx : c.cond g = some x) :
    Tri wc .at (condBefore c (some x)) (dirToks (.word c!"if" :: condLx x)) .at := by
  have ht := ctext_cond x (cond_fine h hx).1
  have h1 : Tri wc .at [.text c!"#if "] [.hash, .word c!"if"] (.mid true false) := tri_hash (by decide)
  have h2 : Tri wc (.mid true false) [.text (x.text .c)] (condLx x) (.mid true true) := by
    rw [← ht.2.2]; exact inl_mono (inl_simple (b := false) ht.1 nofun) id fun _ => rfl
  have e : condBefore c (some x) = [.pushSpaces 0, .text c!"#if ", .text (x.text .c), .pop, .newLine] := by
    have := h.text
    unfold condBefore
    cases hl : c.language with
    | cython => exact absurd hl this
    | c => rfl
    | cxx => simp only [text_cxx]
  rw [e]
  have := tri_append (tri_close (tri_post (tri_append (tri_append (tri_append (tri_pushSpaces 0) h1) h2) tri_pop) mid_le_any)) tri_newLine
  exact tri_eq this (by simp [dirToks])

theorem tri_condAfter (hl : c.language ≠ .cython) {x : Condition} :
    Tri wc .done (condAfter c (some x)) (dirToks [.word c!"endif"]) .done := by
  have h1 : Tri wc .at [.text c!"#endif"] [.hash, .word c!"endif"] (.mid true true) := tri_hash (by decide)
  have e : condAfter c (some x) = [.newLine, .pushSpaces 0, .text c!"#endif", .pop] := by
    unfold condAfter
    cases hx : c.language with
    | cython => exact absurd hx hl
    | _ => rfl
  rw [e]
  have := tri_append tri_newLine (tri_close (tri_post (tri_append (tri_append (tri_pushSpaces 0) h1) tri_pop) mid_le_any))
  exact tri_eq this (by simp [dirToks])

/-- The calls write declarations, on lines of their own. -/
def Para (wc : WConfig) (R : Dialect) (on : Str → Bool) (D : List Str) (ops : List WOp) (o : Out) : Prop :=
  ∃ ls, Tri wc .at ops ls .done ∧ Adds R on D ls o

theorem para_cond (h : CondsFine c D) (g : Option Cfg) {body : List WOp} {o : Out} (hb : Para wc R on D body o) :
    Para wc R on D (condBefore c (c.cond g) ++ body ++ condAfter c (c.cond g)) (whenOut (shown c on g) o) := by
  obtain ⟨ls, h1, h2⟩ := hb
  cases hg : c.cond g with
  | none =>
    refine ⟨ls, tri_eq (tri_append (tri_append tri_nil h1) tri_nil) (by simp), ?_⟩
    simpa [shown, hg, whenOut] using h2
  | some x =>
    exact ⟨_, tri_append (tri_append (tri_condBefore h hg) h1) (tri_condAfter h.text), adds_group (opens_cond h hg) h2⟩

theorem para_nil : Para wc R on D [] {} := ⟨[], tri_post tri_nil at_le_done, adds_nil⟩

/-- One below the other. -/
theorem para_append {a b : List WOp} {o p : Out} (h1 : Para wc R on D a o) (h2 : Para wc R on D b p) :
    Para wc R on D (a ++ [.newLine] ++ b) (o ++ p) := by
  obtain ⟨ls, h1, h3⟩ := h1
  obtain ⟨ks, h2, h4⟩ := h2
  exact ⟨ls ++ ks, tri_eq (tri_append (tri_append h1 tri_newLine) h2) (by simp), adds_append h3 h4⟩

/-! ## Braces -/

theorem tri_open (hl : c.language ≠ .cython) {b : Bool} : Tri wc (.mid false b) c.opn [.punct '{'] .at := by
  have h1 : Tri wc (.mid false true) [.text c!" {"] [.punct '{'] (.mid false false) := inl_text (by decide)
  have h2 : Tri wc (.mid false true) [.text c!"{"] [.punct '{'] (.mid false false) := inl_text (by decide)
  have h3 : Tri wc (.mid false false) [.newLine] [] .at := tri_pre tri_newLine mid_le_done
  have h4 : Tri wc (.mid false true) [.newLine] [] (.mid false true) := inl_mono inl_newLine id fun _ => rfl
  have e : c.opn = openBrace .c c.braces := by
    unfold OutConfig.opn
    cases hx : c.language with
    | cython => exact absurd hx hl
    | _ => cases c.braces <;> rfl
  rw [e]
  refine tri_pre ?_ (mid_le (b' := true) fun _ => rfl)
  cases c.braces with
  | sameLine => exact tri_cons h1 (tri_cons tri_pushTab h3)
  | nextLine => exact tri_cons h4 (tri_cons h2 (tri_cons tri_pushTab h3))

theorem tri_cls (hl : c.language ≠ .cython) {semi : Bool} :
    Tri wc .done (c.cls semi) (if semi then [.punct '}', .punct ';'] else [.punct '}']) (.mid false false) := by
  have h : Tri wc .at [.text (if semi then c!"};" else c!"}")] (if semi then [.punct '}', .punct ';'] else [.punct '}'])
      (.mid false false) := by
    refine tri_pre ?_ (at_le_mid (b := false))
    cases semi <;> exact inl_text (by decide)
  have e : c.cls semi = closeBrace .c semi := by
    unfold OutConfig.cls
    cases hx : c.language with
    | cython => exact absurd hx hl
    | _ => rfl
  rw [e]
  exact tri_cons (tri_pop (c := wc) (P := .done)) (tri_cons tri_newLine h)

/-! ## Documentation -/

/-- In a comment. -/
def posMode (m : LexSpec.Mode) : Pos := ⟨fun s => s = ⟨m, true, false⟩, fun _ => []⟩

/-- In a block comment. -/
def inBlock (k : Bool) : State := ⟨if k then .star else .block, true, false⟩
def posBlock (P : Bool → Prop) : Pos := ⟨fun s => ∃ k, P k ∧ s = inBlock k, fun _ => []⟩

open PreSpec CommentSpec TextSpec

theorem scan_line {s : Str} (h : OneLine s) (k : Bool) :
    LexSpec.scan ⟨.line k, true, false⟩ s = some (⟨.line ((s.getLast?.map (· == '\\')).getD k), true, false⟩, []) := by
  induction s generalizing k with
  | nil => rfl
  | cons c s ih =>
    have hc := h c (by simp)
    simp only [LexSpec.scan, LexSpec.step, hc, Bool.false_eq_true, if_false, Option.bind_some]
    rw [ih fun x hx => h x (by simp [hx])]
    cases s with
    | nil => simp [emit]
    | cons y ys =>
      rw [List.getLast?_cons_cons]
      cases hg : (y :: ys).getLast? with
      | none => simp at hg
      | some z => rfl

theorem oneLine_spaces (n : Nat) : OneLine (List.replicate n ' ') := by
  intro x hx; simp only [List.mem_replicate] at hx; rw [hx.2]; decide

theorem tri_comment {p l : Str} (hp : p = c!"//" ∨ p = c!"///") (h : OneLine l) (hb : l.getLast? ≠ some '\\') :
    LexSpec.Tri wc .at [.text p, .text l, .newLine] [] .at := by
  have h1 : LexSpec.Tri wc .at [.text p] [] (posMode (.line false)) := by
    refine LexSpec.tri_anyText spaces_at ?_
    intro s hs; cases hs
    rcases hp with rfl | rfl <;> exact ⟨_, _, rfl, rfl, rfl⟩
  have h2 : LexSpec.Tri wc (posMode (.line false)) [.text l] [] .done := by
    refine LexSpec.tri_anyText (fun n s hs => ?_) (fun s hs => ?_)
    · cases hs
      refine ⟨_, _, scan_line (oneLine_spaces n) _, ?_, rfl⟩
      cases n with
      | zero => rfl
      | succ n => simp [posMode, List.getLast?_replicate]
    · cases hs
      refine ⟨_, _, scan_line h _, ?_, rfl⟩
      have : (l.getLast?.map (· == '\\')).getD false = false := by
        cases hg : l.getLast? with
        | none => rfl
        | some x => simp; intro hx; exact hb (by rw [hg, hx])
      rw [this]
      exact .inr (.inr rfl)
  exact LexSpec.tri_cons h1 (LexSpec.tri_cons h2 LexSpec.tri_newLine)

theorem scan_blockText {s : Str} : ∀ {k : Bool}, OneLine s → ¬ Closes ((if k then ['*'] else []) ++ s) →
    s.getLast? ≠ some '\\' → ∃ k', LexSpec.scan (inBlock k) s = some (inBlock k', []) := by
  have key : ∀ (s : Str) (x : LexSpec.Mode), (x = .block ∨ x = .star ∨ x = .blockBackslash) → OneLine s →
      ¬ Closes ((if x = .star then ['*'] else []) ++ s) →
      ∃ y, (y = .block ∨ y = .star ∨ y = .blockBackslash) ∧ LexSpec.scan ⟨x, true, false⟩ s = some (⟨y, true, false⟩, []) ∧
        (y = .blockBackslash → s.getLast? = some '\\' ∨ (s = [] ∧ x = .blockBackslash)) := by
    intro s
    induction s with
    | nil => intro x hx _ _; exact ⟨x, hx, rfl, fun h => .inr ⟨rfl, h⟩⟩
    | cons c s ih =>
      intro x hx ho hc
      have hb := ho c (by simp)
      have ho' : OneLine s := fun y hy => ho y (by simp [hy])
      have hstar : x = .star → c ≠ '/' := by
        rintro rfl rfl
        exact hc ⟨[], s, by simp⟩
      have htail : ¬ Closes s := fun h => hc (by
        obtain ⟨p, q, e⟩ := h
        exact ⟨(if x = .star then ['*'] else []) ++ c :: p, q, by rw [← e]; simp⟩)
      have hnext : c = '*' → ¬ Closes ('*' :: s) := by
        rintro rfl h
        obtain ⟨p, q, e⟩ := h
        exact hc ⟨(if x = .star then ['*'] else []) ++ p, q, by rw [← e]; simp⟩
      have hstep : LexSpec.step ⟨x, true, false⟩ c = some (⟨blockMode c, true, false⟩, []) := by
        rcases hx with rfl | rfl | rfl
        · rfl
        · simp [LexSpec.step, hstar rfl]
        · simp [LexSpec.step, hb]
      obtain ⟨y, hy, hs, hlast⟩ := ih (blockMode c)
        (by unfold blockMode; by_cases h1 : c = '*' <;> by_cases h2 : c = '\\' <;> simp [h1, h2]) ho' (by
          unfold blockMode
          by_cases h1 : c = '*'
          · simpa [h1] using hnext h1
          · by_cases h2 : c = '\\' <;> simp [h1, h2, htail])
      refine ⟨y, hy, by rw [LexSpec.scan, hstep]; simp only [Option.bind_some, hs]; rfl, fun hbs => .inl ?_⟩
      rcases hlast hbs with h | ⟨h1, h2⟩
      · cases s with
        | nil => simp at h
        | cons z zs => rw [List.getLast?_cons_cons]; exact h
      · subst h1
        unfold blockMode at h2
        by_cases h3 : c = '*'
        · simp [h3] at h2
        · by_cases h4 : c = '\\'
          · simp [h4]
          · simp [h3, h4] at h2
  intro k ho hc hb
  obtain ⟨y, hy, hs, hlast⟩ := key s (if k then .star else .block) (by cases k <;> simp) ho
    (by cases k <;> simpa using hc)
  rcases hy with rfl | rfl | rfl
  · exact ⟨false, hs⟩
  · exact ⟨true, hs⟩
  · rcases hlast rfl with h | ⟨-, h⟩
    · exact absurd h hb
    · cases k <;> simp at h

theorem scan_blockSpaces (n : Nat) (k : Bool) : ∃ k', (k' = true → k = true ∧ n = 0) ∧
    LexSpec.scan (inBlock k) (List.replicate n ' ') = some (inBlock k', []) := by
  have h0 : ∀ n, LexSpec.scan (inBlock false) (List.replicate n ' ') = some (inBlock false, []) := by
    intro n
    induction n with
    | zero => rfl
    | succ n ih =>
      rw [List.replicate_succ, LexSpec.scan]
      show emit [] (LexSpec.scan (inBlock false) (List.replicate n ' ')) = _
      rw [ih]; rfl
  cases n with
  | zero => exact ⟨k, fun h => ⟨h, rfl⟩, rfl⟩
  | succ n =>
    refine ⟨false, nofun, ?_⟩
    rw [List.replicate_succ, LexSpec.scan]
    cases k <;>
      (show emit [] (LexSpec.scan (inBlock false) (List.replicate n ' ')) = _
       rw [h0]; rfl)

theorem tri_blockBreak : LexSpec.Tri wc (posBlock fun _ => True) [.newLine] [] (posBlock (· = false)) := by
  intro w r t w' _ hp h
  rw [exec_single] at h
  simp only [WOp.exec1, Option.some.injEq, Prod.mk.injEq] at h
  rw [← h.1]
  obtain ⟨k, -, rfl⟩ := hp
  refine ⟨inBlock false, [], ?_, ⟨false, rfl, rfl⟩, rfl⟩
  cases k <;> cases wc.lineEnding <;> rfl

theorem tri_blockLine {p l : Str} (hp : p = [] ∨ p = c!" *") (h : OneLine l) (hb : l.getLast? ≠ some '\\')
    (hc : ¬ Closes (p ++ l)) :
    LexSpec.Tri wc (posBlock (· = false)) [.text p, .text l, .newLine] [] (posBlock (· = false)) := by
  have hc0 : ¬ Closes l := fun ⟨x, y, e⟩ => hc ⟨p ++ x, y, by rw [← e]; simp⟩
  have h1 : LexSpec.Tri wc (posBlock (· = false)) [.text p] [] (posBlock fun k => k = true → ¬ Closes ('*' :: l)) := by
    refine LexSpec.tri_anyText (fun n s hs => ?_) fun s hs => ?_
    · obtain ⟨_, rfl, rfl⟩ := hs
      obtain ⟨k', hk, hs⟩ := scan_blockSpaces n false
      refine ⟨_, _, hs, ⟨k', ?_, rfl⟩, rfl⟩
      cases k' with | false => rfl | true => exact absurd (hk rfl).1 (by simp)
    · obtain ⟨_, rfl, rfl⟩ := hs
      rcases hp with rfl | rfl
      · exact ⟨inBlock false, _, rfl, ⟨false, nofun, rfl⟩, rfl⟩
      · exact ⟨inBlock true, _, rfl, ⟨true, fun _ ⟨x, y, e⟩ => hc ⟨' ' :: x, y, by simp [e]⟩, rfl⟩, rfl⟩
  have h2 : LexSpec.Tri wc (posBlock fun k => k = true → ¬ Closes ('*' :: l)) [.text l] [] (posBlock fun _ => True) := by
    refine LexSpec.tri_anyText (fun n s hs => ?_) fun s hs => ?_
    · obtain ⟨k, hk, rfl⟩ := hs
      obtain ⟨k', hk', hs⟩ := scan_blockSpaces n k
      exact ⟨_, _, hs, ⟨k', fun h => hk (hk' h).1, rfl⟩, rfl⟩
    · obtain ⟨k, hk, rfl⟩ := hs
      obtain ⟨k', hs⟩ := scan_blockText (k := k) h (by
        cases k with
        | false => simpa using hc0
        | true => simpa using hk rfl) hb
      exact ⟨_, _, hs, ⟨k', trivial, rfl⟩, rfl⟩
  exact LexSpec.tri_cons h1 (LexSpec.tri_cons h2 tri_blockBreak)

theorem tri_block {o p : Str} (ho : o = c!"/*" ∨ o = c!"/**") (hp : p = [] ∨ p = c!" *") {ls : List Str}
    (h : ∀ l ∈ ls, OneLine l ∧ l.getLast? ≠ some '\\' ∧ ¬ Closes (p ++ l)) :
    LexSpec.Tri wc .at ([.text o, .newLine] ++ ls.flatMap (fun l => [.text p, .text l, .newLine]) ++ [.text c!" */", .newLine]) [] .at := by
  have h1 : LexSpec.Tri wc .at [.text o] [] (posBlock fun _ => True) := by
    refine LexSpec.tri_anyText spaces_at ?_
    intro s hs; cases hs
    rcases ho with rfl | rfl
    · exact ⟨inBlock false, _, rfl, ⟨false, trivial, rfl⟩, rfl⟩
    · exact ⟨inBlock true, _, rfl, ⟨true, trivial, rfl⟩, rfl⟩
  have h2 : LexSpec.Tri wc (posBlock (· = false)) (ls.flatMap fun l => [.text p, .text l, .newLine]) [] (posBlock (· = false)) := by
    induction ls with
    | nil => exact LexSpec.tri_nil
    | cons l ls ih =>
      rw [List.flatMap_cons]
      obtain ⟨g1, g2, g3⟩ := h l (by simp)
      exact LexSpec.tri_append (tri_blockLine hp g1 g2 g3) (ih fun x hx => h x (by simp [hx]))
  have h3 : LexSpec.Tri wc (posBlock (· = false)) [.text c!" */"] [] .done := by
    refine LexSpec.tri_anyText (fun n s hs => ?_) fun s hs => ?_
    · obtain ⟨_, rfl, rfl⟩ := hs
      obtain ⟨k', hk, hs⟩ := scan_blockSpaces n false
      refine ⟨_, _, hs, ⟨k', ?_, rfl⟩, rfl⟩
      cases k' with | false => rfl | true => exact absurd (hk rfl).1 (by simp)
    · obtain ⟨_, rfl, rfl⟩ := hs
      exact ⟨{}, _, rfl, .inl rfl, rfl⟩
  exact LexSpec.tri_append (LexSpec.tri_append (LexSpec.tri_cons h1 tri_blockBreak) h2) (LexSpec.tri_cons h3 LexSpec.tri_newLine)

theorem tri_flatMap {α : Type} {P : Pos} {f : α → List WOp} {xs : List α} (h : ∀ x ∈ xs, LexSpec.Tri wc P (f x) [] P) :
    LexSpec.Tri wc P (xs.flatMap f) [] P := by
  induction xs with
  | nil => exact LexSpec.tri_nil
  | cons x xs ih =>
    rw [List.flatMap_cons]; exact LexSpec.tri_append (h x (by simp)) (ih fun y hy => h y (by simp [hy]))

/-- Documentation gives no tokens. -/
theorem tri_docs (hl : c.language ≠ .cython) {doc : List Str} (h : DocFine c doc) :
    LexSpec.Tri wc .at (docOps c doc) [] .at := by
  have e : docOps c doc = docOpsC c doc := by
    unfold docOps; split
    · rename_i hc; exact absurd hc hl
    · rfl
  rw [e]
  have hd : ∀ l ∈ c.docLines doc, OneLine l ∧ l.getLast? ≠ some '\\' ∧ ¬ Closes (c.docStyle.linePrefix ++ l) := by
    intro l hm
    refine h l ?_
    unfold OutConfig.docLines at hm
    split at hm
    · exact List.mem_of_mem_take hm
    · exact hm
  unfold docOpsC
  split
  · exact LexSpec.tri_nil
  have hs : c.docStyle ≠ .auto := by
    unfold OutConfig.docStyle
    split <;> simp_all
  revert hd hs
  cases c.docStyle with
  | auto => intro _ hs; exact absurd rfl hs
  | c => intro hd _; exact tri_block (.inl rfl) (.inl rfl) hd
  | doxy => intro hd _; exact tri_block (.inr rfl) (.inr rfl) hd
  | c99 =>
    intro hd _
    simp only [DocStyle.opening, DocStyle.closing, DocStyle.linePrefix, List.nil_append, List.append_nil]
    exact tri_flatMap fun l hm => tri_comment (.inl rfl) (hd l hm).1 (hd l hm).2.1
  | cxx =>
    intro hd _
    simp only [DocStyle.opening, DocStyle.closing, DocStyle.linePrefix, List.nil_append, List.append_nil]
    exact tri_flatMap fun l hm => tri_comment (.inr rfl) (hd l hm).1 (hd l hm).2.1

end

end Cbindgen.HeadSpec
