import Verif.Lemmas.PreprocItems

/-!
# Reading enums
-/

namespace Cbindgen.PreSpec
open TextSpec CommentSpec

section
variable {wc : WConfig}

theorem tagName_plain {c : OutConfig} {x : EnumItem} (h : EnumFine c x) : Plain x.tagName := by
  unfold EnumItem.tagName
  cases ht : x.tag with
  | none => exact h.1
  | some t => exact h.2.1 t ht

theorem body_notes {c : OutConfig} {b : VBody} (h : BodyFine c b) : NotesFine c b.annotations := by
  cases b with
  | empty a => exact h
  | body n s i k => exact h.2.2.2.2.1

theorem calm_disc {e : Env} (h : ConfigFine e.cfg) (he : EnumsPlain e) {eq : Str} (hq : Plain eq) {d : Option Lit}
    (hd : ∀ l, d = some l → LitFine l) : Calm wc (discOps e eq d) := by
  cases d with
  | none => exact calm_nil
  | some l => exact calm_append (calm_text (plain_inline hq)) (calm_fine h he (hd l rfl))

theorem para_variant {e : Env} (h : ConfigFine e.cfg) (he : EnumsPlain e) {v : EnumVariant} (hv : VariantFine e.cfg v) :
    Para wc (v.ops e) := by
  have hl := h.lang
  obtain ⟨hn, hd, hb, hdoc⟩ := hv
  have g1 := calm_note (wc := wc) (body_notes hb) .enumVariant
  have g2 := calm_disc (wc := wc) h he (eq := c!" = ") rfl hd
  have h1 : Calm wc ([.text v.exportName] ++
     optText (v.body.annotations.deprecatedNote e.cfg .enumVariant) (c!" " ++ ·) ++
     discOps e c!" = " v.disc ++ [.text c!","]) := by calm
  have := para_cond (wc := wc) h v.cfg (lines_then (lines_docs hl hdoc) h1.para)
  have e1 : v.ops e = condBefore e.cfg (e.cfg.cond v.cfg) ++ (docOps e.cfg v.doc ++ [.text v.exportName] ++
     optText (v.body.annotations.deprecatedNote e.cfg .enumVariant) (c!" " ++ ·) ++
     discOps e c!" = " v.disc ++ [.text c!","]) ++ condAfter e.cfg (e.cfg.cond v.cfg) := by
    unfold EnumVariant.ops
    revert hl
    cases hk : e.cfg.language <;> simp [hk]
  rw [e1]
  simpa using this

/-! ## Directives -/

theorem tri_if {s : Str} (h : Plain s) {d b : Nat} : Tri wc (At d b) [.text (c!"#if " ++ s)] (Ok (d + 1) b) :=
  tri_text (fun _ h => h.ok) fun r hr => by
    cases hr
    have h1 : scan (lineStart d b) c!"#if " = some (midLine (d + 1) b) := rfl
    exact ⟨midLine (d + 1) b, by rw [scan_some h1, inline_mid h], .inr rfl⟩

theorem plain_oneLine {s : Str} (h : Plain s) : OneLine s := by
  intro c hc
  have := List.all_eq_true.mp h c hc
  exact (plainChar_forms this).1

theorem plain_getLast {s : Str} (h : Plain s) : s.getLast? ≠ some '\\' := by
  intro hs
  have := List.all_eq_true.mp h _ (List.mem_of_getLast? hs)
  cases this

theorem done_line {s : Str} (h : Plain s) (d b : Nat) (l : Line) (hl : l = .start ∨ l = .rest) :
    ∃ r', scan ⟨.line false, l, d, b⟩ s = some r' ∧ Done d b r' := by
  refine ⟨_, scan_line_comment (plain_oneLine h) _ _ _ _, ?_⟩
  have : (s.getLast?.map (· == '\\')).getD false = false := by
    cases hg : s.getLast? with
    | none => rfl
    | some z =>
      have := plain_getLast h
      rw [hg] at this
      simp only [Option.map_some, Option.getD_some, beq_eq_false_iff_ne]
      exact fun hz => this (by rw [hz])
  rw [this]
  intro c hc
  rcases hl with rfl | rfl <;> rcases break_cases hc with rfl | rfl <;> rfl

theorem tri_endifLine {s : Str} (h : Plain s) {d b : Nat} :
    Tri wc (At (d + 1) b) [.text (c!"#endif // " ++ s)] (Done d b) :=
  tri_text (fun _ h => h.ok) fun r hr => by
    cases hr
    have h1 : scan (lineStart (d + 1) b) c!"#endif // " = some ⟨.line false, .rest, d, b⟩ := rfl
    rw [scan_some h1]
    exact done_line h _ _ _ (.inr rfl)

theorem tri_endifLine2 {s : Str} (h : Plain s) {d b : Nat} :
    Tri wc (At (d + 1) b) [.text (c!"#endif  // " ++ s)] (Done d b) :=
  tri_text (fun _ h => h.ok) fun r hr => by
    cases hr
    have h1 : scan (lineStart (d + 1) b) c!"#endif  // " = some ⟨.line false, .rest, d, b⟩ := rfl
    rw [scan_some h1]
    exact done_line h _ _ _ (.inr rfl)

theorem tri_else {d b : Nat} : Tri wc (At (d + 1) b) [.text c!"#else"] (Done (d + 1) b) :=
  tri_text (fun _ h => h.ok) fun r hr => by
    cases hr
    refine ⟨_, rfl, fun c hc => ?_⟩
    rcases break_cases hc with rfl | rfl <;> rfl

/-! ## The tag -/

theorem size_plain {c : OutConfig} {x : EnumItem} {s : Str} (h : x.size c = some s) : Plain s := by
  obtain ⟨t, -, rfl⟩ := Option.map_eq_some_iff.mp h
  exact prim_plain _ _

theorem typedEnumCond_plain (c : OutConfig) : Plain (typedEnumCond c) := by
  unfold typedEnumCond; plain

theorem body_tagEnumHead {c : OutConfig} (h : ConfigFine c) {x : EnumItem} (hx : EnumFine c x) :
    Body wc (tagEnumHead c x) := by
  have hl := h.lang
  have ht := tagName_plain hx
  have hn := hx.2.2.2.2.1
  have g1 := calm_note (wc := wc) hn .enum
  have g2 := calm_mustUse (wc := wc) (c := c) x.annotations h.mustUse.2.2
  unfold tagEnumHead
  split
  · rename_i prim hc hs
    have hp := size_plain hs
    have hq := typedEnumCond_plain c
    intro d b
    have k1 : Calm wc ([.text c!"enum"] ++ optText (x.annotations.deprecatedNote c .enum) (c!" " ++ ·) ++
      [.text (c!" " ++ x.tagName)]) := by calm
    have k2 := calm_lines k1 d b
    have k3 : Tri wc (At d b) [.text (c!"#if " ++ typedEnumCond c), .newLine] (At (d + 1) b) :=
      tri_cons (tri_if hq) (tri_pre tri_newLine fun _ h => h.done)
    have k4 : Tri wc (At (d + 1) b) ([.text (c!"  : " ++ prim)] ++ [.newLine]) (At (d + 1) b) :=
      calm_lines (by calm) _ _
    have k5 : Tri wc (At (d + 1) b) [.text (c!"#endif // " ++ typedEnumCond c), .newLine] (At d b) :=
      tri_cons (tri_endifLine hq) tri_newLine
    have := tri_append (tri_append (tri_append k2 k3) k4) k5
    exact tri_post (Q := At d b) (by simpa using this) fun _ h => h.ok
  · exact Calm.body (by calm)
  · rename_i size hc
    have g3 : Calm wc (optText (x.size c) (c!" : " ++ ·)) :=
      calm_optText fun s hs => by have := size_plain hs; inl
    exact Calm.body (by calm)
  · rename_i hc _; exact absurd hc hl
  · rename_i hc _; exact absurd hc hl

theorem para_enumerators {e : Env} (h : ConfigFine e.cfg) (he : EnumsPlain e) {vs : List EnumVariant}
    (hv : ∀ v ∈ vs, VariantFine e.cfg v) : Para wc (enumeratorsOps e vs) := by
  cases vs with
  | nil => exact lines_nil.para
  | cons v vs =>
    exact para_then (para_variant h he (hv v (by simp)))
      (tail_flatMap fun y hy => tail_para (para_variant h he (hv y (by simp [hy]))))

theorem newLine_opn {c : OutConfig} (hl : c.language ≠ .cython) : WOp.newLine ∈ c.opn := by
  unfold OutConfig.opn
  revert hl
  cases c.language <;> cases c.braces <;> simp [openBrace]

theorem calm_tagEnumBraces {e : Env} (h : ConfigFine e.cfg) {x : EnumItem} (hx : EnumFine e.cfg x) {body : List WOp}
    (hb : Para wc body) : Calm wc (e.cfg.opn ++ body ++ tagEnumClose e.cfg x) := by
  have ht := tagName_plain hx
  unfold tagEnumClose
  split
  · have := calm_append (calm_braces (wc := wc) (semi := false) h.lang hb) (show Calm wc [.text (c!" " ++ x.tagName ++ c!";")] by calm)
    simpa using this
  · exact calm_braces h.lang hb

theorem tagSize_eq {c : OutConfig} (hl : c.language ≠ .cython) (x : EnumItem) (prim : Str) :
    tagSizeOps c x (some prim) =
      if c.language = .cxx then [] else
      onlyIf c.cppCompat [.newLineIfNotStart, .text c!"#ifndef __cplusplus"] ++
      ([.newLine, .text (c!"#if " ++ c!"__STDC_VERSION__ >= 202311L"), .newLine,
        .text (c!"typedef enum " ++ x.tagName ++ c!" " ++ x.tagName ++ c!";"), .newLine, .text c!"#else", .newLine,
        .text (c!"typedef " ++ prim ++ c!" " ++ x.tagName ++ c!";"), .newLine,
        .text (c!"#endif // " ++ c!"__STDC_VERSION__ >= 202311L")]) ++
      onlyIf c.cppCompat [.newLineIfNotStart, .text (c!"#endif // " ++ c!"__cplusplus")] := by
  unfold tagSizeOps OutConfig.cppCompatibleC
  revert hl
  cases hc : c.language <;> simp [onlyIf, Language.typedefText]

theorem tri_ifndef {d b : Nat} : Tri wc (At d b) [.text c!"#ifndef __cplusplus"] (Ok (d + 1) b) :=
  tri_text (fun _ h => h.ok) fun r hr => by
    cases hr; exact ⟨midLine (d + 1) b, rfl, .inr rfl⟩

theorem tri_ifdef {d b : Nat} : Tri wc (At d b) [.text c!"#ifdef __cplusplus"] (Ok (d + 1) b) :=
  tri_text (fun _ h => h.ok) fun r hr => by
    cases hr; exact ⟨midLine (d + 1) b, rfl, .inr rfl⟩

theorem para_tagSize {c : OutConfig} (h : ConfigFine c) {x : EnumItem} (hx : EnumFine c x) {pre : List WOp}
    (hp : Body wc pre) (hm : WOp.newLine ∈ pre) : Para wc (pre ++ tagSizeOps c x (x.size c)) := by
  have ht := tagName_plain hx
  cases hs : x.size c with
  | none => simpa [tagSizeOps] using hp.para
  | some prim =>
    have hp' := size_plain hs
    rw [tagSize_eq h.lang]
    split
    · simpa using hp.para
    · have mid : ∀ d b, Tri wc (Ok d b) ([.newLine, .text (c!"#if " ++ c!"__STDC_VERSION__ >= 202311L"), .newLine,
        .text (c!"typedef enum " ++ x.tagName ++ c!" " ++ x.tagName ++ c!";"), .newLine, .text c!"#else", .newLine,
        .text (c!"typedef " ++ prim ++ c!" " ++ x.tagName ++ c!";"), .newLine,
        .text (c!"#endif // " ++ c!"__STDC_VERSION__ >= 202311L")]) (Done d b) := by
        intro d b
        have k0 : Tri wc (Ok d b) [.newLine] (At d b) := tri_pre tri_newLine fun _ h => h.done
        have k1 : Tri wc (At d b) [.text (c!"#if " ++ c!"__STDC_VERSION__ >= 202311L"), .newLine] (At (d + 1) b) :=
          tri_cons (tri_if (plain_lit rfl)) (tri_pre tri_newLine fun _ h => h.done)
        have k2 : Tri wc (At (d + 1) b) ([.text (c!"typedef enum " ++ x.tagName ++ c!" " ++ x.tagName ++ c!";")] ++ [.newLine])
          (At (d + 1) b) := calm_lines (by calm) _ _
        have k3 : Tri wc (At (d + 1) b) [.text c!"#else", .newLine] (At (d + 1) b) := tri_cons tri_else tri_newLine
        have k4 : Tri wc (At (d + 1) b) ([.text (c!"typedef " ++ prim ++ c!" " ++ x.tagName ++ c!";")] ++ [.newLine])
          (At (d + 1) b) := calm_lines (by calm) _ _
        have k5 : Tri wc (At (d + 1) b) [.text (c!"#endif // " ++ c!"__STDC_VERSION__ >= 202311L")] (Done d b) :=
          tri_endifLine (plain_lit rfl)
        have := tri_append (tri_append (tri_append (tri_append (tri_append k0 k1) k2) k3) k4) k5
        simpa using this
      intro d b
      cases hcc : c.cppCompat with
      | false => simpa [onlyIf] using tri_append (hp d b) (mid d b)
      | true =>
        have k1 := tri_newLineLater (hp.para d b) hm
        have k2 := tri_append (tri_append k1 (tri_ifndef (wc := wc))) (mid (d + 1) b)
        have k3 := tri_newLineLater k2 (by simp [hm])
        have k4 := tri_append k3 (tri_endifLine (s := c!"__cplusplus") (plain_lit rfl))
        simpa [onlyIf] using k4

/-! ## Stream operators -/

theorem calm_streamHead {c : OutConfig} (h : ConfigFine c) {w n : Str} (hw : Plain w) (hn : Plain n) :
    Calm wc (streamHead c w n) := by
  have h1 := argName_plain h (n := c!"stream") rfl
  have h2 := argName_plain h (n := c!"instance") rfl
  unfold streamHead; calm

theorem calm_streamSwitch {c : OutConfig} (h : ConfigFine c) {on : Str} (ho : Plain on) {cases : List Str}
    (hc : ∀ s ∈ cases, Inline s) : Calm wc (streamSwitch c on cases) := by
  have h1 := argName_plain h (n := c!"stream") rfl
  have h2 : Calm wc (inBraces c (verticalTexts (.join []) cases)) :=
    calm_inBraces h.lang (calm_texts (plain_inline (plain_lit rfl)) hc).para
  unfold streamSwitch; calm

theorem tail_enumStream {c : OutConfig} (h : ConfigFine c) {x : EnumItem} (hx : EnumFine c x) :
    Tail wc (enumStreamOps c x) := by
  have ht := tagName_plain hx
  obtain ⟨hn, -, -, hv, -, -⟩ := hx
  have h1 := argName_plain h (n := c!"stream") rfl
  have h2 := argName_plain h (n := c!"instance") rfl
  have hu : Calm wc (streamUsing x) := by unfold streamUsing; calm
  have plainCase : ∀ v ∈ x.variants, Inline (c!"case " ++ x.tagName ++ c!"::" ++ v.exportName ++ c!": " ++
      c.argName c!"stream" ++ c!" << \"" ++ v.exportName ++ c!"\"; break;") := by
    intro v hm
    have := (hv v hm).1
    have := inline_shift (a := c!"case " ++ x.tagName ++ c!"::" ++ v.exportName ++ c!": " ++
      c.argName c!"stream" ++ c!" << ") (m := v.exportName) (z := c!"; break;") (by plain) (inline_quoted (by plain)) (by plain)
    simpa using this
  have h3 : Calm wc (streamSwitch c (c.argName c!"instance") (x.variants.map (tagCase c x))) := by
    refine calm_streamSwitch h h2 fun s hs => ?_
    obtain ⟨v, hm, rfl⟩ := List.mem_map.mp hs
    exact plainCase v hm
  have h4 : Calm wc (streamSwitch c (c.argName c!"instance" ++ c!".tag") (x.variants.map (dataCase c x))) := by
    refine calm_streamSwitch h (by plain) fun s hs => ?_
    obtain ⟨v, hm, rfl⟩ := List.mem_map.mp hs
    have g1 := (hv v hm).1
    have g2 := (hv v hm).2.2.1
    unfold dataCase
    split
    · rename_i name b _ _ hb
      rw [hb] at g2
      have g3 := g2.1
      split
      · inl
      · have := inline_shift (a := c!"case " ++ x.tagName ++ c!"::" ++ v.exportName ++ c!": " ++
          c.argName c!"stream" ++ c!" << ") (m := v.exportName) (z := c!" << " ++ c.argName c!"instance" ++ c!"." ++ name ++
          c!"; break;") (by plain) (inline_quoted (by plain)) (by plain)
        simpa using this
    · exact plainCase v hm
  have h5 : Calm wc (streamHead c (if x.tag.isSome then c!"friend" else c!"inline") x.tagName) :=
    calm_streamHead h (by plain) ht
  have h6 : Calm wc (streamHead c c!"friend" x.exportName) := calm_streamHead h (by plain) hn
  have h7 : Calm wc (inBraces c (onlyIf x.tag.isSome (streamUsing x) ++
       streamSwitch c (c.argName c!"instance") (x.variants.map (tagCase c x)))) :=
    calm_inBraces h.lang (Calm.para (by calm))
  have h8 : Calm wc (inBraces c (streamUsing x ++
          streamSwitch c (c.argName c!"instance" ++ c!".tag") (x.variants.map (dataCase c x)))) :=
    calm_inBraces h.lang (Calm.para (by calm))
  unfold enumStreamOps
  refine tail_onlyIf (calm_tail ?_ rfl)
  calm

theorem para_tagEnum {e : Env} (h : ConfigFine e.cfg) (he : EnumsPlain e) {x : EnumItem} (hx : EnumFine e.cfg x) :
    Para wc (tagEnumOps e x) := by
  have h1 := body_tagEnumHead (wc := wc) h hx
  have h2 := calm_tagEnumBraces h hx (para_enumerators (wc := wc) h he hx.2.2.2.1)
  unfold tagEnumOps
  exact para_then (para_tagSize h hx (body_then h1 h2) (by simp [newLine_opn h.lang])) (tail_enumStream h hx)

/-! ## The data -/

theorem notCython_same {c : OutConfig} (hl : c.language ≠ .cython) (ops : List WOp) : notCython c ops = ops := by
  unfold notCython onlyIf
  simp [hl]

theorem tail_variantDef {e : Env} (h : ConfigFine e.cfg) (he : EnumsPlain e) {v : EnumVariant}
    (hv : VariantFine e.cfg v) : Tail wc (variantDef e v) := by
  have hb := hv.2.2.1
  unfold variantDef
  split
  · rename_i b _ hv'
    rw [hv'] at hb
    rw [notCython_same h.lang, notCython_same h.lang]
    have := tail_cons_newLine (tail_para (para_cond (wc := wc) h v.cfg (para_struct h he hb.2)))
    simpa using this
  · exact tail_nil

theorem calm_tagField {c : OutConfig} (h : ConfigFine c) {x : EnumItem} (hx : EnumFine c x) : Calm wc (tagFieldOps c x) := by
  have ht := tagName_plain hx
  have h1 : Calm wc (onlyIf (c.language == .c && (x.size c).isNone && !c.style.generateTypedef) [.text c!"enum "] ++
    [.text (x.tagName ++ c!" tag;")]) := by calm
  have h2 := calm_braces (wc := wc) (semi := true) h.lang h1.para
  unfold tagFieldOps
  simp only
  split
  · exact calm_append (by calm) h2
  · exact h1

theorem calm_inlineFields {c : OutConfig} (h : ConfigFine c) (x : EnumItem) {fs : List Field}
    (hf : ∀ f ∈ fs, FieldFine c f) : Calm wc (inlineFields c x fs) := by
  have hl := h.lang
  have h2 := calm_braces (wc := wc) (semi := true) h.lang (body_fields h hf).para
  unfold inlineFields
  split
  · rename_i hc; exact absurd hc hl
  · exact calm_append (by calm) h2

theorem para_variantFields {c : OutConfig} (h : ConfigFine c) {x : EnumItem} (hx : EnumFine c x) :
    Para wc (variantFieldsOps c x) := by
  refine para_spaced fun y hy => ?_
  obtain ⟨v, hm, hv⟩ := List.mem_filterMap.mp hy
  have hb := (hx.2.2.2.1 v hm).2.2.1
  unfold variantField at hv
  split at hv
  · cases hv
  · rename_i name s inl k hvb
    rw [hvb] at hb
    obtain ⟨g1, g2⟩ := hb
    have g3 := g2.1
    injection hv with hv
    subst hv
    rw [notCython_same h.lang, notCython_same h.lang]
    refine para_cond h _ (Calm.para ?_)
    split
    · exact calm_inlineFields h x g2.2.2.1
    · calm

theorem para_variantUnion {c : OutConfig} (h : ConfigFine c) {x : EnumItem} (hx : EnumFine c x) :
    Para wc (variantUnion c x) := by
  have h1 := para_variantFields (wc := wc) h hx
  unfold variantUnion
  split
  · exact h1
  · exact (calm_append (show Calm wc [.text c!"union"] by calm) (calm_braces h.lang h1)).para

/-! ## Derived functions -/

theorem calm_switch {c : OutConfig} (h : ConfigFine c) {x : EnumItem} (hx : EnumFine c x)
    {t : Str → Str → StructItem → Str} (ht : ∀ v n s, Plain v → Plain n → StructFine c s → Plain (t v n s)) :
    Calm wc (switchOps c x t) := by
  have h1 : Lines wc (x.variants.flatMap (switchCase c t)) := by
    refine lines_flatMap fun v hm => ?_
    have hv := hx.2.2.2.1 v hm
    have hb := hv.2.2.1
    unfold switchCase
    split
    · exact lines_nil
    · rename_i name s i k hvb
      rw [hvb] at hb
      have := ht _ _ _ hv.1 hb.1 hb.2
      exact para_newLine (para_cond h v.cfg (Calm.para (by calm)))
  have h2 : Calm wc (onlyIf (x.variants.any fun v => v.body.isEmptyBody) [.text c!"default: break;"]) := by calm
  have h3 := calm_inBraces (wc := wc) h.lang (lines_then h1 h2.para)
  unfold switchOps
  calm

theorem calm_helper {c : OutConfig} (h : ConfigFine c) {x : EnumItem} (hx : EnumFine c x) {v : EnumVariant}
    (hv : VariantFine c v) : Tail wc (helperOps c x v) := by
  have ht := tagName_plain hx
  have hxn := hx.1
  obtain ⟨hn, -, hb, -⟩ := hv
  have hnotes := body_notes hb
  have hi : Calm wc (helperInits c v.body) := by
    unfold helperInits
    split
    · exact calm_nil
    · rename_i name s i k hvb
      rw [hvb] at hb
      obtain ⟨g1, g2⟩ := hb
      refine calm_flatMap fun f hm => ?_
      obtain ⟨k1, k2, -⟩ := g2.2.2.1 f (List.mem_of_mem_drop hm)
      have k3 := h.argNames _ k1
      unfold helperInit
      refine calm_append calm_newLine ?_
      split
      · rename_i t len hty
        rw [hty] at k2
        simp only [tyWords, words_cons] at k2
        have k4 := k2.1
        have k5 := calm_typeOps (wc := wc) h k2.2
        refine calm_append (by calm) (calm_inBraces h.lang (Calm.para ?_))
        calm
      · have k5 := calm_typeOps (wc := wc) h k2
        calm
  have ha : Calm wc (helperArgs c v.body) := by
    unfold helperArgs
    split
    · exact calm_nil
    · rename_i name s i k hvb
      rw [hvb] at hb
      obtain ⟨g1, g2⟩ := hb
      refine calm_vertical (plain_inline (plain_lit rfl)) (calm_map fun f hm => ?_)
      obtain ⟨k1, k2, -⟩ := g2.2.2.1 f (List.mem_of_mem_drop hm)
      exact calm_plainField h (h.argNames _ k1) (by simpa [tyWords] using k2)
  have hc : Calm wc (helperConstructor c x v) := by
    have g1 := calm_attr (wc := wc) hnotes c!"variant-constructor-attributes"
    have g2 : Calm wc (inBraces c ([.text (x.exportName ++ c!" result;")] ++ helperInits c v.body ++
      [.newLine, .text (c!"result.tag = " ++ x.tagName ++ c!"::" ++ v.exportName ++ c!";"), .newLine,
       .text c!"return result;"])) := calm_inBraces h.lang (Calm.para (by calm))
    unfold helperConstructor; calm
  have his : Calm wc (helperIs c x v) := by
    have g1 := calm_attr (wc := wc) hnotes c!"variant-is-attributes"
    have g2 : Calm wc (inBraces c [.text (c!"return tag == " ++ x.tagName ++ c!"::" ++ v.exportName ++ c!";")]) :=
      calm_inBraces h.lang (Calm.para (by calm))
    unfold helperIs; calm
  have hk : ∀ q, Calm wc (helperCast c v q) := by
    intro q
    unfold helperCast
    split
    · exact calm_nil
    · rename_i name s i k hvb
      rw [hvb] at hb
      obtain ⟨g1, g2⟩ := hb
      by_cases hlen : s.fields.length ≤ (if s.hasTagField then 1 else 0)
      · rw [if_pos hlen]; exact calm_nil
      · rw [if_neg hlen]
        have g3 := calm_attr (wc := wc) hnotes (if q then c!"variant-const-cast-attributes" else c!"variant-mut-cast-attributes")
        have g4 : Calm wc (castResult c q k s) := by
          have := g2.1
          unfold castResult
          split
          · split
            · rename_i f hf
              have := (g2.2.2.1 f (List.mem_of_getLast? hf)).2.1
              exact calm_typeOps h (by simpa [tyWords] using this)
            · exact calm_panic
          · calm
        have g6 : Plain (c.enumeration.castAssertName.getD c!"assert") := by
          cases hca : c.enumeration.castAssertName with
          | none => rfl
          | some s => exact h.castAssert s hca
        have g5 : Calm wc (inBraces c
          [.text (c.enumeration.castAssertName.getD c!"assert" ++ c!"(Is" ++ v.exportName ++ c!"());"),
           .newLine, .text (c!"return " ++ name), .text (if k then c!"._0;" else c!";")]) :=
          calm_inBraces h.lang (Calm.para (by calm))
        calm
  have h1 := hk true
  have h2 := hk false
  have key : Calm wc (helperConstructor c x v ++ helperIs c x v ++
       onlyIf (x.annotations.boolOr c!"derive-const-casts" c.enumeration.deriveConstCasts)
         (helperCast c v true) ++
       onlyIf (x.annotations.boolOr c!"derive-mut-casts" c.enumeration.deriveMutCasts)
         (helperCast c v false)) := by calm
  have := tail_cons_newLine (tail_para (para_cond (wc := wc) h v.cfg key.para))
  simpa [helperOps] using this

theorem tail_enumEqOps {c : OutConfig} (h : ConfigFine c) {x : EnumItem} (hx : EnumFine c x) :
    Tail wc (enumEqOps c x) := by
  have ht := tagName_plain hx
  have hn := hx.1
  have hnotes := hx.2.2.2.2.1
  have ho := argName_plain h (n := c!"other") rfl
  have g1 := calm_attr (wc := wc) hnotes c!"eq-attributes"
  have g2 := calm_attr (wc := wc) hnotes c!"neq-attributes"
  have g3 : Calm wc (switchOps c x (fun v n _ => c!"case " ++ x.tagName ++ c!"::" ++ v ++ c!": return " ++ n ++
     c!" == " ++ c.argName c!"other" ++ c!"." ++ n ++ c!";")) := calm_switch h hx fun v n s hv hn hs => by plain
  have g4 : Calm wc (inBraces c [.text c!"return false;"]) := calm_inBraces h.lang (Calm.para (by calm))
  have g5 : Calm wc (inBraces c [.text (c!"return !(*this == " ++ c.argName c!"other" ++ c!");")]) :=
    calm_inBraces h.lang (Calm.para (by calm))
  have g6 : Calm wc (inBraces c
    ([.text (c!"if (tag != " ++ c.argName c!"other" ++ c!".tag)")] ++ inBraces c [.text c!"return false;"] ++
     [.newLine] ++
     switchOps c x (fun v n _ => c!"case " ++ x.tagName ++ c!"::" ++ v ++ c!": return " ++ n ++
       c!" == " ++ c.argName c!"other" ++ c!"." ++ n ++ c!";") ++
     [.newLine, .text c!"return true;"])) := calm_inBraces h.lang (Calm.para (by calm))
  unfold enumEqOps
  simp only
  refine calm_tail ?_ rfl
  calm

theorem tail_enumPrivateOps {c : OutConfig} (h : ConfigFine c) {x : EnumItem} (hx : EnumFine c x) :
    Tail wc (enumPrivateOps c x) := by
  have ht := tagName_plain hx
  have hn := hx.1
  have hnotes := hx.2.2.2.2.1
  have ho := argName_plain h (n := c!"other") rfl
  have g1 : Calm wc (inBraces c []) := calm_inBraces h.lang calm_nil.para
  unfold enumPrivateOps
  refine calm_tail ?_ rfl
  calm

theorem tail_enumDestructorOps {c : OutConfig} (h : ConfigFine c) {x : EnumItem} (hx : EnumFine c x) :
    Tail wc (enumDestructorOps c x) := by
  have ht := tagName_plain hx
  have hn := hx.1
  have hnotes := hx.2.2.2.2.1
  have ho := argName_plain h (n := c!"other") rfl
  have g1 := calm_attr (wc := wc) hnotes c!"destructor-attributes"
  have g3 : Calm wc (inBraces c (switchOps c x fun v n b => c!"case " ++ x.tagName ++ c!"::" ++ v ++ c!": " ++ n ++
    c!".~" ++ b.exportName ++ c!"(); break;")) :=
    calm_inBraces h.lang (calm_switch h hx fun v n s hv hn hs => by have := hs.1; plain).para
  unfold enumDestructorOps
  refine calm_tail ?_ rfl
  calm

theorem tail_enumCopyOps {c : OutConfig} (h : ConfigFine c) {x : EnumItem} (hx : EnumFine c x) :
    Tail wc (enumCopyOps c x) := by
  have ht := tagName_plain hx
  have hn := hx.1
  have hnotes := hx.2.2.2.2.1
  have ho := argName_plain h (n := c!"other") rfl
  have g1 := calm_attr (wc := wc) hnotes c!"copy-constructor-attributes"
  have g2 := calm_attr (wc := wc) hnotes c!"copy-assignment-attributes"
  have g3 : Calm wc (inBraces c (switchOps c x fun v n b => c!"case " ++ x.tagName ++ c!"::" ++ v ++ c!": ::new (&" ++ n ++
    c!") (" ++ b.exportName ++ c!")(" ++ c.argName c!"other" ++ c!"." ++ n ++ c!"); break;")) :=
    calm_inBraces h.lang (calm_switch h hx fun v n s hv hn hs => by have := hs.1; plain).para
  have g4 : Calm wc (inBraces c [.text (c!"this->~" ++ x.exportName ++ c!"();"), .newLine,
        .text (c!"new (this) " ++ x.exportName ++ c!"(" ++ c.argName c!"other" ++ c!");")]) :=
    calm_inBraces h.lang (Calm.para (by calm))
  have g5 : Calm wc (inBraces c
     ([.text (c!"if (this != &" ++ c.argName c!"other" ++ c!")")] ++
      inBraces c [.text (c!"this->~" ++ x.exportName ++ c!"();"), .newLine,
        .text (c!"new (this) " ++ x.exportName ++ c!"(" ++ c.argName c!"other" ++ c!");")] ++
      [.newLine, .text c!"return *this;"])) := calm_inBraces h.lang (Calm.para (by calm))
  unfold enumCopyOps
  simp only
  refine calm_tail ?_ rfl
  calm

theorem tail_dataFunctions {c : OutConfig} (h : ConfigFine c) {x : EnumItem} (hx : EnumFine c x) :
    Tail wc (enumDataFunctions c x) := by
  have ht := tagName_plain hx
  have hn := hx.1
  have hnotes := hx.2.2.2.2.1
  have ho := argName_plain h (n := c!"other") rfl
  have h1 := tail_enumEqOps (wc := wc) h hx
  have h2 := tail_enumPrivateOps (wc := wc) h hx
  have h3 := tail_enumDestructorOps (wc := wc) h hx
  have h4 := tail_enumCopyOps (wc := wc) h hx
  have h5 : Tail wc (x.variants.flatMap (helperOps c x)) :=
    tail_flatMap fun v hm => calm_helper h hx (hx.2.2.2.1 v hm)
  unfold enumDataFunctions
  simp only
  exact tail_onlyIf (tail_append (tail_append (tail_append (tail_append (tail_onlyIf h5) (tail_onlyIf h1))
    (tail_onlyIf h2)) (tail_onlyIf h3)) (tail_onlyIf h4))

theorem para_dataBody {c : OutConfig} (h : ConfigFine c) {x : EnumItem} (hx : EnumFine c x) : Para wc (dataBody c x) := by
  unfold dataBody
  refine para_then (para_then (lines_then (calm_lines (calm_tagField h hx)) (para_variantUnion h hx)) (tail_dataFunctions h hx))
    (tail_postBody h _)

theorem calm_openData {c : OutConfig} (h : ConfigFine c) {x : EnumItem} (hx : EnumFine c x) : Calm wc (openDataHead c x) := by
  have hl := h.lang
  have hnotes := hx.2.2.2.2.1
  have h1 := calm_mustUse (wc := wc) (c := c) x.annotations h.mustUse.2.1
  have h2 := calm_tagName (wc := wc) c hx.1
  have h3 : Calm wc (dataWord c) := by
    unfold dataWord
    split
    · calm
    · calm
    · rename_i hc; exact absurd hc hl
  have h4 : Calm wc (optText (x.annotations.deprecatedNote c .struct) (fun n => c!" " ++ n ++ c!" ")) :=
    calm_optText fun s hs => inline_append (inline_append (plain_inline rfl) (hnotes.2 _ s hs)) (plain_inline rfl)
  unfold openDataHead
  calm

theorem para_enum {e : Env} (h : ConfigFine e.cfg) (he : EnumsPlain e) {x : EnumItem} (hx : EnumFine e.cfg x) :
    Para wc (emitEnum e x) := by
  obtain ⟨hn, -, hp, hv, hnotes, hd⟩ := id hx
  have h1 := para_tagEnum (wc := wc) h he hx
  have h2 : Tail wc (x.variants.flatMap (variantDef e)) := tail_flatMap fun v hm => tail_variantDef h he (hv v hm)
  have h3 := para_dataBody (wc := wc) h hx
  have h4 := calm_openData (wc := wc) h hx
  have h5 := lines_preBody (wc := wc) h x.path
  have h6 : Tail wc [.newLine, .newLine] := tail_append (tail_newLine) tail_newLine
  unfold emitEnum
  simp only
  refine para_cond h _ (lines_then (lines_append (lines_docs h.lang hd) (lines_params h hp _)) ?_)
  split
  · exact h1
  · have k1 : Para wc (preBodyOps e.cfg x.path ++ tagEnumOps e x ++ x.variants.flatMap (variantDef e) ++
        [.newLine, .newLine] ++ dataBody e.cfg x) := by
      intro d b
      have := para_then (lines_then h5 h1) h2
      refine tri_append (Q := At d b) (tri_append (this d b) ?_) (h3 d b)
      exact tri_cons tri_newLine (lines_newLine d b)
    exact (calm_append h4 (calm_def h hn k1)).para
  · have k1 := calm_append h4 (calm_def (wc := wc) h hn (lines_then h5 h3))
    intro d b
    have k2 : Tri wc (Done d b) [.newLine, .newLine] (At d b) := tri_cons tri_newLine (lines_newLine d b)
    have := tri_append (tri_append (para_then h1 h2 d b) k2) (k1.para d b)
    simpa using this

theorem para_item {e : Env} (h : ConfigFine e.cfg) (he : EnumsPlain e) {i : Container} (hi : ItemFine e.cfg i) :
    Para wc (i.ops e) := by
  cases i with
  | enum x => exact para_enum h he hi
  | struct x =>
    simp only [Container.ops, structOrTypedef]
    split
    · rename_i t ht
      refine para_then (para_typedef h ?_) (tail_assoc h he hi)
      obtain ⟨hn, hp, hf, ha, hd, hk⟩ := id (show StructFine e.cfg x from hi)
      unfold StructItem.asTypedef at ht
      split at ht
      · rename_i f fs hfs
        split at ht
        · injection ht with ht
          subst ht
          exact ⟨hn, hp, (hf f (by simp [hfs])).2.1, hd⟩
        · cases ht
      · cases ht
    · exact para_struct h he hi
  | union x => exact para_union h hi
  | «opaque» x => exact para_opaque h hi
  | typedef x => exact para_typedef h hi

end

end Cbindgen.PreSpec
