import Verif.Lemmas.HeadTypes

/-!
# Enums, as the reader of headers finds them
-/

namespace Cbindgen.HeadSpec
open LexSpec CSpec PreSpec

section
variable {wc : WConfig} {e : Env} {c : OutConfig} {R : Dialect} {on : Str → Bool} {D : List Str}

theorem tri_ops {P Q : Pos} {ops ops' : List WOp} {ls : List Lx} (h : LexSpec.Tri wc P ops ls Q) (e : ops = ops') :
    LexSpec.Tri wc P ops' ls Q := e ▸ h

/-! ## Enumerators -/

/-- The tokens of an enumerator before its comma. -/
def variantToks (e : Env) (v : EnumVariant) : List Lx :=
  .word v.exportName :: (attrToks (variantAttrs e.cfg v) ++ (v.disc.map fun d => .punct '=' :: litToks e d).getD [])

theorem variantToks_fine {v : EnumVariant} (hv : VariantGood R e v) :
    (variantToks e v).all isPlainTok = true ∧ Lx.punct ',' ∉ variantToks e v ∧
      readEnumerator R (variantToks e v) = some (enumeratorOf e v) := by
  obtain ⟨h1, h2⟩ := attr_toks hv.attrs
  have hc := hv.commas
  cases hd : v.disc with
  | none =>
    have hl := lead_attrs h1 (rest := []) rfl
    simp only [List.append_nil, lead] at hl
    refine ⟨?_, ?_, ?_⟩
    · simpa [variantToks, hd, isPlainTok] using h2
    · simpa [variantToks, hd] using hc
    · simp only [variantToks, hd, Option.map_none, Option.getD_none, List.append_nil, readEnumerator, hl, enumeratorOf]
  | some d =>
    obtain ⟨_, hp, hcd⟩ := hv.value d hd
    have hl := lead_attrs h1 (rest := .punct '=' :: litToks e d) rfl
    have hn : lead R.macros .out (.punct '=' :: litToks e d) = ([], .punct '=' :: litToks e d) := lead_none rfl
    rw [hn] at hl
    simp only [List.append_nil] at hl
    refine ⟨?_, ?_, ?_⟩
    · simp only [variantToks, hd, Option.map_some, Option.getD_some, List.all_cons, List.all_append, h2, hp]; rfl
    · simp [variantToks, hd, hc, hcd]
    · simp only [variantToks, hd, Option.map_some, Option.getD_some, readEnumerator, hl, enumeratorOf]

theorem tri_variant (ho : ReadFine e.cfg R D) {v : EnumVariant} (hv : VariantGood R e v) :
    LexSpec.Tri wc .at (docOps e.cfg v.doc ++ [.text v.exportName] ++
      optText (v.body.annotations.deprecatedNote e.cfg .enumVariant) (c!" " ++ ·) ++ discOps e c!" = " v.disc ++ [.text c!","])
      (variantToks e v ++ [.punct ',']) .done := by
  have hlang := ho.text
  have h1 : LexSpec.Tri wc (.mid false false) [.text v.exportName] [.word v.exportName] (.mid false true) := inl_word hv.name
  have h2 := tri_optSpaceAttr (wc := wc) (hv.attrs (v.body.annotations.deprecatedNote e.cfg .enumVariant) (by simp [variantAttrs]))
  have h3 : LexSpec.Tri wc (.mid false true) (discOps e c!" = " v.disc) ((v.disc.map fun d => .punct '=' :: litToks e d).getD [])
      (.mid false true) := by
    cases hd : v.disc with
    | none => exact LexSpec.tri_nil
    | some d =>
      have a : Inl wc false true [.text c!" = "] [.punct '='] false := inl_text (by decide)
      exact LexSpec.tri_append a (inl_lit ho.text ho.dialect d (hv.value d hd).1)
  have h4 : Inl wc false true [.text c!","] [.punct ','] false := inl_text (by decide)
  have := LexSpec.tri_append (LexSpec.tri_append (LexSpec.tri_append (LexSpec.tri_append (tri_docs hlang hv.doc)
    (LexSpec.tri_pre h1 at_le_mid)) h2) h3) h4
  exact LexSpec.tri_eq (LexSpec.tri_post this mid_le_done) (by simp [variantToks, variantAttrs])

/-- The tokens of an enumerator, where its condition holds. -/
def shownToks (e : Env) (on : Str → Bool) (v : EnumVariant) : List Lx :=
  if shown e.cfg on v.cfg then variantToks e v ++ [.punct ','] else []

theorem grow_variant (ho : ReadFine e.cfg R D) {v : EnumVariant} (hv : VariantGood R e v) :
    ∃ ls, LexSpec.Tri wc .at (v.ops e) ls .done ∧ Grow R on D ls ((shownToks e on v).map .tok) := by
  have h1 := tri_variant (wc := wc) ho hv
  have hp : (variantToks e v ++ [Lx.punct ',']).all isPlainTok = true := by
    rw [List.all_append, (variantToks_fine hv).1]; rfl
  have h2 := grow_toks (R := R) (on := on) (D := D) hp
  have e0 : v.ops e = condBefore e.cfg (e.cfg.cond v.cfg) ++ (docOps e.cfg v.doc ++ [.text v.exportName] ++
      optText (v.body.annotations.deprecatedNote e.cfg .enumVariant) (c!" " ++ ·) ++ discOps e c!" = " v.disc ++ [.text c!","]) ++
      condAfter e.cfg (e.cfg.cond v.cfg) := by
    unfold EnumVariant.ops
    cases hl : e.cfg.language with
    | cython => exact absurd hl ho.text
    | _ => simp only [hl]
  rw [e0]
  unfold shownToks
  cases hc : e.cfg.cond v.cfg with
  | none =>
    refine ⟨_, LexSpec.tri_eq (LexSpec.tri_append (LexSpec.tri_append LexSpec.tri_nil h1) LexSpec.tri_nil) rfl, ?_⟩
    simpa [shown, hc] using h2
  | some y =>
    refine ⟨_, LexSpec.tri_append (LexSpec.tri_append (tri_condBefore ho.toCondsFine hc) h1) (tri_condAfter ho.text), ?_⟩
    have := grow_cond (opens_cond (on := on) ho.toCondsFine hc) h2
    cases hs : shown e.cfg on v.cfg <;> rw [hs] at this <;> simpa using this

theorem grow_variants (ho : ReadFine e.cfg R D) : ∀ (vs : List EnumVariant), (∀ v ∈ vs, VariantGood R e v) →
    ∃ ls, LexSpec.Tri wc .done (vs.flatMap fun v => [.newLine] ++ v.ops e) ls .done ∧
      Grow R on D ls ((vs.flatMap (shownToks e on)).map .tok)
  | [], _ => ⟨[], LexSpec.tri_nil, grow_nil⟩
  | v :: vs, h => by
    obtain ⟨ls, h1, h2⟩ := grow_variant (wc := wc) (on := on) ho (h v (by simp))
    obtain ⟨ks, h3, h4⟩ := grow_variants ho vs fun x hx => h x (by simp [hx])
    refine ⟨ls ++ ks, ?_, ?_⟩
    · rw [List.flatMap_cons]
      exact LexSpec.tri_append (LexSpec.tri_append (ls := []) LexSpec.tri_newLine h1) h3
    · rw [List.flatMap_cons, List.map_append]; exact grow_append h2 h4

theorem grow_enumerators (ho : ReadFine e.cfg R D) (vs : List EnumVariant) (h : ∀ v ∈ vs, VariantGood R e v) :
    ∃ ls, LexSpec.Tri wc .at (enumeratorsOps e vs) ls .done ∧ Grow R on D ls ((vs.flatMap (shownToks e on)).map .tok) := by
  cases vs with
  | nil => exact ⟨[], LexSpec.tri_post LexSpec.tri_nil at_le_done, grow_nil⟩
  | cons v vs =>
    obtain ⟨ls, h1, h2⟩ := grow_variant (wc := wc) (on := on) ho (h v (by simp))
    obtain ⟨ks, h3, h4⟩ := grow_variants (wc := wc) (on := on) ho vs fun x hx => h x (by simp [hx])
    refine ⟨ls ++ ks, LexSpec.tri_append h1 h3, ?_⟩
    rw [List.flatMap_cons, List.map_append]; exact grow_append h2 h4

theorem splitCommas_cut {x : List Lx} (h : Lx.punct ',' ∉ x) (cur rest : List Lx) :
    splitCommas cur (x ++ .punct ',' :: rest) = (cur ++ x) :: splitCommas [] rest := by
  induction x generalizing cur with
  | nil => simp [splitCommas]
  | cons l x ih =>
    simp only [List.mem_cons, not_or] at h
    rw [List.cons_append, splitCommas.eq_def]
    simp only [Ne.symm h.1, if_false]
    rw [ih h.2]
    simp

theorem read_enumerators (vs : List EnumVariant) (h : ∀ v ∈ vs, VariantGood R e v) :
    readAll (readEnumerator R) (splitCommas [] (vs.flatMap (shownToks e on))) = some (enumeratorsOf e on vs) := by
  induction vs with
  | nil => rfl
  | cons v vs ih =>
    have ih := ih fun x hx => h x (by simp [hx])
    obtain ⟨_, h1, h2⟩ := variantToks_fine (h v (by simp))
    rw [List.flatMap_cons]
    unfold enumeratorsOf at ih ⊢
    cases hs : shown e.cfg on v.cfg with
    | false => simpa [shownToks, hs] using ih
    | true =>
      simp only [shownToks, hs, if_true, List.append_assoc, List.singleton_append, List.filter_cons_of_pos, List.map_cons]
      rw [splitCommas_cut h1, List.nil_append, readAll, h2]
      rw [show (vs.flatMap fun v => shownToks e on v) = vs.flatMap (shownToks e on) from rfl, ih]

/-- What is in the braces of an enum starts no block. -/
theorem enumerators_start (vs : List EnumVariant) (h : ∀ v ∈ vs, VariantGood R e v) :
    linkStart R ((vs.flatMap (shownToks e on)).map .tok) = false := by
  induction vs with
  | nil => rfl
  | cons v vs ih =>
    have ih := ih fun x hx => h x (by simp [hx])
    rw [List.flatMap_cons]
    cases hs : shown e.cfg on v.cfg with
    | false => simpa [shownToks, hs] using ih
    | true =>
      cases hc : R.cxx with
      | false => simp [shownToks, hs, variantToks, linkStart, hc]
      | true =>
        have := (h v (by simp)).block hc
        simp [shownToks, hs, variantToks, linkStart, this.1, this.2]

/-! ## The enum of the tags -/

/-- The definition of an enum. -/
theorem adds_enum {name : Option Str} {attrs : List Lx} {tag : Option Str}
    (ha : isAttrs R.macros .out attrs = true) (hp : attrs.all isPlainTok = true) (ht : ∀ t, tag = some t → t ∉ R.macros)
    {ls rest : List Lx} {values : List Enumerator} (hs : linkStart R (rest.map .tok) = false) (hg : Grow R on D ls (rest.map .tok))
    (hr : readAll (readEnumerator R) (splitCommas [] rest) = some values) {ms more : List Lx} (hm : Grow R on D ms (more.map .tok))
    {ty : Option CTy} (hmore : more = [] ∧ ty = none ∨ ∃ p t, more = [.punct ':', .word p] ∧ ty = some t ∧
      readTyped R.attrs [.word p] = some t) (hc : R.cxx = true → startsWith c!"class" (attrs ++ optWord tag ++ more) = false) :
    Adds R on D (headToks name c!"enum" attrs tag ++ ms ++ ([.punct '{'] ++ ls ++ [.punct '}']) ++ optWord name ++ [.punct ';'])
      (decls [.enumeration attrs tag ty name values]) := by
  refine adds_definition ⟨_, rfl⟩ hp (grow_braced hs hg) hm ?_
  have hc' : (R.cxx && startsWith c!"class" (attrs ++ optWord tag ++ more)) = false := by
    cases h : R.cxx with
    | false => rfl
    | true => exact hc h
  have hk : tagKind c!"enum" = some .enum := by decide
  rcases hmore with ⟨rfl, rfl⟩ | ⟨p, t, rfl, rfl, hty⟩
  · have hl := lead_word ha ht [] rfl rfl
    simp only [List.append_nil] at hl hc' ⊢
    have hcut : cutAt ':' (optWord tag) = (optWord tag, none) := by cases tag <;> rfl
    simp only [readDefinition, hl, hk, hc', Bool.false_eq_true, if_false, readAlias_word, hcut, readTag_word, hr]
  · have hl := lead_word ha ht [.punct ':', .word p] rfl (lead_none rfl)
    have hcut : cutAt ':' (optWord tag ++ [.punct ':', .word p]) = (optWord tag, some [.word p]) := by cases tag <;> rfl
    simp only [List.append_assoc] at hc'
    simp only [List.cons_append, List.append_assoc, readDefinition, hl, hk, hc', Bool.false_eq_true, if_false, readAlias_word, hcut, readTag_word, hr, hty, Option.map_some]

/-- A line of its own that ends a group, with a comment. -/
theorem tri_endif {t : Str} (h : scan {} t = some (⟨.line false, false, true⟩, [.hash, .word c!"endif"])) :
    LexSpec.Tri wc .at [.text t] (dirToks [.word c!"endif"]) .done := by
  refine LexSpec.tri_anyText spaces_at ?_
  intro s hs
  cases hs
  exact ⟨_, _, h, .inr (.inr rfl), rfl⟩

/-- A directive on a line of its own. -/
theorem tri_directive {t : Str} {ls : List Lx} {b : Bool} (h : isText t false ls b = true) :
    LexSpec.Tri wc .at [.text ('#' :: t)] (dirToks ls) .done :=
  LexSpec.tri_eq (LexSpec.tri_close (LexSpec.tri_post (tri_hash h) mid_le_any)) (by simp [dirToks])

theorem opens_c23 (h : c23 ∈ D) : Opens on D [.word c!"if", .word c!"__STDC_VERSION__", .punct '>', .punct '=', .word c!"202311L"] (on c23) := by
  refine opens_if (by simp) fun truth ht => ?_
  rw [← ht _ h]; rfl

theorem opens_typed (h : c23 ∈ D) (h' : cplusplus ∈ D) :
    Opens on D [.word c!"if", .word c!"defined", .punct '(', .word c!"__cplusplus", .punct ')', .punct '|', .punct '|',
      .word c!"__STDC_VERSION__", .punct '>', .punct '=', .word c!"202311L"] (on cplusplus || on c23) := by
  refine opens_if (by simp) fun truth ht => ?_
  rw [← ht _ h, ← ht _ h']; rfl

/-- The type of an enum. -/
theorem typed_word (ho : ReadFine c R D) {p : Str} (hp : Ident R.attrs p) : readTyped R.attrs [.word p] = some (.base false none p []) := by
  have hf := build_fine (attrs := R.attrs) (cfg := c.toDeclConfig) (.path p p [] none) false (by simp [TyFine, GArgsFine, hp])
  have h1 := readDecl_build c.toDeclConfig (.path p p [] none) false false none (by simp [NoVoidParam, NoVoidParamGArgs]) (by simp)
  have h2 := declToks_found (found_decl ho.dialect.known _ none hf nofun)
  have e1 : spells ((CDecl.buildType c.toDeclConfig (.path p p [] none) false).write c.toDeclConfig none) = [.word p] := by
    simp [CDecl.buildType, CDecl.write, CDecl.buildGArgs, CDecl.writeGArgList, constToks, ctypeToks, identToks, CDecl.rightPart,
        leftPart, spells, spell, simpleToks_word hp.word]
  rw [e1] at h2
  rw [readTyped, h2, Option.bind_some, readTypeName, h1]
  simp [CDecl.buildType, CDecl.buildGArgs, CDecl.den, CDecl.denG, CDecl.denSteps, applySteps, denTag]

theorem enumStream_c (hl : c.language = .c) (x : EnumItem) : enumStreamOps c x = [] := by
  simp [enumStreamOps, hl, onlyIf]

/-- An enum without a size. -/
theorem tri_plainEnum (ho : OptsFine e.cfg R D) {x : EnumItem} (hx : EnumGood R on D e x) (hsz : x.size e.cfg = none) :
    Seg wc R on D .at (tagEnumOps e x) (tagEnumOut e on x) .done := by
  obtain ⟨ls, h1, h2⟩ := grow_enumerators (wc := wc) (on := on) ho.toReadFine x.variants hx.variants
  have hw := hx.name.word
  have ha := tri_optSpaceAttr (wc := wc) hx.attrs
  have h3 := LexSpec.tri_append (LexSpec.tri_append (LexSpec.tri_append (tri_head (kw := c!"enum") ⟨by decide, by decide⟩ ho.text hw ha)
    (tri_open ho.text)) h1) (tri_closeDef ho.text hw)
  obtain ⟨h4, h5⟩ := attr_toks (os := [x.annotations.deprecatedNote e.cfg .enum]) (by simpa using hx.attrs)
  have h6 := adds_enum (name := nameOf e.cfg x.tagName) (tag := tagOf e.cfg x.tagName) h4 h5 (by
    intro t ht
    have : t = x.tagName := by
      unfold tagOf at ht
      split at ht
      · simpa using ht.symm
      · simp at ht
    rw [this]; exact free_ident ho.dialect hx.name) (enumerators_start x.variants hx.variants) h2 (read_enumerators x.variants hx.variants) (ms := []) grow_nil (.inl ⟨rfl, rfl⟩)
    (fun h => by rw [ho.cxx, ho.lang] at h; cases h)
  have e1 : tagEnumOps e x = onlyIf e.cfg.genTypedef [.text c!"typedef "] ++ [.text c!"enum"] ++
      optText (x.annotations.deprecatedNote e.cfg .enum) (c!" " ++ ·) ++ tagNameOps e.cfg x.tagName ++ e.cfg.opn ++
      enumeratorsOps e x.variants ++ closeDef e.cfg x.tagName := by
    have a1 : tagEnumHead e.cfg x = onlyIf e.cfg.genTypedef [.text c!"typedef "] ++ [.text c!"enum"] ++
      optText (x.annotations.deprecatedNote e.cfg .enum) (c!" " ++ ·) ++ tagNameOps e.cfg x.tagName := by
      unfold tagEnumHead; rw [ho.lang, hsz, genTypedef_c ho.lang]; simp [tagNameOps, ho.lang, hasName_eq]
    have a2 : tagEnumClose e.cfg x = closeDef e.cfg x.tagName := by
      simp [tagEnumClose, closeDef, genTypedef_c ho.lang, ho.lang, hsz, hasName_eq]
    simp only [tagEnumOps, a1, a2, enumStream_c ho.lang, hsz, tagSizeOps, List.append_nil, List.append_assoc]
  rw [e1]
  have e2 : tagEnumOut e on x = decls [.enumeration (attrToks [x.annotations.deprecatedNote e.cfg .enum]) (tagOf e.cfg x.tagName) none
      (nameOf e.cfg x.tagName) (enumeratorsOf e on x.variants)] := by
    unfold tagEnumOut; rw [if_neg (by rw [ho.lang]; nofun)]; simp only [hsz]
  rw [e2]
  refine ⟨_, LexSpec.tri_pre (LexSpec.tri_post h3 mid_le_done) at_le_mid, ?_⟩
  simp only [List.append_assoc, List.nil_append] at h6 ⊢
  exact h6

/-- The condition that the type is written under. -/
theorem typed_cond (h : c23 ∈ D) (h' : cplusplus ∈ D) : ∃ ls, LexSpec.Tri wc .at [.text (c!"#if " ++ typedEnumCond c)] (dirToks ls) .done ∧
    LexSpec.Tri wc .at [.text (c!"#endif // " ++ typedEnumCond c)] (dirToks [.word c!"endif"]) .done ∧ Opens on D ls (typedEnum c on) := by
  unfold typedEnumCond typedEnum
  cases c.cppCompatibleC with
  | false =>
    have h1 := opens_c23 (on := on) h
    refine ⟨_, tri_directive (ls := [.word c!"if", .word c!"__STDC_VERSION__", .punct '>', .punct '=', .word c!"202311L"])
      (t := c!"if __STDC_VERSION__ >= 202311L") (b := true) (by decide), tri_endif rfl, ?_⟩
    simpa using h1
  | true =>
    have h1 := opens_typed (on := on) h h'
    refine ⟨_, tri_directive (ls := [.word c!"if", .word c!"defined", .punct '(', .word c!"__cplusplus", .punct ')', .punct '|',
      .punct '|', .word c!"__STDC_VERSION__", .punct '>', .punct '=', .word c!"202311L"])
      (t := c!"if defined(__cplusplus) || __STDC_VERSION__ >= 202311L") (b := true) (by decide), tri_endif rfl, ?_⟩
    simpa using h1

/-- The definition of an enum with a size. -/
theorem seg_sizedEnum (ho : OptsFine e.cfg R D) {x : EnumItem} (hx : EnumGood R on D e x) {p : Str} (hsz : x.size e.cfg = some p) :
    Seg wc R on D .at (tagEnumHead e.cfg x ++ (e.cfg.opn ++ enumeratorsOps e x.variants ++ tagEnumClose e.cfg x))
      (decls [.enumeration (attrToks [x.annotations.deprecatedNote e.cfg .enum]) (some x.tagName)
        (if typedEnum e.cfg on then some (.base false none p []) else none) none (enumeratorsOf e on x.variants)]) .done := by
  obtain ⟨hp, g1, g2⟩ := hx.size p hsz
  obtain ⟨ls, h1, h2⟩ := grow_enumerators (wc := wc) (on := on) ho.toReadFine x.variants hx.variants
  obtain ⟨ds, i1, i2, i3⟩ := typed_cond (wc := wc) (c := e.cfg) (on := on) g1 g2
  have hw := hx.name.word
  have ha := tri_optSpaceAttr (wc := wc) hx.attrs
  have a1 : LexSpec.Tri wc (.mid false false) [.text c!"enum"] [.word c!"enum"] (.mid false true) := inl_word ⟨by decide, by decide⟩
  have a2 : LexSpec.Tri wc (.mid false true) [.text (c!" " ++ x.tagName)] [.word x.tagName] (.mid false true) :=
    LexSpec.tri_anyText (spaces_mid false true) (scans_append (scans_pre (scans_space false) mid_le_any) (scans_word hw false))
  have a3 : LexSpec.Tri wc .at [.text (c!"  : " ++ p)] [.punct ':', .word p] .done := by
    refine LexSpec.tri_anyText spaces_at (scans_pre (scans_post (scans_append (ls := [.punct ':'])
      (scans_text (t := c!"  : ") (ls := [.punct ':']) (b := false) (x := false) (by decide)) (scans_wordMid hp.word)) mid_le_done) at_le_mid)
  have b1 := LexSpec.tri_append (LexSpec.tri_append (LexSpec.tri_append (LexSpec.tri_append (LexSpec.tri_append (LexSpec.tri_append
    (LexSpec.tri_post (LexSpec.tri_append (LexSpec.tri_append a1 ha) a2) mid_le_done) LexSpec.tri_newLine) i1)
    LexSpec.tri_newLine) a3) LexSpec.tri_newLine) i2
  have b2 := LexSpec.tri_append (LexSpec.tri_append (LexSpec.tri_append (LexSpec.tri_pre (LexSpec.tri_append b1 LexSpec.tri_newLine) (P' := .at) at_le_mid)
    (LexSpec.tri_pre (tri_open ho.text (b := false)) at_le_mid)) h1) (tri_cls ho.text (semi := true))
  obtain ⟨h4, h5⟩ := attr_toks (os := [x.annotations.deprecatedNote e.cfg .enum]) (by simpa using hx.attrs)
  have hm : Grow R on D (dirToks ds ++ [.punct ':', .word p] ++ dirToks [.word c!"endif"])
      ((if typedEnum e.cfg on then [Lx.punct ':', .word p] else []).map .tok) := by
    have := grow_cond i3 (grow_toks (R := R) (on := on) (D := D) (ls := [.punct ':', .word p]) rfl)
    cases ht : typedEnum e.cfg on <;> rw [ht] at this <;> simpa using this
  have h6 := adds_enum (name := none) (tag := some x.tagName) h4 h5 (by
    rintro t ⟨⟩; exact free_ident ho.dialect hx.name) (enumerators_start x.variants hx.variants) h2 (read_enumerators x.variants hx.variants) hm
    (ty := if typedEnum e.cfg on then some (.base false none p []) else none) (by
      cases typedEnum e.cfg on with
      | false => exact .inl ⟨rfl, rfl⟩
      | true => exact .inr ⟨p, _, rfl, rfl, typed_word ho.toReadFine hp⟩)
    (fun h => by rw [ho.cxx, ho.lang] at h; cases h)
  have e1 : tagEnumHead e.cfg x = [.text c!"enum"] ++ optText (x.annotations.deprecatedNote e.cfg .enum) (c!" " ++ ·) ++
    [.text (c!" " ++ x.tagName), .newLine, .text (c!"#if " ++ typedEnumCond e.cfg), .newLine,
     .text (c!"  : " ++ p), .newLine, .text (c!"#endif // " ++ typedEnumCond e.cfg), .newLine] := by
    unfold tagEnumHead; rw [ho.lang, hsz]
  have e2 : tagEnumClose e.cfg x = e.cfg.cls true := by simp [tagEnumClose, hsz]
  rw [e1, e2]
  refine ⟨_, LexSpec.tri_post (tri_ops b2 (by simp)) mid_le_done, ?_⟩
  simp only [headToks, optWord, List.append_assoc, List.nil_append, List.append_nil, List.cons_append, Option.isSome_none, Bool.false_eq_true, if_false] at h6 ⊢
  exact h6

/-- An alias of a named type, with or without a tag. -/
theorem tri_aliasText (k : Bool) {ty name : Str} (ht : Word ty) (hn : Word name) :
    LexSpec.Tri wc .at [.text ((if k then c!"typedef enum " else c!"typedef ") ++ ty ++ c!" " ++ name ++ c!";")]
      (.word c!"typedef" :: namedToks (if k then some .enum else none) ty name ++ [.punct ';']) .done := by
  cases k with
  | true =>
    exact LexSpec.tri_pre (LexSpec.tri_post (inl_scans (scans_append (scans_append (scans_append (scans_append
      (scans_text (t := c!"typedef enum ") (ls := [.word c!"typedef", .word c!"enum"]) (b := false) (x := false) (by decide))
      (scans_wordMid ht)) (scans_space false)) (scans_word hn false)) (scans_punct (by decide) false)) (x := false)) mid_le_done) at_le_mid
  | false =>
    exact LexSpec.tri_pre (LexSpec.tri_post (inl_scans (scans_append (scans_append (scans_append (scans_append
      (scans_text (t := c!"typedef ") (ls := [.word c!"typedef"]) (b := false) (x := false) (by decide))
      (scans_wordMid ht)) (scans_space false)) (scans_word hn false)) (scans_punct (by decide) false)) (x := false)) mid_le_done) at_le_mid

/-- The alias that gives an enum its size. -/
theorem seg_tagSize (ho : OptsFine c R D) {p name : Str} (hp : Ident R.attrs p) (hn : Ident R.attrs name) (hd : c23 ∈ D) :
    Seg wc R on D .done
      [.newLine, .text c!"#if __STDC_VERSION__ >= 202311L", .newLine,
       .text (c!"typedef" ++ c!" enum " ++ name ++ c!" " ++ name ++ c!";"), .newLine, .text c!"#else", .newLine,
       .text (c!"typedef" ++ c!" " ++ p ++ c!" " ++ name ++ c!";"), .newLine, .text c!"#endif // __STDC_VERSION__ >= 202311L"]
      (decls [.alias name (if on c23 then .base false (some .enum) name [] else .base false none p [])]) .done := by
  have t1 : LexSpec.Tri wc .at [.text c!"#if __STDC_VERSION__ >= 202311L"] (dirToks [.word c!"if", .word c!"__STDC_VERSION__", .punct '>',
    .punct '=', .word c!"202311L"]) .done := tri_directive (t := c!"if __STDC_VERSION__ >= 202311L") (b := true) (by decide)
  have t2 := tri_aliasText (wc := wc) true hn.word hn.word
  have t3 : LexSpec.Tri wc .at [.text c!"#else"] (dirToks [.word c!"else"]) .done := tri_directive (t := c!"else") (b := true) (by decide)
  have t4 := tri_aliasText (wc := wc) false hp.word hn.word
  have t5 : LexSpec.Tri wc .at [.text c!"#endif // __STDC_VERSION__ >= 202311L"] (dirToks [.word c!"endif"]) .done := tri_endif rfl
  have nl : LexSpec.Tri wc .done [.newLine] [] .at := LexSpec.tri_newLine
  have t6 := LexSpec.tri_append (LexSpec.tri_append (LexSpec.tri_append (LexSpec.tri_append (LexSpec.tri_append nl t1) (LexSpec.tri_append nl t2))
    (LexSpec.tri_append nl t3)) (LexSpec.tri_append nl t4)) (LexSpec.tri_append nl t5)
  have a1 := adds_groupElse (opens_c23 (on := on) hd) (adds_alias (R := R) (D := D) (declared_named ho.toReadFine (some .enum) hn hn))
    (adds_alias (declared_named ho.toReadFine none hp hn))
  have e1 : (if on c23 = true then decls [.alias name (CTy.base false (some .enum) name []).forgetFnPtr]
      else decls [.alias name (CTy.base false none p []).forgetFnPtr]) =
      decls [.alias name (if on c23 then .base false (some .enum) name [] else .base false none p [])] := by
    cases on c23 <;> rfl
  rw [e1] at a1
  refine ⟨_, tri_ops (LexSpec.tri_eq t6 ?_) (by simp), a1⟩
  simp

theorem seg_tagEnumC (ho : OptsFine e.cfg R D) {x : EnumItem} (hx : EnumGood R on D e x) :
    Seg wc R on D .at (tagEnumOps e x) (tagEnumOut e on x) .done := by
  cases hsz : x.size e.cfg with
  | none => exact tri_plainEnum ho hx hsz
  | some p =>
    obtain ⟨hp, g1, g2⟩ := hx.size p hsz
    obtain ⟨ls, h1, h2⟩ := seg_sizedEnum (wc := wc) ho hx hsz
    obtain ⟨ks, h3, h4⟩ := seg_tagSize (wc := wc) (on := on) ho hp hx.name g1
    have hm : WOp.newLine ∈ tagEnumHead e.cfg x ++ (e.cfg.opn ++ enumeratorsOps e x.variants ++ tagEnumClose e.cfg x) := by
      have : tagEnumHead e.cfg x = [.text c!"enum"] ++ optText (x.annotations.deprecatedNote e.cfg .enum) (c!" " ++ ·) ++
        [.text (c!" " ++ x.tagName), .newLine, .text (c!"#if " ++ typedEnumCond e.cfg), .newLine,
         .text (c!"  : " ++ p), .newLine, .text (c!"#endif // " ++ typedEnumCond e.cfg), .newLine] := by
        unfold tagEnumHead; rw [ho.lang, hsz]
      rw [this]; simp
    have eo : tagEnumOut e on x = decls [.enumeration (attrToks [x.annotations.deprecatedNote e.cfg .enum]) (some x.tagName)
        (if typedEnum e.cfg on then some (.base false none p []) else none) none (enumeratorsOf e on x.variants)] ++
        whenOut (!(e.cfg.cppCompatibleC && on cplusplus))
          (decls [.alias x.tagName (if on c23 then .base false (some .enum) x.tagName [] else .base false none p [])]) := by
      unfold tagEnumOut; rw [if_neg (by rw [ho.lang]; nofun)]; simp only [hsz]
    rw [eo]
    have es : tagEnumOps e x = tagEnumHead e.cfg x ++ (e.cfg.opn ++ enumeratorsOps e x.variants ++ tagEnumClose e.cfg x) ++
        (onlyIf e.cfg.cppCompatibleC [.newLineIfNotStart, .text c!"#ifndef __cplusplus"] ++
         [.newLine, .text c!"#if __STDC_VERSION__ >= 202311L", .newLine,
          .text (c!"typedef" ++ c!" enum " ++ x.tagName ++ c!" " ++ x.tagName ++ c!";"), .newLine, .text c!"#else", .newLine,
          .text (c!"typedef" ++ c!" " ++ p ++ c!" " ++ x.tagName ++ c!";"), .newLine, .text c!"#endif // __STDC_VERSION__ >= 202311L"] ++
         onlyIf e.cfg.cppCompatibleC [.newLineIfNotStart, .text c!"#endif // __cplusplus"]) := by
      simp [tagEnumOps, hsz, tagSizeOps, ho.lang, enumStream_c ho.lang, onlyIf, Language.typedefText]
    rw [es]
    cases hc : e.cfg.cppCompatibleC with
    | false =>
      refine ⟨_, tri_ops (LexSpec.tri_append h1 h3) (by simp [onlyIf]), ?_⟩
      simpa [whenOut] using adds_append h2 h4
    | true =>
      have t1 : LexSpec.Tri wc .at [.text c!"#ifndef __cplusplus"] (dirToks [.word c!"ifndef", .word cplusplus]) .done :=
        tri_directive (t := c!"ifndef __cplusplus") (b := true) (by decide)
      have t2 : LexSpec.Tri wc .at [.text c!"#endif // __cplusplus"] (dirToks [.word c!"endif"]) .done := tri_endif rfl
      have t3 := LexSpec.tri_append (LexSpec.tri_append (LexSpec.tri_newLineLater h1 hm) t1) h3
      have t4 := LexSpec.tri_append (LexSpec.tri_newLineLater t3 (by simp)) t2
      refine ⟨_, tri_ops t4 (by simp [onlyIf]), ?_⟩
      have := adds_append h2 (adds_group (opens_ifndef (on := on) g2) h4)
      simpa using this

/-- The definition of an `enum class` of C++. -/
theorem adds_enumClass (hx : R.cxx = true) {attrs : List Lx} {name : Str}
    (ha : isAttrs R.macros .out attrs = true) (hp : attrs.all isPlainTok = true) (ht : name ∉ R.macros)
    {ls rest : List Lx} {values : List Enumerator} (hs : linkStart R (rest.map .tok) = false) (hg : Grow R on D ls (rest.map .tok))
    (hr : readAll (readEnumerator R) (splitCommas [] rest) = some values) {more : List Lx} (hmp : more.all isPlainTok = true)
    {ty : Option CTy} (hmore : more = [] ∧ ty = none ∨ ∃ p t, more = [.punct ':', .word p] ∧ ty = some t ∧
      readTyped R.attrs [.word p] = some t) :
    Adds R on D ([.word c!"enum", .word c!"class"] ++ attrs ++ [.word name] ++ more ++ ([.punct '{'] ++ ls ++ [.punct '}']) ++ [.punct ';'])
      (decls [.enumClass attrs name ty values]) := by
  have h := adds_definition (R := R) (on := on) (D := D) (name := none) (kw := c!"enum") (attrs := .word c!"class" :: attrs) (tag := some name)
    ⟨_, rfl⟩ (by simpa [isPlainTok] using hp) (grow_braced hs hg) (grow_toks hmp) (i := .enumClass attrs name ty values) (by
      have hk : tagKind c!"enum" = some .enum := by decide
      rcases hmore with ⟨rfl, rfl⟩ | ⟨p, t, rfl, rfl, hty⟩
      · have hl := lead_word ha (tag := some name) (by rintro t ⟨⟩; exact ht) [] rfl rfl
        simp only [List.append_nil, optWord] at hl ⊢
        simp only [List.cons_append, readDefinition, hk, hx, Option.isSome_none, optWord, readAlias, startsWith, decide_true, Bool.and_self,
          if_true, List.drop_one, List.tail_cons, readEnumClass, hl, cutAt, hr]
        rfl
      · have hl := lead_word ha (tag := some name) (by rintro t ⟨⟩; exact ht) [.punct ':', .word p] rfl (lead_none rfl)
        have hcut : cutAt ':' (optWord (some name) ++ [.punct ':', .word p]) = ([.word name], some [.word p]) := rfl
        simp only [List.cons_append, List.append_assoc, readDefinition, hk, hx, Option.isSome_none, readAlias, startsWith, decide_true, Bool.and_self,
          if_true, List.drop_one, List.tail_cons, readEnumClass, hl, hcut, hr]
        show Option.map (fun t => CItem.enumClass attrs name (some t) values) (readTyped R.attrs [.word p]) = _
        rw [hty]
        rfl)
  simpa [headToks, optWord] using h

theorem startsWith_attrs {attrs rest : List Lx} (ha : isAttrs R.macros .out attrs = true) (hm : c!"class" ∉ R.macros)
    (hr : startsWith c!"class" rest = false) : startsWith c!"class" (attrs ++ rest) = false := by
  cases attrs with
  | nil => exact hr
  | cons l ls =>
    cases l with
    | word w =>
      rw [List.cons_append, startsWith, decide_eq_false_iff_not]
      rintro rfl
      simp [isAttrs, isMacro, hm] at ha
    | _ => rfl

/-- The enum of the tags in C++. -/
theorem seg_tagEnumCxx (ho : ReadFine e.cfg R D) (hl : e.cfg.language = .cxx) {x : EnumItem} (hx : EnumGood R on D e x) :
    Seg wc R on D .at (tagEnumOps e x) (decls [cxxTagEnum e on x]) .done := by
  obtain ⟨_, p2, p3, _⟩ := hx.plain hl
  have hcx : R.cxx = true := by rw [ho.cxx, hl]; rfl
  obtain ⟨ls, h1, h2⟩ := grow_enumerators (wc := wc) (on := on) ho x.variants hx.variants
  have hw := hx.name.word
  have ha := LexSpec.tri_append (tri_optSpaceAttr (wc := wc) p3) (tri_optSpaceAttr (wc := wc) hx.attrs)
  have a2 : LexSpec.Tri wc (.mid false true) [.text (c!" " ++ x.tagName)] [.word x.tagName] (.mid false true) :=
    LexSpec.tri_anyText (spaces_mid false true) (scans_append (scans_pre (scans_space false) mid_le_any) (scans_word hw false))
  have a3 : LexSpec.Tri wc (.mid false true) (optText (x.size e.cfg) (c!" : " ++ ·))
      (((x.size e.cfg).map fun p => [Lx.punct ':', .word p]).getD []) (.mid false true) := by
    cases hsz : x.size e.cfg with
    | none => exact LexSpec.tri_nil
    | some p =>
      exact inl_scans (scans_append (ls := [.punct ':'])
        (scans_text (t := c!" : ") (ls := [.punct ':']) (b := true) (x := false) (by decide)) (scans_wordMid (hx.size p hsz).1.word))
  obtain ⟨h4, h5⟩ := attr_toks (os := [mustUseText x.annotations e.cfg.enumeration.mustUse, x.annotations.deprecatedNote e.cfg .enum])
    (by simpa using ⟨p3, hx.attrs⟩)
  have e1 : tagEnumOps e x = [.text (if e.cfg.enumClass x.annotations then c!"enum class" else c!"enum")] ++
      (optText (mustUseText x.annotations e.cfg.enumeration.mustUse) (c!" " ++ ·) ++
       optText (x.annotations.deprecatedNote e.cfg .enum) (c!" " ++ ·)) ++
      [.text (c!" " ++ x.tagName)] ++ optText (x.size e.cfg) (c!" : " ++ ·) ++ e.cfg.opn ++ enumeratorsOps e x.variants ++ e.cfg.cls true := by
    have b1 : tagEnumClose e.cfg x = e.cfg.cls true := by simp [tagEnumClose, hl]
    have b2 : tagSizeOps e.cfg x (x.size e.cfg) = [] := by
      cases x.size e.cfg <;> simp [tagSizeOps, OutConfig.cppCompatibleC, hl, onlyIf]
    have b3 : tagEnumHead e.cfg x = [.text (if e.cfg.enumClass x.annotations then c!"enum class" else c!"enum")] ++
        mustUseOps e.cfg x.annotations e.cfg.enumeration.mustUse ++ optText (x.annotations.deprecatedNote e.cfg .enum) (c!" " ++ ·) ++
        [.text (c!" " ++ x.tagName)] ++ optText (x.size e.cfg) (c!" : " ++ ·) := by
      unfold tagEnumHead; rw [hl]
    simp only [tagEnumOps, b1, b2, b3, p2, mustUse_ops ho.text, List.append_nil, List.append_assoc]
  rw [e1]
  have hty : (((x.size e.cfg).map fun p => [Lx.punct ':', .word p]).getD []) = [] ∧ ((x.size e.cfg).map fun p => CTy.base false none p []) = none ∨
      ∃ p t, (((x.size e.cfg).map fun p => [Lx.punct ':', .word p]).getD []) = [.punct ':', .word p] ∧
        ((x.size e.cfg).map fun p => CTy.base false none p []) = some t ∧ readTyped R.attrs [.word p] = some t := by
    cases hsz : x.size e.cfg with
    | none => exact .inl ⟨rfl, rfl⟩
    | some p => exact .inr ⟨p, _, rfl, rfl, typed_word ho (hx.size p hsz).1⟩
  have hmp : (((x.size e.cfg).map fun p => [Lx.punct ':', .word p]).getD []).all isPlainTok = true := by
    cases x.size e.cfg <;> rfl
  unfold cxxTagEnum
  cases hec : e.cfg.enumClass x.annotations with
  | true =>
    have a1 : LexSpec.Tri wc (.mid false false) [.text c!"enum class"] [.word c!"enum", .word c!"class"] (.mid false true) := inl_text (by decide)
    have h6 := LexSpec.tri_append (LexSpec.tri_append (LexSpec.tri_append (LexSpec.tri_append (LexSpec.tri_append (LexSpec.tri_append a1 ha) a2) a3)
      (tri_open ho.text)) h1) (tri_cls ho.text (semi := true))
    have h7 := adds_enumClass hcx h4 h5 (free_ident ho.dialect hx.name) (enumerators_start x.variants hx.variants) h2
      (read_enumerators x.variants hx.variants) hmp hty
    refine ⟨_, LexSpec.tri_pre (LexSpec.tri_post h6 mid_le_done) at_le_mid, ?_⟩
    simpa [attrToks] using h7
  | false =>
    have a1 : LexSpec.Tri wc (.mid false false) [.text c!"enum"] [.word c!"enum"] (.mid false true) := inl_text (by decide)
    have h6 := LexSpec.tri_append (LexSpec.tri_append (LexSpec.tri_append (LexSpec.tri_append (LexSpec.tri_append (LexSpec.tri_append a1 ha) a2) a3)
      (tri_open ho.text)) h1) (tri_cls ho.text (semi := true))
    have h7 := adds_enum (name := none) (tag := some x.tagName) h4 h5 (by rintro t ⟨⟩; exact free_ident ho.dialect hx.name)
      (enumerators_start x.variants hx.variants) h2 (read_enumerators x.variants hx.variants) (grow_toks hmp) hty (fun _ => by
        rw [List.append_assoc]
        refine startsWith_attrs h4 (ho.dialect.reserved hcx _ (.head _)).2 ?_
        simpa [optWord, startsWith] using not_class ho.dialect hx.name hcx)
    refine ⟨_, LexSpec.tri_pre (LexSpec.tri_post h6 mid_le_done) at_le_mid, ?_⟩
    simpa [attrToks, headToks, optWord] using h7

theorem ReadFine.lang_cases (ho : ReadFine c R D) : c.language = .c ∨ c.language = .cxx := by
  have := ho.text
  cases h : c.language with
  | cython => exact absurd h this
  | c => exact .inl rfl
  | cxx => exact .inr rfl

theorem ReadFine.opts (ho : ReadFine c R D) (hl : c.language = .c) : OptsFine c R D := { ho with lang := hl }

theorem seg_tagEnum (ho : ReadFine e.cfg R D) {x : EnumItem} (hx : EnumGood R on D e x) :
    Seg wc R on D .at (tagEnumOps e x) (tagEnumOut e on x) .done := by
  rcases ho.lang_cases with hl | hl
  · exact seg_tagEnumC (ho.opts hl) hx
  · have := seg_tagEnumCxx (wc := wc) ho hl hx
    unfold tagEnumOut
    rw [if_pos hl]
    exact this

/-! ## Enums with data -/

theorem seg_variantDef (ho : ReadFine e.cfg R D) {v : EnumVariant} (h : PayloadGood R on D e v) :
    Seg wc R on D .done (variantDef e v) (bodyOut R e on v) .done := by
  have nl : LexSpec.Tri wc .done [.newLine, .newLine] [] .at :=
    LexSpec.tri_append (ls := []) LexSpec.tri_newLine (LexSpec.tri_pre LexSpec.tri_newLine at_le_done)
  cases hb : v.body with
  | empty a => simp only [variantDef, bodyOut, hb]; exact seg_nil
  | body name b inl ic =>
    cases inl with
    | true => simp only [variantDef, bodyOut, hb]; exact seg_nil
    | false =>
      simp only [PayloadGood, hb, Bool.false_eq_true, if_false] at h
      have h1 := seg_left nl (seg_cond ho.toCondsFine v.cfg (seg_struct (wc := wc) ho h.2))
      have hn : (e.cfg.language != .cython) = true := by simpa using ho.text
      simp only [variantDef, bodyOut, hb, notCython, onlyIf, hn, if_true]
      simpa using h1

theorem seg_variantDefs (ho : ReadFine e.cfg R D) : ∀ (vs : List EnumVariant), (∀ v ∈ vs, PayloadGood R on D e v) →
    Seg wc R on D .done (vs.flatMap (variantDef e)) (outs (vs.map (bodyOut R e on))) .done
  | [], _ => seg_nil
  | v :: vs, h => by
    rw [List.flatMap_cons]
    exact seg_append (seg_variantDef ho (h v (by simp))) (seg_variantDefs ho vs fun x hx => h x (by simp [hx]))

/-- A member with a named type. -/
theorem seg_named (ho : ReadFine c R D) (k : Option DeclKind) {ty name : Str} (ht : Ident R.attrs ty) (hn : Ident R.attrs name)
    (hk : k = none ∨ k = some .struct ∨ k = some .enum) :
    Seg wc R on D .at [.text ((k.elim [] fun k => k.word ++ c!" ") ++ ty ++ c!" " ++ name ++ c!";")]
      (decls [.object false [] name (.base false k ty []) []]) .done := by
  have hd := declared_named ho k ht hn
  have h1 := object_decl (ext := false) (pre := []) (post := []) (bits := none) hd rfl rfl nofun
  simp only [List.nil_append, List.append_nil, Option.elim_none, Option.getD_none] at h1
  refine ⟨namedToks k ty name ++ [.punct ';'], ?_, ?_⟩
  · have w : ∀ {s : Str}, Scans (.mid false false) s (k.toList.map fun k => Lx.word k.word) (.mid false false) →
        LexSpec.Tri wc .at [.text (s ++ ty ++ c!" " ++ name ++ c!";")] (namedToks k ty name ++ [.punct ';']) .done := by
      intro s hs
      refine LexSpec.tri_eq (LexSpec.tri_pre (LexSpec.tri_post (inl_scans (scans_append (scans_append (scans_append (scans_append hs
        (scans_wordMid ht.word)) (scans_space false)) (scans_word hn.word false)) (scans_punct (by decide) false)) (x := false)) mid_le_done) at_le_mid) ?_
      simp [namedToks]
    apply w
    rcases hk with rfl | rfl | rfl
    · exact scans_text (by decide)
    · exact scans_text (by decide)
    · exact scans_text (by decide)
  · refine adds_semi (grow_toks (by simpa using hd.plain)) (ordinary_toks hd.start) ?_
    rw [declarationC, plainToks_toks]
    simp only []
    rw [readPlain_object hd.start, h1]
    rfl

/-- A struct or union without a name. -/
theorem seg_anon (ho : ReadFine c R D) {kw : Str} {k : DeclKind} (hkw : Word kw) (hk : tagKind kw = some k) (hne : k ≠ .enum)
    {inner : List WOp} {xs : List CItem} (hi : Seg wc R on D .at inner (decls xs) .done) :
    Seg wc R on D .at ([.text kw] ++ (c.opn ++ inner ++ c.cls true)) (decls [.record k [] none none xs]) .done := by
  obtain ⟨ls, h1, h2⟩ := hi
  have h3 := LexSpec.tri_append (LexSpec.tri_append (LexSpec.tri_append (inl_word (wc := wc) (d := false) hkw) (tri_open ho.text)) h1)
    (tri_cls ho.text (semi := true))
  have h4 := adds_record (name := none) (attrs := []) (tag := none) hk hne rfl rfl nofun h2
  refine ⟨_, tri_ops (LexSpec.tri_pre (LexSpec.tri_post h3 mid_le_done) at_le_mid) (by simp), ?_⟩
  simpa [headToks, optWord] using h4

theorem seg_variantField (ho : ReadFine e.cfg R D) {v : EnumVariant} (h : PayloadGood R on D e v) (x : EnumItem) {ops : List WOp}
    (hv : variantField e.cfg x v = some ops) : Seg wc R on D .at ops (decls (payloadOf e.cfg on v)) .done := by
  cases hb : v.body with
  | empty a => simp [variantField, hb] at hv
  | body name b inl ic =>
    have key : Seg wc R on D .at (if inl then inlineFields e.cfg x b.fields
          else if hasName e.cfg.style || e.cfg.language == .cython then [.text (b.exportName ++ c!" " ++ name ++ c!";")]
          else [.text (c!"struct " ++ b.exportName ++ c!" " ++ name ++ c!";")])
        (decls [if inl then .record .struct [] none none (membersOf e.cfg on b.fields)
          else .object false [] name (.base false (if hasName e.cfg.style then none else some .struct) b.exportName []) []]) .done := by
      cases inl with
      | true =>
        simp only [PayloadGood, hb, if_true] at h
        simp only [if_true]
        have e2 : inlineFields e.cfg x b.fields = [.text c!"struct"] ++ (e.cfg.opn ++
            verticalList (.cap c!";") (b.fields.map (Field.ops e.cfg)) ++ e.cfg.cls true) := by
          unfold inlineFields
          cases hl : e.cfg.language with
          | cython => exact absurd hl ho.text
          | _ => rfl
        rw [e2]
        exact seg_anon (kw := c!"struct") ho ⟨by decide, by decide⟩ rfl nofun (seg_members ho h)
      | false =>
        simp only [PayloadGood, hb, Bool.false_eq_true, if_false] at h
        have hn : (e.cfg.language == .cython) = false := by simpa using ho.text
        simp only [Bool.false_eq_true, if_false, hn, Bool.or_false]
        cases hasName e.cfg.style with
        | true => exact seg_named ho none h.2.name h.1 (.inl rfl)
        | false => exact seg_named ho (some .struct) h.2.name h.1 (.inr (.inl rfl))
    have h1 := seg_cond ho.toCondsFine v.cfg key
    have hn : (e.cfg.language != .cython) = true := by simpa using ho.text
    simp only [variantField, hb, notCython, hn, onlyIf, if_true, Option.some.injEq] at hv
    subst hv
    have e1 : whenOut (shown e.cfg on v.cfg) (decls [if inl then .record .struct [] none none (membersOf e.cfg on b.fields)
          else .object false [] name (.base false (if hasName e.cfg.style then none else some .struct) b.exportName []) []]) =
        decls (payloadOf e.cfg on v) := by
      simp only [payloadOf, hb, whenOut]
      cases shown e.cfg on v.cfg <;> rfl
    rw [e1] at h1
    simpa [hasName_eq] using h1

theorem payload_none {v : EnumVariant} {x : EnumItem} (hv : variantField c x v = none) : payloadOf c on v = [] := by
  cases hb : v.body with
  | empty a => simp [payloadOf, hb]
  | body name b inl ic => simp [variantField, hb] at hv

theorem seg_variantFields (ho : ReadFine e.cfg R D) (x : EnumItem) (vs : List EnumVariant) (h : ∀ v ∈ vs, PayloadGood R on D e v) :
    Seg wc R on D .at (spacedBlocks (vs.filterMap (variantField e.cfg x))) (decls (vs.flatMap (payloadOf e.cfg on))) .done := by
  have rest : ∀ (vs : List EnumVariant), (∀ v ∈ vs, PayloadGood R on D e v) →
      Seg wc R on D .done ((vs.filterMap (variantField e.cfg x)).flatMap fun b => [.newLine] ++ b)
        (decls (vs.flatMap (payloadOf e.cfg on))) .done := by
    intro vs h
    induction vs with
    | nil => exact seg_nil
    | cons v vs ih =>
      have ih := ih fun y hy => h y (by simp [hy])
      rw [List.flatMap_cons, ← decls_append]
      cases hv : variantField e.cfg x v with
      | none =>
        rw [List.filterMap_cons_none hv, payload_none hv]
        exact ih
      | some ops =>
        rw [List.filterMap_cons_some hv, List.flatMap_cons]
        exact seg_append (seg_left LexSpec.tri_newLine (seg_variantField ho (h v (by simp)) x hv)) ih
  induction vs with
  | nil => exact seg_post seg_nil at_le_done
  | cons v vs ih =>
    cases hv : variantField e.cfg x v with
    | none =>
      rw [List.filterMap_cons_none hv, List.flatMap_cons, payload_none hv]
      exact ih fun y hy => h y (by simp [hy])
    | some ops =>
      rw [List.filterMap_cons_some hv, List.flatMap_cons, ← decls_append]
      exact seg_append (seg_variantField ho (h v (by simp)) x hv) (rest vs fun y hy => h y (by simp [hy]))

theorem tagInside_eq (x : EnumItem) : x.inlineTag = tagInside x := by
  unfold EnumItem.inlineTag tagInside
  cases x.repr.style <;> rfl

/-- The members of the data. -/
theorem seg_dataMembers (ho : ReadFine e.cfg R D) {x : EnumItem} (hn : Ident R.attrs x.tagName) (ht : Ident R.attrs c!"tag")
    (h : ∀ v ∈ x.variants, PayloadGood R on D e v) :
    Seg wc R on D .at (tagFieldOps e.cfg x ++ [.newLine] ++ variantUnion e.cfg x) (decls (dataMembers e.cfg on x)) .done := by
  have h0 : Seg wc R on D .at (onlyIf (e.cfg.language == .c && (x.size e.cfg).isNone && !e.cfg.style.generateTypedef) [.text c!"enum "] ++
        [.text (x.tagName ++ c!" tag;")]) (decls [tagMember e.cfg x]) .done := by
    unfold tagMember
    rw [hasName_eq]
    cases hk : e.cfg.language == .c && (x.size e.cfg).isNone && !hasName e.cfg.style with
    | false =>
      have := seg_named (wc := wc) (on := on) ho none hn ht (.inl rfl)
      simpa [onlyIf] using this
    | true =>
      have hd := declared_named ho (some .enum) hn ht
      have h1 := object_decl (ext := false) (pre := []) (post := []) (bits := none) hd rfl rfl nofun
      simp only [List.nil_append, List.append_nil, Option.elim_none, Option.getD_none] at h1
      have t1 : Inl wc false false [.text c!"enum "] [.word c!"enum"] false := inl_text (by decide)
      have t2 : LexSpec.Tri wc (.mid false false) [.text (x.tagName ++ c!" tag;")] [.word x.tagName, .word c!"tag", .punct ';'] (.mid false false) :=
        inl_scans (scans_append (scans_wordMid hn.word) (scans_text (ls := [.word c!"tag", .punct ';']) (by decide)))
      refine ⟨namedToks (some .enum) x.tagName c!"tag" ++ [.punct ';'], ?_, ?_⟩
      · have t3 := LexSpec.tri_append t1 t2
        exact LexSpec.tri_pre (LexSpec.tri_post t3 mid_le_done) at_le_mid
      · refine adds_semi (grow_toks (by simpa using hd.plain)) (ordinary_toks hd.start) ?_
        rw [declarationC, plainToks_toks]
        simp only []
        rw [readPlain_object hd.start, h1]
        rfl
  have h1 : Seg wc R on D .at (tagFieldOps e.cfg x) (decls [tagPart e.cfg x]) .done := by
    unfold tagFieldOps tagPart
    rw [tagInside_eq]
    by_cases hp : e.cfg.language = .cxx ∧ tagInside x = true
    · rw [if_pos hp, if_pos (by simp [hp.1, hp.2])]
      exact seg_anon (kw := c!"struct") ho ⟨by decide, by decide⟩ rfl nofun h0
    · rw [if_neg hp, if_neg (by simpa [and_comm] using hp)]
      exact h0
  have h2 : Seg wc R on D .at (variantUnion e.cfg x) (decls (if tagInside x then x.variants.flatMap (payloadOf e.cfg on)
     else [.record .union [] none none (x.variants.flatMap (payloadOf e.cfg on))])) .done := by
    have h3 := seg_variantFields (wc := wc) ho x x.variants h
    have hn : (e.cfg.language == .cython) = false := by simpa using ho.text
    unfold variantUnion variantFieldsOps
    rw [hn, Bool.or_false, tagInside_eq]
    cases tagInside x with
    | true => exact h3
    | false => exact seg_anon (kw := c!"union") ho ⟨by decide, by decide⟩ rfl nofun h3
  have := seg_append (seg_right h1 LexSpec.tri_newLine) h2
  rw [decls_append] at this
  exact this

theorem tri_dataAttrs (ho : ReadFine c R D) {x : EnumItem} (h : ∀ o ∈ dataAttrs c x, OptAttr R o) :
    LexSpec.Tri wc (.mid false true) (mustUseOps c x.annotations c.structure_.mustUse ++
      optText (x.annotations.deprecatedNote c .struct) (fun n => c!" " ++ n ++ c!" ")) (attrToks (dataAttrs c x)) (.mid false true) := by
  simp only [dataAttrs, List.mem_cons, List.not_mem_nil, or_false, forall_eq_or_imp, forall_eq] at h
  rw [mustUse_ops ho.text, dataAttrs, attrToks_cons]
  refine LexSpec.tri_append (tri_optSpaceAttr h.1) ?_
  cases hn : x.annotations.deprecatedNote c .struct with
  | none => exact LexSpec.tri_nil
  | some s =>
    have hs := h.2 s hn
    obtain ⟨ls, h1, _, _⟩ := hs
    refine LexSpec.tri_eq (LexSpec.tri_anyText (spaces_mid false true) (scans_append (scans_append
      (scans_pre (scans_space false) mid_le_any) h1) (scans_post (scans_space false) gap_le_mid))) ?_
    simp [attrToks, toks_gap h1]

theorem bare_body {v : EnumVariant} (h : VBody.bare v.body = true) : bodyOut R e on v = decls (bodyOut R e on v).items := by
  unfold bodyOut
  cases hb : v.body with
  | empty a => rfl
  | body n b inl ic =>
    cases inl with
    | true => rfl
    | false =>
      simp only [hb, VBody.bare, List.isEmpty_iff] at h
      simp only [structOut, assocOut, h]
      unfold whenOut
      cases shown e.cfg on v.cfg <;> cases shown e.cfg on b.cfg <;> rfl

theorem bare_bodies : ∀ {vs : List EnumVariant}, (∀ v ∈ vs, VBody.bare v.body = true) →
    outs (vs.map (bodyOut R e on)) = decls (outs (vs.map (bodyOut R e on))).items
  | [], _ => rfl
  | v :: vs, h => by
    have h1 := bare_body (R := R) (e := e) (on := on) (h v (by simp))
    have h2 := bare_bodies (vs := vs) fun x hx => h x (by simp [hx])
    show bodyOut R e on v ++ outs (vs.map (bodyOut R e on)) = _
    conv => lhs; rw [h1, h2, decls_append]
    rfl

theorem seg_dataEnum (ho : ReadFine e.cfg R D) (hl : e.cfg.language = .cxx) {x : EnumItem} (hx : EnumGood R on D e x) (ht : x.tag.isSome = true) :
    Seg wc R on D .at (openDataHead e.cfg x ++
        (e.cfg.opn ++ (preBodyOps e.cfg x.path ++ tagEnumOps e x ++ x.variants.flatMap (variantDef e) ++
          [.newLine, .newLine] ++ dataBody e.cfg x) ++ closeDef e.cfg x.exportName))
      (decls [cxxDataOf R e on x]) .done := by
  have nl : LexSpec.Tri wc .done [.newLine, .newLine] [] .at :=
    LexSpec.tri_append (ls := []) LexSpec.tri_newLine (LexSpec.tri_pre LexSpec.tri_newLine at_le_done)
  obtain ⟨g1, g2, g3, g4, g5⟩ := hx.data ht
  obtain ⟨p2, p3⟩ := (hx.plain hl).2.2.2 ht
  have h1 := seg_tagEnumCxx (wc := wc) ho hl hx
  have h2 := seg_variantDefs (wc := wc) ho x.variants g4
  have h3 := seg_dataMembers (wc := wc) ho hx.name g5 g4
  rw [bare_bodies p3] at h2
  have h4 := seg_append h1 (seg_append h2 (seg_left nl h3))
  rw [decls_append, decls_append] at h4
  have h5 : Seg wc R on D (.mid false false) _ (decls [cxxDataOf R e on x]) (.mid false false) :=
    seg_record (wc := wc) (kw := if tagInside x then c!"union" else c!"struct") (k := if tagInside x then .union else .struct) ho
      (by cases tagInside x <;> exact ⟨by decide, by decide⟩) (by cases tagInside x <;> rfl) (by cases tagInside x <;> nofun)
      g1 g2 (tri_dataAttrs ho g2) g3 h4
  have e1 : dataWord e.cfg = onlyIf e.cfg.genTypedef [.text c!"typedef "] := by
    unfold dataWord; rw [hl, genTypedef_eq, hl]; rfl
  have h6 := seg_pre (seg_post h5 mid_le_done) at_le_mid
  simp only [openDataHead, dataBody, tagInside_eq, e1, p2, List.append_nil, List.append_assoc] at h6 ⊢
  exact h6

theorem seg_enum (ho : ReadFine e.cfg R D) {x : EnumItem} (hx : EnumGood R on D e x) :
    Seg wc R on D .at (emitEnum e x) (enumOut R e on x) .done := by
  have nl : LexSpec.Tri wc .done [.newLine, .newLine] [] .at :=
    LexSpec.tri_append (ls := []) LexSpec.tri_newLine (LexSpec.tri_pre LexSpec.tri_newLine at_le_done)
  have h1 := seg_tagEnum (wc := wc) ho hx
  have key : Seg wc R on D .at (match x.tag, e.cfg.language with
      | none, _ => tagEnumOps e x
      | some _, .cxx =>
        openDataHead e.cfg x ++
        (e.cfg.opn ++ (preBodyOps e.cfg x.path ++ tagEnumOps e x ++ x.variants.flatMap (variantDef e) ++
          [.newLine, .newLine] ++ dataBody e.cfg x) ++ closeDef e.cfg x.exportName)
      | some _, _ =>
        tagEnumOps e x ++ x.variants.flatMap (variantDef e) ++ [.newLine, .newLine] ++
        openDataHead e.cfg x ++
        (e.cfg.opn ++ (preBodyOps e.cfg x.path ++ dataBody e.cfg x) ++ closeDef e.cfg x.exportName))
      (if e.cfg.language = .cxx ∧ x.tag.isSome = true then decls [cxxDataOf R e on x] else
       tagEnumOut e on x ++ if x.tag.isSome then outs (x.variants.map (bodyOut R e on)) ++ decls [dataOf R e.cfg on x] else {}) .done := by
    cases ht : x.tag with
    | none => simpa [Out.append_nil] using h1
    | some t =>
      rcases ho.lang_cases with hl | hl
      · rw [hl]
        obtain ⟨g1, g2, g3, g4, g5⟩ := hx.data (by rw [ht]; rfl)
        have h2 := seg_variantDefs (wc := wc) ho x.variants g4
        have h3 := seg_dataMembers (wc := wc) ho hx.name g5 g4
        have h4 : Seg wc R on D (.mid false false) _ (decls [dataOf R e.cfg on x]) (.mid false false) :=
          seg_record (wc := wc) (kw := if tagInside x then c!"union" else c!"struct") (k := if tagInside x then .union else .struct) ho
            (by cases tagInside x <;> exact ⟨by decide, by decide⟩) (by cases tagInside x <;> rfl) (by cases tagInside x <;> nofun)
            g1 g2 (tri_dataAttrs ho g2) g3 h3
        have h5 := seg_append h1 (seg_append h2 (seg_left nl (seg_pre (seg_post h4 mid_le_done) at_le_mid)))
        have e1 : dataWord e.cfg = onlyIf e.cfg.genTypedef [.text c!"typedef "] := by
          unfold dataWord; rw [hl, genTypedef_c hl, hasName_eq]
        have e2 : enumDataFunctions e.cfg x = [] := by simp [enumDataFunctions, hl, onlyIf]
        simp only [openDataHead, dataBody, tagInside_eq, e1, e2, List.append_nil, List.append_assoc, Option.isSome_some, if_true,
          reduceCtorEq, false_and, if_false] at h5 ⊢
        exact h5
      · have h2 := seg_dataEnum (wc := wc) ho hl hx (by rw [ht]; rfl)
        rw [hl, if_pos ⟨rfl, rfl⟩]
        exact h2
  have h5 := seg_cond ho.toCondsFine x.cfg (seg_left (tri_docs ho.text hx.doc) key)
  have ep : paramsOps e.cfg false x.genericParams = [] := paramsOps_nil (fun h => (hx.plain h).1) false
  unfold emitEnum enumOut
  simp only [ep, List.append_nil, List.append_assoc] at h5 ⊢
  exact h5

end

end Cbindgen.HeadSpec
