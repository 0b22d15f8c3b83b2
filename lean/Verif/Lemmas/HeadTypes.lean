import Verif.Lemmas.HeadTemplate

/-!
# Structs, unions, aliases, variables and functions, as the reader of headers finds them
-/

namespace Cbindgen.HeadSpec
open LexSpec CSpec PreSpec

section
variable {wc : WConfig} {e : Env} {c : OutConfig} {R : Dialect} {on : Str → Bool} {D : List Str}

theorem paramsOps_c (hl : c.language = .c) (b : Bool) (ps : List GParam) : paramsOps c b ps = [] := by
  simp [paramsOps, hl]

theorem paramsOps_nil (h : c.language = .cxx → ps = []) (b : Bool) : paramsOps c b ps = [] := by
  unfold paramsOps
  split
  · rename_i hx
    simp only [Bool.and_eq_true, beq_iff_eq] at hx
    rw [h hx.2] at hx
    simp at hx
  · rfl

theorem tri_align {o : Option ReprAlign} (h : OptAttr R (alignText c o)) :
    LexSpec.Tri wc (.mid false true) (alignOps c o) (attrToks [alignText c o]) (.mid false true) := by
  have := tri_optSpaceAttr (wc := wc) h
  have e : alignOps c o = optText (alignText c o) (c!" " ++ ·) := by
    unfold alignOps alignText
    cases o with
    | none => rfl
    | some a =>
      cases a with
      | packed => rfl
      | align n => cases c.layout.alignedN <;> simp [optText]
  rw [e]; exact this

theorem mustUse_ops (hl : c.language ≠ .cython) (a : Annotations) (o : Option Str) :
    mustUseOps c a o = optText (mustUseText a o) (c!" " ++ ·) := by
  have : (c.language != .cython) = true := by simpa using hl
  simp only [mustUseOps, mustUseText, Annotations.mustUseIn, this, onlyIf]
  cases a.mustUse <;> rfl

/-! ## Structs and unions -/

theorem seg_assocs (ho : ReadFine e.cfg R D) {s : StructItem} (hk : ∀ k ∈ s.assocConsts, ConstGood R D e (some s) k) :
    Seg wc R on D .done (assocOps e s) (assocOut e on s) .done := by
  unfold assocOps assocOut
  generalize hks : s.assocConsts = ks at hk
  clear hks
  induction ks with
  | nil => exact seg_nil
  | cons k ks ih =>
    rw [List.flatMap_cons, List.map_cons, outs, List.foldr_cons]
    exact seg_append (seg_left LexSpec.tri_newLine (seg_const ho (hk k (by simp)))) (ih fun x hx => hk x (by simp [hx]))

theorem seg_struct (ho : ReadFine e.cfg R D) {s : StructItem} (hs : StructGood R on D e s) :
    Seg wc R on D .at (emitStruct e s) (structOut R e on s) .done := by
  have hlang : e.cfg.language ≠ .cython := ho.text
  have h1 := seg_members (wc := wc) (on := on) ho hs.fields
  have ha := hs.attrs
  simp only [structAttrs, List.mem_cons, List.not_mem_nil, or_false, forall_eq_or_imp, forall_eq] at ha
  have h2 : LexSpec.Tri wc (.mid false true) (alignOps e.cfg s.alignment ++ mustUseOps e.cfg s.annotations e.cfg.structure_.mustUse ++
      optText (s.annotations.deprecatedNote e.cfg .struct) (c!" " ++ ·)) (attrToks (structAttrs e.cfg s)) (.mid false true) := by
    rw [mustUse_ops ho.text]
    refine LexSpec.tri_eq (LexSpec.tri_append (LexSpec.tri_append (tri_align ha.1) (tri_optSpaceAttr ha.2.1)) (tri_optSpaceAttr ha.2.2)) ?_
    simp [structAttrs, attrToks]
  have h3 := segDecl_record (wc := wc) (kw := c!"struct") ho ⟨by decide, by decide⟩ rfl nofun hs.name hs.attrs h2 hs.bodies h1
  have h3 : Seg wc R on D (.mid false false) _ (decls [structDecl R e.cfg on s]) (.mid false false) :=
    seg_templatedUnless ho (fun h => (hs.plain h).1) h3
  have h4 := seg_append (seg_left (tri_docs hlang hs.doc) (seg_pre (seg_post h3 mid_le_done) at_le_mid)) (seg_assocs ho hs.consts)
  have h5 := seg_cond ho.toCondsFine s.cfg h4
  have e0 : emitStruct e s = structOpsC e s := by
    unfold emitStruct; split
    · rename_i h; exact absurd h hlang
    · rfl
  rw [e0]
  have e1 : structBodyC e s = preBodyOps e.cfg s.path ++ verticalList (.cap c!";") (s.fields.map (Field.ops e.cfg)) ++
      postBodyOps e.cfg s.path := by
    have a1 : onlyIf (e.cfg.language == .cxx) (derivedOps e.cfg s) = [] := by
      cases hl : e.cfg.language == .cxx with
      | false => rfl
      | true => simp [onlyIf, derivedOps, (hs.plain (by simpa using hl)).2.1]
    have a2 : assocDeclOps e.cfg s = [] := by
      unfold assocDeclOps
      cases hl : e.cfg.language == .cxx with
      | false => rfl
      | true =>
        have := (hs.plain (by simpa using hl)).2.2
        cases h1 : (e.cfg.structure_.associatedConstantsInBody && e.cfg.allowStaticConst) with
        | false => simp only [Bool.true_and, h1, onlyIf]; rfl
        | true =>
          rw [h1] at this
          have : s.assocConsts = [] := by simpa using this
          simp [this, onlyIf]
    simp only [structBodyC, a1, a2, List.append_nil]
  simp only [structOpsC, e1, List.append_assoc, List.append_nil] at h5 ⊢
  exact h5

theorem seg_union (ho : ReadFine c R D) {u : UnionItem} (hu : UnionGood R on D c u) :
    Seg wc R on D .at (emitUnion c u) (unionOut R c on u) .done := by
  have hlang : c.language ≠ .cython := ho.text
  have h1 := seg_members (wc := wc) (on := on) ho hu.fields
  have h3 := segDecl_record (wc := wc) (kw := c!"union") ho ⟨by decide, by decide⟩ rfl nofun hu.name
    (os := [alignText c u.alignment]) (by simpa using hu.attrs) (tri_align hu.attrs) hu.bodies h1
  have h3 := seg_templated (b := false) ho hu.plain h3
  have h4 := seg_left (tri_docs hlang hu.doc) (seg_pre (seg_post h3 mid_le_done) at_le_mid)
  have h5 := seg_cond ho.toCondsFine u.cfg h4
  have e0 : emitUnion c u = unionOpsC c u := by
    unfold emitUnion; split
    · rename_i h; exact absurd h hlang
    · rfl
  rw [e0]
  simp only [unionOpsC, List.append_assoc, List.append_nil] at h5 ⊢
  exact h5

/-! ## Types that are not defined -/

/-- The tokens of a declaration with a named type, perhaps with a tag. -/
def namedToks (k : Option DeclKind) (ty name : Str) : List Lx :=
  k.toList.map (fun k => Lx.word k.word) ++ [.word ty, .word name]

theorem declared_named (ho : ReadFine c R D) (k : Option DeclKind) {ty name : Str} (ht : Ident R.attrs ty) (hn : Ident R.attrs name) :
    DeclaredAs R (namedToks k ty name) name (.base false k ty []) := by
  have hl : c.toDeclConfig.language ≠ .cython := ho.text
  have h := declared_build (q := false) ho.dialect (t := .path ty ty [] k) (i := name) (by simp [TyFine, GArgsFine, ht]) hn
    (by simp [NoVoidParam, NoVoidParamGArgs])
  have e1 : spells ((CDecl.buildType c.toDeclConfig (.path ty ty [] k) false).write c.toDeclConfig (some name)) = namedToks k ty name := by
    cases k <;>
      simp [CDecl.buildType, CDecl.write, CDecl.buildGArgs, CDecl.writeGArgList, constToks, ctypeToks, hl, identToks, CDecl.rightPart,
        leftPart, spells, spell, simpleToks_word ht.word, simpleToks_word hn.word, namedToks]
  have e2 : meaning c.toDeclConfig false (.path ty ty [] k) = .base false k ty [] := by
    simp [meaning, hl, meaningGArgs]
  rw [e1, e2] at h
  exact h

/-- An alias. -/
theorem decl_alias {ls : List Lx} {n : Str} {t : CTy} (h : DeclaredAs R ls n t) :
    Decl R on D (.word c!"typedef" :: ls ++ [.punct ';']) (.alias n t.forgetFnPtr) := by
  refine decl_semi (grow_toks (by simpa [isPlainTok] using h.plain)) (ordinary_head (fun _ => by decide) _ nofun) ?_
  obtain ⟨t', h1, h2⟩ := h.reads
  rw [declarationC, plainToks_toks]
  simp [readPlain, h1, h2]

theorem adds_alias {ls : List Lx} {n : Str} {t : CTy} (h : DeclaredAs R ls n t) :
    Adds R on D (.word c!"typedef" :: ls ++ [.punct ';']) (decls [.alias n t.forgetFnPtr]) :=
  (decl_alias h).adds

theorem seg_opaque (ho : ReadFine c R D) {o : OpaqueItem} (hg : OpaqueGood R c o) :
    Seg wc R on D .at (emitOpaque c o) (opaqueOut c on o) .done := by
  have hlang : c.language ≠ .cython := ho.text
  have hw := hg.name.word
  have key : SegDecl wc R on D (.mid false false) (if c.genTypedef then
        [.text (c!"typedef struct " ++ o.exportName ++ c!" " ++ o.exportName ++ c!";")]
      else [.text (c!"struct " ++ o.exportName ++ c!";")])
      (if c.language == .c && hasName c.style then .alias o.exportName (.base false (some .struct) o.exportName [])
            else .forward .struct o.exportName) (.mid false false) := by
    rw [genTypedef_eq]
    cases hb : c.language == .c && hasName c.style with
    | true =>
      simp only [if_true]
      have hl : c.language = .c := by simp only [Bool.and_eq_true, beq_iff_eq] at hb; exact hb.1
      refine ⟨_, ?_, decl_alias (declared_named ho (some .struct) hg.name hg.name)⟩
      exact inl_scans (scans_append (scans_append (scans_append (scans_append
          (scans_text (ls := [.word c!"typedef", .word c!"struct"]) (x := false) (by decide)) (scans_wordMid hw)) (scans_space false))
          (scans_word hw false)) (scans_punct (by decide) false))
    | false =>
      simp only [Bool.false_eq_true, if_false]
      refine ⟨[.word c!"struct", .word o.exportName] ++ [.punct ';'], ?_, ?_⟩
      · exact inl_scans (scans_append (scans_append
          (scans_text (ls := [.word c!"struct"]) (x := false) (by decide)) (scans_wordMid hw)) (scans_punct (by decide) false))
      · refine decl_semi (grow_toks (by simp [isPlainTok])) (ordinary_head (fun _ => by decide) _ nofun) ?_
        rw [declarationC, plainToks_toks]
        simp [readPlain, tagKind]
  have key := seg_templated (b := true) ho hg.plain key
  have h4 := seg_left (tri_docs hlang hg.doc) (seg_pre (seg_post key mid_le_done) at_le_mid)
  have h5 := seg_cond ho.toCondsFine o.cfg h4
  unfold emitOpaque
  simp only [List.append_assoc] at h5 ⊢
  exact h5

/-! ## Aliases and variables -/

theorem field_of_ops (hl : c.language = .c) (n : Str) (t : Ty) : (Field.of n t).ops c = declOps c t n := by
  have h1 : docOps c [] = [] := by unfold docOps docOpsC; rw [hl]; rfl
  unfold Field.ops
  rw [hl]
  simp only [Field.of, h1, List.nil_append]
  have h2 : (Annotations.atom {} c!"bitfield") = none := by decide
  rw [h2]
  simp [OutConfig.cond, optToCondition, condBefore, condAfter, onlyIf, optText]

/-- An alias of C++. -/
theorem decl_using (hx : R.cxx = true) {ls : List Lx} {n : Str} {t t' : CTy} (hp : ls.all isPlainTok = true) (h1 : readTyped R.attrs ls = some t')
    (h2 : t'.forgetFnPtr = t.forgetFnPtr) :
    Decl R on D (.word c!"using" :: .word n :: .punct '=' :: ls ++ [.punct ';']) (.alias n t.forgetFnPtr) := by
  refine ⟨.word c!"using" :: .word n :: .punct '=' :: ls, _, rfl, grow_toks (by simpa [isPlainTok] using hp), by simp [linkStart], ?_⟩
  rw [declaration, if_pos (by simp [cxxStart, hx, cxxWords]), flatToks_toks]
  simp [readPlainCxx, h1, h2]

theorem seg_typedef (ho : ReadFine c R D) {t : TypedefItem} (hg : TypedefGood R c t) :
    Seg wc R on D .at (emitTypedef c t) (typedefOut c on t) .done := by
  unfold emitTypedef
  split
  · rename_i h; exact absurd h ho.text
  · rename_i hl
    have hd := declared_build (q := false) ho.dialect hg.ty hg.name hg.params
    have h1 : Inl wc false false [.text c!"typedef "] [.word c!"typedef"] false := inl_text (by decide)
    have h2 := LexSpec.tri_append (LexSpec.tri_append h1 (tri_declOps (wc := wc) ho.dialect hg.ty hg.name)) inl_semi
    have h3 : SegDecl wc R on D (.mid false false) _ _ (.mid false false) := ⟨_, h2, decl_alias hd⟩
    have h3 := seg_templated (b := false) ho hg.plain h3
    have h5 := seg_cond ho.toCondsFine t.cfg (seg_left (tri_docs ho.text hg.doc) (seg_pre (seg_post h3 mid_le_done) at_le_mid))
    simp only [field_of_ops hl, hl, Language.typedefText, List.append_assoc] at h5 ⊢
    exact h5
  · rename_i hl
    have hx : R.cxx = true := by rw [ho.cxx, hl]; rfl
    obtain ⟨t', r1, r2⟩ := typed_build ho.dialect hg.ty hg.params
    have hf := build_fine (cfg := c.toDeclConfig) t.aliased false hg.ty
    have hp : (spells (writeType c.toDeclConfig t.aliased)).all isPlainTok = true :=
      List.all_eq_true.mpr fun l hl => (allDecl_decl ho.dialect _ none hf nofun l hl).plain
    have h1 : Inl wc false false [.text (c!"using " ++ t.exportName ++ c!" = ")] [.word c!"using", .word t.exportName, .punct '='] false :=
      inl_scans (scans_append (scans_append (scans_text (ls := [.word c!"using"]) (x := false) (by decide)) (scans_wordMid hg.name.word))
        (scans_text (ls := [.punct '=']) (by decide)))
    have h2 := LexSpec.tri_append (LexSpec.tri_append h1 (tri_typeOps (wc := wc) ho.dialect hg.ty)) inl_semi
    have h3 : SegDecl wc R on D (.mid false false) _ _ (.mid false false) := ⟨_, h2, decl_using hx (t := meaning c.toDeclConfig false t.aliased) hp r1 r2⟩
    have h3 := seg_templated (b := false) ho hg.plain h3
    have h5 := seg_cond ho.toCondsFine t.cfg (seg_left (tri_docs ho.text hg.doc) (seg_pre (seg_post h3 mid_le_done) at_le_mid))
    simp only [List.append_assoc] at h5 ⊢
    exact h5

theorem quoted_decl {ls : List Lx} {n : Str} {t : CTy} (h : DeclaredAs R ls n t) (ps : List Part) : quotedFirst (ls.map .tok ++ ps) = false := by
  have h1 := h.toks
  have h2 := h.start
  cases ls with
  | nil => exact h2.elim
  | cons l ls =>
    cases l with
    | quoted a b => exact (h1 (.quoted a b) (by simp)).elim
    | _ => rfl

theorem seg_static (ho : ReadFine c R D) {s : StaticItem} (hg : StaticGood R c s) :
    Seg wc R on D .at (emitStatic c s) (staticOut c on s) .done := by
  have hlang : c.language ≠ .cython := ho.text
  have h1 : Inl wc false false [.text c!"extern "] [.word c!"extern"] false := inl_text (by decide)
  have h2 : Inl wc false false [.text c!"const "] [.word c!"const"] false := inl_text (by decide)
  have h3 := tri_declOps (wc := wc) ho.dialect hg.ty hg.name
  obtain ⟨ls, h4, h5⟩ : ∃ ls, LexSpec.Tri wc (.mid false false) (onlyIf (!s.ty.isConstPtr && !s.mutable) [.text c!"const "] ++
      declOps c s.ty s.exportName) ls (.mid false true) ∧ DeclaredAs R ls s.exportName (staticTy c s) := by
    unfold staticTy
    rw [Bool.and_comm]
    cases hq : (!s.mutable && !s.ty.isConstPtr) with
    | false => exact ⟨_, h3, declared_build (q := false) ho.dialect hg.ty hg.name hg.params⟩
    | true =>
      have hb : constBase s.ty = true := by
        simp only [Bool.and_eq_true, Bool.not_eq_true'] at hq
        rcases hg.const with h | h | h
        · rw [h] at hq; simp at hq
        · rw [h] at hq; simp at hq
        · exact h
      have hd := declared_build (q := true) ho.dialect hg.ty hg.name hg.params
      rw [const_write _ _ _ hb] at hd
      exact ⟨_, LexSpec.tri_append h2 h3, hd⟩
  have h6 := LexSpec.tri_append (LexSpec.tri_append h1 h4) inl_semi
  have h7 : Adds R on D (.word c!"extern" :: ls ++ [.punct ';']) (decls [.object true [] s.exportName (staticTy c s).forgetFnPtr []]) := by
    refine adds_semi (grow_toks (by simpa [isPlainTok] using h5.plain)) (ordinary_head (fun _ => by decide) _ fun _ => by simpa using quoted_decl h5 []) ?_
    have := object_decl (ext := true) (pre := []) (post := []) (bits := none) h5 rfl rfl nofun
    simp only [List.nil_append, List.append_nil, Option.elim_none, Option.getD_none] at this
    rw [declarationC, plainToks_toks]
    simp [readPlain, this]
  have h8 : Seg wc R on D (.mid false false) _ _ (.mid false false) := ⟨_, h6, h7⟩
  have h9 := seg_cond ho.toCondsFine s.cfg (seg_left (tri_docs hlang hg.doc) (seg_pre (seg_post h8 mid_le_done) at_le_mid))
  unfold emitStatic
  simp only [List.append_assoc] at h9 ⊢
  exact h9

/-! ## Functions -/

theorem tri_space {l : Layout} {b : Bool} : LexSpec.Tri wc (.mid false b) (spaceOps l) [] (.mid false false) := by
  have h : Inl wc false true [.text c!" "] [] false := inl_text (by decide)
  refine LexSpec.tri_pre ?_ (mid_le (b' := true) fun _ => rfl)
  cases l with
  | vertical => exact inl_newLine
  | _ => exact h

theorem tri_leads {l : Layout} {o : Option Str} (h : OptAttr R o) :
    LexSpec.Tri wc (.mid false false) (leadOps l o) (attrToks [o]) (.mid false false) := by
  cases o with
  | none => exact LexSpec.tri_nil
  | some s => exact LexSpec.tri_eq (LexSpec.tri_append (tri_attr (h s rfl)) tri_space) (by simp [attrToks])

theorem tri_trail (l : Layout) {f : FuncItem} (h : ∀ o ∈ funcPost c f, OptAttr R o) :
    LexSpec.Tri wc (.mid false true) (funcTrail c f l) (attrToks (funcPost c f)) (.mid false true) := by
  simp only [funcPost, List.mem_cons, List.not_mem_nil, or_false, forall_eq_or_imp, forall_eq] at h
  unfold funcTrail funcPost
  rw [attrToks_cons]
  refine LexSpec.tri_append (Q := .mid false true) ?_ ?_
  · cases hx : f.externDecl with
    | true => exact LexSpec.tri_nil
    | false =>
      rw [hx] at h
      simp only [Bool.false_eq_true, if_false] at h ⊢
      cases ha : f.annotations.atomOr c!"postfix" c.function.post with
      | none => exact LexSpec.tri_nil
      | some s =>
        exact LexSpec.tri_eq (LexSpec.tri_append tri_space (tri_attr (h.1 s ha))) (by simp [attrToks])
  · have h2 := h.2
    unfold swiftText at h2 ⊢
    cases hm : c.function.swiftNameMacro with
    | none => exact LexSpec.tri_nil
    | some m =>
      cases hn : f.swiftName c with
      | none => exact LexSpec.tri_nil
      | some n =>
        rw [hn, hm] at h2
        have := tri_spaceAttr (wc := wc) (b := true) (h2 _ rfl)
        simpa [attrToks] using this

theorem macro_start (hk : DialectFine R c.toDeclConfig) {l : Lx} (h : isMacro R.macros l = true) (ls : List Lx) : plainStart R (l :: ls) := by
  obtain ⟨w, hw, rfl⟩ := isMacro_iff.mp h
  refine ⟨fun e => hk.noTypedef (e ▸ hw), fun e => hk.noExtern (e ▸ hw), fun k hk' => ?_,
    fun hc hm => (hk.reserved hc w (by simp [hm])).2 hw⟩
  have h1 := (hk.known.fine w (hk.macros w hw)).2.1
  exfalso
  simp only [tagKind] at hk'
  split at hk'
  · rename_i e; subst e; simp [wordTok] at h1
  split at hk'
  · rename_i e; subst e; simp [wordTok] at h1
  split at hk'
  · rename_i e; subst e; simp [wordTok] at h1
  · simp at hk'

theorem tri_func (ho : ReadFine c R D) {f : FuncItem} (hg : FuncGood R c f) : ∃ ls, Adds R on D ls (funcOut c on f) ∧
    ∀ l, LexSpec.Tri wc .at (funcOps c f l) ls .done := by
  have hlang : c.language ≠ .cython := ho.text
  obtain ⟨ts, ty, g1, g2, g3⟩ := C02_function_reads_back c.toDeclConfig ⟨f.path, f.ret, f.args, f.neverReturn⟩ hg.lengths hg.params
  obtain ⟨x, hd, hx⟩ : ∃ x, CDecl.fromFunc c.toDeclConfig ⟨f.path, f.ret, f.args, f.neverReturn⟩ = some x ∧
      x.write c.toDeclConfig (some f.path) = ts := by
    unfold writeFunc at g1
    cases hd : CDecl.fromFunc c.toDeclConfig ⟨f.path, f.ret, f.args, f.neverReturn⟩ with
    | none => rw [hd] at g1; simp at g1
    | some x =>
      rw [hd] at g1
      simp only [bind, Option.bind_some, pure, Option.some.injEq] at g1
      exact ⟨x, rfl, g1⟩
  have hf : declFine R.attrs x := by
    have hd' := hd
    simp only [CDecl.fromFunc, bind, Option.bind_eq_some_iff, pure, Option.some.injEq] at hd'
    obtain ⟨xs, h6, rfl⟩ := hd'
    exact push_fine (build_fine f.ret false hg.ret) (by simp [declaratorsFine, buildArgs_fine h6 hg.args])
  have hdecl : DeclaredAs R (spells (x.write c.toDeclConfig (some f.path))) f.path (funcTy c f) := by
    refine ⟨allDecl_decl ho.dialect _ _ hf (by rintro s ⟨⟩; exact hg.name), decl_start ho.dialect hf hg.name, ty, ?_, g3⟩
    have h2 := declToks_found (found_decl ho.dialect.known x (some f.path) hf (by rintro s ⟨⟩; exact hg.name))
    rw [readDeclared, h2, hx]; exact g2
  obtain ⟨a1, a2⟩ := attr_toks fun o h => hg.attrs o (List.mem_append_left _ h)
  obtain ⟨b1, b2⟩ := attr_toks fun o h => hg.attrs o (List.mem_append_right _ h)
  have hobj := object_decl (ext := f.externDecl) (bits := none) hdecl a1 b1 nofun
  simp only [Option.elim_none, Option.getD_none, List.append_nil] at hobj
  have hcore : ∃ ls, Adds R on D ls (decls [.object f.externDecl (attrToks (funcAttrs c f) ++ attrToks (funcPost c f)) f.path
      (funcTy c f).forgetFnPtr []]) ∧ ∀ l, LexSpec.Tri wc .at (docOps c f.doc ++ funcLead c f l ++ funcDeclOps c f l ++ funcTrail c f l ++
        [.text c!";"]) ls .done := by
    refine ⟨(if f.externDecl then [.word c!"extern"] else []) ++ (attrToks (funcAttrs c f) ++ spells (x.write c.toDeclConfig (some f.path)) ++
      attrToks (funcPost c f)) ++ [.punct ';'], ?_, fun l => ?_⟩
    · refine adds_semi (grow_toks ?_) ?_ ?_
      · simp only [List.all_append, a2, b2, hdecl.plain, Bool.and_true]
        cases f.externDecl <;> rfl
      · cases hxt : f.externDecl with
        | true =>
          refine ordinary_head (fun _ => by decide) _ fun _ => ?_
          have hat : attrToks (funcAttrs c f) = [] := by simp [funcAttrs, hxt, attrToks]
          simpa [hat] using quoted_decl hdecl ((attrToks (funcPost c f)).map .tok)
        | false =>
          refine ordinary_toks ?_
          simp only [Bool.false_eq_true, if_false, List.nil_append]
          cases hat : attrToks (funcAttrs c f) with
          | nil => exact plainStart_append hdecl.start
          | cons m ms =>
            rw [hat] at a1
            exact macro_start ho.dialect (isAttrs_cons a1) _
      · rw [declarationC, plainToks_toks]
        simp only []
        cases hxt : f.externDecl with
        | true =>
          rw [hxt] at hobj
          simp only [List.append_assoc] at hobj
          simp [readPlain, hobj]
        | false =>
          rw [hxt] at hobj
          simp only [Bool.false_eq_true, if_false, List.nil_append]
          rw [readPlain_object, hobj]
          · rfl
          · cases hat : attrToks (funcAttrs c f) with
            | nil => exact plainStart_append hdecl.start
            | cons m ms =>
              rw [hat] at a1
              exact macro_start ho.dialect (isAttrs_cons a1) _
    · have hdo : LexSpec.Tri wc (.mid false false) (funcDeclOps c f l) (spells (x.write c.toDeclConfig (some f.path))) (.mid false true) := by
        unfold funcDeclOps
        rw [hd]
        exact inl_decl ho.dialect.known.words x l (some f.path) hf (by rintro s ⟨⟩; exact hg.name.word)
      have hle : LexSpec.Tri wc (.mid false false) (funcLead c f l) ((if f.externDecl then [.word c!"extern"] else []) ++
          attrToks (funcAttrs c f)) (.mid false false) := by
        have ha := fun o h => hg.attrs o (List.mem_append_left _ h)
        unfold funcLead
        unfold funcAttrs at ha ⊢
        cases hxt : f.externDecl with
        | true => exact inl_text (ls := [.word c!"extern"]) (by decide)
        | false =>
          rw [hxt] at ha
          simp only [Bool.false_eq_true, if_false, List.mem_cons, List.not_mem_nil, or_false, forall_eq_or_imp, forall_eq] at ha ⊢
          have hm : (if f.annotations.mustUseIn c then c.function.mustUse else none) = mustUseText f.annotations c.function.mustUse := by
            have : (c.language != .cython) = true := by simpa using hlang
            simp [mustUseText, Annotations.mustUseIn, this]
          rw [hm]
          refine LexSpec.tri_eq (LexSpec.tri_append (LexSpec.tri_append (tri_leads ha.1) (tri_leads ha.2.1)) (tri_leads ha.2.2)) ?_
          simp [attrToks]
      have := LexSpec.tri_append (LexSpec.tri_append (LexSpec.tri_append (LexSpec.tri_append (tri_docs hlang hg.doc)
        (LexSpec.tri_pre hle at_le_mid)) hdo) (tri_trail l fun o h => hg.attrs o (List.mem_append_right _ h))) inl_semi
      refine LexSpec.tri_eq (LexSpec.tri_post this mid_le_done) (by simp)
  obtain ⟨ls, h1, h2⟩ := hcore
  unfold funcOps funcOut
  cases hc : c.cond f.cfg with
  | none =>
    refine ⟨ls, by simpa [shown, hc, whenOut] using h1, fun l => ?_⟩
    simpa [condBefore, condAfter] using h2 l
  | some y =>
    exact ⟨_, adds_group (opens_cond ho.toCondsFine hc) h1, fun l =>
      LexSpec.tri_append (LexSpec.tri_append (tri_condBefore ho.toCondsFine hc) (h2 l)) (tri_condAfter ho.text)⟩

theorem seg_func (ho : ReadFine c R D) {f : FuncItem} (hg : FuncGood R c f) :
    Seg wc R on D .at (emitFunc c f) (funcOut c on f) .done := by
  obtain ⟨ls, h1, h2⟩ := tri_func (wc := wc) (on := on) ho hg
  refine ⟨ls, ?_, h1⟩
  unfold emitFunc
  split
  · exact h2 _
  · exact h2 _
  · exact LexSpec.tri_try (h2 _) (h2 _)

end

end Cbindgen.HeadSpec
