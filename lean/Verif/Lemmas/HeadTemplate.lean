import Verif.Lemmas.HeadConst

/-!
# The parameters of templates, as the reader of headers finds them
-/

namespace Cbindgen.HeadSpec
open LexSpec CSpec PreSpec

section
variable {wc : WConfig} {c : OutConfig} {R : Dialect} {on : Str → Bool} {D : List Str}

/-- The tokens of a parameter, which have no brackets and no commas. -/
structure ParamToks (ls : List Lx) : Prop where
  plain : ls.all isPlainTok = true
  flat : ∀ l ∈ ls, l ≠ .punct '<' ∧ l ≠ .punct '>' ∧ l ≠ .punct '(' ∧ l ≠ .punct ')' ∧ l ≠ .punct ','

theorem splitParams_one {ls : List Lx} (h : ∀ l ∈ ls, l ≠ .punct '<' ∧ l ≠ .punct '>' ∧ l ≠ .punct '(' ∧ l ≠ .punct ')' ∧ l ≠ .punct ',')
    (cur rest : List Lx) : splitParams 0 cur (ls ++ rest) = splitParams 0 (cur ++ ls) rest := by
  induction ls generalizing cur with
  | nil => simp
  | cons l ls ih =>
    obtain ⟨h1, h2, h3, h4, h5⟩ := h l (by simp)
    simp [splitParams, h1, h2, h3, h4, h5, depthAfter, ih fun x hx => h x (by simp [hx])]

theorem splitParams_joined : ∀ {lss : List (List Lx)}, lss ≠ [] → (∀ ls ∈ lss, ParamToks ls) →
    splitParams 0 [] (joined [.punct ','] lss) = lss
  | [], h, _ => absurd rfl h
  | [x], _, h => by
    have := splitParams_one (h x (by simp)).flat [] []
    simpa [joined, splitParams] using this
  | x :: y :: xs, _, h => by
    have ih := splitParams_joined (lss := y :: xs) (by simp) fun z hz => h z (by simp [hz])
    rw [joined_cons, splitParams_one (h x (by simp)).flat]
    simp only [List.nil_append, List.cons_append, splitParams, and_self, if_true]
    rw [ih]

theorem joined_toks : ∀ {lss : List (List Lx)}, (∀ ls ∈ lss, ParamToks ls) →
    (joined [.punct ','] lss).all isPlainTok = true ∧
    ∀ l ∈ joined [.punct ','] lss, l ≠ .punct '<' ∧ l ≠ .punct '>' ∧ l ≠ .punct '(' ∧ l ≠ .punct ')'
  | [], _ => ⟨rfl, nofun⟩
  | [x], h => by
    have hx := h x (by simp)
    simp only [joined, List.flatMap_nil, List.append_nil]
    exact ⟨hx.plain, fun l hl => ⟨(hx.flat l hl).1, (hx.flat l hl).2.1, (hx.flat l hl).2.2.1, (hx.flat l hl).2.2.2.1⟩⟩
  | x :: y :: xs, h => by
    have hx := h x (by simp)
    obtain ⟨h1, h2⟩ := joined_toks (lss := y :: xs) fun z hz => h z (by simp [hz])
    rw [joined_cons]
    refine ⟨by rw [List.all_append, List.all_append, hx.plain, h1]; rfl, fun l hl => ?_⟩
    rcases List.mem_append.mp hl with hl | hl
    · exact ⟨(hx.flat l hl).1, (hx.flat l hl).2.1, (hx.flat l hl).2.2.1, (hx.flat l hl).2.2.2.1⟩
    rcases List.mem_append.mp hl with hl | hl
    · simp only [List.mem_singleton] at hl
      subst hl; simp
    · exact h2 l hl

theorem prim_flat (p : Prim) (u : Bool) (hv : p ≠ .vaList) :
    ∃ w ls, simpleToks none (Prim.toReprC u p) = .word w :: ls ∧ w ≠ c!"typename" ∧ ∀ l ∈ ls, ∃ v, l = .word v := by
  have key : ∀ s : Str, (match simpleToks none s with
      | .word w :: ls => decide (w ≠ c!"typename") && ls.all fun l => (match l with | .word _ => true | _ => false)
      | _ => false) = true →
      ∃ w ls, simpleToks none s = .word w :: ls ∧ w ≠ c!"typename" ∧ ∀ l ∈ ls, ∃ v, l = .word v := by
    intro s hs
    split at hs
    · rename_i w ls e
      simp only [Bool.and_eq_true, decide_eq_true_eq, List.all_eq_true] at hs
      refine ⟨w, ls, e, hs.1, fun l hl => ?_⟩
      have := hs.2 l hl
      cases l with
      | word v => exact ⟨v, rfl⟩
      | _ => simp at this
    · cases hs
  apply key
  cases p with
  | integer z s k => cases z <;> cases s <;> cases k <;> cases u <;> decide +kernel
  | vaList => exact absurd rfl hv
  | _ => cases u <;> decide +kernel

/-- The declaration of a parameter that is a value. -/
theorem prim_decl (hl : c.language ≠ .cython) (q : Prim) {n : Str} (hn : Word n) :
    spells ((CDecl.buildType c.toDeclConfig (.prim q) false).write c.toDeclConfig (some n)) =
      simpleToks none (Prim.toReprC c.toDeclConfig.usizeIsSizeT q) ++ [.word n] := by
  have hl : c.toDeclConfig.language ≠ .cython := hl
  simp [CDecl.buildType, CDecl.write, CDecl.writeGArgList, constToks, ctypeToks, identToks, CDecl.rightPart,
        leftPart, spells, spell, simpleToks_word hn]

/-- The type of a type name. -/
theorem typed_build (hk : DialectFine R c.toDeclConfig) {t : Ty} (ht : TyFine R.attrs t) (hv : NoVoidParam c.toDeclConfig t) :
    ∃ t', readTyped R.attrs (spells (writeType c.toDeclConfig t)) = some t' ∧ t'.forgetFnPtr = (meaning c.toDeclConfig false t).forgetFnPtr := by
  have hf := build_fine (cfg := c.toDeclConfig) t false ht
  have h1 := readDecl_build c.toDeclConfig t false false none hv (by simp)
  have h2 := declToks_found (found_decl hk.known _ none hf nofun)
  exact ⟨_, by rw [readTyped, writeType, CDecl.fromType, h2, Option.bind_some, readTypeName, h1], den_forget c.toDeclConfig t false⟩

/-- The tokens of a parameter. -/
def paramToks (c : OutConfig) (b : Bool) (p : GParam) : List Lx :=
  match p.constTy with
  | none => [.word c!"typename", .word p.name] ++ (if b then [.punct '=', .word c!"void"] else [])
  | some t => spells ((CDecl.buildType c.toDeclConfig t false).write c.toDeclConfig (some p.name)) ++
      (if b then [.punct '=', .word c!"0"] else [])

theorem param_good (ho : ReadFine c R D) {p : GParam} (h : ParamGood R p) (b : Bool) :
    Inl wc false false (p.ops c b) (paramToks c b p) true ∧ ParamToks (paramToks c b p) ∧
      readTParam R (paramToks c b p) = some (tparamOf c b p) := by
  unfold GParam.ops paramToks tparamOf
  rw [h.default]
  cases hc : p.constTy with
  | none =>
    have t1 : Inl wc false false [.text (c!"typename " ++ p.name)] [.word c!"typename", .word p.name] true :=
      inl_scans (scans_append (scans_text (ls := [.word c!"typename"]) (x := false) (by decide)) (scans_wordMid h.name.word))
    cases b with
    | false =>
      refine ⟨?_, ⟨by simp [isPlainTok], by simp⟩, by simp [readTParam]⟩
      simpa [onlyIf] using t1
    | true =>
      refine ⟨?_, ⟨by simp [isPlainTok], by simp⟩, ?_⟩
      · exact inl_append t1 (inl_text (ls := [.punct '=', .word c!"void"]) (by decide))
      · obtain ⟨t', r1, r2⟩ := typed_build (c := c) ho.dialect (t := .prim .void) (by simp [TyFine]) (by simp [NoVoidParam])
        have e : spells (writeType c.toDeclConfig (.prim .void)) = [.word c!"void"] := by
          simp only [writeType, CDecl.fromType, CDecl.buildType, CDecl.write, CDecl.writeGArgList, constToks, ctypeToks, identToks, CDecl.rightPart, leftPart,
            spells, List.flatMap_cons, List.flatMap_nil, List.append_nil, List.nil_append, List.reverse_nil, spell, Prim.toReprC]
          decide
        rw [e] at r1
        simp [readTParam, r1, r2]
  | some t =>
    obtain ⟨q, rfl, hq⟩ := h.ty t hc
    obtain ⟨w, ls, e1, e2, e3⟩ := prim_flat q c.toDeclConfig.usizeIsSizeT hq
    have e4 := prim_decl (c := c) ho.text q h.name.word
    rw [e1] at e4
    have hd := declared_build (q := false) ho.dialect (t := .prim q) (i := p.name) (by simp [TyFine]) h.name (by simp [NoVoidParam])
    have t1 := tri_declOps (wc := wc) ho.dialect (t := .prim q) (i := p.name) (by simp [TyFine]) h.name
    obtain ⟨t', r1, r2⟩ := hd.reads
    have hw : ∀ l ∈ (.word w :: ls ++ [.word p.name] : List Lx), ∃ v, l = .word v := by
      intro l hl
      simp only [List.cons_append, List.mem_cons, List.mem_append, List.not_mem_nil, or_false] at hl
      rcases hl with rfl | hl | rfl
      · exact ⟨_, rfl⟩
      · exact e3 l hl
      · exact ⟨_, rfl⟩
    simp only [e4] at r1 t1 ⊢
    have hp : ∀ l ∈ (.word w :: ls ++ [.word p.name] : List Lx), isPlainTok l = true := by
      intro l hl; obtain ⟨v, rfl⟩ := hw l hl; rfl
    have hf : ∀ l ∈ (.word w :: ls ++ [.word p.name] : List Lx),
        l ≠ .punct '<' ∧ l ≠ .punct '>' ∧ l ≠ .punct '(' ∧ l ≠ .punct ')' ∧ l ≠ .punct ',' := by
      intro l hl; obtain ⟨v, rfl⟩ := hw l hl; simp
    have hne : ∀ l ∈ (.word w :: ls ++ [.word p.name] : List Lx), l ≠ .punct '=' := by
      intro l hl; obtain ⟨v, rfl⟩ := hw l hl; simp
    cases b with
    | false =>
      simp only [Bool.false_eq_true, if_false, List.append_nil]
      refine ⟨by simpa [onlyIf] using t1, ⟨List.all_eq_true.mpr hp, hf⟩, ?_⟩
      have hcut := cutAt_none hne
      simp only [List.cons_append] at hcut r1 ⊢
      simp [readTParam, e2, hcut, r1, r2]
    | true =>
      simp only [if_true]
      refine ⟨inl_append t1 (inl_text (ls := [.punct '=', .word c!"0"]) (by decide)), ⟨?_, ?_⟩, ?_⟩
      · rw [List.all_append, List.all_eq_true.mpr hp]; rfl
      · intro l hl
        rcases List.mem_append.mp hl with hl | hl
        · exact hf l hl
        · simp only [List.mem_cons, List.not_mem_nil, or_false] at hl
          rcases hl with rfl | rfl <;> simp
      · have hcut := cutAt_some (ks := [.word c!"0"]) hne
        simp only [List.cons_append, List.append_assoc, List.nil_append] at hcut r1 ⊢
        simp only [readTParam, e2, if_false, hcut, r1, Option.map_some, r2]

theorem params_good (ho : ReadFine c R D) (b : Bool) : ∀ {ps : List GParam}, (∀ p ∈ ps, ParamGood R p) →
    Pairs (fun i l => Inl wc false false i l true) (ps.map (GParam.ops c b)) (ps.map (paramToks c b)) ∧
    (∀ ls ∈ ps.map (paramToks c b), ParamToks ls) ∧
    readAll (readTParam R) (ps.map (paramToks c b)) = some (ps.map (tparamOf c b))
  | [], _ => ⟨.nil, nofun, rfl⟩
  | p :: ps, h => by
    obtain ⟨h1, h2, h3⟩ := param_good (wc := wc) ho (h p (by simp)) b
    obtain ⟨g1, g2, g3⟩ := params_good ho b (ps := ps) fun q hq => h q (by simp [hq])
    refine ⟨.cons h1 g1, ?_, by simp [readAll, h3, g3]⟩
    simp only [List.map_cons, List.mem_cons, forall_eq_or_imp]
    exact ⟨h2, g2⟩

/-- A declaration after the parameters of the type. -/
theorem seg_templated (ho : ReadFine c R D) {b : Bool} {ps : List GParam} (hp : c.language = .cxx → ∀ p ∈ ps, ParamGood R p)
    {ops : List WOp} {x : CItem} (h : SegDecl wc R on D (.mid false false) ops x (.mid false false)) :
    Seg wc R on D (.mid false false) (paramsOps c b ps ++ ops) (decls [templated c b ps x]) (.mid false false) := by
  unfold paramsOps templated
  rw [Bool.and_comm]
  cases hc : (c.language == .cxx && !ps.isEmpty) with
  | false => exact h.seg
  | true =>
    simp only [Bool.and_eq_true, beq_iff_eq, Bool.not_eq_true', List.isEmpty_eq_false_iff] at hc
    obtain ⟨ls, h1, h2⟩ := h
    obtain ⟨g1, g2, g3⟩ := params_good (wc := wc) ho b (hp hc.1)
    have hne : ps.map (paramToks c b) ≠ [] := by simpa using hc.2
    obtain ⟨j1, j2⟩ := joined_toks g2
    have hx : R.cxx = true := by rw [ho.cxx, hc.1]; rfl
    have t1 : Inl wc false false [.text c!"template<"] [.word c!"template", .punct '<'] false := inl_text (by decide)
    have t2 := inl_horizontal (wc := wc) (d := false) (s := c!", ") (sep := [.punct ',']) (inl_text (by decide)) g1
    have t3 : Inl wc false true [.text c!">"] [.punct '>'] false := inl_text (by decide)
    have t4 := inl_append (inl_append (inl_append (inl_append t1 t2) t3) (inl_newLine (wc := wc))) h1
    refine ⟨_, ?_, Decl.template hx h2 j1 j2 (by rw [splitParams_joined hne g2]; exact g3)⟩
    simp only [if_true, List.append_assoc, List.cons_append, List.nil_append, List.append_nil] at t4 ⊢
    exact t4

theorem seg_templatedUnless (ho : ReadFine c R D) {s : StructItem} (hp : c.language = .cxx → ∀ p ∈ s.genericParams, ParamGood R p)
    {ops : List WOp} (h : SegDecl wc R on D (.mid false false) ops (structItemOf R c on s) (.mid false false)) :
    Seg wc R on D (.mid false false) (onlyIf (!s.isEnumVariantBody) (paramsOps c false s.genericParams) ++ ops)
      (decls [structDecl R c on s]) (.mid false false) := by
  unfold structDecl
  cases s.isEnumVariantBody with
  | true => exact h.seg
  | false => exact seg_templated ho hp h

end

end Cbindgen.HeadSpec
