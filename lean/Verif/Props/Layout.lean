import Verif.Model.Emission
import Verif.Props.Writer
import Verif.Props.Prim

/-!
# C26 for whole headers: every writing function restores the indentation it found
-/

namespace Cbindgen

section
variable {wc : WConfig}

theorem restores_cons {op : WOp} {ops : List WOp} (h1 : Restores wc [op]) (h2 : Restores wc ops) :
    Restores wc (op :: ops) := restores_append h1 h2

theorem restores_flatMap {α : Type} {f : α → List WOp} {xs : List α} (h : ∀ x, Restores wc (f x)) :
    Restores wc (xs.flatMap f) := by
  induction xs with
  | nil => exact restores_nil wc
  | cons x xs ih => rw [List.flatMap_cons]; exact restores_append (h x) ih

theorem restores_onlyIf {b : Bool} {ops : List WOp} (h : Restores wc ops) : Restores wc (onlyIf b ops) := by
  unfold onlyIf; split
  · exact h
  · exact restores_nil wc

theorem restores_optText {o : Option Str} {f : Str → Str} : Restores wc (optText o f) := by
  unfold optText; split
  · exact restores_text wc _
  · exact restores_nil wc

theorem restores_braces {lang : Language} {b : Braces} {semi : Bool} {body : List WOp}
    (h : Restores wc body) : Restores wc (openBrace lang b ++ body ++ closeBrace lang semi) :=
  C26_braces wc lang b semi body h

theorem restores_vertical {t : ListType} {items : List (List WOp)} (h : ∀ i ∈ items, Restores wc i) :
    Restores wc (verticalList t items) := (C26_lists wc t items h).1

theorem restores_verticalMap {α : Type} {f : α → List WOp} {xs : List α} {t : ListType}
    (h : ∀ x, Restores wc (f x)) : Restores wc (verticalList t (xs.map f)) := by
  refine restores_vertical fun i hi => ?_
  obtain ⟨x, _, rfl⟩ := List.mem_map.mp hi
  exact h x

theorem restores_horizontalMap {α : Type} {f : α → List WOp} {xs : List α} {t : ListType}
    (h : ∀ x, Restores wc (f x)) : Restores wc (horizontalList t (xs.map f)) := by
  refine restores_horizontal _ fun i hi => ?_
  obtain ⟨x, _, rfl⟩ := List.mem_map.mp hi
  exact h x

/-- Calls that push once, restore the rest and pop, around a body. -/
theorem restores_cond {c : OutConfig} {d : Option Condition} {body : List WOp} (h : Restores wc body) :
    Restores wc (condBefore c d ++ body ++ condAfter c d) := by
  cases d with
  | none => simpa [condBefore, condAfter] using h
  | some d =>
    simp only [condBefore, condAfter]
    cases hl : c.language with
    | cython =>
      simp only [List.append_assoc]
      exact restores_cons (restores_text wc _) (restores_cons (restores_text wc _)
        (by have := restores_braces (lang := .cython) (b := c.braces) (semi := false) h
            simpa using this))
    | _ =>
      all_goals
        simp only
        refine restores_append (restores_append ?_ h) ?_
        · have := restores_append (restores_wrap (c := wc) (push := .pushSpaces 0) (.inr (.inl ⟨0, rfl⟩))
            (restores_append (restores_text wc c!"#if ") (restores_text wc (d.text c.language))))
            (restores_newLine wc)
          rw [hl] at this
          simpa using this
        · have := restores_append (restores_newLine wc)
            (restores_wrap (c := wc) (push := .pushSpaces 0) (.inr (.inl ⟨0, rfl⟩)) (restores_text wc c!"#endif"))
          simpa using this

end

/-- Decompose a list of calls into pieces that are known to restore the stack. -/
macro "restores" : tactic => `(tactic|
  repeat' first
    | with_reducible assumption
    | with_reducible exact restores_nil _
    | with_reducible exact restores_text _ _
    | with_reducible exact restores_raw _ _
    | with_reducible exact restores_newLine _
    | with_reducible exact restores_newLineIfNotStart _
    | with_reducible exact restores_panic _
    | with_reducible exact restores_optText
    | with_reducible apply restores_cond
    | with_reducible apply restores_braces
    | with_reducible apply restores_onlyIf
    | with_reducible refine restores_verticalMap fun _ => ?_
    | with_reducible refine restores_horizontalMap fun _ => ?_
    | with_reducible refine restores_flatMap fun _ => ?_
    | with_reducible apply restores_append
    | with_reducible apply restores_cons
    | with_reducible apply restores_try
    | split)

section
variable {wc : WConfig}

theorem restores_docs (c : OutConfig) (d : List Str) : Restores wc (docOps c d) := by
  unfold docOps docOpsC docOpsCython
  cases c.docStyle <;> (simp only [DocStyle.opening, DocStyle.closing]; restores)

theorem restores_leftOps (c : OutConfig) (ds : List CDeclarator) : Restores wc (leftOps c ds) := by
  induction ds with
  | nil => exact restores_nil wc
  | cons d ds ih =>
    refine restores_append ?_ ih
    cases d with
    | ptr k nl rf => simp only [leftPieceOps, ptrAttrOps]; cases k <;> (simp only [qualOps]; restores)
    | array l => cases headIsPtr false ds <;> (simp only [leftPieceOps, parenOps]; restores)
    | func a n => cases headIsPtr false ds <;> (simp only [leftPieceOps, parenOps]; restores)

theorem restores_paren (s : Str) (b : Bool) : Restores wc (parenOps s b) := by
  cases b <;> (simp only [parenOps]; restores)

theorem restores_layout (c : OutConfig) (l : Layout) {args : List (List WOp)}
    (h : ∀ i ∈ args, Restores wc i) : Restores wc (layoutOps c l args) := by
  cases l
  · exact restores_horizontal _ h
  · exact restores_vertical h
  · exact restores_try (restores_vertical h)

mutual
theorem restores_decl (c : OutConfig) (l : Layout) : ∀ (d : CDecl) (i : Option Str),
    Restores wc (d.ops c l i)
  | .mk q k n g ds, i => by
    simp only [CDecl.ops]
    have h1 : Restores wc (qualOps q) := by cases q <;> (simp only [qualOps]; restores)
    have h2 : Restores wc (ctypeOps c k) := by cases k <;> (simp only [ctypeOps]; restores)
    have h3 : Restores wc (templateOps (CGArg.opsList c g)) := by
      have hg := restores_gargs c g
      revert hg
      cases CGArg.opsList c g with
      | nil => intro _; exact restores_nil wc
      | cons x xs =>
        intro hg
        exact restores_append (restores_append (restores_text wc _) (restores_horizontal _ hg)) (restores_text wc _)
    have h4 : Restores wc (identSpaceOps i) := by cases i <;> (simp only [identSpaceOps]; restores)
    have h5 : Restores wc (identOps i) := by cases i <;> (simp only [identOps]; restores)
    have h6 := restores_leftOps (wc := wc) c ds.reverse
    have h7 := restores_right c l false ds
    restores
theorem restores_right (c : OutConfig) (l : Layout) (p : Bool) : ∀ ds : List CDeclarator,
    Restores wc (CDecl.rightOps c l p ds)
  | [] => by simp only [CDecl.rightOps]; exact restores_nil wc
  | .ptr _ _ _ :: rest => by simp only [CDecl.rightOps]; exact restores_right c _ true rest
  | .array len :: rest => by
    simp only [CDecl.rightOps]
    have h1 := restores_right c c.function.args false rest
    have h2 := restores_paren (wc := wc) c!")" p
    restores
  | .func args never :: rest => by
    simp only [CDecl.rightOps]
    have h1 := restores_right c c.function.args true rest
    have h2 := restores_paren (wc := wc) c!")" p
    have h3 := restores_layout c l (restores_args c args)
    have h4 : Restores wc (noReturnOps c never) := by unfold noReturnOps; restores
    have h5 : Restores wc (voidOps c args.isEmpty) := by unfold voidOps; restores
    restores
theorem restores_gargs (c : OutConfig) : ∀ gs : List CGArg, ∀ i ∈ CGArg.opsList c gs, Restores wc i
  | [] => by simp [CGArg.opsList]
  | .type d :: gs => by
    simp only [CGArg.opsList, List.mem_cons, forall_eq_or_imp]
    exact ⟨restores_decl c _ d none, restores_gargs c gs⟩
  | .const s :: gs => by
    simp only [CGArg.opsList, List.mem_cons, forall_eq_or_imp]
    exact ⟨restores_text wc s, restores_gargs c gs⟩
theorem restores_args (c : OutConfig) : ∀ as : List CArg, ∀ i ∈ CArg.opsList c as, Restores wc i
  | [] => by simp [CArg.opsList]
  | .mk n d :: as => by
    simp only [CArg.opsList, List.mem_cons, forall_eq_or_imp]
    exact ⟨restores_decl c _ d n, restores_args c as⟩
end

theorem restores_declOps (c : OutConfig) (t : Ty) (i : Str) : Restores wc (declOps c t i) :=
  restores_decl c _ _ _

theorem restores_typeOps (c : OutConfig) (t : Ty) : Restores wc (typeOps c t) := restores_decl c _ _ _

theorem restores_funcDecl (c : OutConfig) (f : FuncItem) (l : Layout) :
    Restores wc (funcDeclOps c f l) := by
  unfold funcDeclOps; split
  · exact restores_decl c _ _ _
  · exact restores_panic wc

/-! ## Literals -/

theorem restores_lookup {fields : List (Str × Init)} (h : ∀ f ∈ fields, Restores wc f.2.1) {key : Str}
    {i : Init} (hl : fields.lookup key = some i) : Restores wc i.1 :=
  h (key, i) (mem_of_lookup hl)

theorem restores_initsMulti (c : OutConfig) {fields : List (Str × Init)}
    (h : ∀ f ∈ fields, Restores wc f.2.1) (keys : List Str) : Restores wc (initsMulti c fields keys) := by
  induction keys with
  | nil => exact restores_nil wc
  | cons k ks ih =>
    refine restores_append ?_ ih
    cases hl : fields.lookup k with
    | none => exact restores_nil wc
    | some i =>
      obtain ⟨ops, cfg⟩ := i
      have := restores_lookup h hl
      have key : Restores wc ([WOp.newLine] ++ (condBefore c (c.cond cfg) ++
          ([.text (c!"/* ." ++ k ++ c!" = */ ")] ++ ops ++ onlyIf (!ks.isEmpty) [.text c!","]) ++
          condAfter c (c.cond cfg))) := by restores
      simpa [initMulti] using key

theorem restores_initsSingle (c : OutConfig) {fields : List (Str × Init)}
    (h : ∀ f ∈ fields, Restores wc f.2.1) (keys : List Str) (first : Bool) :
    Restores wc (initsSingle c fields first keys) := by
  induction keys generalizing first with
  | nil => exact restores_nil wc
  | cons k ks ih =>
    refine restores_append ?_ (ih false)
    cases hl : fields.lookup k with
    | none => exact restores_nil wc
    | some i =>
      obtain ⟨ops, cfg⟩ := i
      have := restores_lookup h hl
      simp only [initSingle]
      restores

theorem restores_initsCython {fields : List (Str × Init)}
    (h : ∀ f ∈ fields, Restores wc f.2.1) (keys : List Str) (first : Bool) :
    Restores wc (initsCython fields first keys) := by
  induction keys generalizing first with
  | nil => exact restores_nil wc
  | cons k ks ih =>
    simp only [initsCython]
    cases hl : fields.lookup k with
    | none => exact ih first
    | some i =>
      obtain ⟨ops, cfg⟩ := i
      have := restores_lookup h hl
      have := ih false
      simp only
      restores

theorem restores_structLit (e : Env) (b : Bool) (p x : Str) {fields : List (Str × Init)}
    (h : ∀ f ∈ fields, Restores wc f.2.1) : Restores wc (structLitOps e b p x fields) := by
  have h1 := restores_initsMulti e.cfg h (e.fieldNames p)
  have h2 := restores_initsSingle e.cfg h (e.fieldNames p) true
  have h3 := restores_initsCython h (e.fieldNames p) true
  have hw : Restores wc ([WOp.pushTab] ++ initsMulti e.cfg fields (e.fieldNames p) ++ [.pop, .newLine]) := by
    have := restores_append (restores_wrap (push := .pushTab) (.inl rfl) h1) (restores_newLine wc)
    simpa using this
  unfold structLitOps
  split
  · restores
  · refine restores_append (restores_append ?_ ?_) ?_
    · restores
    · split
      · exact hw
      · restores
    · restores

mutual
theorem restores_lit (e : Env) : ∀ l : Lit, Restores wc (l.ops e)
  | .expr s => by simp only [Lit.ops]; restores
  | .path a n => by simp only [Lit.ops]; restores
  | .field b n => by have := restores_lit e b; simp only [Lit.ops]; restores
  | .unary o v => by have := restores_lit e v; simp only [Lit.ops]; restores
  | .binop l o r => by
    have := restores_lit e l; have := restores_lit e r; simp only [Lit.ops]; restores
  | .cast t v => by
    have := restores_lit e v; have := restores_typeOps (wc := wc) e.cfg t
    simp only [Lit.ops, castOps]; restores
  | .array items => by have := restores_litItems e items; simp only [Lit.ops]; restores
  | .struct p x fs => by
    simp only [Lit.ops]; exact restores_structLit e _ p x (restores_litFields e fs)
theorem restores_litItems (e : Env) : ∀ ls : List Lit, Restores wc (Lit.opsItems e ls)
  | [] => by simp only [Lit.opsItems]; restores
  | v :: vs => by
    have := restores_lit e v; have := restores_litItems e vs; simp only [Lit.opsItems]; restores
theorem restores_litFields (e : Env) : ∀ fs : List LitField,
    ∀ f ∈ LitField.opsList e fs, Restores wc f.2.1
  | [] => by simp [LitField.opsList]
  | .mk n v cfg :: fs => by
    simp only [LitField.opsList, List.mem_cons, forall_eq_or_imp]
    exact ⟨restores_lit e v, restores_litFields e fs⟩
end

/-! ## Items -/

theorem restores_constDecl (c : OutConfig) (k : ConstItem) : Restores wc (k.declarationOps c) := by
  have := restores_declOps (wc := wc) c k.ty k.exportName
  have key : Restores wc (condBefore c (c.cond k.cfg) ++
      ([.text (if k.ty.isConstPtr then c!"static " else c!"static const ")] ++
        declOps c k.ty k.exportName ++ [.text c!";"]) ++ condAfter c (c.cond k.cfg)) := by
    restores
  simpa [ConstItem.declarationOps] using key

theorem restores_constBody (e : Env) (k : ConstItem) (b : Bool) (n : Str) (v : Lit) :
    Restores wc (k.bodyOps e b n v) := by
  have h1 := restores_declOps (wc := wc) e.cfg k.ty n
  have h2 := restores_lit (wc := wc) e v
  unfold ConstItem.bodyOps
  simp only
  restores

theorem restores_panics {ops : List WOp} (h : WOp.panic ∈ ops) : Restores wc ops := by
  intro w w' t hx
  exfalso
  obtain ⟨a, b, rfl⟩ := List.append_of_mem h
  obtain ⟨t1, w1, t2, h1, h2, _⟩ := exec_append_some.mp hx
  rw [exec_cons] at h2
  simp [WOp.exec1, andThen] at h2

theorem restores_const (e : Env) (k : ConstItem) (s : Option StructItem) : Restores wc (k.ops e s) := by
  unfold ConstItem.ops
  split
  · exact restores_nil wc
  · split
    · rename_i name value _ _
      have h1 := restores_constBody (wc := wc) e k (inBody e.cfg s) name value
      have h2 := restores_docs (wc := wc) e.cfg k.doc
      have key : Restores wc (condBefore e.cfg (e.cfg.cond k.cfg) ++
          (docOps e.cfg k.doc ++ k.bodyOps e (inBody e.cfg s) name value) ++
          condAfter e.cfg (e.cfg.cond k.cfg)) := by restores
      simpa using key
    · exact restores_panics (by simp)

theorem restores_field (c : OutConfig) (f : Field) : Restores wc (f.ops c) := by
  have h1 := restores_docs (wc := wc) c f.doc
  have h2 := restores_declOps (wc := wc) c f.ty f.name
  have key : Restores wc (condBefore c (c.cond f.cfg) ++ (docOps c f.doc ++ declOps c f.ty f.name ++
      optText ((f.annotations.atom c!"bitfield").map fun b => b.getD []) (c!": " ++ ·)) ++
      condAfter c (c.cond f.cfg)) := by restores
  unfold Field.ops
  split
  · restores
  · have := restores_append key (restores_onlyIf (b := (c.cond f.cfg).isSome) (restores_newLine wc))
    simpa using this

theorem restores_params (c : OutConfig) (d : Bool) (ps : List GParam) : Restores wc (paramsOps c d ps) := by
  have h : ∀ p : GParam, Restores wc (p.ops c d) := by
    intro p
    have h1 : ∀ t, Restores wc (typeOps c t) := restores_typeOps c
    have h2 : ∀ t, Restores wc (declOps c t p.name) := fun t => restores_declOps c t _
    unfold GParam.ops
    split
    · restores
      exact h1 _
    · rename_i t _
      have := h2 t
      restores
  unfold paramsOps
  restores
  exact h _

theorem restores_texts (t : ListType) (xs : List Str) : Restores wc (verticalTexts t xs) := by
  unfold verticalTexts; restores

theorem restores_attr (a : Annotations) (n : Str) : Restores wc (attrOps a n) := restores_optText

theorem restores_inBraces (c : OutConfig) {body : List WOp} (h : Restores wc body) :
    Restores wc (inBraces c body) := restores_braces h

theorem restores_opnCls (c : OutConfig) (semi : Bool) {body : List WOp} (h : Restores wc body) :
    Restores wc (c.opn ++ body ++ c.cls semi) := restores_braces h

theorem restores_closeDef (c : OutConfig) (n : Str) {body : List WOp} (h : Restores wc body) :
    Restores wc (c.opn ++ body ++ closeDef c n) := by
  unfold closeDef
  split
  · have := restores_append (restores_opnCls c false h) (restores_text wc (c!" " ++ n ++ c!";"))
    simpa using this
  · exact restores_opnCls c true h

end

/-- The same with the pieces of the backends. -/
macro "restoring" : tactic => `(tactic|
  repeat' first
    | with_reducible assumption
    | with_reducible exact restores_docs _ _
    | with_reducible exact restores_declOps _ _ _
    | with_reducible exact restores_typeOps _ _
    | with_reducible exact restores_funcDecl _ _ _
    | with_reducible exact restores_lit _ _
    | with_reducible exact restores_const _ _ _
    | with_reducible exact restores_constDecl _ _
    | with_reducible exact restores_field _ _
    | with_reducible exact restores_params _ _ _
    | with_reducible exact restores_texts _ _
    | with_reducible exact restores_attr _ _
    | with_reducible exact restores_nil _
    | with_reducible exact restores_text _ _
    | with_reducible exact restores_raw _ _
    | with_reducible exact restores_newLine _
    | with_reducible exact restores_newLineIfNotStart _
    | with_reducible exact restores_panic _
    | with_reducible exact restores_optText
    | with_reducible apply restores_cond
    | with_reducible apply restores_closeDef
    | with_reducible apply restores_opnCls
    | with_reducible apply restores_inBraces
    | with_reducible apply restores_onlyIf
    | with_reducible refine restores_verticalMap fun _ => ?_
    | with_reducible refine restores_horizontalMap fun _ => ?_
    | with_reducible refine restores_flatMap fun _ => ?_
    | with_reducible apply restores_append
    | with_reducible apply restores_cons
    | with_reducible apply restores_try
    | split)

section
variable {wc : WConfig}

theorem restores_preBody (c : OutConfig) (p : Str) : Restores wc (preBodyOps c p) := by
  unfold preBodyOps; restoring

theorem restores_postBody (c : OutConfig) (p : Str) : Restores wc (postBodyOps c p) := by
  unfold postBodyOps; restoring

theorem restores_align (c : OutConfig) (a : Option ReprAlign) : Restores wc (alignOps c a) := by
  unfold alignOps; restoring

theorem restores_mustUse (c : OutConfig) (a : Annotations) (t : Option Str) :
    Restores wc (mustUseOps c a t) := by unfold mustUseOps; restoring

theorem restores_tagName (c : OutConfig) (n : Str) : Restores wc (tagNameOps c n) := by
  unfold tagNameOps; restoring

theorem restores_assoc (e : Env) (s : StructItem) : Restores wc (assocOps e s) := by
  unfold assocOps; restoring

theorem restores_derived (c : OutConfig) (s : StructItem) : Restores wc (derivedOps c s) := by
  have hbin : ∀ n b p o x, Restores wc (bitflagsBinop c n b p o x) := by
    intros; unfold bitflagsBinop; restoring
  have h : ∀ b ∈ derivedBlocks c s, Restores wc b := by
    have hif : ∀ {q : Bool} {ops : List WOp}, Restores wc ops → ∀ x ∈ blockIf q ops, Restores wc x := by
      intro q ops h x hx
      unfold blockIf at hx
      split at hx
      · simp only [List.mem_singleton] at hx; exact hx ▸ h
      · simp at hx
    have hcmp : ∀ a b d, Restores wc (compareOps c s a b d) := by
      intros; unfold compareOps; simp only; restoring
    have hcon : Restores wc (constructorOps c s) := by unfold constructorOps; restoring
    have hstr : Restores wc (ostreamOps c s) := by unfold ostreamOps; simp only; restoring
    have hbit : Restores wc (bitflagsOps c s) := by
      unfold bitflagsOps
      split
      · simp only
        refine restores_append (restores_append (restores_append ?_ (hbin _ _ _ _ _)) (hbin _ _ _ _ _))
          (hbin _ _ _ _ _)
        restoring
      · restoring
    intro b hb
    simp only [derivedBlocks, List.mem_append] at hb
    rcases hb with (((((((hb | hb) | hb) | hb) | hb) | hb) | hb) | hb) | hb
    all_goals first
      | exact hif hcon b hb
      | exact hif hbit b hb
      | exact hif hstr b hb
      | exact hif (hcmp _ _ _) b hb
  unfold derivedOps
  revert h
  cases derivedBlocks c s with
  | nil => intro _; exact restores_nil wc
  | cons b bs =>
    intro h
    refine restores_append (restores_append (restores_newLine wc) (h b (by simp))) ?_
    have hbs : ∀ x ∈ bs, Restores wc x := fun x hx => h x (by simp [hx])
    clear h
    induction bs with
    | nil => exact restores_nil wc
    | cons x xs ih =>
      rw [List.flatten_cons]
      exact restores_append (hbs x (by simp)) (ih fun y hy => hbs y (by simp [hy]))

theorem restores_assocDecl (c : OutConfig) (s : StructItem) : Restores wc (assocDeclOps c s) := by
  unfold assocDeclOps; restoring

theorem restores_struct (e : Env) (s : StructItem) : Restores wc (emitStruct e s) := by
  have h1 := restores_preBody (wc := wc) e.cfg s.path
  have h2 := restores_postBody (wc := wc) e.cfg s.path
  have h3 := restores_derived (wc := wc) e.cfg s
  have h4 := restores_assocDecl (wc := wc) e.cfg s
  have h5 := restores_align (wc := wc) e.cfg s.alignment
  have h6 := restores_mustUse (wc := wc) e.cfg s.annotations e.cfg.structure_.mustUse
  have h7 := restores_tagName (wc := wc) e.cfg s.exportName
  have h8 := restores_assoc (wc := wc) e s
  have hp : Restores wc (packedWord s.alignment) := by unfold packedWord; restoring
  unfold emitStruct
  split
  · unfold structOpsCython memberBodyCython
    simp only
    restoring
  · unfold structOpsC structBodyC
    simp only
    restoring

theorem restores_union (c : OutConfig) (u : UnionItem) : Restores wc (emitUnion c u) := by
  have h1 := restores_preBody (wc := wc) c u.path
  have h2 := restores_postBody (wc := wc) c u.path
  have h5 := restores_align (wc := wc) c u.alignment
  have h7 := restores_tagName (wc := wc) c u.exportName
  unfold emitUnion
  split
  · unfold unionOpsCython memberBodyCython
    restoring
  · unfold unionOpsC
    restoring

theorem restores_opaque (c : OutConfig) (o : OpaqueItem) : Restores wc (emitOpaque c o) := by
  have key := restores_opnCls (wc := wc) c false (restores_text wc c!"pass")
  unfold emitOpaque
  apply restores_cond
  refine restores_append (restores_append (restores_docs _ _) (restores_params _ _ _)) ?_
  split
  · have := restores_append (restores_text wc (c.style.cythonDef ++ c!"struct " ++ o.exportName)) key
    simpa using this
  · restoring

theorem restores_typedef (c : OutConfig) (t : TypedefItem) : Restores wc (emitTypedef c t) := by
  unfold emitTypedef; restoring

theorem restores_static (c : OutConfig) (s : StaticItem) : Restores wc (emitStatic c s) := by
  unfold emitStatic; restoring

theorem restores_func (c : OutConfig) (f : FuncItem) : Restores wc (emitFunc c f) := by
  have hs : ∀ l, Restores wc (spaceOps l) := by intro l; unfold spaceOps; restoring
  have hl : ∀ l o, Restores wc (leadOps l o) := by
    intro l o; have := hs l; unfold leadOps; restoring
  have h : ∀ l, Restores wc (funcOps c f l) := by
    intro l
    have h1 := hs l
    have h2 := hl l
    have h3 : Restores wc (funcLead c f l) := by
      unfold funcLead
      split
      · restoring
      · exact restores_append (restores_append (h2 _) (h2 _)) (h2 _)
    have h4 : Restores wc (funcTrail c f l) := by unfold funcTrail; restoring
    unfold funcOps
    restoring
  unfold emitFunc
  split
  · exact h _
  · exact h _
  · exact restores_try (h _)

/-! ## Enums -/

theorem restores_variant (e : Env) (v : EnumVariant) : Restores wc (v.ops e) := by
  have h : ∀ t, Restores wc (discOps e t v.disc) := by intro t; unfold discOps; restoring
  have h1 := h c!" = "
  have h2 := h c!" # = "
  unfold EnumVariant.ops
  simp only
  restoring

theorem restores_tagEnum (e : Env) (x : EnumItem) : Restores wc (tagEnumOps e x) := by
  have h1 : Restores wc (tagEnumHead e.cfg x) := by
    have := restores_mustUse (wc := wc) e.cfg x.annotations e.cfg.enumeration.mustUse
    unfold tagEnumHead; restoring
  have h2 : Restores wc (enumeratorsOps e x.variants) := by
    have hv : ∀ v : EnumVariant, Restores wc (v.ops e) := restores_variant e
    cases x.variants with
    | nil => exact restores_nil wc
    | cons v vs =>
      refine restores_append (hv v) (restores_flatMap fun v => restores_append (restores_newLine wc) (hv v))
  have h3 : Restores wc (e.cfg.opn ++ enumeratorsOps e x.variants ++ tagEnumClose e.cfg x) := by
    unfold tagEnumClose
    split
    · have := restores_append (restores_opnCls e.cfg false h2)
        (restores_text wc (c!" " ++ x.tagName ++ c!";"))
      simpa using this
    · exact restores_opnCls e.cfg true h2
  have h4 : Restores wc (tagSizeOps e.cfg x (x.size e.cfg)) := by unfold tagSizeOps; restoring
  have h5 : Restores wc (enumStreamOps e.cfg x) := by
    unfold enumStreamOps streamHead streamSwitch streamUsing; restoring
  exact restores_append (restores_append (restores_append h1 h3) h4) h5

theorem restores_notCythonCond {c : OutConfig} {d : Option Condition} {body : List WOp}
    (h : Restores wc body) :
    Restores wc (notCython c (condBefore c d) ++ body ++ notCython c (condAfter c d)) := by
  unfold notCython onlyIf
  split
  · exact restores_cond h
  · simpa using h

theorem restores_variantDef (e : Env) (v : EnumVariant) : Restores wc (variantDef e v) := by
  unfold variantDef
  split
  · rename_i b _ _
    have := restores_cons (restores_newLine wc) (restores_cons (restores_newLine wc)
      (restores_notCythonCond (c := e.cfg) (d := e.cfg.cond v.cfg) (restores_struct (wc := wc) e b)))
    simpa using this
  · exact restores_nil wc

theorem restores_variantFields (c : OutConfig) (x : EnumItem) : Restores wc (variantFieldsOps c x) := by
  have hb : ∀ b ∈ x.variants.filterMap (variantField c x), Restores wc b := by
    intro b hb
    obtain ⟨v, _, hv⟩ := List.mem_filterMap.mp hb
    unfold variantField at hv
    split at hv
    · cases hv
    · rename_i name s inl _ _
      injection hv with hv
      subst hv
      apply restores_notCythonCond
      unfold inlineFields
      restoring
  unfold variantFieldsOps
  revert hb
  cases x.variants.filterMap (variantField c x) with
  | nil => intro _; exact restores_nil wc
  | cons b bs =>
    intro hb
    refine restores_append (hb b (by simp)) ?_
    have hbs : ∀ y ∈ bs, Restores wc y := fun y hy => hb y (by simp [hy])
    clear hb
    induction bs with
    | nil => exact restores_nil wc
    | cons y ys ih =>
      rw [List.flatMap_cons]
      exact restores_append (restores_append (restores_newLine wc) (hbs y (by simp)))
        (ih fun z hz => hbs z (by simp [hz]))

theorem restores_switch (c : OutConfig) (x : EnumItem) (t : Str → Str → StructItem → Str) :
    Restores wc (switchOps c x t) := by
  have h : ∀ v, Restores wc (switchCase c t v) := by
    intro v
    unfold switchCase
    split
    · exact restores_nil wc
    · rename_i name b _ _ _
      exact restores_append (restores_cond (restores_text wc _)) (restores_newLine wc)
  unfold switchOps
  restoring
  exact h _

theorem restores_helper (c : OutConfig) (x : EnumItem) (v : EnumVariant) : Restores wc (helperOps c x v) := by
  have hi : Restores wc (helperInits c v.body) := by
    unfold helperInits
    split
    · exact restores_nil wc
    · refine restores_flatMap fun f => ?_
      unfold helperInit
      refine restores_append (restores_newLine wc) ?_
      split <;> restoring
  have ha : Restores wc (helperArgs c v.body) := by unfold helperArgs; restoring
  have hc : Restores wc (helperConstructor c x v) := by unfold helperConstructor; restoring
  have his : Restores wc (helperIs c x v) := by unfold helperIs; restoring
  have hk : ∀ b, Restores wc (helperCast c v b) := by
    intro b
    unfold helperCast
    split
    · exact restores_nil wc
    · rename_i name s _ inl _
      have : Restores wc (castResult c b inl s) := by unfold castResult; restoring
      restoring
  have h1 := hk true
  have h2 := hk false
  have key : Restores wc ([WOp.newLine, .newLine] ++ (condBefore c (c.cond v.cfg) ++
      (helperConstructor c x v ++ helperIs c x v ++
       onlyIf (x.annotations.boolOr c!"derive-const-casts" c.enumeration.deriveConstCasts)
         (helperCast c v true) ++
       onlyIf (x.annotations.boolOr c!"derive-mut-casts" c.enumeration.deriveMutCasts)
         (helperCast c v false)) ++ condAfter c (c.cond v.cfg))) := by
    restoring
  simpa [helperOps] using key

theorem restores_dataFunctions (c : OutConfig) (x : EnumItem) : Restores wc (enumDataFunctions c x) := by
  have h1 : ∀ v, Restores wc (helperOps c x v) := restores_helper c x
  have hs : ∀ t, Restores wc (switchOps c x t) := restores_switch c x
  have h2 : Restores wc (enumEqOps c x) := by
    unfold enumEqOps; simp only; restoring; exact hs _
  have h3 : Restores wc (enumPrivateOps c x) := by unfold enumPrivateOps; restoring
  have h4 : Restores wc (enumDestructorOps c x) := by unfold enumDestructorOps; restoring; exact hs _
  have h5 : Restores wc (enumCopyOps c x) := by unfold enumCopyOps; simp only; restoring; exact hs _
  unfold enumDataFunctions
  simp only
  restoring
  exact h1 _

theorem restores_enum (e : Env) (x : EnumItem) : Restores wc (emitEnum e x) := by
  have h1 := restores_tagEnum (wc := wc) e x
  have h2 : ∀ v, Restores wc (variantDef e v) := restores_variantDef e
  have h3 : Restores wc (x.variants.flatMap (variantDef e)) := restores_flatMap h2
  have h4 := restores_preBody (wc := wc) e.cfg x.path
  have h5 : Restores wc (dataBody e.cfg x) := by
    have ht : Restores wc (tagFieldOps e.cfg x) := by unfold tagFieldOps; simp only; restoring
    have hv := restores_variantFields (wc := wc) e.cfg x
    have hu : Restores wc (variantUnion e.cfg x) := by unfold variantUnion; restoring
    have hd := restores_dataFunctions (wc := wc) e.cfg x
    have hp := restores_postBody (wc := wc) e.cfg x.path
    unfold dataBody
    restoring
  have h6 : Restores wc (openDataHead e.cfg x) := by
    have h1 := restores_mustUse (wc := wc) e.cfg x.annotations e.cfg.structure_.mustUse
    have h2 := restores_tagName (wc := wc) e.cfg x.exportName
    have h3 : Restores wc (dataWord e.cfg) := by unfold dataWord; restoring
    unfold openDataHead
    restoring
  unfold emitEnum
  simp only
  apply restores_cond
  refine restores_append (restores_append (restores_docs _ _) (restores_params _ _ _)) ?_
  split <;> restoring

/-! ## The whole header -/

theorem restores_item (e : Env) (i : Container) : Restores wc (i.ops e) := by
  cases i with
  | enum x => exact restores_enum e x
  | struct x =>
    simp only [Container.ops, structOrTypedef]
    split
    · exact restores_append (restores_typedef _ _) (restores_assoc _ _)
    · exact restores_struct e x
  | union x => exact restores_union _ x
  | «opaque» x => exact restores_opaque _ x
  | typedef x => exact restores_typedef _ x

theorem restores_itemOps {ops : List WOp} (h : Restores wc ops) : Restores wc (itemOps ops) :=
  restores_append (restores_append (restores_newLineIfNotStart wc) h) (restores_newLine wc)

theorem restores_headers (e : Env) : Restores wc (headersOps e) := by
  unfold headersOps preludeOps cythonImports optParagraph paragraphOps guardOps lineOps
  simp only
  restoring

/-- What is between the opening and the closing of the namespaces. -/
def innerOps (e : Env) (b : Bindings) : List WOp :=
  constantsOps e true b.constants ++ itemsOps e b.items ++ constantsOps e false b.constants ++
  globalsOps e.cfg b ++ functionsOps e.cfg b

theorem restores_inner (e : Env) (b : Bindings) : Restores wc (innerOps e b) := by
  have hk : ∀ p, Restores wc (constantsOps e p b.constants) := fun p =>
    restores_flatMap fun k => restores_itemOps (restores_const e k none)
  have hi : Restores wc (itemsOps e b.items) := restores_flatMap fun i => restores_itemOps (restores_item e i)
  have hg : Restores wc (globalsDefault e.cfg b.globals) :=
    restores_flatMap fun g => restores_itemOps (restores_static e.cfg g)
  have hf : Restores wc (functionsDefault e.cfg b.functions) :=
    restores_flatMap fun f => restores_itemOps (restores_func e.cfg f)
  have h1 := hk true
  have h2 := hk false
  unfold innerOps globalsOps functionsOps externOpen externClose
  restoring

theorem restores_namespaces (e : Env) (b : Bindings) :
    Restores wc (openNamespaces e.cfg ++ innerOps e b ++ closeNamespaces e.cfg) := by
  have h := restores_inner (wc := wc) e b
  have hn : ∀ ls, Restores wc (namespaceLines e.cfg ls) := by
    intro ls; unfold namespaceLines; restoring
  unfold openNamespaces closeNamespaces
  split
  · have := restores_append (restores_cons (restores_newLine wc)
      (restores_text wc (c!"cdef extern from " ++ e.cfg.cythonHeader.getD c!"*")))
      (restores_opnCls e.cfg false h)
    simpa using this
  · exact restores_append (restores_append (hn _) h) (hn _)

end

/-- The whole header leaves the stack of indentations as it found it, whatever the bindings, the
options and the language. -/
theorem C26_header (wc : WConfig) (e : Env) (b : Bindings) : Restores wc (bindingsOps e b) := by
  have h1 := restores_headers (wc := wc) e
  have h2 := restores_namespaces (wc := wc) e b
  have h3 : Restores wc (footersOps e.cfg) := by unfold footersOps paragraphOps; restoring
  have h4 : Restores wc (trailerOps e.cfg.trailer) := by unfold trailerOps; restoring
  have := restores_append (restores_append (restores_append h1 h2) h3) h4
  simpa [bindingsOps, innerOps] using this

/-- Every item, and every function, is written at the indentation at which the previous one was. -/
theorem C26_items (wc : WConfig) (e : Env) :
    (∀ i : Container, Restores wc (i.ops e)) ∧ (∀ f, Restores wc (emitFunc e.cfg f)) ∧
    (∀ s, Restores wc (emitStatic e.cfg s)) ∧ ∀ k s, Restores wc (ConstItem.ops e k s) :=
  ⟨restores_item e, restores_func e.cfg, restores_static e.cfg, fun k s => restores_const e k s⟩

/-- At the end of a header the stack is the one the writer started with. -/
theorem C26_header_end (e : Env) (b : Bindings) {t : Str} {w : W}
    (h : WOp.exec e.cfg.writer (bindingsOps e b) {} = some (t, w)) : w.spaces = [0] :=
  C26_header _ e b _ _ _ h

end Cbindgen
