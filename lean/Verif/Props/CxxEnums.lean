import Verif.Lemmas.CxxEnums
import Verif.Props.CxxMembers

/-!
# C72: derived C++ member functions of enums with data
-/

namespace Cbindgen.CxxSpec
open LexSpec TextSpec

/-- A header in C++ has an enum with data, whose names are words: those of its variants are distinct, no member has
the name of the parameter, and variants with data have no condition. -/
structure EnumCase (e : Env) (b : Bindings) (t : Str) (x : EnumItem) (p : Str) : Prop where
  text : headerText e b = some t
  lang : e.cfg.language = .cxx
  item : Container.enum x ∈ b.items
  exported : x.annotations.shouldExport = true
  tag : x.tag.isSome = true
  param : e.cfg.argName c!"other" = p
  paramWord : Word p
  name : Word x.exportName
  tagName : Word x.tagName
  variants : ∀ v ∈ x.variants, Word v.exportName
  distinct : x.variants.Pairwise fun v v' => v.exportName ≠ v'.exportName
  plain : ∀ v ∈ x.variants, !v.body.isEmptyBody → e.cfg.cond v.cfg = none
  members : ∀ v ∈ x.variants, ∀ n s i j, v.body = .body n s i j → Word n ∧ n ≠ p
  notTag : p ≠ c!"tag"

/-- The constants of the tag are distinct values. -/
structure Tags {V : Type} (const : Str → Str → Option V) (cmp : Rel → V → V → Option Bool) (x : EnumItem) (kt : Str → V) :
    Prop where
  const : ∀ v ∈ x.variants, const x.tagName v.exportName = some (kt v.exportName)
  eq : ∀ v ∈ x.variants, ∀ u ∈ x.variants, cmp .eq (kt v.exportName) (kt u.exportName) =
    some (decide (v.exportName = u.exportName))
  ne : ∀ v ∈ x.variants, ∀ u ∈ x.variants, cmp .ne (kt v.exportName) (kt u.exportName) =
    some (decide (v.exportName ≠ u.exportName))

/-! ## Parts of the calls -/

section
variable {e : Env} {b : Bindings} {t : Str} {x : EnumItem} {p : Str} (h : EnumCase e b t x p)
include h

theorem EnumCase.infix : emitEnum e x <:+: bindingsOps e b := item_infix (i := .enum x) h.item h.exported

theorem EnumCase.body : ∃ pre post, emitEnum e x = condBefore e.cfg (e.cfg.cond x.cfg) ++
    (docOps e.cfg x.doc ++ paramsOps e.cfg false x.genericParams ++
      (openDataHead e.cfg x ++ (e.cfg.opn ++ (pre ++ x.variants.flatMap (variantDef e) ++ [.newLine, .newLine] ++
        dataBody e.cfg x) ++ post))) ++ condAfter e.cfg (e.cfg.cond x.cfg) := by
  obtain ⟨g, hg⟩ := Option.isSome_iff_exists.mp h.tag
  refine ⟨preBodyOps e.cfg x.path ++ tagEnumOps e x, closeDef e.cfg x.exportName, ?_⟩
  unfold emitEnum
  simp only [hg, h.lang]

theorem EnumCase.functions : enumDataFunctions e.cfg x <:+: bindingsOps e b := by
  refine List.IsInfix.trans ?_ h.infix
  obtain ⟨pre, post, hb⟩ := h.body
  rw [hb]
  have h1 : enumDataFunctions e.cfg x <:+: dataBody e.cfg x := by
    unfold dataBody; exact infix_left (infix_right (List.infix_refl _) _) _
  exact infix_left (infix_right (infix_right (infix_right (infix_left (infix_right (infix_right h1 _) _) _) _) _) _) _

theorem EnumCase.variant {v : EnumVariant} (hv : v ∈ x.variants) : variantDef e v <:+: bindingsOps e b := by
  refine List.IsInfix.trans ?_ h.infix
  obtain ⟨pre, post, hb⟩ := h.body
  rw [hb]
  have h1 : variantDef e v <:+: x.variants.flatMap (variantDef e) := infix_mem_flatMap hv
  exact infix_left (infix_right (infix_right (infix_right (infix_left (infix_right (infix_left (infix_left
    (infix_right h1 _) _) _) _) _) _) _) _) _

theorem EnumCase.words {z : Str × Str × StructItem} (hz : z ∈ bodiesOf x.variants) : Word z.2.1 ∧ z.2.1 ≠ p := by
  obtain ⟨v, hv, i, j, hb, _⟩ := mem_bodiesOf.mp hz
  exact h.members v hv _ _ _ _ hb

end

/-! ## The comparison -/

/-- What is after the attributes. -/
def enumEqRest (c : OutConfig) (x : EnumItem) : List WOp :=
  let other := c.argName c!"other"
  [.text (c!"bool operator==(const " ++ x.exportName ++ c!"& " ++ other ++ c!") const")] ++
  inBraces c
    ([.text (c!"if (tag != " ++ other ++ c!".tag)")] ++ inBraces c [.text c!"return false;"] ++
     [.newLine] ++
     switchOps c x (fun v n _ => c!"case " ++ x.tagName ++ c!"::" ++ v ++ c!": return " ++ n ++
       c!" == " ++ other ++ c!"." ++ n ++ c!";") ++
     [.newLine, .text c!"return true;"])

def enumNeRest (c : OutConfig) (x : EnumItem) : List WOp :=
  [.text (c!"bool operator!=(const " ++ x.exportName ++ c!"& " ++ c.argName c!"other" ++ c!") const")] ++
  inBraces c [.text (c!"return !(*this == " ++ c.argName c!"other" ++ c!");")]

theorem enumEqOps_eq (c : OutConfig) (x : EnumItem) : enumEqOps c x =
    [.newLine, .newLine] ++ attrOps x.annotations c!"eq-attributes" ++ enumEqRest c x ++
    onlyIf (x.annotations.boolOr c!"derive-neq" c.structure_.deriveNeq)
      ([.newLine, .newLine] ++ attrOps x.annotations c!"neq-attributes" ++ enumNeRest c x) := by
  simp [enumEqOps, enumEqRest, enumNeRest]

def eqBodyToks (p : Str) (sw : List Lx) : List Lx :=
  [.word c!"if", .punct '(', .word c!"tag", .punct '!', .punct '=', .word p, .punct '.', .word c!"tag", .punct ')'] ++
  [.punct '{', .word c!"return", .word c!"false", .punct ';', .punct '}'] ++ sw ++
  [.word c!"return", .word c!"true", .punct ';']

theorem mid_ret {p n : Str} (hp : Word p) (hn : Word n) :
    Mid false (c!"return " ++ n ++ c!" == " ++ p ++ c!"." ++ n ++ c!";") (retCmpToks p n) false := by
  have h := mid_app (mid_given (t := c!"return ") (b := false) (ls := [.word c!"return"]) (e := false) (by decide))
    (mid_app (mid_cmp (r := .eq) hp hn) (mid_given (t := c!";") (b := true) (ls := [.punct ';']) (e := false) (by decide)))
  simpa [retCmpToks, Rel.text] using h

section
variable {e : Env} {b : Bindings} {t : Str} {x : EnumItem} {p : Str} (h : EnumCase e b t x p)
include h

theorem EnumCase.inl_eq {wc : WConfig} : Inl wc false false (enumEqRest e.cfg x)
    (opHeadToks .eq x.exportName p ++ ([.punct '{'] ++ eqBodyToks p (switchToks x.tagName (bodiesOf x.variants)
      (fun z => retCmpToks p z.2.1) (hasEmpty x.variants)) ++ [.punct '}'])) false := by
  have h1 : Inl wc false false [.text (c!"bool operator==(const " ++ x.exportName ++ c!"& " ++ p ++ c!") const")]
      (opHeadToks .eq x.exportName p) true := mid_text (mid_opHead (r := .eq) h.name h.paramWord)
  have h2 : Inl wc false false [.text (c!"if (tag != " ++ p ++ c!".tag)")] [.word c!"if", .punct '(', .word c!"tag",
      .punct '!', .punct '=', .word p, .punct '.', .word c!"tag", .punct ')'] false := by
    have := mid_app (mid_given (t := c!"if (tag != ") (b := false) (ls := [.word c!"if", .punct '(', .word c!"tag",
      .punct '!', .punct '=']) (e := false) (by decide)) (mid_app (mid_word h.paramWord) (mid_given (t := c!".tag)")
      (b := true) (ls := [.punct '.', .word c!"tag", .punct ')']) (e := false) (by decide)))
    exact mid_text (by simpa using this)
  have h3 : Inl wc false false (inBraces e.cfg [.text c!"return false;"])
      [.punct '{', .word c!"return", .word c!"false", .punct ';', .punct '}'] false :=
    inl_inBraces (e := false) (ls := [.word c!"return", .word c!"false", .punct ';']) h.lang (inl_text (by decide))
  have h4 : Inl wc false false (switchOps e.cfg x (fun v n _ => c!"case " ++ x.tagName ++ c!"::" ++ v ++ c!": return " ++ n ++
       c!" == " ++ p ++ c!"." ++ n ++ c!";")) (switchToks x.tagName (bodiesOf x.variants)
      (fun z => retCmpToks p z.2.1) (hasEmpty x.variants)) false := by
    refine inl_switch (rest := fun _ n _ => c!"return " ++ n ++ c!" == " ++ p ++ c!"." ++ n ++ c!";") h.lang ?_ h.tagName
      h.variants h.plain ?_
    · intro v n b; simp
    · intro z hz; exact mid_ret h.paramWord (h.words hz).1
  have h5 : Inl wc false false [.newLine, .text c!"return true;"] [.word c!"return", .word c!"true", .punct ';'] false :=
    inl_append (ls := []) inl_newLine (inl_text (by decide))
  unfold enumEqRest
  rw [h.param]
  refine inl_append h1 (inl_inBraces (e := false) h.lang ?_)
  exact tri_eq (inl_append (inl_append (inl_append (inl_append h2 h3) inl_newLine) h4) h5) (by simp [eqBodyToks])

end

/-- The body of the comparison. -/
def eqBody (p tag : Str) (zs : List (Str × Str × StructItem)) (d : Bool) : List Stmt :=
  [.cond ⟨false, [[⟨.name c!"tag", .ne, .member p c!"tag"⟩]]⟩ [.retLit false],
   .switch (.name c!"tag") (switchItems tag zs (fun z => [.ret ⟨false, [[fieldCmp .eq p z.2.1]]⟩]) d),
   .simple (.retLit true)]

theorem readMember_enumEq (cls p tag : Str) (zs : List (Str × Str × StructItem)) (d : Bool) :
    readMember (opHeadToks .eq cls p ++ ([.punct '{'] ++ eqBodyToks p (switchToks tag zs
      (fun z => retCmpToks p z.2.1) d) ++ [.punct '}'])) = some ⟨.op .eq cls p, eqBody p tag zs d⟩ := by
  have hsw := fun rest => readStmt_switch (tag := tag) (zs := zs) (sts := fun z => retCmpToks p z.2.1)
    (ss := fun z => [.ret ⟨false, [[fieldCmp .eq p z.2.1]]⟩]) (fun z _ => chunk_ret p z.2.1) d rest
  have hx : ∀ rest, expect '}' (switchToks tag zs (fun z => retCmpToks p z.2.1) d ++ rest) = none := fun _ => rfl
  have e1 : [Lx.punct '{'] ++ eqBodyToks p (switchToks tag zs (fun z => retCmpToks p z.2.1) d) ++ [.punct '}'] =
      .punct '{' :: (.word c!"if" :: .punct '(' :: .word c!"tag" :: .punct '!' :: .punct '=' :: .word p :: .punct '.' ::
        .word c!"tag" :: .punct ')' :: .punct '{' :: .word c!"return" :: .word c!"false" :: .punct ';' :: .punct '}' ::
        (switchToks tag zs (fun z => retCmpToks p z.2.1) d ++
          [.word c!"return", .word c!"true", .punct ';', .punct '}'])) := by simp [eqBodyToks]
  rw [e1]
  generalize switchToks tag zs (fun z => retCmpToks p z.2.1) d = sw at hsw hx
  refine readMember_of (readHead_op .eq cls p _) ?_
  have h1 : ∀ rest, readStmt (.word c!"if" :: .punct '(' :: .word c!"tag" :: .punct '!' :: .punct '=' :: .word p :: .punct '.' ::
        .word c!"tag" :: .punct ')' :: .punct '{' :: .word c!"return" :: .word c!"false" :: .punct ';' :: .punct '}' :: rest) =
      some (.cond ⟨false, [[⟨.name c!"tag", .ne, .member p c!"tag"⟩]]⟩ [.retLit false], rest) := fun _ => rfl
  have h2 : readStmt [.word c!"return", .word c!"true", .punct ';', .punct '}'] =
      some (.simple (.retLit true), [.punct '}']) := rfl
  have h0 : ∀ rest, expect '}' (.word c!"if" :: rest) = none := fun _ => rfl
  have h3 : ∀ rest, expect '}' (.word c!"return" :: rest) = none := fun _ => rfl
  have h4 : expect '}' [.punct '}'] = some [] := rfl
  simp only [List.length_cons, List.length_append]
  rw [show sw.length + ([] : List Lx).length.succ.succ.succ.succ = sw.length + 4 from rfl]
  simp only [readStmts, h0, h1, hx, hsw, h3, h2, h4, Option.bind_some, Option.map_some, eqBody]

/-! ## Variants by name -/

theorem distinct_eq {vs : List EnumVariant} (h : vs.Pairwise fun v v' => v.exportName ≠ v'.exportName) {u v : EnumVariant}
    (hu : u ∈ vs) (hv : v ∈ vs) (he : u.exportName = v.exportName) : u = v := by
  induction vs with
  | nil => cases hu
  | cons w vs ih =>
    obtain ⟨h1, h2⟩ := List.pairwise_cons.mp h
    cases hu with
    | head =>
      cases hv with
      | head => rfl
      | tail _ hv => exact absurd he (h1 v hv)
    | tail _ hu =>
      cases hv with
      | head => exact absurd he.symm (h1 u hu)
      | tail _ hv => exact ih h2 hu hv

theorem body_of_name {vs : List EnumVariant} (h : vs.Pairwise fun v v' => v.exportName ≠ v'.exportName) {u : EnumVariant}
    (hu : u ∈ vs) {z : Str × Str × StructItem} (hz : z ∈ bodiesOf vs) (he : z.1 = u.exportName) :
    ∃ i j, u.body = .body z.2.1 z.2.2 i j := by
  obtain ⟨v, hv, i, j, hb, hn⟩ := mem_bodiesOf.mp hz
  have := distinct_eq h hu hv (by rw [hn, he])
  exact ⟨i, j, this ▸ hb⟩

section
variable {V : Type} {const : Str → Str → Option V} {cmp : Rel → V → V → Option Bool} {x : EnumItem} {kt : Str → V}

theorem Tags.labels (h : Tags const cmp x kt) {u : EnumVariant} (hu : u ∈ x.variants) {z : Str × Str × StructItem}
    (hz : z ∈ bodiesOf x.variants) :
    const x.tagName z.1 = some (kt z.1) ∧ cmp .eq (kt u.exportName) (kt z.1) = some (decide (u.exportName = z.1)) := by
  obtain ⟨v, hv, i, j, hb, hn⟩ := mem_bodiesOf.mp hz
  rw [← hn]
  exact ⟨h.const v hv, h.eq u hu v hv⟩

/-- What a `switch` over the tag does: the statements of the variant. -/
theorem Tags.switch {e : Scope V} (h : Tags e.konst e.cmp x kt)
    (hd : x.variants.Pairwise fun v v' => v.exportName ≠ v'.exportName)
    {u : EnumVariant} (hu : u ∈ x.variants) {ss : Str × Str × StructItem → List Simple} {d : Bool}
    (hn : e.name c!"tag" = some (kt u.exportName))
    (hs : ∀ n s i j, u.body = .body n s i j → ∃ as f, runSimples e (ss (u.exportName, n, s)) = some (as, f) ∧ f ≠ .next) :
    Stmt.run e (.switch (.name c!"tag") (switchItems x.tagName (bodiesOf x.variants) ss d)) =
      match u.body with
      | .empty _ => some ([], .next)
      | .body n s _ _ => (runSimples e (ss (u.exportName, n, s))).map leave := by
  simp only [Stmt.run, Atom.eval, hn, Option.bind_some]
  have key := runSwitch_eq (e := e) (tag := x.tagName) (u := u.exportName) (kt := kt)
    (ss := ss) (d := d) (zs := bodiesOf x.variants) (fun z hz => h.labels hu hz) (fun z hz hn => by
      obtain ⟨i, j, hb⟩ := body_of_name hd hu hz hn
      obtain ⟨y, n, s⟩ := z
      cases hn
      exact hs _ _ _ _ hb)
  rcases key with ⟨z, hz, hn, hr⟩ | ⟨hn, hr⟩
  · obtain ⟨i, j, hb⟩ := body_of_name hd hu hz hn
    obtain ⟨y, n, s⟩ := z
    cases hn
    rw [hr, hb]
  · rw [hr]
    cases hb : u.body with
    | empty => rfl
    | body n s i j => exact absurd rfl (hn (u.exportName, n, s) (mem_bodiesOf.mpr ⟨u, hu, i, j, hb, rfl⟩))

end

/-- The members of the variant are compared. -/
def SameBody {V : Type} (this other : Str → Option V) (cmp : Rel → V → V → Option Bool) (r : Option Bool) : VBody → Prop
  | .empty _ => r = some true
  | .body n _ _ _ => ∀ a b q, this n = some a → other n = some b → cmp .eq a b = some q → r = some q

/-- All the data can be compared. -/
def AllComparable (x : EnumItem) : Prop := ∀ v ∈ x.variants, ∀ n s i j, v.body = .body n s i j → Comparable s.fields .eq

theorem canDeriveEq_enum (x : EnumItem) : x.canDeriveEq = true ↔ x.tag.isSome = true ∧ AllComparable x := by
  unfold EnumItem.canDeriveEq AllComparable
  simp only [Bool.and_eq_true, List.all_eq_true]
  refine and_congr_right fun _ => forall_congr' fun v => forall_congr' fun _ => ?_
  cases hb : v.body with
  | empty a => simp only [VBody.canDeriveEq, true_iff]; nofun
  | body n s i j =>
    have := able_iff s .eq
    simp only [able, if_true, true_or] at this
    simp only [VBody.canDeriveEq, this]
    exact ⟨fun h _ _ _ _ hb => by cases hb; exact h, fun h => h _ _ _ _ rfl⟩

theorem EnumCase.eqOps {e : Env} {b : Bindings} {t : Str} {x : EnumItem} {p : Str} (h : EnumCase e b t x p)
    (hw : Wanted e.cfg x.annotations .eq) (ha : AllComparable x) : enumEqOps e.cfg x <:+: bindingsOps e b := by
  refine List.IsInfix.trans ?_ h.functions
  have h1 : (x.canDeriveEq && x.annotations.boolOr c!"derive-eq" e.cfg.structure_.deriveEq) = true := by
    rw [Bool.and_eq_true]
    exact ⟨(canDeriveEq_enum x).mpr ⟨h.tag, ha⟩, hw⟩
  have h2 : (e.cfg.language == .cxx) = true := by rw [h.lang]; rfl
  unfold enumDataFunctions
  simp only [onlyIf, h1, h2, if_true]
  exact infix_left (infix_left (infix_left (infix_right (List.infix_refl _) _) _) _) _

end Cbindgen.CxxSpec

namespace Cbindgen
open LexSpec TextSpec CxxSpec

/-- **C72 (`==` of an enum).**  A header in C++ with an enum with data, for which `==` is asked and all of whose data
can be compared, has it as a member function: it gives `false` for two variants, `true` for a variant without data, and
otherwise what the comparison of the members of the variant gives. -/
theorem C72_enum_eq_partial {e : Env} {b : Bindings} {t : Str} {x : EnumItem} {p : Str} (h : EnumCase e b t x p)
    (hw : Wanted e.cfg x.annotations .eq) (ha : AllComparable x) :
    ∃ k, Has t k ∧ k.head = .op .eq x.exportName p ∧
      ∀ (V : Type) (this other : Str → Option V) (w w' : V) (const : Str → Str → Option V)
        (cmp : Rel → V → V → Option Bool) (kt : Str → V), Tags const cmp x kt →
        ∀ u ∈ x.variants, ∀ u' ∈ x.variants, this c!"tag" = some (kt u.exportName) → other c!"tag" = some (kt u'.exportName) →
          (u.exportName ≠ u'.exportName → k.result (.within p this other w w' const cmp) = some false) ∧
          (u.exportName = u'.exportName →
            SameBody this other cmp (k.result (.within p this other w w' const cmp)) u.body) := by
  have hi : enumEqRest e.cfg x <:+: bindingsOps e b := by
    refine List.IsInfix.trans ?_ (h.eqOps hw ha)
    rw [enumEqOps_eq]
    exact infix_left (infix_right (List.infix_refl _) _) _
  have hr := readMember_enumEq x.exportName p x.tagName (bodiesOf x.variants) (hasEmpty x.variants)
  have ho := h.inl_eq (wc := e.cfg.writer)
  refine ⟨_, has_infix h.text hi ho hr, rfl, ?_⟩
  intro V this other w w' const cmp kt hk u hu u' hu' hu1 hu2
  have hc : Cond.eval (.within p this other w w' const cmp) ⟨false, [[⟨.name c!"tag", .ne, .member p c!"tag"⟩]]⟩ =
      some (decide (u.exportName ≠ u'.exportName)) := by
    have hn : (Scope.within p this other w w' const cmp).name c!"tag" = some (kt u.exportName) := by
      show (if _ then _ else _) = _
      rw [if_neg (Ne.symm h.notTag), hu1]
    have hm : (Scope.within p this other w w' const cmp).member p c!"tag" = some (kt u'.exportName) := by
      show (if _ then _ else _) = _
      rw [if_pos rfl, hu2]
    have hcm : (Scope.within p this other w w' const cmp).cmp .ne (kt u.exportName) (kt u'.exportName) =
      some (decide (u.exportName ≠ u'.exportName)) := hk.ne u hu u' hu'
    simp only [Cond.eval, evalOrs, evalAnds, Cmp.eval, Atom.eval, hn, hm, hcm, Option.bind_some]
    by_cases hq : u.exportName = u'.exportName <;> simp [hq]
  refine ⟨fun hne => ?_, fun heq => ?_⟩
  · simp only [Member.result, eqBody, runStmts, Stmt.run, hc, Option.bind_some, hne, ne_eq, not_false_eq_true, decide_true,
      if_true, runSimples, Simple.run, CxxSpec.andThen, reduceCtorEq, if_false]
  · have hrest : ∀ z, runStmts (.within p this other w w' const cmp) (eqBody p x.tagName (bodiesOf x.variants) z) =
        CxxSpec.andThen (Stmt.run (.within p this other w w' const cmp) (.switch (.name c!"tag") (switchItems x.tagName
          (bodiesOf x.variants) (fun z => [.ret ⟨false, [[fieldCmp .eq p z.2.1]]⟩]) z))) (some ([], .ret true)) := by
      intro z
      have h1 : Stmt.run (.within p this other w w' const cmp)
          (.cond ⟨false, [[⟨.name c!"tag", .ne, .member p c!"tag"⟩]]⟩ [.retLit false]) = some ([], .next) := by
        simp [Stmt.run, hc, heq]
      have h2 : runStmts (.within p this other w w' const cmp) [.simple (.retLit true)] = some ([], .ret true) := rfl
      simp only [eqBody]
      rw [runStmts, h1, runStmts, h2]
      simp only [CxxSpec.andThen, Option.bind_some, if_true, List.nil_append, Option.map_id']
    have hn : (Scope.within p this other w w' const cmp).name c!"tag" = some (kt u.exportName) := by
      show (if _ then _ else _) = _
      rw [if_neg (Ne.symm h.notTag), hu1]
    have hsw := fun z => Tags.switch (e := .within p this other w w' const cmp) hk h.distinct hu
      (ss := fun z => [.ret ⟨false, [[fieldCmp .eq p z.2.1]]⟩]) (d := z) hn
    cases hb : u.body with
    | empty a =>
      have := hsw (hasEmpty x.variants) (fun n s i j h => by rw [hb] at h; cases h)
      rw [hb] at this
      show Member.result _ _ = _
      simp only [Member.result, hrest, this]
      rfl
    | body n s i j =>
      intro a b' q ha hb' hq
      have hf := fieldCmp_within (w := w) (w' := w') (k := const) (h.members u hu _ _ _ _ hb).2 ha hb' hq
      have hrun : runSimples (.within p this other w w' const cmp) [.ret ⟨false, [[fieldCmp .eq p n]]⟩] =
          some ([], .ret q) := by
        cases q <;> simp [runSimples, Simple.run, Cond.eval, evalOrs, evalAnds, hf, CxxSpec.andThen]
      have := hsw (hasEmpty x.variants) (fun n' s' i' j' h => by
        rw [hb] at h; cases h
        exact ⟨_, _, hrun, nofun⟩)
      rw [hb] at this
      simp only [Member.result, hrest, this]
      simp only [hrun]
      rfl

/-- **C72 (`!=` of an enum).**  Where both operators are asked, `!=` is there too and gives the opposite of `==`. -/
theorem C72_enum_ne_partial {e : Env} {b : Bindings} {t : Str} {x : EnumItem} {p : Str} (h : EnumCase e b t x p)
    (hw : Wanted e.cfg x.annotations .eq) (hw' : Wanted e.cfg x.annotations .ne) (ha : AllComparable x) :
    ∃ k, Has t k ∧ k.head = .op .ne x.exportName p ∧
      ∀ (V : Type) (this other : Str → Option V) (w w' : V) (const : Str → Str → Option V)
        (cmp : Rel → V → V → Option Bool) (q : Bool), cmp .eq w w' = some q →
        k.result (.within p this other w w' const cmp) = some (!q) := by
  have hi : enumNeRest e.cfg x <:+: bindingsOps e b := by
    refine List.IsInfix.trans ?_ (h.eqOps hw ha)
    rw [enumEqOps_eq]
    have : x.annotations.boolOr c!"derive-neq" e.cfg.structure_.deriveNeq = true := hw'
    simp only [this, onlyIf, if_true]
    exact infix_right (infix_right (List.infix_refl _) _) _
  have ho : Inl e.cfg.writer false false (enumNeRest e.cfg x) (opHeadToks .ne x.exportName p ++ ([.punct '{'] ++
      [.word c!"return", .punct '!', .punct '(', .punct '*', .word c!"this", .punct '=', .punct '=', .word p, .punct ')',
        .punct ';'] ++ [.punct '}'])) false := by
    unfold enumNeRest
    rw [h.param]
    refine inl_append (mid_text (mid_opHead (r := .ne) h.name h.paramWord)) (inl_inBraces (e := false) h.lang (mid_text ?_))
    exact mid_app (mid_app (mid_given (t := c!"return !(*this == ") (b := false) (ls := [.word c!"return", .punct '!',
      .punct '(', .punct '*', .word c!"this", .punct '=', .punct '=']) (e := false) (by decide)) (mid_word h.paramWord))
      (mid_given (t := c!");") (b := true) (ls := [.punct ')', .punct ';']) (e := false) (by decide))
  have hr : readMember (opHeadToks .ne x.exportName p ++ ([.punct '{'] ++
      [.word c!"return", .punct '!', .punct '(', .punct '*', .word c!"this", .punct '=', .punct '=', .word p, .punct ')',
        .punct ';'] ++ [.punct '}'])) =
      some ⟨.op .ne x.exportName p, [.simple (.ret ⟨true, [[⟨.self, .eq, .name p⟩]]⟩)]⟩ :=
    readMember_of (readHead_op .ne x.exportName p _) rfl
  refine ⟨_, has_infix h.text hi ho hr, rfl, ?_⟩
  intro V this other w w' const cmp q hq
  have hn : (Scope.within p this other w w' const cmp).name p = some w' := by simp [Scope.within]
  have hs : (Scope.within p this other w w' const cmp).self = some w := rfl
  have hcm : (Scope.within p this other w w' const cmp).cmp .eq w w' = some q := hq
  cases q <;> simp [Member.result, runStmts, Stmt.run, Simple.run, Cond.eval, evalOrs, evalAnds, Cmp.eval, Atom.eval, hn, hs, hcm,
    CxxSpec.andThen]

/-- **C72 (tests for variants).**  Where helper methods are asked, every variant has a test that says whether the tag is
that of the variant. -/
theorem C72_is_partial {e : Env} {b : Bindings} {t : Str} {x : EnumItem} {p : Str} (h : EnumCase e b t x p)
    (hw : (x.annotations.bool c!"derive-helper-methods").getD e.cfg.enumeration.deriveHelperMethods = true)
    {v : EnumVariant} (hv : v ∈ x.variants) :
    ∃ k, Has t k ∧ k.head = .test (c!"Is" ++ v.exportName) ∧
      ∀ (V : Type) (this : Str → Option V) (const : Str → Str → Option V)
        (cmp : Rel → V → V → Option Bool) (kt : Str → V), Tags const cmp x kt →
        ∀ u ∈ x.variants, this c!"tag" = some (kt u.exportName) →
          k.result (.plain this const cmp) = some (decide (u.exportName = v.exportName)) := by
  have hi : helperIs e.cfg x v <:+: bindingsOps e b := by
    refine List.IsInfix.trans ?_ h.functions
    have h1 : x.annotations.boolOr c!"derive-helper-methods" e.cfg.enumeration.deriveHelperMethods = true := hw
    have h2 : (e.cfg.language == .cxx) = true := by rw [h.lang]; rfl
    have h3 : helperIs e.cfg x v <:+: helperOps e.cfg x v := by
      unfold helperOps
      exact infix_left (infix_right (infix_left (infix_left (infix_right (List.infix_refl _) _) _) _) _) _
    unfold enumDataFunctions
    simp only [h1, h2, onlyIf, if_true]
    exact infix_left (infix_left (infix_left (infix_left (h3.trans (infix_mem_flatMap hv)) _) _) _) _
  have hi' : ([.text (c!"bool Is" ++ v.exportName ++ c!"() const")] ++
      inBraces e.cfg [.text (c!"return tag == " ++ x.tagName ++ c!"::" ++ v.exportName ++ c!";")]) <:+: bindingsOps e b := by
    refine List.IsInfix.trans ?_ hi
    exact ⟨[.newLine, .newLine] ++ attrOps v.body.annotations c!"variant-is-attributes", [], by simp [helperIs]⟩
  have hw := h.variants v hv
  have hword : Word (c!"Is" ++ v.exportName) := ⟨by simp, by
    rw [List.all_append, hw.2]; rfl⟩
  have ho : Inl e.cfg.writer false false ([.text (c!"bool Is" ++ v.exportName ++ c!"() const")] ++
      inBraces e.cfg [.text (c!"return tag == " ++ x.tagName ++ c!"::" ++ v.exportName ++ c!";")])
      ([.word c!"bool", .word (c!"Is" ++ v.exportName), .punct '(', .punct ')', .word c!"const"] ++ ([.punct '{'] ++
        [.word c!"return", .word c!"tag", .punct '=', .punct '=', .word x.tagName, .punct ':', .punct ':',
          .word v.exportName, .punct ';'] ++ [.punct '}'])) false := by
    have h1 := mid_app (mid_given (t := c!"bool ") (b := false) (ls := [.word c!"bool"]) (e := false) (by decide))
      (mid_app (mid_word hword) (mid_given (t := c!"() const") (b := true) (ls := [.punct '(', .punct ')', .word c!"const"])
        (e := true) (by decide)))
    have h2 := mid_app (mid_given (t := c!"return tag == ") (b := false) (ls := [.word c!"return", .word c!"tag", .punct '=',
        .punct '=']) (e := false) (by decide)) (mid_app (mid_word h.tagName) (mid_app (mid_given (t := c!"::") (b := true)
        (ls := [.punct ':', .punct ':']) (e := false) (by decide)) (mid_app (mid_word hw) (mid_given (t := c!";") (b := true)
        (ls := [.punct ';']) (e := false) (by decide)))))
    refine inl_append (mid_text (e := true) (by simpa using h1)) (inl_inBraces (e := false) h.lang (mid_text (by simpa using h2)))
  have hr : readMember ([.word c!"bool", .word (c!"Is" ++ v.exportName), .punct '(', .punct ')', .word c!"const"] ++ ([.punct '{'] ++
        [.word c!"return", .word c!"tag", .punct '=', .punct '=', .word x.tagName, .punct ':', .punct ':',
          .word v.exportName, .punct ';'] ++ [.punct '}'])) =
      some ⟨.test (c!"Is" ++ v.exportName), [.simple (.ret ⟨false, [[⟨.name c!"tag", .eq, .konst x.tagName v.exportName⟩]]⟩)]⟩ := rfl
  refine ⟨_, has_infix h.text hi' ho hr, rfl, ?_⟩
  intro V this const cmp kt hk u hu ht
  have hn : (Scope.plain this const cmp).name c!"tag" = some (kt u.exportName) := ht
  have hc : (Scope.plain this const cmp).konst x.tagName v.exportName = some (kt v.exportName) := hk.const v hv
  have hq : (Scope.plain this const cmp).cmp .eq (kt u.exportName) (kt v.exportName) =
    some (decide (u.exportName = v.exportName)) := hk.eq u hu v hv
  simp only [Member.result, runStmts, Stmt.run, Simple.run, Cond.eval, evalOrs, evalAnds, Cmp.eval, Atom.eval, hn, hc, hq,
    Option.bind_some]
  by_cases he : u.exportName = v.exportName <;> simp [he, CxxSpec.andThen]

/-- What is said about destructors and copies: only the data of the variant is concerned. -/
def OnlyBody (acts : Option (List Act)) (act : Str → StructItem → Act) : VBody → Prop
  | .empty _ => acts = some []
  | .body n s _ _ => acts = some [act n s]

theorem acts_switch {V : Type} {e : Scope V} {x : EnumItem} {kt : Str → V} (h : Tags e.konst e.cmp x kt)
    (hd : x.variants.Pairwise fun v v' => v.exportName ≠ v'.exportName)
    {u : EnumVariant} (hu : u ∈ x.variants) {act : Str → StructItem → Act} {d : Bool} {hdr : Head}
    (hn : e.name c!"tag" = some (kt u.exportName)) :
    OnlyBody (Member.acts ⟨hdr, [.switch (.name c!"tag") (switchItems x.tagName (bodiesOf x.variants)
      (fun z => [.act (act z.2.1 z.2.2), .brk]) d)]⟩ e) act u.body := by
  have hsw := Tags.switch (d := d) h hd hu (ss := fun z => [.act (act z.2.1 z.2.2), .brk]) hn
    (fun n s i j _ => ⟨_, .brk, rfl, nofun⟩)
  unfold Member.acts
  simp only [runStmts, hsw]
  cases u.body with
  | empty a => rfl
  | body n s i j => rfl

/-- **C72 (destructor).**  Where it is asked, the destructor of an enum with data destroys the data of the variant that
the object is, and nothing else. -/
theorem C72_destructor_partial {e : Env} {b : Bindings} {t : Str} {x : EnumItem} {p : Str} (h : EnumCase e b t x p)
    (hw : (x.annotations.bool c!"derive-tagged-enum-destructor").getD e.cfg.enumeration.deriveTaggedEnumDestructor = true)
    (hs : ∀ v ∈ x.variants, ∀ n s i j, v.body = .body n s i j → Word s.exportName ∧ n ≠ c!"case" ∧ n ≠ c!"default") :
    ∃ k, Has t k ∧ k.head = .dtor x.exportName ∧
      ∀ (V : Type) (this : Str → Option V) (const : Str → Str → Option V)
        (cmp : Rel → V → V → Option Bool) (kt : Str → V), Tags const cmp x kt →
        ∀ u ∈ x.variants, this c!"tag" = some (kt u.exportName) →
          OnlyBody (k.acts (.plain this const cmp)) (fun n s => .destroy n s.exportName) u.body := by
  have hz : ∀ z ∈ bodiesOf x.variants, Word z.2.2.exportName ∧ z.2.1 ≠ c!"case" ∧ z.2.1 ≠ c!"default" := by
    intro z hz
    obtain ⟨v, hv, i, j, hb, _⟩ := mem_bodiesOf.mp hz
    exact hs v hv _ _ _ _ hb
  have hi : ([.text (c!"~" ++ x.exportName ++ c!"()")] ++
      inBraces e.cfg (switchOps e.cfg x fun v n b => c!"case " ++ x.tagName ++ c!"::" ++ v ++ c!": " ++ n ++
        c!".~" ++ b.exportName ++ c!"(); break;")) <:+: bindingsOps e b := by
    refine List.IsInfix.trans ?_ h.functions
    have h1 : x.annotations.boolOr c!"derive-tagged-enum-destructor" e.cfg.enumeration.deriveTaggedEnumDestructor = true := hw
    have h2 : (e.cfg.language == .cxx) = true := by rw [h.lang]; rfl
    refine List.IsInfix.trans (l₂ := enumDestructorOps e.cfg x)
      ⟨[.newLine, .newLine] ++ attrOps x.annotations c!"destructor-attributes", [], by simp [enumDestructorOps]⟩ ?_
    unfold enumDataFunctions
    simp only [h1, h2, onlyIf, if_true]
    exact infix_left (infix_right (List.infix_refl _) _) _
  have ho : Inl e.cfg.writer false false ([.text (c!"~" ++ x.exportName ++ c!"()")] ++
      inBraces e.cfg (switchOps e.cfg x fun v n b => c!"case " ++ x.tagName ++ c!"::" ++ v ++ c!": " ++ n ++
        c!".~" ++ b.exportName ++ c!"(); break;"))
      ([.punct '~', .word x.exportName, .punct '(', .punct ')'] ++ ([.punct '{'] ++ switchToks x.tagName (bodiesOf x.variants)
        (fun z => destroyToks z.2.1 z.2.2.exportName) (hasEmpty x.variants) ++ [.punct '}'])) false := by
    have h1 := mid_app (mid_given (t := c!"~") (b := false) (ls := [.punct '~']) (e := false) (by decide))
      (mid_app (mid_word h.name) (mid_given (t := c!"()") (b := true) (ls := [.punct '(', .punct ')'])
        (e := true) (by decide)))
    refine inl_append (mid_text (e := true) (by simpa using h1)) (inl_inBraces (e := false) h.lang ?_)
    refine inl_switch (rest := fun _ n b => n ++ c!".~" ++ b.exportName ++ c!"(); break;") h.lang ?_ h.tagName
      h.variants h.plain ?_
    · intro v n b; simp
    · intro z hz'
      have := mid_app (mid_word (h.words hz').1) (mid_app (mid_given (t := c!".~") (b := true) (ls := [.punct '.', .punct '~'])
        (e := false) (by decide)) (mid_app (mid_word (hz z hz').1) (mid_given (t := c!"(); break;") (b := true) (ls := [.punct '(',
        .punct ')', .punct ';', .word c!"break", .punct ';']) (e := false) (by decide))))
      simpa [destroyToks] using this
  have hr : readMember ([.punct '~', .word x.exportName, .punct '(', .punct ')'] ++ ([.punct '{'] ++ switchToks x.tagName
      (bodiesOf x.variants) (fun z => destroyToks z.2.1 z.2.2.exportName) (hasEmpty x.variants) ++ [.punct '}'])) =
      some ⟨.dtor x.exportName, [.switch (.name c!"tag") (switchItems x.tagName (bodiesOf x.variants)
        (fun z => [.act (.destroy z.2.1 z.2.2.exportName), .brk]) (hasEmpty x.variants))]⟩ := by
    have e1 : [Lx.punct '~', .word x.exportName, .punct '(', .punct ')'] ++ ([.punct '{'] ++ switchToks x.tagName
      (bodiesOf x.variants) (fun z => destroyToks z.2.1 z.2.2.exportName) (hasEmpty x.variants) ++ [.punct '}']) =
      .punct '~' :: .word x.exportName :: .punct '(' :: .punct ')' :: .punct '{' :: (switchToks x.tagName
      (bodiesOf x.variants) (fun z => destroyToks z.2.1 z.2.2.exportName) (hasEmpty x.variants) ++ [.punct '}']) := by simp
    rw [e1]
    refine readMember_of rfl (readStmts_one rfl (readStmt_switch (fun z hz' => chunk_destroy (hz z hz').2.1 (hz z hz').2.2 _) _ _) ?_)
    simp [switchToks]
  refine ⟨_, has_infix h.text hi ho hr, rfl, ?_⟩
  intro V this const cmp kt hk u hu ht
  exact acts_switch (act := fun n s => .destroy n s.exportName) (e := .plain this const cmp) hk h.distinct hu ht

/-- **C72 (copies).**  Where it is asked, the copy constructor of an enum with data takes over the tag and copies the
data of the variant that the other object is, and nothing else. -/
theorem C72_copy_partial {e : Env} {b : Bindings} {t : Str} {x : EnumItem} {p : Str} (h : EnumCase e b t x p)
    (hw : (x.annotations.bool c!"derive-tagged-enum-copy-constructor").getD e.cfg.enumeration.deriveTaggedEnumCopyConstructor = true)
    (hs : ∀ v ∈ x.variants, ∀ n s i j, v.body = .body n s i j → Word s.exportName) :
    ∃ k, Has t k ∧ k.head = .copyCtor x.exportName p c!"tag" ∧
      ∀ (V : Type) (this other : Str → Option V) (w w' : V) (const : Str → Str → Option V)
        (cmp : Rel → V → V → Option Bool) (kt : Str → V), Tags const cmp x kt →
        ∀ u ∈ x.variants, this c!"tag" = some (kt u.exportName) →
          OnlyBody (k.acts (.within p this other w w' const cmp)) (fun n s => .copy n s.exportName p n) u.body := by
  have hz : ∀ z ∈ bodiesOf x.variants, Word z.2.2.exportName := by
    intro z hz
    obtain ⟨v, hv, i, j, hb, _⟩ := mem_bodiesOf.mp hz
    exact hs v hv _ _ _ _ hb
  have hi : ([.text (x.exportName ++ c!"(const " ++ x.exportName ++ c!"& " ++ p ++ c!")"), .newLine,
      .text (c!" : tag(" ++ p ++ c!".tag)")] ++
      inBraces e.cfg (switchOps e.cfg x fun v n b => c!"case " ++ x.tagName ++ c!"::" ++ v ++ c!": ::new (&" ++ n ++
        c!") (" ++ b.exportName ++ c!")(" ++ p ++ c!"." ++ n ++ c!"); break;")) <:+: bindingsOps e b := by
    refine List.IsInfix.trans ?_ h.functions
    have h1 : x.annotations.boolOr c!"derive-tagged-enum-copy-constructor" e.cfg.enumeration.deriveTaggedEnumCopyConstructor = true := hw
    have h2 : (e.cfg.language == .cxx) = true := by rw [h.lang]; rfl
    refine List.IsInfix.trans (l₂ := enumCopyOps e.cfg x) ?_ ?_
    · unfold enumCopyOps
      rw [h.param]
      exact infix_left ⟨[.newLine, .newLine] ++ attrOps x.annotations c!"copy-constructor-attributes", [], by simp⟩ _
    unfold enumDataFunctions
    simp only [h1, h2, onlyIf, if_true]
    exact infix_right (List.infix_refl _) _
  have ho : Inl e.cfg.writer false false ([.text (x.exportName ++ c!"(const " ++ x.exportName ++ c!"& " ++ p ++ c!")"), .newLine,
      .text (c!" : tag(" ++ p ++ c!".tag)")] ++
      inBraces e.cfg (switchOps e.cfg x fun v n b => c!"case " ++ x.tagName ++ c!"::" ++ v ++ c!": ::new (&" ++ n ++
        c!") (" ++ b.exportName ++ c!")(" ++ p ++ c!"." ++ n ++ c!"); break;"))
      ([.word x.exportName, .punct '(', .word c!"const", .word x.exportName, .punct '&', .word p, .punct ')', .punct ':',
        .word c!"tag", .punct '(', .word p, .punct '.', .word c!"tag", .punct ')'] ++
        ([.punct '{'] ++ switchToks x.tagName (bodiesOf x.variants)
        (fun z => copyToks z.2.1 z.2.2.exportName p) (hasEmpty x.variants) ++ [.punct '}'])) false := by
    have h1 := mid_app (mid_word h.name) (mid_app (mid_given (t := c!"(const ") (b := true) (ls := [.punct '(', .word c!"const"])
      (e := false) (by decide)) (mid_app (mid_word h.name) (mid_app (mid_given (t := c!"& ") (b := true) (ls := [.punct '&'])
      (e := false) (by decide)) (mid_app (mid_word h.paramWord) (mid_given (t := c!")") (b := true) (ls := [.punct ')'])
        (e := false) (by decide))))))
    have h2 := mid_app (mid_given (t := c!" : tag(") (b := false) (ls := [.punct ':', .word c!"tag", .punct '('])
      (e := false) (by decide)) (mid_app (mid_word h.paramWord) (mid_given (t := c!".tag)") (b := true) (ls := [.punct '.',
      .word c!"tag", .punct ')']) (e := true) (by decide)))
    have h3 : Inl e.cfg.writer false false [.text (x.exportName ++ c!"(const " ++ x.exportName ++ c!"& " ++ p ++ c!")")]
      [.word x.exportName, .punct '(', .word c!"const", .word x.exportName, .punct '&', .word p, .punct ')'] false :=
      mid_text (by simpa using h1)
    have h4 : Inl e.cfg.writer false false [.text (c!" : tag(" ++ p ++ c!".tag)")]
      [.punct ':', .word c!"tag", .punct '(', .word p, .punct '.', .word c!"tag", .punct ')'] true :=
      mid_text (by simpa using h2)
    refine inl_append (inl_append h3 (inl_append (ls := []) inl_newLine h4)) (inl_inBraces (e := false) h.lang ?_)
    refine inl_switch (rest := fun _ n b => c!"::new (&" ++ n ++ c!") (" ++ b.exportName ++ c!")(" ++ p ++ c!"." ++ n ++
      c!"); break;") h.lang ?_ h.tagName h.variants h.plain ?_
    · intro v n b; simp
    · intro z hz'
      have hn := (h.words hz').1
      have := mid_app (mid_given (t := c!"::new (&") (b := false) (ls := [.punct ':', .punct ':', .word c!"new", .punct '(',
        .punct '&']) (e := false) (by decide)) (mid_app (mid_word hn) (mid_app (mid_given (t := c!") (") (b := true)
        (ls := [.punct ')', .punct '(']) (e := false) (by decide)) (mid_app (mid_word (hz z hz')) (mid_app (mid_given
        (t := c!")(") (b := true) (ls := [.punct ')', .punct '(']) (e := false) (by decide)) (mid_app (mid_word h.paramWord)
        (mid_app (mid_given (t := c!".") (b := true) (ls := [.punct '.']) (e := false) (by decide)) (mid_app (mid_word hn)
        (mid_given (t := c!"); break;") (b := true) (ls := [.punct ')', .punct ';', .word c!"break", .punct ';']) (e := false)
          (by decide)))))))))
      simpa [copyToks] using this
  have hr : readMember ([.word x.exportName, .punct '(', .word c!"const", .word x.exportName, .punct '&', .word p, .punct ')', .punct ':',
        .word c!"tag", .punct '(', .word p, .punct '.', .word c!"tag", .punct ')'] ++
        ([.punct '{'] ++ switchToks x.tagName (bodiesOf x.variants)
        (fun z => copyToks z.2.1 z.2.2.exportName p) (hasEmpty x.variants) ++ [.punct '}'])) =
      some ⟨.copyCtor x.exportName p c!"tag", [.switch (.name c!"tag") (switchItems x.tagName (bodiesOf x.variants)
        (fun z => [.act (.copy z.2.1 z.2.2.exportName p z.2.1), .brk]) (hasEmpty x.variants))]⟩ := by
    generalize hsw : switchToks x.tagName (bodiesOf x.variants) (fun z => copyToks z.2.1 z.2.2.exportName p)
      (hasEmpty x.variants) = sw
    have hrs : readStmt (sw ++ [.punct '}']) = some (.switch (.name c!"tag") (switchItems x.tagName (bodiesOf x.variants)
        (fun z => [.act (.copy z.2.1 z.2.2.exportName p z.2.1), .brk]) (hasEmpty x.variants)), [.punct '}']) :=
      hsw ▸ readStmt_switch (fun z _ => chunk_copy z.2.1 _ p) _ _
    have hlen : 2 ≤ (sw ++ [Lx.punct '}']).length := by rw [← hsw]; simp [switchToks]
    have hex : expect '}' (sw ++ [.punct '}']) = none := by rw [← hsw]; rfl
    have e1 : [Lx.word x.exportName, .punct '(', .word c!"const", .word x.exportName, .punct '&', .word p, .punct ')', .punct ':',
        .word c!"tag", .punct '(', .word p, .punct '.', .word c!"tag", .punct ')'] ++
        ([.punct '{'] ++ sw ++ [.punct '}']) = .word x.exportName :: .punct '(' :: .word c!"const" :: .word x.exportName ::
        .punct '&' :: .word p :: .punct ')' :: .punct ':' :: .word c!"tag" :: .punct '(' :: .word p :: .punct '.' ::
        .word c!"tag" :: .punct ')' :: .punct '{' :: (sw ++ [.punct '}']) := by simp
    rw [e1]
    refine readMember_of (ks := sw ++ [.punct '}']) ?_ (readStmts_one hex hrs hlen)
    simp [readHead]
  refine ⟨_, has_infix h.text hi ho hr, rfl, ?_⟩
  intro V this other w w' const cmp kt hk u hu ht
  have hn : (Scope.within p this other w w' const cmp).name c!"tag" = some (kt u.exportName) := by
    show (if _ then _ else _) = _
    rw [if_neg (Ne.symm h.notTag), ht]
  exact acts_switch (act := fun n s => .copy n s.exportName p n) (e := .within p this other w w' const cmp) hk h.distinct hu hn

/-- **C72 (data of variants).**  The struct with the data of a variant has its operators like any other struct. -/
theorem C72_body_partial {e : Env} {b : Bindings} {t : Str} {x : EnumItem} {p : Str} (h : EnumCase e b t x p)
    {v : EnumVariant} (hv : v ∈ x.variants) {n : Str} {s : StructItem} {j : Bool} (hb : v.body = .body n s false j)
    {r : Rel} (hw : Wanted e.cfg s.annotations r) (ha : Comparable s.fields r) (hn : Word s.exportName)
    {fs : List Field} (hfs : s.fields.drop (if s.hasTagField then 1 else 0) = fs) (hne : fs ≠ [])
    (hf : ∀ f ∈ fs, Word f.name ∧ f.name ≠ p) : Compares t s p fs r := by
  refine compares_of h.text h.lang (List.IsInfix.trans ?_ (h.variant hv)) hw ha h.param h.paramWord hn hfs hne hf
  unfold variantDef
  rw [hb]
  exact infix_left (infix_right (List.infix_refl _) _) _

end Cbindgen
