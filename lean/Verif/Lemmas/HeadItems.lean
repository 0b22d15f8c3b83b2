import Verif.Spec.HeaderItems
import Verif.Props.DeclText

/-!
# Members, definitions of types and declarations, as the reader of headers finds them
-/

namespace Cbindgen.HeadSpec
open LexSpec CSpec PreSpec

/-! ## Sequences of declarations -/

/-- The calls write declarations, from `P` to `Q`. -/
def Seg (wc : WConfig) (R : Dialect) (on : Str → Bool) (D : List Str) (P : Pos) (ops : List WOp) (o : Out) (Q : Pos) : Prop :=
  ∃ ls, LexSpec.Tri wc P ops ls Q ∧ Adds R on D ls o

section
variable {wc : WConfig} {c : OutConfig} {R : Dialect} {on : Str → Bool} {D : List Str} {P Q S : Pos}

theorem seg_para {ops : List WOp} {o : Out} : Seg wc R on D .at ops o .done ↔ Para wc R on D ops o := Iff.rfl

theorem seg_nil : Seg wc R on D P [] {} P := ⟨[], LexSpec.tri_nil, adds_nil⟩

theorem seg_append {a b : List WOp} {o p : Out} (h1 : Seg wc R on D P a o Q) (h2 : Seg wc R on D Q b p S) :
    Seg wc R on D P (a ++ b) (o ++ p) S := by
  obtain ⟨ls, h1, h3⟩ := h1
  obtain ⟨ks, h2, h4⟩ := h2
  exact ⟨ls ++ ks, LexSpec.tri_append h1 h2, adds_append h3 h4⟩

theorem seg_tri {ops : List WOp} (h : LexSpec.Tri wc P ops [] Q) : Seg wc R on D P ops {} Q := ⟨[], h, adds_nil⟩

theorem seg_left {a b : List WOp} {o : Out} (h1 : LexSpec.Tri wc P a [] Q) (h2 : Seg wc R on D Q b o S) :
    Seg wc R on D P (a ++ b) o S := by
  obtain ⟨ks, h2, h4⟩ := h2
  exact ⟨ks, LexSpec.tri_append h1 h2, h4⟩

theorem seg_right {a b : List WOp} {o : Out} (h1 : Seg wc R on D P a o Q) (h2 : LexSpec.Tri wc Q b [] S) :
    Seg wc R on D P (a ++ b) o S := by
  obtain ⟨ks, h1, h4⟩ := h1
  exact ⟨ks, LexSpec.tri_eq (LexSpec.tri_append h1 h2) (by simp), h4⟩

theorem seg_pre {P' : Pos} {ops : List WOp} {o : Out} (h : Seg wc R on D P ops o Q) (hp : P'.le P) : Seg wc R on D P' ops o Q := by
  obtain ⟨ks, h1, h4⟩ := h
  exact ⟨ks, LexSpec.tri_pre h1 hp, h4⟩

theorem seg_post {Q' : Pos} {ops : List WOp} {o : Out} (h : Seg wc R on D P ops o Q) (hq : Q.le Q') : Seg wc R on D P ops o Q' := by
  obtain ⟨ks, h1, h4⟩ := h
  exact ⟨ks, LexSpec.tri_post h1 hq, h4⟩

theorem seg_cond (h : CondsFine c D) (g : Option Cfg) {body : List WOp} {o : Out} (hb : Seg wc R on D .at body o .done) :
    Seg wc R on D .at (condBefore c (c.cond g) ++ body ++ condAfter c (c.cond g)) (whenOut (shown c on g) o) .done :=
  para_cond h g hb

/-! ## Texts that users give -/

theorem toks_of {s : Str} {ls : List Lx} (h : Scans .at s ls .done) : toks s = ls := by
  obtain ⟨s', e, h1, h2, h3⟩ := h {} rfl
  have h4 := scan_ending h2 .lf
  have h5 : e ++ (pend s' ++ ending s'.dir) = ls := h3
  unfold toks lex
  rw [show s ++ ['\n'] = s ++ LineEnding.lf.asStr from rfl, scan_some h1 h4]
  simp [h5]

theorem toks_gap {s : Str} {ls : List Lx} (h : Scans (.gap false) s ls (.any false)) : toks s = ls :=
  toks_of (scans_post (scans_pre h at_le_gap) any_le_done)

theorem block_of {s : Str} {ls : List Lx} {o : Out} (h : Scans .at s ls .done) (ha : Adds R on D ls o) :
    blockOut R on (some s) = o := by
  obtain ⟨s', e, h1, h2, h3⟩ := h {} rfl
  have h4 := scan_ending h2 .lf
  have h5 : e ++ (pend s' ++ ending s'.dir) = ls := h3
  have hl : lex s = some ls := by
    unfold lex
    rw [show s ++ ['\n'] = s ++ LineEnding.lf.asStr from rfl, scan_some h1 h4]
    simp [h5]
  have hr := (ha.1 []).2 [] [] [] [] rfl Fresh.nil
  have e : run R on {} ls = some ⟨[], none, [⟨o.items, []⟩], o.macros, o.includes⟩ := by
    simpa using hr
  simp [blockOut, readHeader, hl, e]

theorem seg_raw {s : Str} (h : BlockText R on D s) : Seg wc R on D .at [.raw s] (blockOut R on (some s)) .done := by
  obtain ⟨ls, o, h1, h2⟩ := h
  rw [block_of h1 h2]
  exact ⟨ls, LexSpec.tri_raw h1, h2⟩

theorem body_block {s : Str} (h : BodyText R on D s) : BlockText R on D s ∧
    blockOut R on (some s) = decls (blockOut R on (some s)).items := by
  obtain ⟨ls, xs, h1, h2⟩ := h
  exact ⟨⟨ls, _, h1, h2⟩, by rw [block_of h1 h2]; rfl⟩

theorem decls_append (xs ys : List CItem) : decls xs ++ decls ys = decls (xs ++ ys) := rfl

theorem body_items {o : Option Str} (h : ∀ s, o = some s → BodyText R on D s) :
    blockOut R on o = decls (blockOut R on o).items := by
  cases o with
  | none => rfl
  | some s => exact (body_block (h s rfl)).2

/-- The blocks of code around the members. -/
theorem seg_bodies {path : Str} (h : BodiesFine R on D c path) {inner : List WOp} {xs : List CItem}
    (hi : Seg wc R on D .at inner (decls xs) .done) :
    Seg wc R on D .at (preBodyOps c path ++ inner ++ postBodyOps c path)
      (decls ((blockOut R on (c.preBodyOf path)).items ++ xs ++ (blockOut R on (c.postBodyOf path)).items)) .done := by
  rw [← decls_append, ← decls_append, ← body_items h.pre, ← body_items h.post]
  refine seg_append (seg_append (Q := .at) ?_ hi) ?_
  · unfold preBodyOps
    cases hp : c.preBodyOf path with
    | none => exact seg_nil
    | some b => exact seg_right (seg_raw (body_block (h.pre b hp)).1) LexSpec.tri_newLine
  · unfold postBodyOps
    cases hp : c.postBodyOf path with
    | none => exact seg_nil
    | some b => exact seg_left LexSpec.tri_newLine (seg_raw (body_block (h.post b hp)).1)

/-! ## Attributes -/

theorem tri_attr {s : Str} (h : AttrText R s) : LexSpec.Tri wc (.mid false false) [.text s] (toks s) (.mid false true) := by
  obtain ⟨ls, h1, _, _⟩ := h
  rw [toks_gap h1]
  exact LexSpec.tri_anyText (spaces_gap false) h1

/-- An attribute after a space. -/
theorem tri_spaceAttr {s : Str} (h : AttrText R s) {b : Bool} :
    LexSpec.Tri wc (.mid false b) [.text (c!" " ++ s)] (toks s) (.mid false true) := by
  obtain ⟨ls, h1, _, _⟩ := h
  rw [toks_gap h1]
  exact LexSpec.tri_anyText (spaces_mid false b) (scans_append (scans_pre (scans_space false) mid_le_any) h1)

theorem tri_optSpaceAttr {o : Option Str} (h : OptAttr R o) :
    LexSpec.Tri wc (.mid false true) (optText o (c!" " ++ ·)) (attrToks [o]) (.mid false true) := by
  cases o with
  | none => exact LexSpec.tri_nil
  | some s => exact LexSpec.tri_eq (tri_spaceAttr (h s rfl)) (by simp [attrToks])

theorem attrToks_append (a b : List (Option Str)) : attrToks (a ++ b) = attrToks a ++ attrToks b := by simp [attrToks]
theorem attrToks_cons (a : Option Str) (b : List (Option Str)) : attrToks (a :: b) = attrToks [a] ++ attrToks b :=
  attrToks_append [a] b

theorem attr_toks {os : List (Option Str)} (h : ∀ o ∈ os, OptAttr R o) :
    isAttrs R.macros .out (attrToks os) = true ∧ (attrToks os).all isPlainTok = true := by
  induction os with
  | nil => exact ⟨rfl, rfl⟩
  | cons o os ih =>
    obtain ⟨h1, h2⟩ := ih fun x hx => h x (by simp [hx])
    rw [attrToks_cons]
    cases o with
    | none => exact ⟨h1, h2⟩
    | some s =>
      obtain ⟨ls, h3, h4, h5⟩ := h (some s) (by simp) s rfl
      have e : attrToks [some s] = ls := by simp [attrToks, toks_gap h3]
      rw [e, List.all_append, h5, h2]
      exact ⟨isAttrs_append h4 h1, rfl⟩

/-! ## Members -/

/-- The tokens declare `n` as `t`. -/
structure DeclaredAs (R : Dialect) (ls : List Lx) (n : Str) (t : CTy) : Prop where
  toks : ∀ l ∈ ls, DeclTok R.macros l
  start : plainStart R ls
  reads : ∃ t', readDeclared R.attrs ls = some (n, t') ∧ t'.forgetFnPtr = t.forgetFnPtr

theorem DeclaredAs.plain {ls : List Lx} {n : Str} {t : CTy} (h : DeclaredAs R ls n t) : ls.all isPlainTok = true :=
  List.all_eq_true.mpr fun l hl => (h.toks l hl).plain

theorem declared_build (hk : DialectFine R c.toDeclConfig) {t : Ty} {q : Bool} {i : Str} (ht : TyFine R.attrs t)
    (hi : Ident R.attrs i) (hv : NoVoidParam c.toDeclConfig t) :
    DeclaredAs R (spells ((CDecl.buildType c.toDeclConfig t q).write c.toDeclConfig (some i))) i (meaning c.toDeclConfig q t) := by
  have hf := build_fine (cfg := c.toDeclConfig) t q ht
  refine ⟨allDecl_decl hk _ _ hf (by rintro s ⟨⟩; exact hi), decl_start hk hf hi, ?_⟩
  have h1 := readDecl_build c.toDeclConfig t q true (some i) hv (by simp)
  have h2 := declToks_found (found_decl hk.known _ (some i) hf (by rintro s ⟨⟩; exact hi))
  exact ⟨_, by rw [readDeclared, h2, Option.bind_some, readNamed, h1], den_forget c.toDeclConfig t q⟩

theorem plainStart_append {ls ks : List Lx} (h : plainStart R ls) : plainStart R (ls ++ ks) := by
  cases ls with
  | nil => exact h.elim
  | cons l ls =>
    cases l with
    | word w =>
      refine ⟨h.1, h.2.1, fun k hk => ?_, h.2.2.2⟩
      have := h.2.2.1 k hk
      show 2 ≤ (ls ++ ks).length
      rw [List.length_append]
      omega
    | _ => exact h

/-- A declaration with attributes around it. -/
theorem object_decl {ext : Bool} {ls : List Lx} {n : Str} {t : CTy} {bits : Option (List Lx)} {pre post : List Lx}
    (h : DeclaredAs R ls n t) (hpre : isAttrs R.macros .out pre = true) (hpost : isAttrs R.macros .out post = true)
    (hb : ∀ b, bits = some b → ∀ l ∈ b, isMacro R.macros l = false) :
    readObject R ext (pre ++ ls ++ bits.elim [] (.punct ':' :: ·) ++ post) =
      some (.object ext (pre ++ post) n t.forgetFnPtr (bits.getD [])) := by
  obtain ⟨t', h1, h2⟩ := h.reads
  rw [readObject_decl hpre h.toks h.start hb hpost h1, h2]

theorem inl_semi {b : Bool} : LexSpec.Tri wc (.mid false b) [.text c!";"] [.punct ';'] (.mid false false) :=
  LexSpec.tri_pre (P := .mid false true) (inl_text (by decide)) (mid_le fun _ => rfl)

theorem tri_declOps (hk : DialectFine R c.toDeclConfig) {t : Ty} {i : Str} (ht : TyFine R.attrs t) (hi : Ident R.attrs i) :
    LexSpec.Tri wc (.mid false false) (declOps c t i)
      (spells ((CDecl.buildType c.toDeclConfig t false).write c.toDeclConfig (some i))) (.mid false true) :=
  inl_decl hk.known.words _ _ (some i) (build_fine t false ht) (by rintro s ⟨⟩; exact hi.word)

theorem tri_typeOps (hk : DialectFine R c.toDeclConfig) {t : Ty} (ht : TyFine R.attrs t) :
    LexSpec.Tri wc (.mid false false) (typeOps c t) (spells (writeType c.toDeclConfig t)) (.mid false true) :=
  inl_decl hk.known.words _ _ none (build_fine t false ht) nofun

/-- A member of a struct or union. -/
theorem seg_member (ho : ReadFine c R D) {f : Field} (hf : MemberFine R c f) :
    Seg wc R on D .at (f.ops c ++ [.text c!";"]) (decls (membersOf c on [f])) .done := by
  have hd := declared_build (q := false) ho.dialect hf.ty hf.name hf.params
  have h1 := tri_declOps (wc := wc) ho.dialect hf.ty hf.name
  obtain ⟨bits, hbits, hb1, hb2, hb3⟩ : ∃ bits : Option (List Lx), bits.getD [] = bitsOf f ∧
      (∀ b, bits = some b → ∀ l ∈ b, isMacro R.macros l = false) ∧ (bits.elim [] (.punct ':' :: ·)).all isPlainTok = true ∧
      LexSpec.Tri wc (.mid false true) (optText ((f.annotations.atom c!"bitfield").map fun b => b.getD []) (c!": " ++ ·))
        (bits.elim [] (.punct ':' :: ·)) (.mid false true) := by
    cases hx : f.annotations.atom c!"bitfield" with
    | none => exact ⟨none, by simp [bitsOf, hx], nofun, rfl, LexSpec.tri_nil⟩
    | some b =>
      obtain ⟨w, rfl, hw, hm⟩ := hf.bits b hx
      refine ⟨some [.word w], by simp [bitsOf, hx], ?_, by simp [isPlainTok], ?_⟩
      · rintro b ⟨⟩ l hl
        simp only [List.mem_singleton] at hl
        subst hl; exact decide_eq_false hm
      · have e1 := scans_simple (t := c!": ") (d := false) (b := true) (by decide) (fun _ => by decide)
        have e2 : Scans (.mid false true) c!": " [.punct ':'] (.mid false false) := e1
        exact LexSpec.tri_anyText (spaces_mid false true) (scans_append e2 (scans_word hw false))
  have h2 := LexSpec.tri_append (LexSpec.tri_append (tri_docs (wc := wc) ho.text hf.doc) (LexSpec.tri_pre h1 at_le_mid)) hb3
  rw [List.nil_append] at h2
  have hg := grow_toks (R := R) (on := on) (D := D)
    (ls := spells ((CDecl.buildType c.toDeclConfig f.ty false).write c.toDeclConfig (some f.name)) ++ bits.elim [] (.punct ':' :: ·))
    (by rw [List.all_append, hd.plain, hb2]; rfl)
  have ho2 := ordinary_toks (plainStart_append (ks := bits.elim [] (.punct ':' :: ·)) hd.start)
  have hr : declarationC R ((spells ((CDecl.buildType c.toDeclConfig f.ty false).write c.toDeclConfig (some f.name)) ++
      bits.elim [] (.punct ':' :: ·)).map .tok) = some [memberOf c f] := by
    have h3 := object_decl (ext := false) (pre := []) (post := []) hd rfl rfl hb1
    rw [List.nil_append, List.append_nil] at h3
    rw [declarationC, plainToks_toks]
    simp only []
    rw [readPlain_object (plainStart_append hd.start), h3]
    simp [memberOf, hbits]
  have e : f.ops c = condBefore c (c.cond f.cfg) ++ (docOps c f.doc ++ declOps c f.ty f.name ++
      optText ((f.annotations.atom c!"bitfield").map fun b => b.getD []) (c!": " ++ ·)) ++ condAfter c (c.cond f.cfg) ++
      onlyIf (c.cond f.cfg).isSome [.newLine] := by
    have := ho.text
    unfold Field.ops
    cases hl : c.language with
    | cython => exact absurd hl this
    | _ => simp only [List.append_assoc]
  rw [e]
  cases hc : c.cond f.cfg with
  | none =>
    have h4 := LexSpec.tri_post (LexSpec.tri_append h2 (inl_semi (b := true))) mid_le_done
    refine ⟨_, ?_, adds_semi hg ho2 (by rw [hr]; simp [membersOf, shown, hc])⟩
    simpa [condBefore, condAfter, onlyIf] using h4
  | some x =>
    refine ⟨_, LexSpec.tri_post (LexSpec.tri_append (LexSpec.tri_append (LexSpec.tri_append (LexSpec.tri_append
      (tri_condBefore ho.toCondsFine hc) (LexSpec.tri_post h2 mid_le_done)) (tri_condAfter ho.text)) LexSpec.tri_newLine)
      (LexSpec.tri_pre (inl_semi (b := false)) at_le_mid)) mid_le_done, ?_⟩
    rw [List.append_nil]
    refine adds_semi (grow_cond (opens_cond ho.toCondsFine hc) hg) ?_ ?_
    · cases shown c on f.cfg with
      | true => exact ho2
      | false => rfl
    · cases hs : shown c on f.cfg with
      | true => simp only [if_true]; rw [hr]; simp [membersOf, hs]
      | false => simp [membersOf, hs, declarationC, plainToks, readPlain]

/-- Members one below the other. -/
theorem seg_capItems : ∀ {items : List (List WOp)} {os : List Out},
    Pairs (fun i o => Seg wc R on D .at (i ++ [.text c!";"]) o .done) items os →
    Seg wc R on D .at (verticalItems (.cap c!";") items) (outs os) .done
  | [], [], _ => seg_post seg_nil at_le_done
  | [x], [o], .cons h _ => by
    simp only [outs, List.foldr_cons, List.foldr_nil, Out.append_nil]; exact h
  | x :: y :: xs, o :: p :: os, .cons h hs => by
    have := seg_append (seg_right h LexSpec.tri_newLine) (seg_capItems hs)
    simpa [verticalItems, ListType.after, outs] using this

theorem seg_cap {items : List (List WOp)} {os : List Out}
    (h : Pairs (fun i o => Seg wc R on D .at (i ++ [.text c!";"]) o .done) items os) :
    Seg wc R on D .at (verticalList (.cap c!";") items) (outs os) .done :=
  seg_right (seg_left LexSpec.tri_pushAlign (seg_capItems h)) LexSpec.tri_pop

theorem pairs_map {α β γ : Type} {P : β → γ → Prop} {f : α → β} {g : α → γ} : ∀ {xs : List α}, (∀ x ∈ xs, P (f x) (g x)) →
    Pairs P (xs.map f) (xs.map g)
  | [], _ => .nil
  | x :: xs, h => .cons (h x (by simp)) (pairs_map fun y hy => h y (by simp [hy]))

theorem outs_decls {α : Type} (f : α → List CItem) (xs : List α) : outs (xs.map fun x => decls (f x)) = decls (xs.flatMap f) := by
  induction xs with
  | nil => rfl
  | cons x xs ih =>
    rw [List.map_cons, List.flatMap_cons, ← decls_append, ← ih]; rfl

theorem seg_members (ho : ReadFine c R D) {fs : List Field} (hf : ∀ f ∈ fs, MemberFine R c f) :
    Seg wc R on D .at (verticalList (.cap c!";") (fs.map (Field.ops c))) (decls (membersOf c on fs)) .done := by
  have h := seg_cap (pairs_map (f := Field.ops c) (g := fun f => decls (membersOf c on [f])) fun f h =>
    seg_member (wc := wc) (on := on) ho (hf f h))
  rw [outs_decls] at h
  have e : (fs.flatMap fun f => membersOf c on [f]) = membersOf c on fs := by
    clear h hf
    induction fs with
    | nil => rfl
    | cons f fs ih =>
      rw [List.flatMap_cons, ih]
      simp only [membersOf, List.filter_cons, List.filter_nil]
      split <;> rfl
  rw [e] at h
  exact h

/-! ## Definitions of types -/

def optWord (o : Option Str) : List Lx := o.toList.map .word

theorem optWord_plain (o : Option Str) : (optWord o).all isPlainTok = true := by cases o <;> rfl

/-- The tokens before the braces. -/
def headToks (name : Option Str) (kw : Str) (attrs : List Lx) (tag : Option Str) : List Lx :=
  (if name.isSome then [.word c!"typedef"] else []) ++ [.word kw] ++ attrs ++ optWord tag

theorem headToks_plain {name : Option Str} {kw : Str} {attrs : List Lx} {tag : Option Str} (h : attrs.all isPlainTok = true) :
    (headToks name kw attrs tag).all isPlainTok = true := by
  simp only [headToks, List.all_append, h, optWord_plain, Bool.and_true]
  cases name <;> rfl

theorem takeTypedef_head {name : Option Str} {kw : Str} {attrs : List Lx} {tag : Option Str} (h : kw ≠ c!"typedef") :
    takeTypedef (headToks name kw attrs tag) = (name.isSome, .word kw :: (attrs ++ optWord tag)) := by
  cases name with
  | none => simp [headToks, takeTypedef, h]
  | some n => simp [headToks, takeTypedef]

theorem readAlias_word (name : Option Str) : readAlias name.isSome (optWord name) = some name := by cases name <;> rfl
theorem readTag_word (tag : Option Str) : readTag (optWord tag) = some tag := by cases tag <;> rfl

theorem lead_word {attrs : List Lx} {tag : Option Str} (ha : isAttrs R.macros .out attrs = true)
    (ht : ∀ t, tag = some t → t ∉ R.macros) (rest : List Lx) (hr : notParen rest = true) (hr' : (lead R.macros .out rest) = ([], rest)) :
    lead R.macros .out (attrs ++ (optWord tag ++ rest)) = (attrs, optWord tag ++ rest) := by
  cases tag with
  | none =>
    have := lead_attrs ha (rest := rest) hr
    rw [hr'] at this
    simpa [optWord] using this
  | some t =>
    have := lead_attrs ha (rest := .word t :: rest) rfl
    rw [lead_none (show isMacro R.macros (.word t) = false from decide_eq_false (ht t rfl))] at this
    simpa [optWord] using this

theorem decl_definition {name : Option Str} {kw : Str} {attrs : List Lx} {tag : Option Str} (hk : ∃ k, tagKind kw = some k)
    (hp : attrs.all isPlainTok = true) {ls rest : List Lx} {xs : List CItem}
    (hg : Grow R on D ([.punct '{'] ++ ls ++ [.punct '}']) [.group xs rest]) {ms more : List Lx}
    (hmp : Grow R on D ms (more.map .tok)) {i : CItem}
    (hr : readDefinition R name.isSome (.word kw :: (attrs ++ optWord tag) ++ more) xs rest (optWord name) = some i) :
    Decl R on D (headToks name kw attrs tag ++ ms ++ ([.punct '{'] ++ ls ++ [.punct '}']) ++ optWord name ++ [.punct ';']) i := by
  have h1 := grow_append (grow_append (grow_append (grow_toks (R := R) (on := on) (D := D) (headToks_plain (name := name) (kw := kw) (tag := tag) hp))
    hmp) hg) (grow_toks (optWord_plain name))
  have hw : kw ≠ c!"typedef" ∧ kw ≠ c!"extern" ∧ kw ∉ cxxWords := by
    obtain ⟨k, hk⟩ := hk
    rcases tagKind_word hk with rfl | rfl | rfl <;> decide
  have e : (headToks name kw attrs tag).map Part.tok ++ more.map Part.tok ++ [Part.group xs rest] ++ (optWord name).map Part.tok =
      (headToks name kw attrs tag ++ more).map Part.tok ++ Part.group xs rest :: (optWord name).map Part.tok := by simp
  have et : takeTypedef (headToks name kw attrs tag ++ more) = (name.isSome, .word kw :: (attrs ++ optWord tag) ++ more) := by
    cases name with
    | none => simp [headToks, takeTypedef, hw.1]
    | some n => simp [headToks, takeTypedef]
  refine decl_semi h1 ?_ ?_
  · cases name with
    | none =>
      simp only [headToks, Option.isSome_none, Bool.false_eq_true, if_false, List.nil_append, List.cons_append, List.map_cons]
      exact ordinary_head (fun _ => hw.2.2) _ fun h => absurd h hw.2.1
    | some n =>
      simp only [headToks, Option.isSome_some, if_true, List.cons_append, List.map_cons]
      exact ordinary_head (fun _ => by decide) _ fun h => absurd h (by decide)
  · rw [e, declarationC, plainToks_group, splitGroup_toks]
    simp only [et, hr, Option.map_some]

theorem adds_definition {name : Option Str} {kw : Str} {attrs : List Lx} {tag : Option Str} (hk : ∃ k, tagKind kw = some k)
    (hp : attrs.all isPlainTok = true) {ls rest : List Lx} {xs : List CItem}
    (hg : Grow R on D ([.punct '{'] ++ ls ++ [.punct '}']) [.group xs rest]) {ms more : List Lx}
    (hmp : Grow R on D ms (more.map .tok)) {i : CItem}
    (hr : readDefinition R name.isSome (.word kw :: (attrs ++ optWord tag) ++ more) xs rest (optWord name) = some i) :
    Adds R on D (headToks name kw attrs tag ++ ms ++ ([.punct '{'] ++ ls ++ [.punct '}']) ++ optWord name ++ [.punct ';']) (decls [i]) :=
  (decl_definition hk hp hg hmp hr).adds

/-- The definition of a `struct` or `union`. -/
theorem decl_record {name : Option Str} {kw : Str} {k : DeclKind} {attrs : List Lx} {tag : Option Str}
    (hk : tagKind kw = some k) (hne : k ≠ .enum) (ha : isAttrs R.macros .out attrs = true) (hp : attrs.all isPlainTok = true)
    (ht : ∀ t, tag = some t → t ∉ R.macros) {ls : List Lx} {xs : List CItem} (hm : Adds R on D ls (decls xs)) :
    Decl R on D (headToks name kw attrs tag ++ ([.punct '{'] ++ ls ++ [.punct '}']) ++ optWord name ++ [.punct ';'])
      (.record k attrs tag name xs) := by
  have h := decl_definition (more := []) (name := name) (tag := tag) ⟨k, hk⟩ hp (grow_group hm) grow_nil (i := .record k attrs tag name xs) (by
    have hl := lead_word ha ht [] rfl rfl
    simp only [List.append_nil] at hl ⊢
    simp only [readDefinition, hl, hk, readAlias_word, readTag_word])
  simpa using h

theorem adds_record {name : Option Str} {kw : Str} {k : DeclKind} {attrs : List Lx} {tag : Option Str}
    (hk : tagKind kw = some k) (hne : k ≠ .enum) (ha : isAttrs R.macros .out attrs = true) (hp : attrs.all isPlainTok = true)
    (ht : ∀ t, tag = some t → t ∉ R.macros) {ls : List Lx} {xs : List CItem} (hm : Adds R on D ls (decls xs)) :
    Adds R on D (headToks name kw attrs tag ++ ([.punct '{'] ++ ls ++ [.punct '}']) ++ optWord name ++ [.punct ';'])
      (decls [.record k attrs tag name xs]) :=
  (decl_record hk hne ha hp ht hm).adds

theorem hasTag_eq (s : Style) : s.generateTag = hasTag s := by cases s <;> rfl
theorem hasName_eq (s : Style) : s.generateTypedef = hasName s := by cases s <;> rfl

theorem genTypedef_c (hl : c.language = .c) : c.genTypedef = hasName c.style := by
  simp [OutConfig.genTypedef, hl, hasName_eq]

theorem genTypedef_eq : c.genTypedef = (c.language == .c && hasName c.style) := by
  simp [OutConfig.genTypedef, hasName_eq]

theorem notC_eq (hl : c.language ≠ .cython) : (c.language != .c) = (c.language == .cxx) := by
  cases hx : c.language with
  | cython => exact absurd hx hl
  | _ => rfl

/-- The calls for the tokens before the braces. -/
theorem tri_head {kw : Str} (hkw : Word kw) (hl : c.language ≠ .cython) {name : Str} (hn : Word name) {aops : List WOp} {attrs : List Lx}
    (ha : LexSpec.Tri wc (.mid false true) aops attrs (.mid false true)) :
    LexSpec.Tri wc (.mid false false) (onlyIf c.genTypedef [.text c!"typedef "] ++ [.text kw] ++ aops ++ tagNameOps c name)
      (headToks (nameOf c name) kw attrs (tagOf c name)) (.mid false true) := by
  refine LexSpec.tri_append (LexSpec.tri_append (LexSpec.tri_append (Q := .mid false false) ?_ (inl_word hkw)) ha) ?_
  · rw [genTypedef_eq]
    unfold nameOf onlyIf
    cases c.language == .c && hasName c.style with
    | true => exact inl_text (ls := [.word c!"typedef"]) (by decide)
    | false => exact LexSpec.tri_nil
  · unfold tagNameOps tagOf onlyIf
    rw [notC_eq hl, hasTag_eq]
    cases c.language == .cxx || hasTag c.style with
    | true =>
      exact LexSpec.tri_anyText (spaces_mid false true) (scans_append (scans_space false) (scans_word hn false))
    | false => exact LexSpec.tri_nil

theorem tri_spaceWordSemi {name : Str} (hn : Word name) {b : Bool} :
    LexSpec.Tri wc (.mid false b) [.text (c!" " ++ name ++ c!";")] [.word name, .punct ';'] (.mid false false) := by
  refine LexSpec.tri_anyText (spaces_mid false b) (scans_append (scans_append (scans_pre (scans_space false) mid_le_any)
    (scans_word hn false)) (scans_punct (by decide) false))

/-- The end of a definition. -/
theorem tri_closeDef (hl : c.language ≠ .cython) {name : Str} (hn : Word name) :
    LexSpec.Tri wc .done (closeDef c name) ([.punct '}'] ++ optWord (nameOf c name) ++ [.punct ';']) (.mid false false) := by
  unfold closeDef
  rw [genTypedef_eq]
  unfold nameOf
  cases c.language == .c && hasName c.style with
  | true =>
    exact LexSpec.tri_append (ls := [.punct '}']) (ks := [.word name, .punct ';']) (tri_cls hl (semi := false)) (tri_spaceWordSemi hn)
  | false => exact tri_cls hl (semi := true)

/-- The calls write one declaration, from `P` to `Q`. -/
def SegDecl (wc : WConfig) (R : Dialect) (on : Str → Bool) (D : List Str) (P : Pos) (ops : List WOp) (x : CItem) (Q : Pos) : Prop :=
  ∃ ls, LexSpec.Tri wc P ops ls Q ∧ Decl R on D ls x

theorem SegDecl.seg {ops : List WOp} {x : CItem} (h : SegDecl wc R on D P ops x Q) : Seg wc R on D P ops (decls [x]) Q := by
  obtain ⟨ls, h1, h2⟩ := h
  exact ⟨ls, h1, h2.adds⟩

/-- A whole definition of a `struct` or `union`. -/
theorem segDecl_record (ho : ReadFine c R D) {kw : Str} {k : DeclKind} (hkw : Word kw) (hk : tagKind kw = some k) (hne : k ≠ .enum)
    {name : Str} (hn : Ident R.attrs name) {aops : List WOp} {os : List (Option Str)} (hos : ∀ o ∈ os, OptAttr R o)
    (ha : LexSpec.Tri wc (.mid false true) aops (attrToks os) (.mid false true)) {path : Str} (hb : BodiesFine R on D c path)
    {inner : List WOp} {xs : List CItem} (hi : Seg wc R on D .at inner (decls xs) .done) :
    SegDecl wc R on D (.mid false false) (onlyIf c.genTypedef [.text c!"typedef "] ++ [.text kw] ++ aops ++ tagNameOps c name ++
      c.opn ++ (preBodyOps c path ++ inner ++ postBodyOps c path) ++ closeDef c name)
      (recordOf R c on k os path name xs) (.mid false false) := by
  obtain ⟨ls, h1, h2⟩ := seg_bodies hb hi
  have h3 := LexSpec.tri_append (LexSpec.tri_append (LexSpec.tri_append (tri_head (wc := wc) hkw ho.text hn.word ha) (tri_open ho.text)) h1)
    (tri_closeDef ho.text hn.word)
  refine ⟨_, h3, ?_⟩
  obtain ⟨h4, h5⟩ := attr_toks hos
  have h6 := decl_record (name := nameOf c name) (tag := tagOf c name) hk hne h4 h5 (by
    intro t ht
    have : t = name := by
      unfold tagOf at ht
      split at ht
      · simpa using ht.symm
      · simp at ht
    rw [this]; exact free_ident ho.dialect hn) h2
  have e : headToks (nameOf c name) kw (attrToks os) (tagOf c name) ++ [.punct '{'] ++ ls ++
      ([.punct '}'] ++ optWord (nameOf c name) ++ [.punct ';']) =
      headToks (nameOf c name) kw (attrToks os) (tagOf c name) ++ ([.punct '{'] ++ ls ++ [.punct '}']) ++ optWord (nameOf c name) ++ [.punct ';'] := by
    simp only [List.append_assoc]
  rw [e]
  exact h6

theorem seg_record (ho : ReadFine c R D) {kw : Str} {k : DeclKind} (hkw : Word kw) (hk : tagKind kw = some k) (hne : k ≠ .enum)
    {name : Str} (hn : Ident R.attrs name) {aops : List WOp} {os : List (Option Str)} (hos : ∀ o ∈ os, OptAttr R o)
    (ha : LexSpec.Tri wc (.mid false true) aops (attrToks os) (.mid false true)) {path : Str} (hb : BodiesFine R on D c path)
    {inner : List WOp} {xs : List CItem} (hi : Seg wc R on D .at inner (decls xs) .done) :
    Seg wc R on D (.mid false false) (onlyIf c.genTypedef [.text c!"typedef "] ++ [.text kw] ++ aops ++ tagNameOps c name ++
      c.opn ++ (preBodyOps c path ++ inner ++ postBodyOps c path) ++ closeDef c name)
      (decls [recordOf R c on k os path name xs]) (.mid false false) :=
  (segDecl_record ho hkw hk hne hn hos ha hb hi).seg

end

end Cbindgen.HeadSpec
