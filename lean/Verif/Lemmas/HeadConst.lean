import Verif.Lemmas.HeadItems
import Verif.Props.Prim

/-!
# Values and constants, as the reader of headers finds them
-/

namespace Cbindgen.HeadSpec
open LexSpec CSpec PreSpec

section
variable {wc : WConfig} {e : Env} {R : Dialect} {on : Str → Bool} {D : List Str} {d : Bool}

theorem flatDecls_append : ∀ {xs ys : List CDeclarator}, flatDecls xs → flatDecls ys → flatDecls (xs ++ ys)
  | [], _, _, h => h
  | .ptr _ _ _ :: xs, _, h1, h2 => by
    simp only [flatDecls, List.cons_append] at h1 ⊢; exact flatDecls_append h1 h2
  | .array _ :: xs, _, h1, h2 => by
    simp only [flatDecls, List.cons_append] at h1 ⊢; exact flatDecls_append h1 h2
  | .func _ _ :: _, _, h1, _ => h1.elim

theorem flat_build (cfg : DeclConfig) : ∀ (t : Ty) (q : Bool), flatTy t = true → flatDecl (CDecl.buildType cfg t q)
  | .path _ x g k, q, h => by
    simp only [flatTy, List.isEmpty_iff] at h
    subst h
    exact ⟨by simp [CDecl.buildGArgs], trivial⟩
  | .prim p, q, _ => ⟨rfl, trivial⟩
  | .ptr t pc nl rf, q, h => by
    have := flat_build cfg t pc h
    simp only [CDecl.buildType]
    revert this
    cases CDecl.buildType cfg t pc
    intro this
    exact ⟨this.1, this.2⟩
  | .array t len, q, h => by
    have := flat_build cfg t q h
    simp only [CDecl.buildType]
    revert this
    cases CDecl.buildType cfg t q
    intro this
    exact ⟨this.1, this.2⟩
  | .fnptr .., _, h => by simp [flatTy] at h

theorem inl_expr {s : Str} (h : ExprText s) : Inl wc d false [.text s] (toks s) true := by
  obtain ⟨ls, _, h⟩ := h
  rw [toks_gap (h false)]
  exact LexSpec.tri_anyText (spaces_mid d false) (h d)

theorem inl_unary {s : Str} (h : UnaryText s) : Inl wc d false [.text s] (toks s) false := by
  obtain ⟨ls, _, h⟩ := h
  rw [toks_gap (scans_post (h false) (gap_le_any _))]
  exact LexSpec.tri_anyText (spaces_mid d false) (h d)

theorem inl_binary {s : Str} (h : BinaryText s) : Inl wc d true [.text (c!" " ++ s ++ c!" ")] (toks (c!" " ++ s ++ c!" ")) false := by
  obtain ⟨ls, _, h⟩ := h
  rw [toks_gap (scans_post (scans_pre (h false) (gap_le_any _)) (gap_le_any _))]
  exact LexSpec.tri_anyText (spaces_mid d true) (h d)

theorem inl_fieldEnd {n : Str} (h : Word n) : Inl wc d true [.text (c!")." ++ n)] [.punct ')', .punct '.', .word n] true := by
  have h1 : Scans (.mid d true) c!")." [.punct ')', .punct '.'] (.mid d false) :=
    scans_simple (t := c!").") (d := d) (b := true) (by decide) (fun _ => by decide)
  exact LexSpec.tri_anyText (spaces_mid d true) (scans_append h1 (scans_word h d))

theorem scans_text {t : Str} {b x : Bool} {ls : List Lx} (h : isText t b ls x = true) : Scans (.mid d b) t ls (.mid d x) := by
  simp only [isText, Bool.and_eq_true, Bool.or_eq_true, Bool.not_eq_true', beq_iff_eq] at h
  obtain ⟨⟨⟨h1, h2⟩, h3⟩, h4⟩ := h
  rw [← h3]
  refine scans_post (scans_simple h1 fun hb => ?_) (mid_le fun he => ?_)
  · rcases h2 with h2 | h2
    · rw [hb] at h2; simp at h2
    · exact h2
  · rcases h4 with h4 | h4
    · rw [h4] at he; simp at he
    · exact h4

theorem scans_wordMid {w : Str} (h : Word w) : Scans (.mid d false) w [.word w] (.mid d true) := scans_word h d

theorem inl_scans {t : Str} {b x : Bool} {ls : List Lx} (h : Scans (.mid d b) t ls (.mid d x)) : Inl wc d b [.text t] ls x :=
  LexSpec.tri_anyText (spaces_mid d b) h

/-- The fields of a struct literal. -/
def InitsAre (wc : WConfig) (d : Bool) : List (Str × Init) → List (Str × List Lx) → Prop :=
  Pairs fun a b => a.1 = b.1 ∧ Word a.1 ∧ Inl wc d false a.2.1 b.2 true

theorem inits_lookup {fs : List (Str × Init)} {ls : List (Str × List Lx)} (h : InitsAre wc d fs ls) (k : Str) :
    (fs.lookup k = none ∧ ls.lookup k = none) ∨ ∃ ops g l, fs.lookup k = some (ops, g) ∧ ls.lookup k = some l ∧ Word k ∧
      Inl wc d false ops l true := by
  induction h with
  | nil => exact .inl ⟨rfl, rfl⟩
  | @cons a b as bs h _ ih =>
    obtain ⟨n, ops, g⟩ := a
    obtain ⟨n', l⟩ := b
    obtain ⟨h1, h2, h3⟩ := h
    simp only at h1 h2 h3
    subst h1
    by_cases hk : k = n
    · subst hk
      exact .inr ⟨ops, g, l, by simp, by simp, h2, h3⟩
    · have hk' : (k == n) = false := by simpa using hk
      simpa [List.lookup_cons, hk'] using ih

theorem inl_inits (hl : e.cfg.language = .c) {fs : List (Str × Init)} {ls : List (Str × List Lx)} (h : InitsAre wc d fs ls) :
    ∀ (keys : List Str) (first : Bool), Inl wc d (!first) (initsSingle e.cfg fs first keys) (initsToks ls first keys) true
  | [], first => by
    simp only [initsSingle, initsToks]
    exact inl_mono inl_nil id fun _ => rfl
  | k :: keys, first => by
    simp only [initsSingle, initsToks]
    refine inl_append (m := true) ?_ (inl_inits hl h keys false)
    rcases inits_lookup h k with ⟨h1, h2⟩ | ⟨ops, g, l, h1, h2, h3, h4⟩
    · rw [h1, h2]
      exact inl_mono inl_nil id fun _ => rfl
    · rw [h1, h2]
      simp only [initSingle, initToks, initLabel, hl]
      have h5 : Inl wc d false [.text (c!"." ++ k ++ c!" = ")] [.punct '.', .word k, .punct '='] false :=
        inl_scans (scans_append (scans_append (scans_text (ls := [.punct '.']) (x := false) (by decide)) (scans_wordMid h3))
          (scans_text (ls := [.punct '=']) (by decide)))
      refine inl_append (inl_append (m := false) ?_ h5) h4
      cases first
      · exact inl_text (by decide)
      · exact inl_nil

mutual
theorem inl_lit (hl : e.cfg.language ≠ .cython) (hk : DialectFine R e.cfg.toDeclConfig) : ∀ (v : Lit), LitText R e v →
    Inl wc d false (v.ops e) (litToks e v) true
  | .expr s, h => by
    simp only [LitText] at h
    simp only [Lit.ops, litToks, exprText, if_neg hl]
    exact inl_expr h
  | .path a n, h => by
    simp only [LitText] at h
    simp only [Lit.ops, litToks]
    exact inl_word h
  | .field b n, h => by
    simp only [LitText] at h
    simp only [Lit.ops, litToks]
    exact inl_append (inl_append (inl_text (e := false) (by decide)) (inl_lit hl hk b h.1)) (inl_fieldEnd h.2)
  | .unary o v, h => by
    simp only [LitText] at h
    simp only [Lit.ops, litToks]
    exact inl_append (inl_unary h.1) (inl_lit hl hk v h.2)
  | .binop l o r, h => by
    simp only [LitText] at h
    simp only [Lit.ops, litToks]
    exact inl_append (inl_append (inl_append (inl_append (inl_text (e := false) (by decide)) (inl_lit hl hk l h.1)) (inl_binary h.2.1))
      (inl_lit hl hk r h.2.2)) (inl_text (by decide))
  | .cast t v, h => by
    simp only [LitText] at h
    have hc : castOps e.cfg t = [.text c!"("] ++ typeOps e.cfg t ++ [.text c!")"] := by
      unfold castOps; split
      · rename_i h; exact absurd h hl
      · rfl
    simp only [Lit.ops, litToks, hc, typeOps, writeType]
    exact inl_append (inl_append (inl_append (inl_text (e := false) (by decide)) (inl_declFlat hk.known.words _ _ none
      (build_fine t false h.1.1) (flat_build _ t false h.1.2) nofun)) (inl_text (e := false) (by decide))) (inl_lit hl hk v h.2)
  | .array items, h => by
    simp only [LitText] at h
    have h1 : arrayOpen e.cfg.language = c!"{ " ∧ arrayClose e.cfg.language = c!"}" := by
      revert hl; cases e.cfg.language <;> simp [arrayOpen, arrayClose]
    simp only [Lit.ops, litToks, h1.1, h1.2]
    exact inl_append (inl_append (inl_text (e := false) (by decide)) (inl_lits hl hk items h)) (inl_text (by decide))
  | .struct p x fs, h => by
    simp only [LitText] at h
    obtain ⟨⟨hl', hx⟩, h⟩ := h
    have hm : multiLine e.cfg (Lit.canBeConstexpr (.struct p x fs)) = false := by simp [multiLine, hl']
    simp only [Lit.ops, litToks, structLitOps, hl', hm, if_true, Bool.false_eq_true, if_false]
    have h1 : Inl wc d false [.text (c!"(" ++ x ++ c!")")] [.punct '(', .word x, .punct ')'] false :=
      inl_scans (scans_append (scans_append (scans_text (ls := [.punct '(']) (x := false) (by decide)) (scans_wordMid hx))
        (scans_text (ls := [.punct ')']) (by decide)))
    have h2 : Inl wc d false [.text c!"{"] [.punct '{'] false := inl_text (by decide)
    have h3 : Inl wc d false [.text c!" "] [] false := inl_text (by decide)
    have h4 : Inl wc d true [.text c!" "] [] false := inl_text (by decide)
    have h5 : Inl wc d false [.text c!"}"] [.punct '}'] true := inl_text (by decide)
    have h6 := inl_inits (e := e) hl' (inits_lit hl hk fs h) (e.fieldNames p) true
    have := inl_append (inl_append (inl_append h1 h2) (inl_append (inl_append h3 h6) h4)) h5
    exact LexSpec.tri_eq this (by simp)
theorem inits_lit (hl : e.cfg.language ≠ .cython) (hk : DialectFine R e.cfg.toDeclConfig) : ∀ (fs : List LitField), LitFieldTexts R e fs →
    InitsAre wc d (LitField.opsList e fs) (litFieldsToks e fs)
  | [], _ => by simp only [LitField.opsList, litFieldsToks]; exact .nil
  | .mk n v g :: fs, h => by
    simp only [LitFieldTexts] at h
    simp only [LitField.opsList, litFieldsToks]
    exact .cons ⟨rfl, h.1.1, inl_lit hl hk v h.1.2⟩ (inits_lit hl hk fs h.2)
theorem inl_lits (hl : e.cfg.language ≠ .cython) (hk : DialectFine R e.cfg.toDeclConfig) : ∀ (vs : List Lit), LitTexts R e vs →
    Inl wc d false (Lit.opsItems e vs) (litsToks e vs) false
  | [], _ => by simp only [Lit.opsItems, litsToks]; exact inl_nil
  | v :: vs, h => by
    simp only [LitTexts] at h
    simp only [Lit.opsItems, litsToks]
    exact inl_append (inl_append (inl_lit hl hk v h.1) (inl_text (by decide))) (inl_lits hl hk vs h.2)
end

/-! ## Constants -/

theorem eol_inits {ls : List (Str × List Lx)} (h : ∀ p ∈ ls, Lx.eol ∉ p.2) : ∀ (keys : List Str) (first : Bool),
    Lx.eol ∉ initsToks ls first keys
  | [], _ => by simp [initsToks]
  | k :: keys, first => by
    simp only [initsToks, List.mem_append, not_or]
    refine ⟨?_, eol_inits h keys false⟩
    cases hk : ls.lookup k with
    | none => simp [initToks]
    | some l =>
      have := h _ (mem_of_lookup hk)
      cases first <;> simp [initToks, this]

mutual
theorem eol_lit (hk : DialectFine R e.cfg.toDeclConfig) : ∀ (v : Lit), LitText R e v → Lx.eol ∉ litToks e v
  | .expr s, h => by
    simp only [LitText] at h
    simp only [litToks]
    obtain ⟨ls, h1, h2⟩ := h
    rw [toks_gap (h2 false)]; exact h1
  | .path a n, _ => by simp [litToks]
  | .field b n, h => by
    simp only [LitText] at h
    simp [litToks, eol_lit hk b h.1]
  | .unary o v, h => by
    simp only [LitText] at h
    obtain ⟨⟨ls, h1, h2⟩, h3⟩ := h
    simp only [litToks]
    rw [toks_gap (scans_post (h2 false) (gap_le_any _))]
    simp [h1, eol_lit hk v h3]
  | .binop l o r, h => by
    simp only [LitText] at h
    obtain ⟨h0, ⟨ls, h1, h2⟩, h3⟩ := h
    simp only [litToks]
    rw [toks_gap (scans_post (scans_pre (h2 false) (gap_le_any _)) (gap_le_any _))]
    simp [h1, eol_lit hk l h0, eol_lit hk r h3]
  | .cast t v, h => by
    simp only [LitText] at h
    have := allDecl_decl hk (CDecl.fromType e.cfg.toDeclConfig t) none (build_fine t false h.1.1) nofun
    have h1 : Lx.eol ∉ spells (writeType e.cfg.toDeclConfig t) := fun hm => this _ hm
    simp [litToks, h1, eol_lit hk v h.2]
  | .array items, h => by
    simp only [LitText] at h
    simp [litToks, eol_lits hk items h]
  | .struct p x fs, h => by
    simp only [LitText] at h
    have := eol_inits (eol_fields hk fs h.2) (e.fieldNames p) true
    simp [litToks, this]
theorem eol_lits (hk : DialectFine R e.cfg.toDeclConfig) : ∀ (vs : List Lit), LitTexts R e vs → Lx.eol ∉ litsToks e vs
  | [], _ => by simp [litsToks]
  | v :: vs, h => by
    simp only [LitTexts] at h
    simp [litsToks, eol_lit hk v h.1, eol_lits hk vs h.2]
theorem eol_fields (hk : DialectFine R e.cfg.toDeclConfig) : ∀ (fs : List LitField), LitFieldTexts R e fs →
    ∀ p ∈ litFieldsToks e fs, Lx.eol ∉ p.2
  | [], _ => by simp [litFieldsToks]
  | .mk n v g :: fs, h => by
    simp only [LitFieldTexts] at h
    simp only [litFieldsToks, List.mem_cons]
    rintro p (rfl | hp)
    · exact eol_lit hk v h.1.2
    · exact eol_fields hk fs h.2 p hp
end

theorem const_build (cfg : DeclConfig) : ∀ (t : Ty), constBase t = true → ∃ k n g ds, ∀ q, CDecl.buildType cfg t q = .mk q k n g ds
  | .prim p, _ => ⟨_, _, _, _, fun q => by rw [CDecl.buildType]⟩
  | .path .., _ => ⟨_, _, _, _, fun q => by rw [CDecl.buildType]⟩
  | .array t l, h => by
    obtain ⟨k, n, g, ds, h1⟩ := const_build cfg t (by simpa [constBase] using h)
    exact ⟨k, n, g, _, fun q => by rw [CDecl.buildType, h1 q]; rfl⟩
  | .ptr .., h => by simp [constBase] at h
  | .fnptr .., h => by simp [constBase] at h

/-- The `const` of an immutable variable is that of its type. -/
theorem const_write (cfg : DeclConfig) (i : Option Str) (t : Ty) (h : constBase t = true) :
    (CDecl.buildType cfg t true).write cfg i = .kwConst :: (CDecl.buildType cfg t false).write cfg i := by
  obtain ⟨k, n, g, ds, h1⟩ := const_build cfg t h
  rw [h1 true, h1 false]
  simp [CDecl.write, constToks]

/-! ### Variables -/

theorem grow_braced_value {ls : List Lx} (h : Braced ls) : ∃ ps, Grow R on D ls ps ∧ flatToks ps = some ls ∧ linkStart R ps = false ∧
    ∀ q, linkStart R (.tok (.punct '=') :: q) = false := by
  induction h with
  | nil => exact ⟨[], grow_nil, rfl, rfl, fun _ => rfl⟩
  | @tok l ls hl _ ih =>
    obtain ⟨ps, h1, h2, _, h4⟩ := ih
    simp only [Bool.and_eq_true, bne_iff_ne, ne_eq] at hl
    refine ⟨.tok l :: ps, grow_append (grow_tok hl.1.1) h1, by simp [flatToks, h2], ?_, h4⟩
    cases l with
    | word w =>
      have e1 : w ≠ c!"namespace" := fun e => hl.1.2 (by rw [e])
      have e2 : w ≠ c!"extern" := fun e => hl.2 (by rw [e])
      simp [linkStart, e1, e2]
    | _ => rfl
  | @braces a b _ _ iha ihb =>
    obtain ⟨ps, h1, h2, h3, h4⟩ := iha
    obtain ⟨qs, g1, g2, _, _⟩ := ihb
    refine ⟨[.group [] a] ++ qs, ?_, by simp [flatToks, g2], rfl, h4⟩
    have := grow_append (grow_flat h3 h2 h1) g1
    simpa using this

theorem flatToks_append {a b : List Part} {x y : List Lx} (h1 : flatToks a = some x) (h2 : flatToks b = some y) :
    flatToks (a ++ b) = some (x ++ y) := by
  induction a generalizing x with
  | nil => simp [flatToks] at h1; subst h1; exact h2
  | cons p a ih =>
    cases p with
    | tok l =>
      simp only [flatToks, Option.map_eq_some_iff, List.cons_append] at h1 ⊢
      obtain ⟨z, hz, rfl⟩ := h1
      exact ⟨_, ih hz, rfl⟩
    | group ms rest =>
      cases ms with
      | nil =>
        simp only [flatToks, Option.map_eq_some_iff, List.cons_append] at h1 ⊢
        obtain ⟨z, hz, rfl⟩ := h1
        exact ⟨_, ih hz, by simp⟩
      | cons => simp [flatToks] at h1

theorem takeConstWords_append {ws : List Str} (hw : ∀ w ∈ ws, w ∈ constWords) {ls : List Lx} (h : takeConstWords ls = ([], ls)) :
    takeConstWords (ws.map .word ++ ls) = (ws, ls) := by
  induction ws with
  | nil => exact h
  | cons w ws ih =>
    simp [takeConstWords, hw w (by simp), ih fun x hx => hw x (by simp [hx])]

/-- A variable with a value. -/
theorem adds_variable (hx : R.cxx = true) {ws : List Str} (hne : ws ≠ []) (hw : ∀ w ∈ ws, w ∈ constWords) {ls value : List Lx} {n : Str} {t : CTy}
    (h : DeclaredAs R ls n t) (hv : Braced value) :
    Adds R on D (ws.map .word ++ ls ++ .punct '=' :: value ++ [.punct ';']) ⟨[.constant ws n t.forgetFnPtr value], [], []⟩ := by
  obtain ⟨ps, g1, g2, _, _⟩ := grow_braced_value (R := R) (on := on) (D := D) hv
  obtain ⟨t', r1, r2⟩ := h.reads
  have hp : (ws.map Lx.word).all isPlainTok = true := by simp [List.all_map, List.all_eq_true, isPlainTok]
  have hG := grow_append (grow_append (grow_append (grow_toks (R := R) (on := on) (D := D) hp) (grow_toks h.plain))
    (grow_tok (l := .punct '=') rfl)) g1
  have hstart : takeConstWords ls = ([], ls) := by
    have := h.start
    cases ls with
    | nil => rfl
    | cons l ls =>
      cases l with
      | word w =>
        have hc := this.2.2.2 hx
        have : w ∉ constWords := fun hm => hc (by simp [cxxWords, hm])
        simp [takeConstWords, this]
      | _ => rfl
  obtain ⟨w, ws', rfl⟩ : ∃ w ws', ws = w :: ws' := by
    cases ws with
    | nil => exact absurd rfl hne
    | cons w ws' => exact ⟨w, ws', rfl⟩
  have hw0 := hw w (by simp)
  have hcw : ∀ w ∈ constWords, w ≠ c!"using" ∧ w ≠ c!"namespace" ∧ w ≠ c!"extern" ∧ w ≠ c!"template" ∧ w ∈ cxxWords := by decide
  obtain ⟨n1, n2, n3, n5, n4⟩ := hcw w hw0
  refine adds_end (ps := ((w :: ws').map (fun x => Lx.word x)).map .tok ++ ls.map .tok ++ [.tok (.punct '=')] ++ ps) ?_ ?_ ?_
  · simpa using hG
  · simp [linkStart, n2, n3]
  · have e1 : flatToks (((w :: ws').map (fun x => Lx.word x)).map .tok ++ ls.map .tok ++ [.tok (.punct '=')] ++ ps) =
        some ((w :: ws').map .word ++ (ls ++ .punct '=' :: value)) := by
      rw [flatToks_append (flatToks_append (flatToks_append (flatToks_toks _) (flatToks_toks _)) (x := (w :: ws').map .word ++ ls)
        (y := [.punct '=']) rfl) g2]
      simp
    have e2 : takeConstWords ((w :: ws').map .word ++ (ls ++ .punct '=' :: value)) = (w :: ws', ls ++ .punct '=' :: value) := by
      refine takeConstWords_append hw ?_
      cases ls with
      | nil => rfl
      | cons l ls =>
        cases l with
        | word w =>
          simp only [takeConstWords, List.cons_append] at hstart ⊢
          split at hstart
          · simp at hstart
          · rename_i hm; simp [hm]
        | _ => rfl
    have e3 : cutAt '=' (ls ++ .punct '=' :: value) = (ls, some value) := cutAt_some fun l hl => (h.toks l hl).noEq
    rw [declaration, if_pos (by simp [cxxStart, hx, n4]), e1]
    have e4 : (w :: ws').map Lx.word ++ (ls ++ .punct '=' :: value) = .word w :: (ws'.map .word ++ (ls ++ .punct '=' :: value)) := rfl
    rw [e4] at e2 ⊢
    simp only [readPlainCxx, n1, n2, n5, or_self, if_false, e2, e3, r1, Option.map_some, r2]

theorem isVariable_cxx {k : ConstItem} (h : isVariable e.cfg k = true) : e.cfg.language = .cxx := by
  simp only [isVariable, Bool.and_eq_true, beq_iff_eq] at h; exact h.1

theorem seg_const (ho : ReadFine e.cfg R D) {s : Option StructItem} {k : ConstItem} (hk : ConstGood R D e s k) :
    Seg wc R on D .at (k.ops e s) (constOut e on s k) .done := by
  unfold ConstItem.ops constOut
  split
  · exact seg_post seg_nil at_le_done
  · cases hn : k.writtenName e.cfg s with
    | none => exact ⟨_, LexSpec.tri_panic (ls := []) (by simp), adds_nil⟩
    | some n =>
      cases hv : k.value.peel e.transparent with
      | none => exact ⟨_, LexSpec.tri_panic (ls := []) (by simp), adds_nil⟩
      | some v =>
        simp only []
        obtain ⟨hw, hD⟩ := hk.name n hn
        suffices hbody : Seg wc R on D .at (docOps e.cfg k.doc ++ k.bodyOps e (inBody e.cfg s) n v)
            (if isVariable e.cfg k then ⟨[.constant (wordsOf e.cfg s k) n (constTy e.cfg k).forgetFnPtr (litToks e v)], [], []⟩
              else ⟨[], [(n, litToks e v)], []⟩) .done by
          have := seg_cond (wc := wc) (on := on) ho.toCondsFine k.cfg hbody
          simpa only [List.append_assoc] using this
        refine seg_left (tri_docs ho.text hk.doc) ?_
        cases hvar : isVariable e.cfg k with
        | false =>
          have h1 : LexSpec.Tri wc .at [.text (c!"#define " ++ n ++ c!" ")] [.hash, .word c!"define", .word n] (.mid true false) := by
            have := scans_append (scans_append (scans_append scans_hash (scans_text (d := true) (b := false) (x := false)
              (t := c!"define ") (ls := [.word c!"define"]) (by decide))) (scans_wordMid hw)) (scans_space true)
            exact LexSpec.tri_anyText spaces_at this
          have h2 := inl_lit (wc := wc) (d := true) ho.text ho.dialect v (hk.value v hv)
          have h3 : k.bodyOps e (inBody e.cfg s) n v = [.text (c!"#define " ++ n ++ c!" ")] ++ v.ops e := by
            unfold ConstItem.bodyOps
            simp only []
            split
            · rename_i h; exact absurd h ho.text
            · rfl
            · rename_i h
              rw [if_neg]
              simpa [isVariable, h] using hvar
          have h4 := LexSpec.tri_close (LexSpec.tri_post (LexSpec.tri_append h1 h2) mid_le_any)
          have h5 := adds_define (R := R) (on := on) (D := D) (x := n) (body := litToks e v)
            (eol_lit ho.dialect v (hk.value v hv)) hD
          rw [h3]
          exact ⟨_, h4, by simpa [dirToks] using h5⟩
        | true =>
          have hl := isVariable_cxx hvar
          obtain ⟨g1, g2, g3, g4, g5⟩ := hk.variable_ hvar
          have hcxx : R.cxx = true := by rw [ho.cxx, hl]; rfl
          have h3 := tri_declOps (wc := wc) ho.dialect g2 (g1 n hn)
          have hc : Inl wc false false [.text c!"const "] [.word c!"const"] false := inl_text (by decide)
          obtain ⟨ls, h4, h5⟩ : ∃ ls, LexSpec.Tri wc (.mid false false) (onlyIf (!k.ty.isConstPtr) [.text c!"const "] ++
              declOps e.cfg k.ty n) ls (.mid false true) ∧ DeclaredAs R ls n (constTy e.cfg k) := by
            unfold constTy
            cases hq : k.ty.isConstPtr with
            | true => exact ⟨_, h3, declared_build (q := false) ho.dialect g2 (g1 n hn) g3⟩
            | false =>
              have hb : constBase k.ty = true := by
                rcases g4 with h | h
                · rw [h] at hq; simp at hq
                · exact h
              have hd := declared_build (q := true) ho.dialect g2 (g1 n hn) g3
              rw [const_write _ _ _ hb] at hd
              exact ⟨_, LexSpec.tri_append hc h3, hd⟩
          have h6 : LexSpec.Tri wc (.mid false false) (onlyIf (e.cfg.allowConstexpr && k.value.canBeConstexpr) [.text c!"constexpr "] ++
              onlyIf e.cfg.allowStaticConst [.text (if inBody e.cfg s then c!"inline " else c!"static ")])
              ((wordsOf e.cfg s k).map .word) (.mid false false) := by
            have a1 : Inl wc false false [.text c!"constexpr "] [.word c!"constexpr"] false := inl_text (by decide)
            have a2 : Inl wc false false [.text c!"inline "] [.word c!"inline"] false := inl_text (by decide)
            have a3 : Inl wc false false [.text c!"static "] [.word c!"static"] false := inl_text (by decide)
            unfold wordsOf
            rw [List.map_append]
            refine LexSpec.tri_append (Q := .mid false false) ?_ ?_
            · cases (e.cfg.allowConstexpr && k.value.canBeConstexpr)
              · exact LexSpec.tri_nil
              · exact a1
            · cases e.cfg.allowStaticConst
              · exact LexSpec.tri_nil
              · cases inBody e.cfg s
                · exact a3
                · exact a2
          have h7 : Inl wc false true [.text c!" = "] [.punct '='] false := inl_text (by decide)
          have h8 := inl_lit (wc := wc) (d := false) ho.text ho.dialect v (hk.value v hv)
          have h9 := LexSpec.tri_append (LexSpec.tri_append (LexSpec.tri_append (LexSpec.tri_append h6 h4) h7) h8) inl_semi
          have hne : wordsOf e.cfg s k ≠ [] := by
            unfold isVariable at hvar
            unfold wordsOf
            revert hvar
            cases e.cfg.allowStaticConst <;> cases e.cfg.allowConstexpr <;> cases k.value.canBeConstexpr <;> simp
          have hws : ∀ w ∈ wordsOf e.cfg s k, w ∈ constWords := by
            unfold wordsOf
            cases e.cfg.allowStaticConst <;> cases e.cfg.allowConstexpr <;> cases k.value.canBeConstexpr <;> cases inBody e.cfg s <;> decide
          have h10 := adds_variable (on := on) (D := D) hcxx hne hws h5 (g5 v hv)
          have e1 : k.bodyOps e (inBody e.cfg s) n v = onlyIf (e.cfg.allowConstexpr && k.value.canBeConstexpr) [.text c!"constexpr "] ++
              onlyIf e.cfg.allowStaticConst [.text (if inBody e.cfg s then c!"inline " else c!"static ")] ++
              onlyIf (!k.ty.isConstPtr) [.text c!"const "] ++ declOps e.cfg k.ty n ++ [.text c!" = "] ++ v.ops e ++ [.text c!";"] := by
            unfold ConstItem.bodyOps
            rw [hl]
            simp only []
            rw [if_pos]
            simpa [isVariable, hl] using hvar
          rw [e1]
          refine seg_pre (seg_post (Q := .mid false false) ⟨_, ?_, h10⟩ mid_le_done) (at_le_mid (b := false))
          simpa only [List.append_assoc, List.singleton_append, if_true] using h9

end

end Cbindgen.HeadSpec
