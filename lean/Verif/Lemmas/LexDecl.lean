import Verif.Lemmas.Lexer
import Verif.Props.Decl

/-!
# The tokens of declarations
-/

namespace Cbindgen.LexSpec
open TextSpec CSpec

/-- Within a line of code. -/
abbrev Inl (wc : WConfig) (d b : Bool) (ops : List WOp) (ls : List Lx) (e : Bool) : Prop :=
  Tri wc (.mid d b) ops ls (.mid d e)

section
variable {wc : WConfig} {d b e : Bool} {ls ks : List Lx}

theorem inl_mono {b' e' : Bool} {ops : List WOp} (h : Inl wc d b ops ls e) (hb : b' = true → b = true)
    (he : e = true → e' = true) : Inl wc d b' ops ls e' := tri_post (tri_pre h (mid_le hb)) (mid_le he)

theorem inl_nil : Inl wc d b [] [] b := tri_nil

theorem inl_append {x y : List WOp} {m : Bool} (h1 : Inl wc d b x ls m) (h2 : Inl wc d m y ks e) :
    Inl wc d b (x ++ y) (ls ++ ks) e := tri_append h1 h2

theorem inl_simple {t : Str} (h : simple t = true) (hb : b = true → startsFree t = true) :
    Inl wc d b [.text t] (simpleToks none t) (endsWord t || (b && t.isEmpty)) :=
  tri_anyText (spaces_mid d b) (scans_simple h hb)

/-- What a given text is, by computation. -/
def isText (t : Str) (b : Bool) (ls : List Lx) (e : Bool) : Bool :=
  simple t && (!b || startsFree t) && (simpleToks none t == ls) && (!(endsWord t || (b && t.isEmpty)) || e)

theorem inl_text {t : Str} (h : isText t b ls e = true) : Inl wc d b [.text t] ls e := by
  simp only [isText, Bool.and_eq_true, Bool.or_eq_true, Bool.not_eq_true', beq_iff_eq] at h
  obtain ⟨⟨⟨h1, h2⟩, h3⟩, h4⟩ := h
  rw [← h3]
  refine inl_mono (inl_simple (b := b) h1 fun hb => ?_) id fun he => ?_
  · rcases h2 with h2 | h2
    · rw [hb] at h2; exact absurd h2 (by simp)
    · exact h2
  · rcases h4 with h4 | h4
    · rw [he] at h4; exact absurd h4 (by simp)
    · exact h4

theorem simpleToks_words {w : Str} (h : w.all wordChar = true) : ∀ a, simpleToks (some a) w = [.word (a ++ w)] := by
  induction w with
  | nil => intro a; simp [simpleToks]
  | cons c w ih =>
    intro a
    simp only [List.all_cons, Bool.and_eq_true] at h
    simp [simpleToks, h.1, ih h.2]

theorem simpleToks_word {w : Str} (h : Word w) : simpleToks none w = [.word w] := by
  obtain ⟨hn, ha⟩ := h
  cases w with
  | nil => exact absurd rfl hn
  | cons c w =>
    simp only [List.all_cons, Bool.and_eq_true] at ha
    simp [simpleToks, ha.1, simpleToks_words ha.2]

theorem simple_word {w : Str} (h : Word w) : simple w = true := by
  unfold simple
  refine List.all_eq_true.mpr fun c hc => ?_
  rw [List.all_eq_true.mp h.2 c hc]; rfl

theorem simple_append {x y : Str} : simple (x ++ y) = (simple x && simple y) := by simp [simple]

theorem simpleToks_append {x y : Str} (h : endsWord x = false ∨ startsFree y = true) : ∀ o : Option Str, (x = [] → o = none ∨ startsFree y = true) →
    simpleToks o (x ++ y) = simpleToks o x ++ simpleToks none y := by
  induction x with
  | nil =>
    intro o ho
    rcases ho rfl with rfl | h1
    · simp [simpleToks]
    · cases o with
      | none => simp [simpleToks]
      | some w => simp [simpleToks, simpleToks_some h1]
  | cons c x ih =>
    intro o _
    have hh : endsWord x = false ∨ startsFree y = true := by
      rcases h with h | h
      · cases x with
        | nil => exact .inl rfl
        | cons z zs => left; simpa [endsWord, List.getLast?_cons_cons] using h
      · exact .inr h
    have hw : ∀ w, wordChar c = true → x = [] → (some w : Option Str) = none ∨ startsFree y = true := by
      intro w hc hx
      subst hx
      rcases h with h | h
      · simp [endsWord, hc] at h
      · exact .inr h
    have i1 := ih hh none fun _ => .inl rfl
    cases o with
    | none =>
      by_cases hc : wordChar c = true
      · simp [simpleToks, hc, ih hh (some [c]) (hw _ hc)]
      · by_cases hs : c = ' '
        · subst hs; simp [simpleToks, show wordChar ' ' = false from rfl, i1]
        · simp [simpleToks, hc, hs, i1]
    | some w =>
      by_cases hc : wordChar c = true
      · simp [simpleToks, hc, ih hh (some (w ++ [c])) (hw _ hc)]
      · by_cases hs : c = ' '
        · subst hs; simp [simpleToks, show wordChar ' ' = false from rfl, i1]
        · simp [simpleToks, hc, hs, i1]

theorem inl_word {w : Str} (h : Word w) : Inl wc d false [.text w] [.word w] true := by
  have := inl_simple (wc := wc) (d := d) (b := false) (simple_word h) nofun
  rw [simpleToks_word h] at this
  exact inl_mono this id fun _ => rfl

theorem inl_pushAlign : Inl wc d b [.pushAlign] [] b := tri_pushAlign
theorem inl_pop : Inl wc d b [.pop] [] b := tri_pop

theorem inl_newLine : Inl wc false b [.newLine] [] false :=
  tri_post (tri_pre tri_newLine mid_le_done) at_le_gap

theorem inl_try {max : Nat} {h v : List WOp} (h1 : Inl wc d b h ls e) (h2 : Inl wc d b v ls e) :
    Inl wc d b [.tryElse max h v] ls e := tri_try h1 h2

/-! ## Lists -/

inductive Pairs {α β : Type} (R : α → β → Prop) : List α → List β → Prop
  | nil : Pairs R [] []
  | cons {a b as bs} : R a b → Pairs R as bs → Pairs R (a :: as) (b :: bs)

/-- The tokens of items with the tokens of a separator between them. -/
def joined (sep : List Lx) : List (List Lx) → List Lx
  | [] => []
  | x :: xs => x ++ xs.flatMap (sep ++ ·)

theorem joined_cons (sep x y : List Lx) (xs : List (List Lx)) :
    joined sep (x :: y :: xs) = x ++ (sep ++ joined sep (y :: xs)) := by simp [joined]

theorem inl_horizontal {s : Str} {sep : List Lx} (hs : Inl wc d true [.text s] sep false) :
    ∀ {items : List (List WOp)} {lss : List (List Lx)}, Pairs (fun i l => Inl wc d false i l true) items lss →
      Inl wc d false (horizontalList (.join s) items) (joined sep lss) true
  | [], [], _ => inl_mono inl_nil id nofun
  | [x], [l], .cons h _ => by
    simp only [horizontalList, ListType.after, if_true, List.append_nil, joined, List.flatMap_nil]
    exact h
  | x :: y :: xs, l :: k :: ls, .cons h hr => by
    rw [joined_cons, ← List.append_assoc]
    simp only [horizontalList, ListType.after, Bool.false_eq_true, if_false]
    exact inl_append (inl_append h hs) (inl_horizontal hs hr)

theorem inl_verticalItems {s : Str} {sep : List Lx} (hs : Inl wc false true [.text s] sep false) :
    ∀ {items : List (List WOp)} {lss : List (List Lx)}, Pairs (fun i l => Inl wc false false i l true) items lss →
      Inl wc false false (verticalItems (.join s) items) (joined sep lss) true
  | [], [], _ => inl_mono inl_nil id nofun
  | [x], [l], .cons h _ => by
    simp only [verticalItems, ListType.after, if_true, List.append_nil, joined, List.flatMap_nil]
    exact h
  | x :: y :: xs, l :: k :: ls, .cons h hr => by
    rw [joined_cons, ← List.append_assoc]
    simp only [verticalItems, ListType.after, Bool.false_eq_true, if_false]
    have := inl_append (inl_append (inl_append h hs) inl_newLine) (inl_verticalItems hs hr)
    simpa using this

theorem inl_vertical {s : Str} {sep : List Lx} (hs : Inl wc false true [.text s] sep false)
    {items : List (List WOp)} {lss : List (List Lx)} (h : Pairs (fun i l => Inl wc false false i l true) items lss) :
    Inl wc false false (verticalList (.join s) items) (joined sep lss) true := by
  have := inl_append (inl_append inl_pushAlign (inl_verticalItems hs h)) inl_pop
  simpa [verticalList] using this

theorem inl_layout {c : OutConfig} {layout : Layout} {items : List (List WOp)} {lss : List (List Lx)}
    (h : Pairs (fun i l => Inl wc false false i l true) items lss) :
    Inl wc false false (layoutOps c layout items) (joined [.punct ','] lss) true := by
  have h1 : Inl wc false false (horizontalList (.join c!", ") items) (joined [.punct ','] lss) true :=
    inl_horizontal (inl_text (by decide)) h
  have h2 : Inl wc false false (verticalList (.join c!",") items) (joined [.punct ','] lss) true :=
    inl_vertical (inl_text (by decide)) h
  unfold layoutOps
  cases layout
  · exact h1
  · exact h2
  · exact inl_try h1 h2

theorem inl_optWord {o : Option Str} (h : ∀ a, o = some a → Word a) :
    Inl wc d false (optText o (· ++ c!" ")) (o.toList.map .word) false := by
  unfold optText
  cases o with
  | none => exact inl_nil
  | some a =>
    have hw := h a rfl
    have he : simpleToks none (a ++ c!" ") = [.word a] := by
      rw [simpleToks_append (.inr rfl) none (fun _ => .inl rfl), simpleToks_word hw]; rfl
    have := inl_simple (wc := wc) (d := d) (b := false) (t := a ++ c!" ") (by rw [simple_append, simple_word hw]; rfl) nofun
    rw [he] at this
    exact inl_mono this id (by simp [endsWord]; decide)

end

/-! ## Spelling -/

/-- The tokens of the text of a token of a declaration. -/
def spell : Tok → List Lx
  | .kwConst => [.word c!"const"]
  | .kwTag k => [.word k.word]
  | .name s => simpleToks none s
  | .lit s => simpleToks none s
  | .attr s => simpleToks none s
  | .star => [.punct '*']
  | .amp => [.punct '&']
  | .lparen => [.punct '(']
  | .rparen => [.punct ')']
  | .lbrack => [.punct '[']
  | .rbrack => [.punct ']']
  | .lt => [.punct '<']
  | .gt => [.punct '>']
  | .comma => [.punct ',']

/-- The tokens of the text of a declaration. -/
def spells (ts : List Tok) : List Lx := ts.flatMap spell

theorem spells_append (a b : List Tok) : spells (a ++ b) = spells a ++ spells b := by simp [spells]
theorem spells_cons (a : Tok) (b : List Tok) : spells (a :: b) = spell a ++ spells b := rfl
theorem spells_nil : spells [] = [] := rfl

/-- A name of a type: an identifier, or the name of a primitive type. -/
def TypeName (attrs : List Str) (s : Str) : Prop := Ident attrs s ∨ ∃ p u, s = Prim.toReprC u p

mutual
/-- The names in a declaration can be read. -/
def declFine (attrs : List Str) : CDecl → Prop
  | .mk _ _ n gs ds => TypeName attrs n ∧ gargsFine attrs gs ∧ declaratorsFine attrs ds
def gargsFine (attrs : List Str) : List CGArg → Prop
  | [] => True
  | .type d :: gs => declFine attrs d ∧ gargsFine attrs gs
  | .const s :: gs => (Word s ∧ wordTok attrs s = .lit s ∧ isArith s = false) ∧ gargsFine attrs gs
def declaratorsFine (attrs : List Str) : List CDeclarator → Prop
  | [] => True
  | .ptr _ _ _ :: ds => declaratorsFine attrs ds
  | .array l :: ds => LengthWord attrs l ∧ declaratorsFine attrs ds
  | .func as _ :: ds => cargsFine attrs as ∧ declaratorsFine attrs ds
def cargsFine (attrs : List Str) : List CArg → Prop
  | [] => True
  | .mk n d :: as => (∀ s, n = some s → Ident attrs s) ∧ declFine attrs d ∧ cargsFine attrs as
end

theorem Ident.word {attrs : List Str} {s : Str} (h : Ident attrs s) : Word s := ⟨h.1, h.2.1⟩

theorem prim_simple (p : Prim) (u : Bool) : simple (Prim.toReprC u p) = true := by
  cases p with
  | integer z s k => cases z <;> cases s <;> cases k <;> cases u <;> decide
  | _ => cases u <;> decide

theorem TypeName.simple {attrs : List Str} {s : Str} (h : TypeName attrs s) : simple s = true := by
  rcases h with h | ⟨p, u, rfl⟩
  · exact simple_word h.word
  · exact prim_simple p u

section
variable {wc : WConfig} {attrs : List Str} {c : OutConfig} {d : Bool}

theorem inl_typeName {s : Str} (h : TypeName attrs s) : Inl wc d false [.text s] (spells [.name s]) true := by
  have := inl_simple (wc := wc) (d := d) (b := false) h.simple nofun
  simp only [spells, List.flatMap_cons, List.flatMap_nil, List.append_nil, spell]
  exact inl_mono this id fun _ => rfl

theorem inl_qual (q : Bool) : Inl wc d false (qualOps q) (spells (constToks q)) false := by
  cases q
  · exact inl_nil
  · exact inl_text (by decide)

theorem inl_ctype (k : Option DeclKind) :
    Inl wc d false (ctypeOps c k) (spells (ctypeToks c.toDeclConfig k)) false := by
  cases k with
  | none => exact inl_nil
  | some k =>
    simp only [ctypeOps, ctypeToks]
    split
    · exact inl_nil
    · cases k <;> exact inl_text (by decide)

theorem toksAttr {o : Option Str} (h : ∀ a, o = some a → Word a) :
    spells (o.map Tok.attr).toList = o.toList.map .word := by
  cases o with
  | none => rfl
  | some a => simp [spells, spell, simpleToks_word (h a rfl)]

theorem inl_ptrAttr (hn : ∀ a, c.nonNullAttr = some a → Word a) (hu : ∀ a, c.nullableAttr = some a → Word a)
    (nl rf : Bool) : Inl wc d false (ptrAttrOps c nl rf) (spells (ptrAttr c.toDeclConfig nl rf)) false := by
  unfold ptrAttrOps ptrAttr
  split
  · exact inl_nil
  split
  · rw [toksAttr hn]; exact inl_optWord hn
  split
  · rw [toksAttr hu]; exact inl_optWord hu
  · exact inl_nil

theorem inl_leftPiece (hn : ∀ a, c.nonNullAttr = some a → Word a) (hu : ∀ a, c.nullableAttr = some a → Word a)
    (n : Bool) (b : Bool) (x : CDeclarator) :
    Inl wc d b (leftPieceOps c n x) (spells (leftPiece c.toDeclConfig n x)) b := by
  cases x with
  | ptr k nl rf =>
    simp only [leftPieceOps, leftPiece]
    rw [spells_cons, spells_append, ← List.append_assoc]
    refine inl_mono (inl_append (inl_append (m := false) (b := true) ?_ (inl_qual k)) (inl_ptrAttr hn hu nl rf)) (fun _ => rfl) nofun
    cases rf <;> exact inl_text (by decide)
  | array l => cases n <;> cases b <;> first | exact inl_nil | exact inl_text rfl
  | func as nv => cases n <;> cases b <;> first | exact inl_nil | exact inl_text rfl

theorem inl_left (hn : ∀ a, c.nonNullAttr = some a → Word a) (hu : ∀ a, c.nullableAttr = some a → Word a)
    (b : Bool) : ∀ xs : List CDeclarator,
    Inl wc d b (leftOps c xs) (spells (leftPart c.toDeclConfig xs)) b
  | [] => inl_nil
  | x :: xs => by
    simp only [leftOps, leftPart, spells_append]
    exact inl_append (inl_leftPiece hn hu _ b x) (inl_left hn hu b xs)

theorem inl_noReturn (h : ∀ a, c.noReturn = some a → Word a) (nv : Bool) :
    Inl wc d true (noReturnOps c nv) (spells (noReturnAttr c.toDeclConfig nv)) true := by
  unfold noReturnOps noReturnAttr
  split
  · rw [toksAttr h]
    unfold optText
    cases hc : c.noReturn with
    | none => exact inl_nil
    | some a =>
      have hw := h a hc
      have he : simpleToks none (c!" " ++ a) = [.word a] := by
        rw [simpleToks_append (.inl rfl) none (fun _ => .inl rfl), simpleToks_word hw]; rfl
      have := inl_simple (wc := wc) (d := d) (b := true) (t := c!" " ++ a) (by rw [simple_append, simple_word hw]; rfl) (fun _ => rfl)
      rw [he] at this
      exact inl_mono this id fun _ => rfl
  · exact inl_nil

/-- The attributes in the options are words. -/
structure AttrWords (c : OutConfig) : Prop where
  nonNull : ∀ a, c.nonNullAttr = some a → Word a
  nullable : ∀ a, c.nullableAttr = some a → Word a
  noReturn : ∀ a, c.noReturn = some a → Word a

theorem inl_ident {i : Option Str} (h : ∀ s, i = some s → Word s) :
    Inl wc d i.isNone (identOps i) (spells (identToks i)) true := by
  cases i with
  | none => exact inl_nil
  | some s =>
    simp only [identOps, identToks, spells, List.flatMap_cons, List.flatMap_nil, List.append_nil, spell,
      simpleToks_word (h s rfl)]
    exact inl_word (h s rfl)

theorem inl_identSpace (i : Option Str) : Inl wc d true (identSpaceOps i) [] i.isNone := by
  cases i with
  | none => exact inl_nil
  | some s => exact inl_text (by rfl)

theorem spells_writeGArgs (cfg : DeclConfig) (gs : List CGArg) :
    spells (CDecl.writeGArgs cfg gs) = (gs.map fun g => spells (CDecl.writeGArg cfg g)).flatMap ([.punct ','] ++ ·) := by
  induction gs with
  | nil => simp [CDecl.writeGArgs, spells]
  | cons g gs ih => rw [CDecl.writeGArgs, spells_cons, spells_append, ih]; simp [spell]

theorem spells_writeArgs (cfg : DeclConfig) (gs : List CArg) :
    spells (CDecl.writeArgs cfg gs) = (gs.map fun g => spells (CDecl.writeArg cfg g)).flatMap ([.punct ','] ++ ·) := by
  induction gs with
  | nil => simp [CDecl.writeArgs, spells]
  | cons g gs ih => rw [CDecl.writeArgs, spells_cons, spells_append, ih]; simp [spell]

theorem inl_template {gs : List CGArg} (h : Pairs (fun i l => Inl wc d false i l true) (CGArg.opsList c gs)
    (gs.map fun g => spells (CDecl.writeGArg c.toDeclConfig g))) :
    Inl wc d true (templateOps (CGArg.opsList c gs)) (spells (CDecl.writeGArgList c.toDeclConfig gs)) true := by
  cases gs with
  | nil => simp only [CGArg.opsList, templateOps, CDecl.writeGArgList]; exact inl_nil
  | cons g gs =>
    have h1 : Inl wc d false (horizontalList (.join c!", ") (CGArg.opsList c (g :: gs)))
        (joined [.punct ','] ((g :: gs).map fun g => spells (CDecl.writeGArg c.toDeclConfig g))) true :=
      inl_horizontal (inl_text (by decide)) h
    have h2 : Inl wc d true [.text c!"<"] [.punct '<'] false := inl_text (by decide)
    have h3 : Inl wc d true [.text c!">"] [.punct '>'] true := inl_text (by decide)
    have key := inl_append (inl_append h2 h1) h3
    have e1 : spells (CDecl.writeGArgList c.toDeclConfig (g :: gs)) = ([Lx.punct '<'] ++
        joined [.punct ','] ((g :: gs).map fun g => spells (CDecl.writeGArg c.toDeclConfig g))) ++ [.punct '>'] := by
      rw [CDecl.writeGArgList, spells_cons, spells_append, spells_append, spells_writeGArgs]
      simp [joined, spell, spells]
    rw [e1]
    cases hx : CGArg.opsList c (g :: gs) with
    | nil => rw [hx] at h; cases h
    | cons x xs => rw [hx] at key; exact key

theorem inl_args {as : List CArg} {layout : Layout} (h : Pairs (fun i l => Inl wc false false i l true) (CArg.opsList c as)
    (as.map fun g => spells (CDecl.writeArg c.toDeclConfig g))) :
    Inl wc false false (voidOps c as.isEmpty ++ layoutOps c layout (CArg.opsList c as))
      (spells (CDecl.writeArgList c.toDeclConfig as)) true := by
  have h1 := inl_layout (c := c) (layout := layout) h
  cases as with
  | nil =>
    simp only [CArg.opsList, List.map_nil] at h1 ⊢
    have h0 : joined [.punct ','] [] = [] := rfl
    rw [h0] at h1
    have h2 : Inl wc false true (layoutOps c layout []) [] true := by
      unfold layoutOps
      cases layout
      · exact inl_nil
      · exact inl_append (inl_append inl_pushAlign inl_nil) inl_pop
      · exact inl_try inl_nil (inl_append (inl_append inl_pushAlign inl_nil) inl_pop)
    unfold voidOps
    simp only [CDecl.writeArgList]
    by_cases hc : c.language = .c
    · have hb : (List.isEmpty ([] : List CArg) && c.language == .c) = true := by simp [hc]
      rw [if_pos hb, if_pos hc]
      have h3 : Inl wc false false [.text c!"void"] (spells [.name c!"void"]) true := inl_text (by decide)
      exact tri_eq (inl_append h3 h2) (by simp)
    · have hb : (List.isEmpty ([] : List CArg) && c.language == .c) = false := by simp [hc]
      rw [hb, if_neg hc]
      exact h1
  | cons a as =>
    have hv : voidOps c (a :: as).isEmpty = [] := rfl
    rw [hv, List.nil_append]
    have e1 : spells (CDecl.writeArgList c.toDeclConfig (a :: as)) =
        joined [.punct ','] ((a :: as).map fun g => spells (CDecl.writeArg c.toDeclConfig g)) := by
      rw [CDecl.writeArgList, spells_append, spells_writeArgs]; simp [joined]
    rw [e1]
    exact h1

theorem inl_rparen (b e : Bool) (q : Bool) (h : b = true → e = true) :
    Inl wc d b (parenOps c!")" q) (spells (closeParen q)) e := by
  cases q
  · exact inl_mono inl_nil id h
  · exact inl_mono (b := true) (e := false) (inl_text (by decide)) (fun _ => rfl) nofun

theorem inl_length {l : Str} (h : Word l) :
    Inl wc d true [.text (c!"[" ++ l ++ c!"]")] (spells [.lbrack, .lit l, .rbrack]) true := by
  have he : simpleToks none (c!"[" ++ l ++ c!"]") = spells [.lbrack, .lit l, .rbrack] := by
    rw [simpleToks_append (.inr rfl) none (fun _ => .inl rfl),
      simpleToks_append (.inl rfl) none (fun _ => .inl rfl), simpleToks_word h]
    simp [spells, spell, simpleToks_word h]
    rfl
  have := inl_simple (wc := wc) (d := d) (b := true) (t := c!"[" ++ l ++ c!"]")
    (by rw [simple_append, simple_append, simple_word h]; rfl) (fun _ => rfl)
  rw [he] at this
  exact inl_mono this id fun _ => rfl

/-- A declaration without functions and arguments of templates. -/
def flatDecls : List CDeclarator → Prop
  | [] => True
  | .ptr _ _ _ :: ds => flatDecls ds
  | .array _ :: ds => flatDecls ds
  | .func _ _ :: _ => False

def flatDecl : CDecl → Prop
  | .mk _ _ _ gs ds => gs = [] ∧ flatDecls ds

theorem inl_rightFlat : ∀ (ds : List CDeclarator) (layout : Layout) (q : Bool), declaratorsFine attrs ds → flatDecls ds →
    Inl wc d true (CDecl.rightOps c layout q ds) (spells (CDecl.rightPart c.toDeclConfig q ds)) true
  | [], _, _, _, _ => by simp only [CDecl.rightOps, CDecl.rightPart]; exact inl_nil
  | .ptr _ _ _ :: ds, layout, q, h, hf => by
    simp only [declaratorsFine] at h
    simp only [CDecl.rightOps, CDecl.rightPart]
    exact inl_rightFlat ds _ true h hf
  | .array l :: ds, layout, q, h, hf => by
    simp only [declaratorsFine] at h
    simp only [CDecl.rightOps, CDecl.rightPart, spells_append]
    exact inl_append (inl_append (inl_rparen true true q id) (inl_length h.1.1)) (inl_rightFlat ds _ false h.2 hf)
  | .func _ _ :: _, _, _, _, hf => hf.elim

/-- On the line of a directive too. -/
theorem inl_declFlat (ha : AttrWords c) (x : CDecl) (layout : Layout) (i : Option Str) (h : declFine attrs x)
    (hf : flatDecl x) (hi : ∀ s, i = some s → Word s) :
    Inl wc d false (x.ops c layout i) (spells (x.write c.toDeclConfig i)) true := by
  obtain ⟨q, k, n, gs, ds⟩ := x
  simp only [declFine] at h
  obtain ⟨hg, hf⟩ := hf
  subst hg
  simp only [CDecl.ops, CDecl.write, spells_append]
  have h1 := inl_append (inl_append (inl_append (inl_qual (wc := wc) (d := d) q) (inl_ctype (c := c) k)) (inl_typeName h.1))
    (inl_template (c := c) (gs := []) (by simp only [CGArg.opsList, List.map_nil]; exact .nil))
  have h2 := inl_append (inl_append (inl_append h1 (inl_identSpace i)) (inl_left ha.nonNull ha.nullable _ ds.reverse)) (inl_ident hi)
  exact tri_eq (inl_append h2 (inl_rightFlat ds layout false h.2.2 hf)) (by simp)

mutual
theorem inl_decl (ha : AttrWords c) : ∀ (x : CDecl) (layout : Layout) (i : Option Str), declFine attrs x →
    (∀ s, i = some s → Word s) →
    Inl wc false false (x.ops c layout i) (spells (x.write c.toDeclConfig i)) true
  | .mk q k n gs ds, layout, i, h, hi => by
    simp only [declFine] at h
    simp only [CDecl.ops, CDecl.write, spells_append]
    have h1 := inl_append (inl_append (inl_append (inl_qual (wc := wc) q) (inl_ctype (c := c) k)) (inl_typeName h.1))
      (inl_template (inl_gargs ha gs h.2.1))
    have h2 := inl_append (inl_append (inl_append h1 (inl_identSpace i)) (inl_left ha.nonNull ha.nullable _ ds.reverse)) (inl_ident hi)
    exact tri_eq (inl_append h2 (inl_right ha ds layout false h.2.2)) (by simp)
theorem inl_right (ha : AttrWords c) : ∀ (ds : List CDeclarator) (layout : Layout) (q : Bool), declaratorsFine attrs ds →
    Inl wc false true (CDecl.rightOps c layout q ds) (spells (CDecl.rightPart c.toDeclConfig q ds)) true
  | [], _, _, _ => by simp only [CDecl.rightOps, CDecl.rightPart]; exact inl_nil
  | .ptr _ _ _ :: ds, layout, q, h => by
    simp only [declaratorsFine] at h
    simp only [CDecl.rightOps, CDecl.rightPart]
    exact inl_right ha ds _ true h
  | .array l :: ds, layout, q, h => by
    simp only [declaratorsFine] at h
    simp only [CDecl.rightOps, CDecl.rightPart, spells_append]
    exact inl_append (inl_append (inl_rparen true true q id) (inl_length h.1.1)) (inl_right ha ds _ false h.2)
  | .func as nv :: ds, layout, q, h => by
    simp only [declaratorsFine] at h
    simp only [CDecl.rightOps, CDecl.rightPart, spells_append]
    have h1 : Inl wc false true [.text c!"("] (spells [.lparen]) false := inl_text (by decide)
    have h2 : Inl wc false true [.text c!")"] (spells [.rparen]) true := inl_text (by decide)
    have h3 := inl_args (layout := layout) (inl_cargs ha as h.1)
    have h4 := inl_append (inl_append (inl_append (inl_append (inl_append (inl_rparen true true q id) h1) h3) h2)
      (inl_noReturn ha.noReturn nv)) (inl_right ha ds c.function.args true h.2)
    simpa only [List.append_assoc] using h4
theorem inl_gargs (ha : AttrWords c) : ∀ (gs : List CGArg), gargsFine attrs gs →
    Pairs (fun i l => Inl wc false false i l true) (CGArg.opsList c gs)
      (gs.map fun g => spells (CDecl.writeGArg c.toDeclConfig g))
  | [], _ => by simp only [CGArg.opsList, List.map_nil]; exact .nil
  | .type x :: gs, h => by
    simp only [gargsFine] at h
    simp only [CGArg.opsList, List.map_cons, CDecl.writeGArg]
    exact .cons (inl_decl ha x _ none h.1 nofun) (inl_gargs ha gs h.2)
  | .const s :: gs, h => by
    simp only [gargsFine] at h
    simp only [CGArg.opsList, List.map_cons, CDecl.writeGArg]
    refine .cons ?_ (inl_gargs ha gs h.2)
    simp only [spells, List.flatMap_cons, List.flatMap_nil, List.append_nil, spell, simpleToks_word h.1.1]
    exact inl_word h.1.1
theorem inl_cargs (ha : AttrWords c) : ∀ (as : List CArg), cargsFine attrs as →
    Pairs (fun i l => Inl wc false false i l true) (CArg.opsList c as)
      (as.map fun g => spells (CDecl.writeArg c.toDeclConfig g))
  | [], _ => by simp only [CArg.opsList, List.map_nil]; exact .nil
  | .mk n x :: as, h => by
    simp only [cargsFine] at h
    simp only [CArg.opsList, List.map_cons, CDecl.writeArg]
    exact .cons (inl_decl ha x _ n h.2.1 fun s hs => (h.1 s hs).word) (inl_cargs ha as h.2.2)
end

end

/-! ## Reading the tokens -/

/-- A part of `...`. -/
def isDots : List Tok → Bool
  | .name s :: _ => s == c!"." || s == c!".."
  | _ => false

/-- What follows does not continue a name. -/
def Safe (attrs : List Str) (ls : List Lx) : Prop :=
  nextArith ls = false ∧ ∀ ts, declToks attrs ls = some ts → isDots ts = false

/-- The reader finds the tokens. -/
def Found (attrs : List Str) (ts : List Tok) : Prop :=
  ∀ ls, Safe attrs ls → declToks attrs (spells ts ++ ls) = (declToks attrs ls).map (ts ++ ·)

/-- The reader finds the tokens, and they end a name before them. -/
def Cut (attrs : List Str) (ts : List Tok) : Prop :=
  Found attrs ts ∧ ∀ ls, Safe attrs ls → Safe attrs (spells ts ++ ls)

section
variable {attrs : List Str}

theorem found_append {a b : List Tok} (h1 : Found attrs a) (h2 : Cut attrs b) : Found attrs (a ++ b) := by
  intro ls hs
  rw [spells_append, List.append_assoc, h1 _ (h2.2 ls hs), h2.1 ls hs]
  cases declToks attrs ls <;> simp

theorem cut_append {a b : List Tok} (h1 : Cut attrs a) (h2 : Cut attrs b) : Cut attrs (a ++ b) :=
  ⟨found_append h1.1 h2, fun ls hs => by
    rw [spells_append, List.append_assoc]; exact h1.2 _ (h2.2 ls hs)⟩

theorem cut_nil : Cut attrs [] := by
  refine ⟨fun ls _ => ?_, fun ls h => h⟩
  simp only [spells_nil, List.nil_append]
  cases declToks attrs ls <;> simp

/-- Tokens of which the first does not continue a name. -/
theorem cut_of {t : Tok} {ts : List Tok} (h : Found attrs (t :: ts)) (hd : isDots [t] = false)
    (hn : ∀ ls, nextArith (spell t ++ ls) = false) : Cut attrs (t :: ts) := by
  refine ⟨h, fun ls hs => ⟨?_, fun r hr => ?_⟩⟩
  · rw [spells_cons, List.append_assoc]; exact hn _
  · rw [h ls hs] at hr
    obtain ⟨x, _, rfl⟩ := Option.map_eq_some_iff.mp hr
    cases t <;> first | rfl | exact hd

/-- Tokens of one character. -/
def punctOf : Tok → Option Char
  | .star => some '*'
  | .amp => some '&'
  | .lparen => some '('
  | .rparen => some ')'
  | .rbrack => some ']'
  | .lt => some '<'
  | .gt => some '>'
  | .comma => some ','
  | _ => none

theorem cut_punct {t : Tok} (ht : (punctOf t).isSome = true) {ts : List Tok} (h : Found attrs ts) : Cut attrs (t :: ts) := by
  obtain ⟨k, hk⟩ := Option.isSome_iff_exists.mp ht
  have hsp : spell t = [.punct k] ∧ (∀ ls r, punctTok k ls r = some (t :: r)) ∧ isDots [t] = false := by
    cases t <;> simp only [punctOf, Option.some.injEq, reduceCtorEq] at hk <;> subst hk <;>
      exact ⟨rfl, fun ls r => by simp [punctTok], rfl⟩
  refine cut_of (fun ls hs => ?_) hsp.2.2 fun ls => by rw [hsp.1]; rfl
  rw [spells_cons, hsp.1]
  simp only [List.cons_append, List.nil_append, declToks]
  rw [h ls hs]
  cases declToks attrs ls <;> simp [hsp.2.1]

/-- A keyword, an attribute or an identifier. -/
theorem cut_word {w : Str} (ha : isArith w = false) {t : Tok} (hsp : spell t = [.word w])
    (ht : wordTok attrs w = t) (hd : isDots [t] = false) {ts : List Tok} (h : Found attrs ts) : Cut attrs (t :: ts) := by
  refine cut_of (fun ls hs => ?_) hd fun ls => by rw [hsp]; exact ha
  rw [spells_cons, hsp]
  simp only [List.cons_append, List.nil_append, declToks, ha, Bool.false_and, Bool.false_eq_true, if_false]
  rw [h ls hs]
  cases declToks attrs ls <;> simp [ht]

theorem Cut.found {ts : List Tok} (h : Cut attrs ts) : Found attrs ts := h.1

theorem dots_word {s : Str} (h : Word s) : isDots [.name s] = false := by
  obtain ⟨h1, h2⟩ := h
  simp only [isDots, Bool.or_eq_false_iff, beq_eq_false_iff_ne]
  constructor <;> rintro rfl <;> exact absurd h2 (by decide)

theorem cut_ident {s : Str} (h : Ident attrs s) {ts : List Tok} (ht : Found attrs ts) : Cut attrs (.name s :: ts) :=
  cut_word h.2.2.2.1 (by simp [spell, simpleToks_word h.word]) h.2.2.1 (dots_word h.word) ht

theorem cut_attr {s : Str} (hf : AttrsFine attrs) (h : s ∈ attrs) {ts : List Tok} (ht : Found attrs ts) :
    Cut attrs (.attr s :: ts) := by
  obtain ⟨h1, h2, h3, -⟩ := hf s h
  exact cut_word h3 (by simp [spell, simpleToks_word h1]) h2 rfl ht

theorem cut_number {s : Str} (h : Word s ∧ wordTok attrs s = .lit s ∧ isArith s = false) {ts : List Tok} (ht : Found attrs ts) :
    Cut attrs (.lit s :: ts) :=
  cut_word h.2.2 (by simp [spell, simpleToks_word h.1]) h.2.1 rfl ht

theorem cut_length {l : Str} (h : Word l) {ts : List Tok} (ht : Found attrs ts) :
    Cut attrs (.lbrack :: .lit l :: .rbrack :: ts) := by
  have hsp : ∀ ls, spells (.lbrack :: .lit l :: .rbrack :: ts) ++ ls = .punct '[' :: .word l :: .punct ']' :: (spells ts ++ ls) := by
    intro ls; simp [spells, spell, simpleToks_word h]
  refine cut_of (fun ls hs => ?_) rfl fun ls => rfl
  rw [hsp]
  simp only [declToks, nextArith, Bool.and_false, Bool.false_eq_true, if_false]
  rw [ht ls hs]
  cases declToks attrs ls with
  | none => rfl
  | some r => simp [punctTok]

/-! ### The names of primitive types -/

theorem wordTok_free {w : Str} (hk : (w == c!"const" || w == c!"struct" || w == c!"enum" || w == c!"union" || isDigitWord w) = false)
    (ha : w ∉ attrs) : wordTok attrs w = .name w := by
  simp only [Bool.or_eq_false_iff, beq_eq_false_iff_ne] at hk
  obtain ⟨⟨⟨⟨h1, h2⟩, h3⟩, h4⟩, h5⟩ := hk
  simp [wordTok, h1, h2, h3, h4, h5, ha]

theorem arith_free (hf : AttrsFine attrs) {w : Str} (h : isArith w = true) : w ∉ attrs := fun hw => by
  rw [(hf w hw).2.2.1] at h; cases h

theorem found_one {w : Str} (ht : wordTok attrs w = .name w) (hw : Word w) : Found attrs [.name w] := by
  intro ls hs
  have : spells [.name w] ++ ls = .word w :: ls := by simp [spells, spell, simpleToks_word hw]
  rw [this]
  simp only [declToks, hs.1, Bool.and_false, Bool.false_eq_true, if_false, ht]
  rfl

theorem nextArith_word (w : Str) (ls : List Lx) : nextArith (.word w :: ls) = isArith w := rfl

theorem found_two {a b : Str} (hb : wordTok attrs b = .name b) (h1 : isArith a = true) (h2 : isArith b = true)
    (ha : Word a) (hw : Word b) : Found attrs [.name (a ++ ' ' :: b)] := by
  intro ls hs
  have : spells [.name (a ++ ' ' :: b)] ++ ls = .word a :: .word b :: ls := by
    have e : simpleToks none (a ++ ' ' :: b) = [.word a, .word b] := by
      rw [simpleToks_append (.inr rfl) none (fun _ => .inl rfl), simpleToks_word ha]
      simp [simpleToks, show wordChar ' ' = false from rfl, simpleToks_word hw]
    simp [spells, spell, e]
  rw [this]
  simp only [declToks, hs.1, Bool.and_false, Bool.false_eq_true, if_false, hb, nextArith_word, h1, h2, Bool.and_self, if_true]
  cases declToks attrs ls <;> simp [joinName]

theorem found_three (hf : AttrsFine attrs) : Found attrs [.name c!"unsigned long long"] := by
  intro ls hs
  have : spells [.name c!"unsigned long long"] ++ ls = .word c!"unsigned" :: .word c!"long" :: .word c!"long" :: ls := rfl
  rw [this]
  have hl : wordTok attrs c!"long" = .name c!"long" := wordTok_free (by decide) (arith_free hf (by decide))
  simp only [declToks, hs.1, Bool.and_false, Bool.false_eq_true, if_false, hl, nextArith_word,
    show isArith c!"long" = true from rfl, show isArith c!"unsigned" = true from rfl, Bool.and_self, if_true]
  cases declToks attrs ls <;> simp [joinName]

theorem found_dots : Found attrs [.name c!"..."] := by
  intro ls hs
  have : spells [.name c!"..."] ++ ls = .punct '.' :: .punct '.' :: .punct '.' :: ls := rfl
  rw [this]
  simp only [declToks]
  cases h : declToks attrs ls with
  | none => rfl
  | some ts =>
    have hd := hs.2 ts h
    have h1 : punctTok '.' ls ts = some (.name c!"." :: ts) := by
      unfold punctTok
      simp only [show ('.' = '[') = False by decide, show ('.' = ']') = False by decide, show ('.' = '*') = False by decide,
        show ('.' = '&') = False by decide, show ('.' = '(') = False by decide, show ('.' = ')') = False by decide,
        show ('.' = '<') = False by decide, show ('.' = '>') = False by decide, show ('.' = ',') = False by decide, if_false, if_true]
      split
      · rename_i s r
        simp only [isDots, Bool.or_eq_false_iff, beq_eq_false_iff_ne] at hd
        rw [if_neg (by simp [hd.1, hd.2])]
      · rfl
    simp only [Option.bind_some, h1]
    rfl

theorem found_prim (hf : AttrsFine attrs) (p : Prim) (u : Bool) : Found attrs [.name (Prim.toReprC u p)] := by
  have hn : Prim.toReprC u p ∉ attrs := fun h => (hf _ h).2.2.2 p u rfl
  revert hn
  cases p with
  | integer z s k =>
    cases s <;> cases k <;> cases u <;> intro hn <;>
    first
    | exact found_one (wordTok_free (by rfl) hn) ⟨by simp [Prim.toReprC], by rfl⟩
    | exact found_two (a := c!"unsigned") (wordTok_free (by rfl) (arith_free hf (by rfl))) (by rfl) (by rfl) ⟨by simp, by rfl⟩ ⟨by simp, by rfl⟩
    | exact found_two (a := c!"long") (wordTok_free (by rfl) (arith_free hf (by rfl))) (by rfl) (by rfl) ⟨by simp, by rfl⟩ ⟨by simp, by rfl⟩
    | exact found_three hf
  | _ =>
    cases u <;> intro hn <;>
    first
    | exact found_one (wordTok_free (by rfl) hn) ⟨by simp [Prim.toReprC], by rfl⟩
    | exact found_two (a := c!"unsigned") (wordTok_free (by rfl) (arith_free hf (by rfl))) (by rfl) (by rfl) ⟨by simp, by rfl⟩ ⟨by simp, by rfl⟩
    | exact found_two (a := c!"signed") (wordTok_free (by rfl) (arith_free hf (by rfl))) (by rfl) (by rfl) ⟨by simp, by rfl⟩ ⟨by simp, by rfl⟩
    | exact found_dots

theorem found_typeName (hf : AttrsFine attrs) {s : Str} (h : TypeName attrs s) : Found attrs [.name s] := by
  rcases h with h | ⟨p, u, rfl⟩
  · exact (cut_ident h cut_nil.found).found
  · exact found_prim hf p u

end

/-! ### Declarations -/

/-- The attributes of the options are among those that the reader knows. -/
structure Known (attrs : List Str) (c : DeclConfig) : Prop where
  fine : AttrsFine attrs
  nonNull : ∀ a, c.nonNullAttr = some a → a ∈ attrs
  nullable : ∀ a, c.nullableAttr = some a → a ∈ attrs
  noReturn : ∀ a, c.noReturn = some a → a ∈ attrs

theorem Known.words {attrs : List Str} {c : OutConfig} (h : Known attrs c.toDeclConfig) : AttrWords c :=
  ⟨fun a ha => (h.fine a (h.nonNull a ha)).1, fun a ha => (h.fine a (h.nullable a ha)).1,
   fun a ha => (h.fine a (h.noReturn a ha)).1⟩

theorem known_attrsOf {c : DeclConfig} (h : AttrsFine (attrsOf c)) : Known (attrsOf c) c :=
  ⟨h, fun a ha => by simp [attrsOf, ha], fun a ha => by simp [attrsOf, ha], fun a ha => by simp [attrsOf, ha]⟩

section
variable {attrs : List Str} {cfg : DeclConfig}

theorem cut_optAttr (hf : AttrsFine attrs) {o : Option Str} (h : ∀ a, o = some a → a ∈ attrs) :
    Cut attrs (o.map Tok.attr).toList := by
  cases o with
  | none => exact cut_nil
  | some a => exact cut_attr hf (h a rfl) cut_nil.found

theorem cut_const (q : Bool) {ts : List Tok} (h : Found attrs ts) : Found attrs (constToks q ++ ts) := by
  cases q
  · exact h
  · exact (cut_word (w := c!"const") rfl rfl rfl rfl h).found

theorem cut_constC (q : Bool) {ts : List Tok} (h : Cut attrs ts) : Cut attrs (constToks q ++ ts) := by
  cases q
  · exact h
  · exact cut_word (w := c!"const") rfl rfl rfl rfl h.found

theorem found_ctype (k : Option DeclKind) {ts : List Tok} (h : Found attrs ts) : Found attrs (ctypeToks cfg k ++ ts) := by
  cases k with
  | none => exact h
  | some k =>
    simp only [ctypeToks]
    split
    · exact h
    · cases k
      · exact (cut_word (w := c!"struct") rfl rfl rfl rfl h).found
      · exact (cut_word (w := c!"enum") rfl rfl rfl rfl h).found
      · exact (cut_word (w := c!"union") rfl rfl rfl rfl h).found

theorem cut_leftPiece (hk : Known attrs cfg) (n : Bool) (x : CDeclarator) : Cut attrs (leftPiece cfg n x) := by
  have hp : ∀ q : Bool, Cut attrs (openParen q) := by
    intro q; cases q
    · exact cut_nil
    · exact cut_punct rfl cut_nil.found
  cases x with
  | ptr k nl rf =>
    simp only [leftPiece]
    have h1 : Cut attrs (ptrAttr cfg nl rf) := by
      unfold ptrAttr
      split
      · exact cut_nil
      split
      · exact cut_optAttr hk.fine hk.nonNull
      split
      · exact cut_optAttr hk.fine hk.nullable
      · exact cut_nil
    cases rf <;> exact cut_punct rfl (cut_constC k h1).found
  | array l => exact hp n
  | func as nv => exact hp n

theorem cut_left (hk : Known attrs cfg) : ∀ xs : List CDeclarator, Cut attrs (leftPart cfg xs)
  | [] => cut_nil
  | x :: xs => cut_append (cut_leftPiece hk _ x) (cut_left hk xs)

theorem cut_identToks {i : Option Str} (h : ∀ s, i = some s → Ident attrs s) : Cut attrs (identToks i) := by
  cases i with
  | none => exact cut_nil
  | some s => exact cut_ident (h s rfl) cut_nil.found

theorem cut_noReturn (hk : Known attrs cfg) (nv : Bool) : Cut attrs (noReturnAttr cfg nv) := by
  unfold noReturnAttr
  split
  · exact cut_optAttr hk.fine hk.noReturn
  · exact cut_nil

theorem cut_closeParen (q : Bool) : Cut attrs (closeParen q) := by
  cases q
  · exact cut_nil
  · exact cut_punct rfl cut_nil.found

theorem void_word (hk : AttrsFine attrs) : Found attrs [.name c!"void"] := found_prim hk .void false

mutual
theorem found_decl (hk : Known attrs cfg) : ∀ (x : CDecl) (i : Option Str), declFine attrs x →
    (∀ s, i = some s → Ident attrs s) → Found attrs (x.write cfg i)
  | .mk q k n gs ds, i, h, hi => by
    simp only [declFine] at h
    simp only [CDecl.write, List.append_assoc]
    refine cut_const q (found_ctype k ?_)
    exact found_append (found_typeName hk.fine h.1) (cut_append (cut_gargList hk gs h.2.1)
      (cut_append (cut_left hk _) (cut_append (cut_identToks hi) (cut_right hk ds false h.2.2))))
theorem cut_right (hk : Known attrs cfg) : ∀ (ds : List CDeclarator) (q : Bool), declaratorsFine attrs ds →
    Cut attrs (CDecl.rightPart cfg q ds)
  | [], _, _ => by simp only [CDecl.rightPart]; exact cut_nil
  | .ptr _ _ _ :: ds, q, h => by
    simp only [declaratorsFine] at h
    simp only [CDecl.rightPart]
    exact cut_right hk ds true h
  | .array l :: ds, q, h => by
    simp only [declaratorsFine] at h
    simp only [CDecl.rightPart]
    exact cut_append (cut_append (cut_closeParen q) (cut_length h.1.1 cut_nil.found)) (cut_right hk ds false h.2)
  | .func as nv :: ds, q, h => by
    simp only [declaratorsFine] at h
    simp only [CDecl.rightPart, List.append_assoc, List.cons_append, List.nil_append]
    refine cut_append (cut_closeParen q) (cut_punct (t := .lparen) rfl ?_)
    exact found_append (found_argList hk as h.1) (cut_punct (t := .rparen) rfl
      (cut_append (cut_noReturn hk nv) (cut_right hk ds true h.2)).found)
theorem cut_gargList (hk : Known attrs cfg) : ∀ (gs : List CGArg), gargsFine attrs gs →
    Cut attrs (CDecl.writeGArgList cfg gs)
  | [], _ => by simp only [CDecl.writeGArgList]; exact cut_nil
  | .type x :: gs, h => by
    simp only [gargsFine] at h
    simp only [CDecl.writeGArgList, CDecl.writeGArg, List.append_assoc]
    exact cut_punct rfl (found_append (found_decl hk x none h.1 nofun)
      (cut_append (cut_gargs hk gs h.2) (cut_punct rfl cut_nil.found)))
  | .const s :: gs, h => by
    simp only [gargsFine] at h
    simp only [CDecl.writeGArgList, CDecl.writeGArg, List.append_assoc]
    exact cut_punct rfl (cut_number h.1 (cut_append (cut_gargs hk gs h.2) (cut_punct rfl cut_nil.found)).found).found
theorem cut_gargs (hk : Known attrs cfg) : ∀ (gs : List CGArg), gargsFine attrs gs →
    Cut attrs (CDecl.writeGArgs cfg gs)
  | [], _ => by simp only [CDecl.writeGArgs]; exact cut_nil
  | .type x :: gs, h => by
    simp only [gargsFine] at h
    simp only [CDecl.writeGArgs, CDecl.writeGArg]
    exact cut_punct rfl (found_append (found_decl hk x none h.1 nofun) (cut_gargs hk gs h.2))
  | .const s :: gs, h => by
    simp only [gargsFine] at h
    simp only [CDecl.writeGArgs, CDecl.writeGArg]
    exact cut_punct rfl (cut_number h.1 (cut_gargs hk gs h.2).found).found
theorem found_argList (hk : Known attrs cfg) : ∀ (as : List CArg), cargsFine attrs as →
    Found attrs (CDecl.writeArgList cfg as)
  | [], _ => by
    simp only [CDecl.writeArgList]
    split
    · exact void_word hk.fine
    · exact cut_nil.found
  | .mk n x :: as, h => by
    simp only [cargsFine] at h
    simp only [CDecl.writeArgList, CDecl.writeArg]
    exact found_append (found_decl hk x n h.2.1 h.1) (cut_args hk as h.2.2)
theorem cut_args (hk : Known attrs cfg) : ∀ (as : List CArg), cargsFine attrs as →
    Cut attrs (CDecl.writeArgs cfg as)
  | [], _ => by simp only [CDecl.writeArgs]; exact cut_nil
  | .mk n x :: as, h => by
    simp only [cargsFine] at h
    simp only [CDecl.writeArgs, CDecl.writeArg]
    exact cut_punct rfl (found_append (found_decl hk x n h.2.1 h.1) (cut_args hk as h.2.2))
end

theorem declToks_found {ts : List Tok} (h : Found attrs ts) : declToks attrs (spells ts) = some ts := by
  have := h [] ⟨rfl, fun r hr => by simp only [declToks, Option.some.injEq] at hr; subst hr; rfl⟩
  simpa [declToks] using this

/-! ### From types -/

theorem push_fine {x : CDecl} {y : CDeclarator} (h1 : declFine attrs x) (h2 : declaratorsFine attrs [y]) :
    declFine attrs (x.push y) := by
  obtain ⟨q, k, n, gs, ds⟩ := x
  simp only [CDecl.push, declFine] at h1 ⊢
  refine ⟨h1.1, h1.2.1, ?_⟩
  cases y <;> simp only [declaratorsFine] at h2 ⊢
  · exact h1.2.2
  · exact ⟨h2.1, h1.2.2⟩
  · exact ⟨h2.1, h1.2.2⟩

mutual
theorem build_fine : ∀ (t : Ty) (q : Bool), TyFine attrs t → declFine attrs (CDecl.buildType cfg t q)
  | .path _ e g k, q, h => by
    simp only [TyFine] at h
    simp only [CDecl.buildType, declFine, declaratorsFine, and_true]
    exact ⟨.inl h.1, buildG_fine g h.2⟩
  | .prim p, q, _ => by
    simp only [CDecl.buildType, declFine, declaratorsFine, gargsFine, and_true]
    exact .inr ⟨p, _, rfl⟩
  | .ptr t _ _ _, q, h => by
    simp only [TyFine] at h
    simp only [CDecl.buildType]
    exact push_fine (build_fine t _ h) (by simp [declaratorsFine])
  | .array t len, q, h => by
    simp only [TyFine] at h
    simp only [CDecl.buildType]
    exact push_fine (build_fine t _ h.2) (by simp [declaratorsFine, h.1])
  | .fnptr ret args _ _, q, h => by
    simp only [TyFine] at h
    simp only [CDecl.buildType]
    exact push_fine (push_fine (build_fine ret _ h.1) (by simp [declaratorsFine, buildF_fine args h.2])) (by simp [declaratorsFine])
theorem buildG_fine : ∀ (gs : List GArg), GArgsFine attrs gs → gargsFine attrs (CDecl.buildGArgs cfg gs)
  | [], _ => by simp [CDecl.buildGArgs, gargsFine]
  | .type t :: gs, h => by
    simp only [GArgsFine] at h
    simp only [CDecl.buildGArgs, gargsFine]
    exact ⟨build_fine t _ h.1, buildG_fine gs h.2⟩
  | .const c :: gs, h => by
    simp only [GArgsFine] at h
    simp only [CDecl.buildGArgs, gargsFine]
    exact ⟨h.1, buildG_fine gs h.2⟩
theorem buildF_fine : ∀ (as : List FArg), FArgsFine attrs as → cargsFine attrs (CDecl.buildFArgs cfg as)
  | [], _ => by simp [CDecl.buildFArgs, cargsFine]
  | .mk n t :: as, h => by
    simp only [FArgsFine] at h
    simp only [CDecl.buildFArgs, cargsFine]
    exact ⟨h.1, build_fine t _ h.2.1, buildF_fine as h.2.2⟩
end

/-- The names of an argument of a function. -/
def FnArgFine (attrs : List Str) (a : FnArg) : Prop :=
  (∀ s, a.name = some s → Ident attrs s) ∧ TyFine attrs a.ty ∧ ∀ l, a.arrayLength = some l → LengthWord attrs l

theorem fromFuncArg_fine {t : Ty} {l : Option Str} {x : CDecl} (h : CDecl.fromFuncArg cfg t l = some x)
    (ht : TyFine attrs t) (hl : ∀ s, l = some s → LengthWord attrs s) : declFine attrs x := by
  unfold CDecl.fromFuncArg at h
  cases l with
  | none =>
    simp only [Option.some.injEq] at h
    rw [← h]; exact build_fine t false ht
  | some l =>
    cases t with
    | ptr t' q nl rf =>
      simp only [Option.some.injEq] at h
      rw [← h]
      simp only [TyFine] at ht
      exact build_fine _ _ (by simp only [TyFine]; exact ⟨hl l rfl, ht⟩)
    | _ => simp at h

theorem buildArgs_fine : ∀ {as : List FnArg} {xs : List CArg}, CDecl.buildArgs cfg as = some xs →
    (∀ a ∈ as, FnArgFine attrs a) → cargsFine attrs xs
  | [], xs, h, _ => by
    simp only [CDecl.buildArgs, Option.some.injEq] at h
    subst h; simp [cargsFine]
  | a :: as, xs, h, hf => by
    simp only [CDecl.buildArgs, bind, Option.bind_eq_some_iff, pure, Option.some.injEq] at h
    obtain ⟨x, h1, ys, h2, rfl⟩ := h
    obtain ⟨f1, f2, f3⟩ := hf a (by simp)
    simp only [cargsFine]
    exact ⟨f1, fromFuncArg_fine h1 f2 f3, buildArgs_fine h2 fun b hb => hf b (by simp [hb])⟩

end

end Cbindgen.LexSpec
