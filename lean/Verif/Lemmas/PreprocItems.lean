import Verif.Lemmas.PreprocDecl

/-!
# Reading constants, structs, unions, aliases, statics and functions
-/

namespace Cbindgen.PreSpec
open TextSpec CommentSpec

/-- From the start of a line to somewhere in the code. -/
def Body (wc : WConfig) (ops : List WOp) : Prop := ∀ d b, Tri wc (At d b) ops (Ok d b)

section
variable {wc : WConfig}

theorem Calm.body {ops : List WOp} (h : Calm wc ops) : Body wc ops := fun d b => tri_pre (h d b) fun _ h => h.ok
theorem Lines.body {ops : List WOp} (h : Lines wc ops) : Body wc ops := fun d b => tri_post (h d b) fun _ h => h.ok
theorem Body.para {ops : List WOp} (h : Body wc ops) : Para wc ops := fun d b => tri_post (h d b) fun _ h => h.done

theorem body_then {a e : List WOp} (h1 : Body wc a) (h2 : Calm wc e) : Body wc (a ++ e) := fun d b =>
  tri_append (h1 d b) (h2 d b)
theorem lines_body {a e : List WOp} (h1 : Lines wc a) (h2 : Body wc e) : Body wc (a ++ e) := fun d b =>
  tri_append (h1 d b) (h2 d b)

theorem Calm.tail {ops : List WOp} (h : Calm wc ops) : Tail wc (.newLine :: ops) := tail_para h.para
theorem Calm.tail2 {ops : List WOp} (h : Calm wc ops) : Tail wc (.newLine :: .newLine :: ops) := fun d b =>
  tri_cons tri_newLine (tri_cons (lines_newLine d b) (h.para d b))

/-- The same, when the line end is only known to come first. -/
theorem calm_tail {ops : List WOp} (h : Calm wc ops) (hh : ops.head? = some .newLine) : Tail wc ops := by
  cases ops with
  | nil => cases hh
  | cons op rest =>
    simp only [List.head?_cons, Option.some.injEq] at hh
    subst hh
    intro d b w r t w' hw hr hx
    obtain ⟨t1, w1, t2, e1, e2, rfl⟩ := exec_append_some (a := [.newLine]).mp hx
    obtain ⟨r1, g1, g2⟩ := tri_newLine (c := wc) w r t1 w1 hw hr e1
    obtain ⟨r2, g3, g4⟩ := tri_newLine (c := wc) (d := d) (b := b) w (lineStart d b) t1 w1 hw (Ok.done (.inl rfl)) e1
    obtain ⟨r3, g5, g6⟩ := h d b w (lineStart d b) _ _ hw (.inl rfl) hx
    cases g2; cases g4
    rw [scan_some g3] at g5
    exact ⟨r3, by rw [scan_some g1]; exact g5, g6.done⟩

theorem calm_lines {ops : List WOp} (h : Calm wc ops) : Lines wc (ops ++ [.newLine]) := para_newLine h.para

theorem tail_newLine : Tail wc [.newLine] := tail_para lines_nil.para

/-- Calls from the end of a line to the end of a line, put together. -/
theorem tail_cons_newLine {ops : List WOp} (h : Tail wc ops) : Tail wc (.newLine :: ops) := tail_append tail_newLine h

theorem body_panic {ops : List WOp} (h : WOp.panic ∈ ops) : Body wc ops := fun _ _ => tri_panic h

/-! ## Constants -/

theorem body_define {n : Str} (h : Plain n) : Body wc [.text (c!"#define " ++ n ++ c!" ")] := fun d b =>
  tri_text (fun _ h => h.ok) fun r hr => by
    cases hr
    refine ⟨midLine d b, ?_, .inr rfl⟩
    have h1 : scan (lineStart d b) c!"#define " = some (midLine d b) := rfl
    rw [List.append_assoc, scan_some h1, scan_some (inline_mid h d b)]
    rfl

theorem body_const {e : Env} (h : ConfigFine e.cfg) (he : EnumsPlain e) {k : ConstItem}
    (ht : Words (tyWords k.ty)) (ib : Bool) {name : Str} (hn : Plain name) {v : Lit} (hv : LitFine v) :
    Body wc (k.bodyOps e ib name v) := by
  have h1 := calm_fine (wc := wc) h he hv
  have h2 := calm_declOps (wc := wc) h ht hn
  have h3 : Body wc ([.text (c!"#define " ++ name ++ c!" ")] ++ v.ops e) := body_then (body_define hn) h1
  have hl := h.lang
  unfold ConstItem.bodyOps
  simp only
  split
  · rename_i hc; exact absurd hc hl
  · exact h3
  · split
    · exact Calm.body (by calm)
    · exact h3

theorem para_const {e : Env} (h : ConfigFine e.cfg) (he : EnumsPlain e) {k : ConstItem} {s : Option StructItem}
    (hk : ConstFine e.cfg s k) : Para wc (k.ops e s) := by
  obtain ⟨-, hn, ht, hv, hd⟩ := hk
  unfold ConstItem.ops
  split
  · exact lines_nil.para
  · split
    · rename_i name value h1 h2
      have := para_cond (wc := wc) h k.cfg (lines_then (lines_docs h.lang hd)
        (body_const h he ht (inBody e.cfg s) (hn _ h1) (fine_peel hv h2)).para)
      simpa using this
    · exact para_panic (by simp)

theorem para_constDecl {c : OutConfig} (h : ConfigFine c) {k : ConstItem} {s : Option StructItem}
    (hk : ConstFine c s k) : Para wc (k.declarationOps c) := by
  obtain ⟨hn, -, ht, -, -⟩ := hk
  have h2 := calm_declOps (wc := wc) h ht hn
  have : Calm wc ([.text (if k.ty.isConstPtr then c!"static " else c!"static const ")] ++
    declOps c k.ty k.exportName ++ [.text c!";"]) := by calm
  have := para_cond (wc := wc) h k.cfg this.para
  simpa [ConstItem.declarationOps] using this

/-! ## Fields -/

theorem atom_inline {c : OutConfig} {a : Annotations} (h : NotesFine c a) (n : Str) {f : Str → Str}
    (hf : ∀ s, Inline s → Inline (f s)) : Calm wc (optText (a.atom n).join f) :=
  calm_optText fun s hs => hf s (h.1 n s (by
    cases ha : a.atom n with
    | none => simp [ha] at hs
    | some o => simp only [ha, Option.join] at hs; simp_all))

theorem calm_attr {c : OutConfig} {a : Annotations} (h : NotesFine c a) (n : Str) : Calm wc (attrOps a n) :=
  atom_inline h n fun _ hs => inline_append hs (plain_inline rfl)

theorem calm_note {c : OutConfig} {a : Annotations} (h : NotesFine c a) (k : NoteKind) :
    Calm wc (optText (a.deprecatedNote c k) (c!" " ++ ·)) :=
  calm_optText (optInline_lead (h.2 k))

theorem body_field {c : OutConfig} (h : ConfigFine c) {f : Field} (hf : FieldFine c f) : Body wc (f.ops c) := by
  obtain ⟨hn, ht, hd, ha⟩ := hf
  have h1 := calm_declOps (wc := wc) h ht hn
  have h2 : Calm wc (optText ((f.annotations.atom c!"bitfield").map fun b => b.getD []) (c!": " ++ ·)) := by
    refine calm_optText fun s hs => inline_append (plain_inline rfl) ?_
    obtain ⟨o, ho, rfl⟩ := Option.map_eq_some_iff.mp hs
    cases o with
    | none => exact plain_inline rfl
    | some s => exact ha.1 _ s ho
  have h3 : Body wc (docOps c f.doc ++ (declOps c f.ty f.name ++
      optText ((f.annotations.atom c!"bitfield").map fun b => b.getD []) (c!": " ++ ·))) :=
    lines_body (lines_docs h.lang hd) (calm_append h1 h2).body
  have hl := h.lang
  unfold Field.ops
  split
  · rename_i hc; exact absurd hc hl
  · cases hc : c.cond f.cfg with
    | none => simpa [condBefore, condAfter, onlyIf] using h3
    | some x =>
      have := (para_newLine (para_cond (wc := wc) h f.cfg h3.para)).body
      rw [hc] at this
      simpa [onlyIf] using this

theorem calm_plainField {c : OutConfig} (h : ConfigFine c) {n : Str} {t : Ty} (hn : Plain n) (ht : Words (tyWords t)) :
    Calm wc ((Field.of n t).ops c) := by
  have h1 := calm_declOps (wc := wc) h ht hn
  have hl := h.lang
  unfold Field.ops
  split
  · rename_i hc; exact absurd hc hl
  · have h2 : docOps c [] = [] := by
      unfold docOps
      revert hl
      cases c.language <;> simp [docOpsC]
    have h3 : c.cond none = none := by simp [OutConfig.cond, optToCondition]
    have h4 : Annotations.atom {} c!"bitfield" = none := rfl
    simp only [Field.of, h2, h3, h4, condBefore, condAfter, optText, onlyIf, Option.map_none, Option.isSome_none,
      Bool.false_eq_true, if_false, List.nil_append, List.append_nil]
    exact h1

theorem body_verticalItems {t : ListType} (ht : Inline (ListType.sep t)) : ∀ {items : List (List WOp)},
    (∀ i ∈ items, Body wc i) → Body wc (verticalItems t items)
  | [], _ => calm_nil.body
  | [x], h => body_then (h x (by simp)) (calm_after ht true)
  | x :: y :: xs, h => fun d b => by
    refine tri_append (Q := At d b) ?_ (body_verticalItems ht (fun i hi => h i (List.mem_cons_of_mem _ hi)) d b)
    exact para_newLine (body_then (h x (by simp)) (calm_after ht false)).para d b

theorem body_vertical {t : ListType} (ht : Inline (ListType.sep t)) {items : List (List WOp)}
    (h : ∀ i ∈ items, Body wc i) : Body wc (verticalList t items) := fun d b =>
  tri_append (tri_append tri_pushAlign (body_verticalItems ht h d b)) tri_pop

theorem body_fields {c : OutConfig} (h : ConfigFine c) {fs : List Field} (hf : ∀ f ∈ fs, FieldFine c f) :
    Body wc (verticalList (.cap c!";") (fs.map (Field.ops c))) := by
  refine body_vertical (plain_inline (plain_lit rfl)) fun i hi => ?_
  obtain ⟨f, hm, rfl⟩ := List.mem_map.mp hi
  exact body_field h (hf f hm)

/-! ## Structs -/

theorem calm_gparam {c : OutConfig} (h : ConfigFine c) {p : GParam} (hp : Words (gparamWords p)) (q : Bool) :
    Calm wc (p.ops c q) := by
  simp only [gparamWords, words_cons, words_append] at hp
  obtain ⟨hn, ht, hd⟩ := hp
  unfold GParam.ops
  split
  · refine calm_append (by calm) ?_
    split
    · rename_i t hx
      rw [hx] at hd
      simp only [Option.toList_some, gargsWords, List.append_nil] at hd
      have := calm_typeOps (wc := wc) h hd
      calm
    · calm
  · rename_i t hx
    rw [hx] at ht
    refine calm_append (calm_declOps h (by simpa using ht) hn) ?_
    split
    · rename_i x hx
      rw [hx] at hd
      simp only [Option.toList_some, gargsWords, words_cons] at hd
      have := hd.1
      calm
    · calm

theorem lines_params {c : OutConfig} (h : ConfigFine c) {ps : List GParam} (hp : ParamsFine ps) (q : Bool) :
    Lines wc (paramsOps c q ps) := by
  unfold paramsOps
  split
  · have h1 : Calm wc (horizontalList (.join c!", ") (ps.map (GParam.ops c q))) :=
      calm_horizontal (plain_inline (plain_lit rfl)) (calm_map fun p hm => calm_gparam h (hp p hm) q)
    have h2 : Calm wc ([.text c!"template<"] ++ horizontalList (.join c!", ") (ps.map (GParam.ops c q)) ++
      [.text c!">"]) := by calm
    have := calm_lines h2
    simpa using this
  · exact lines_nil

theorem argName_plain {c : OutConfig} (h : ConfigFine c) {n : Str} (hn : n.all plainChar = true) : Plain (c.argName n) :=
  h.argNames n hn

theorem tail_constructor {c : OutConfig} (h : ConfigFine c) {s : StructItem} (hs : StructFine c s) :
    Tail wc (constructorOps c s) := by
  obtain ⟨hn, -, hf, -⟩ := hs
  have h1 : Calm wc (verticalList (.join c!",")
      (s.fields.map fun f => (Field.of (c!"const& " ++ c.argName f.name) f.ty).ops c)) := by
    refine calm_vertical (plain_inline (plain_lit rfl)) (calm_map fun f hm => ?_)
    obtain ⟨g1, g2, -⟩ := hf f hm
    have := h.argNames _ g1
    exact calm_plainField h (by plain) g2
  have h2 : Calm wc (verticalTexts (.join c!",") (s.fields.map fun f => f.name ++ c!"(" ++ c.argName f.name ++ c!")")) := by
    refine calm_texts (plain_inline (plain_lit rfl)) fun x hx => ?_
    obtain ⟨f, hm, rfl⟩ := List.mem_map.mp hx
    have g1 := (hf f hm).1
    have := h.argNames _ g1
    inl
  have h3 : Calm wc [.text c!"{}"] := calm_text (inline_braces (a := []) (m := []) (z := []) (plain_inline rfl) (plain_inline rfl) (plain_inline rfl))
  unfold constructorOps
  exact calm_tail (by calm) rfl

theorem inline_return {n m z : Str} (hn : Plain n) (hm : Plain m) (hz : Plain z) :
    Inline (c!"return " ++ n ++ c!" { " ++ m ++ c!" };" ++ z) := by
  have := inline_braces (a := c!"return " ++ n ++ c!" ") (m := c!" " ++ m ++ c!" ") (z := c!";" ++ z) (by inl) (by inl) (by inl)
  simpa using this

theorem tail_bitflagsBinop {c : OutConfig} (h : ConfigFine c) {n b p op o : Str} (hn : Plain n) (hb : Plain b)
    (hp : Plain p) (hop : Plain op) (ho : Plain o) : Tail wc (bitflagsBinop c n b p op o) := by
  have h1 : Calm wc (inBraces c [.text (c!"return " ++ n ++ c!" { static_cast<decltype(" ++ b ++ c!")>(this->" ++
    b ++ c!" " ++ op ++ c!" " ++ o ++ c!"." ++ b ++ c!") };")]) := by
    refine calm_inBraces h.lang (Calm.para (calm_text ?_))
    have := inline_return (n := n) (m := c!"static_cast<decltype(" ++ b ++ c!")>(this->" ++
      b ++ c!" " ++ op ++ c!" " ++ o ++ c!"." ++ b ++ c!")") (z := []) hn (by plain) rfl
    simpa using this
  have h2 : Calm wc (inBraces c [.text (c!"*this = (*this " ++ op ++ c!" " ++ o ++ c!");"), .newLine,
    .text c!"return *this;"]) := calm_inBraces h.lang (Calm.para (by calm))
  unfold bitflagsBinop
  exact calm_tail (by calm) rfl

theorem tail_bitflags {c : OutConfig} (h : ConfigFine c) {s : StructItem} (hs : StructFine c s) :
    Tail wc (bitflagsOps c s) := by
  obtain ⟨hn, -, hf, -⟩ := hs
  unfold bitflagsOps
  split
  · rename_i f hfs
    have hb : Plain f.name := (hf f (by simp [hfs])).1
    have ho := argName_plain h (n := c!"other") rfl
    have hp : Plain (if c.allowConstexpr then c!"constexpr " else []) := by plain
    have h1 : Calm wc (inBraces c [.text (c!"return !!" ++ f.name ++ c!";")]) :=
      calm_inBraces h.lang (Calm.para (by calm))
    have h2 : Calm wc (inBraces c [.text (c!"return " ++ s.exportName ++ c!" { static_cast<decltype(" ++ f.name ++
        c!")>(~" ++ f.name ++ c!") };")]) := by
      refine calm_inBraces h.lang (Calm.para (calm_text ?_))
      have := inline_return (n := s.exportName) (m := c!"static_cast<decltype(" ++ f.name ++
        c!")>(~" ++ f.name ++ c!")") (z := []) hn (by plain) rfl
      simpa using this
    refine tail_append (tail_append (tail_append ?_ ?_) ?_) ?_
    · exact calm_tail (by calm) rfl
    · exact tail_bitflagsBinop h hn hb hp rfl ho
    · exact tail_bitflagsBinop h hn hb hp rfl ho
    · exact tail_bitflagsBinop h hn hb hp rfl ho
  · exact fun _ _ => tri_panic (by simp)

theorem inline_shift {a z : Str} (ha : Plain a) {m : Str} (hm : Inline (c!"\"" ++ m ++ c!"\"")) (hz : Plain z) :
    Inline (a ++ (c!"\"" ++ m ++ c!"\"") ++ z) :=
  inline_append (inline_append (plain_inline ha) hm) (plain_inline hz)

theorem inline_string (s : Str) (h : ∀ d b, scan ⟨.quote '"', .rest, d, b⟩ (s ++ c!"\"") = some (midLine d b)) :
    Inline (c!"\"" ++ s ++ c!"\"") := by
  intro d b r hr
  have e1 : scan r c!"\"" = some ⟨.quote '"', .rest, d, b⟩ := by rcases hr with rfl | rfl <;> rfl
  refine ⟨midLine d b, ?_, .inr rfl⟩
  rw [List.append_assoc, scan_some e1, h d b]

theorem tail_ostream {c : OutConfig} (h : ConfigFine c) {s : StructItem} (hs : StructFine c s) :
    Tail wc (ostreamOps c s) := by
  obtain ⟨hn, -, hf, -⟩ := hs
  have h1 := argName_plain h (n := c!"stream") rfl
  have h2 := argName_plain h (n := c!"instance") rfl
  have h3 : Calm wc [.text (c!"return " ++ c.argName c!"stream" ++ c!" << \"{ \"")] := by
    have := inline_shift (a := c!"return " ++ c.argName c!"stream" ++ c!" << ") (m := c!"{ ") (z := []) (by plain)
      (inline_string _ fun _ _ => rfl) rfl
    exact calm_text (by simpa using this)
  have h4 : Calm wc [.text c!" << \" }\";"] := by
    have := inline_shift (a := c!" << ") (m := c!" }") (z := c!";") (by plain)
      (inline_string _ fun _ _ => rfl) rfl
    exact calm_text (by simpa using this)
  have h5 : Calm wc (verticalTexts (.join c!" << \", \"")
       (s.fields.map fun f => c!" << \"" ++ f.name ++ c!"=\" << " ++ c.argName c!"instance" ++ c!"." ++ f.name)) := by
    refine calm_texts ?_ fun x hx => ?_
    · have := inline_shift (a := c!" << ") (m := c!", ") (z := []) (by plain) (inline_quoted rfl) rfl
      simpa [ListType.sep] using this
    · obtain ⟨f, hm, rfl⟩ := List.mem_map.mp hx
      have g1 := (hf f hm).1
      have := inline_shift (a := c!" << ") (m := f.name ++ c!"=") (z := c!" << " ++ c.argName c!"instance" ++ c!"." ++ f.name)
        (by plain) (inline_quoted (by plain)) (by plain)
      simpa using this
  have h6 : Calm wc (inBraces c ([.text (c!"return " ++ c.argName c!"stream" ++ c!" << \"{ \"")] ++
     verticalTexts (.join c!" << \", \"")
       (s.fields.map fun f => c!" << \"" ++ f.name ++ c!"=\" << " ++ c.argName c!"instance" ++ c!"." ++ f.name) ++
     [.text c!" << \" }\";"])) := calm_inBraces h.lang (Calm.para (by calm))
  unfold ostreamOps
  simp only
  exact calm_tail (by calm) rfl

theorem tail_compare {c : OutConfig} (h : ConfigFine c) {s : StructItem} (hs : StructFine c s) (n : Str) {op j : Str}
    (hop : Plain op) (hj : Plain j) : Tail wc (compareOps c s n op j) := by
  obtain ⟨hn, -, hf, ha, -⟩ := hs
  have h1 := argName_plain h (n := c!"other") rfl
  have h2 := calm_attr (wc := wc) ha (n ++ c!"-attributes")
  have h3 : Calm wc (verticalTexts (.join (c!" " ++ j))
       ((s.fields.drop (if s.hasTagField then 1 else 0)).map fun f =>
         f.name ++ c!" " ++ op ++ c!" " ++ c.argName c!"other" ++ c!"." ++ f.name)) := by
    refine calm_texts ?_ fun x hx => ?_
    · simp only [ListType.sep]; inl
    · obtain ⟨f, hm, rfl⟩ := List.mem_map.mp hx
      have g1 := (hf f (List.mem_of_mem_drop hm)).1
      inl
  have h4 : Calm wc (inBraces c ([.text c!"return "] ++ verticalTexts (.join (c!" " ++ j))
       ((s.fields.drop (if s.hasTagField then 1 else 0)).map fun f =>
         f.name ++ c!" " ++ op ++ c!" " ++ c.argName c!"other" ++ c!"." ++ f.name) ++ [.text c!";"])) :=
    calm_inBraces h.lang (Calm.para (by calm))
  unfold compareOps
  simp only
  exact calm_tail (by calm) rfl

theorem mem_blockIf {b : Bool} {ops x : List WOp} (h : x ∈ blockIf b ops) : x = ops := by
  unfold blockIf at h
  split at h
  · simpa using h
  · cases h

theorem tail_derived {c : OutConfig} (h : ConfigFine c) {s : StructItem} (hs : StructFine c s) :
    Tail wc (derivedOps c s) := by
  have key : ∀ x ∈ derivedBlocks c s, Tail wc x := by
    intro x hx
    simp only [derivedBlocks, List.mem_append] at hx
    rcases hx with (((((((hx | hx) | hx) | hx) | hx) | hx) | hx) | hx) | hx <;> rw [mem_blockIf hx]
    · exact tail_constructor h hs
    · exact tail_bitflags h hs
    · exact tail_ostream h hs
    all_goals exact tail_compare h hs _ rfl rfl
  unfold derivedOps
  revert key
  cases derivedBlocks c s with
  | nil => intro _; exact tail_nil
  | cons x xs =>
    intro key
    exact tail_append (tail_append tail_newLine (key x (by simp))) (tail_flatten fun y hy => key y (by simp [hy]))

theorem natStr_plain (n : Nat) : Plain (natStr n) := by
  refine List.all_eq_true.mpr fun c hc => ?_
  have := natStr_digits n c hc
  cases hp : plainChar c with
  | true => rfl
  | false =>
    simp only [plainChar, Bool.not_eq_eq_eq_not, Bool.not_false, Bool.or_eq_true, beq_iff_eq] at hp
    rcases hp with ((((((hp | rfl) | rfl) | rfl) | rfl) | rfl) | rfl) | rfl
    · rcases break_cases hp with rfl | rfl <;> simp at this
    all_goals simp at this

theorem calm_align {c : OutConfig} (h : ConfigFine c) (a : Option ReprAlign) : Calm wc (alignOps c a) := by
  unfold alignOps
  split
  · exact calm_nil
  · exact calm_optText (optInline_lead h.layout.1)
  · rename_i n
    refine calm_optText fun s hs => ?_
    have h1 := natStr_plain n
    exact inline_append (inline_append (inline_append (inline_append (plain_inline rfl) (h.layout.2 s hs)) (plain_inline rfl))
      (plain_inline h1)) (plain_inline rfl)

theorem calm_mustUse {c : OutConfig} (a : Annotations) {o : Option Str} (ho : OptInline o) : Calm wc (mustUseOps c a o) :=
  calm_onlyIf (calm_optText (optInline_lead ho))

theorem calm_tagName (c : OutConfig) {n : Str} (hn : Plain n) : Calm wc (tagNameOps c n) := by
  unfold tagNameOps; calm

theorem lines_preBody {c : OutConfig} (h : ConfigFine c) (p : Str) : Lines wc (preBodyOps c p) := by
  unfold preBodyOps
  split
  · rename_i s hs
    refine para_newLine (ops := [.raw s]) fun d b => tri_raw fun r hr => ?_
    cases hr
    exact h.preBody p s hs d b
  · exact lines_nil

theorem tail_postBody {c : OutConfig} (h : ConfigFine c) (p : Str) : Tail wc (postBodyOps c p) := by
  unfold postBodyOps
  split
  · rename_i s hs
    refine tail_para (ops := [.raw s]) fun d b => tri_raw fun r hr => ?_
    cases hr
    exact h.body p s hs d b
  · exact tail_nil

theorem tri_closeDef {c : OutConfig} (h : ConfigFine c) {n : Str} (hn : Plain n) {d b : Nat} :
    Tri wc (Done d (b + 1)) (closeDef c n) (Ok d b) := by
  unfold closeDef
  split
  · exact tri_append (tri_close h.lang) ((show Calm wc [.text (c!" " ++ n ++ c!";")] by calm) d b)
  · exact tri_close h.lang

theorem calm_def {c : OutConfig} (h : ConfigFine c) {n : Str} (hn : Plain n) {body : List WOp} (hb : Para wc body) :
    Calm wc (c.opn ++ body ++ closeDef c n) := fun d b =>
  tri_append (tri_append (tri_open h.lang) (hb d (b + 1))) (tri_closeDef h hn)

theorem tail_assocDecl {c : OutConfig} (h : ConfigFine c) {s : StructItem} (hs : StructFine c s) :
    Tail wc (assocDeclOps c s) :=
  tail_onlyIf (tail_flatMap fun k hk => tail_para (para_constDecl h (hs.2.2.2.2.2 k hk)))

theorem tail_assoc {e : Env} (h : ConfigFine e.cfg) (he : EnumsPlain e) {s : StructItem} (hs : StructFine e.cfg s) :
    Tail wc (assocOps e s) :=
  tail_flatMap fun k hk => tail_para (para_const h he (hs.2.2.2.2.2 k hk))

theorem para_structBody {e : Env} (h : ConfigFine e.cfg) {s : StructItem} (hs : StructFine e.cfg s) :
    Para wc (structBodyC e s) := by
  unfold structBodyC
  refine para_then (para_then (para_then (lines_then (lines_preBody h _) (body_fields h hs.2.2.1).para)
    (tail_onlyIf (tail_derived h hs))) (tail_postBody h _)) (tail_assocDecl h hs)

theorem para_struct {e : Env} (h : ConfigFine e.cfg) (he : EnumsPlain e) {s : StructItem} (hs : StructFine e.cfg s) :
    Para wc (emitStruct e s) := by
  have hl := h.lang
  obtain ⟨hn, hp, hf, ha, hd, hk⟩ := id hs
  have h1 : Calm wc (onlyIf e.cfg.genTypedef [.text c!"typedef "] ++ [.text c!"struct"] ++ alignOps e.cfg s.alignment ++
      mustUseOps e.cfg s.annotations e.cfg.structure_.mustUse ++
      optText (s.annotations.deprecatedNote e.cfg .struct) (c!" " ++ ·) ++ tagNameOps e.cfg s.exportName) := by
    have g1 := calm_align (wc := wc) h s.alignment
    have g2 := calm_mustUse (wc := wc) (c := e.cfg) s.annotations h.mustUse.2.1
    have g3 := calm_note (wc := wc) ha .struct
    have g4 := calm_tagName (wc := wc) e.cfg hn
    calm
  have h2 := calm_def h hn (para_structBody (wc := wc) h hs)
  have h3 : Lines wc (docOps e.cfg s.doc ++ onlyIf (!s.isEnumVariantBody) (paramsOps e.cfg false s.genericParams)) :=
    lines_append (lines_docs hl hd) (lines_onlyIf (lines_params h hp _))
  have h4 := para_cond (wc := wc) h s.cfg (para_then (lines_then h3 (calm_append h1 h2).para) (tail_assoc h he hs))
  have e1 : emitStruct e s = structOpsC e s := by
    unfold emitStruct
    revert hl
    cases e.cfg.language <;> simp
  rw [e1]
  simpa [structOpsC] using h4

/-! ## Unions, opaque items, aliases and statics -/

theorem para_union {c : OutConfig} (h : ConfigFine c) {u : UnionItem} (hu : UnionFine c u) : Para wc (emitUnion c u) := by
  have hl := h.lang
  obtain ⟨hn, hp, hf, hd⟩ := hu
  have h1 : Calm wc (onlyIf c.genTypedef [.text c!"typedef "] ++ [.text c!"union"] ++ alignOps c u.alignment ++
      tagNameOps c u.exportName) := by
    have g1 := calm_align (wc := wc) h u.alignment
    have g4 := calm_tagName (wc := wc) c hn
    calm
  have h2 := calm_def (wc := wc) h hn (para_then (lines_then (lines_preBody h u.path) (body_fields h hf).para)
    (tail_postBody h u.path))
  have h3 : Lines wc (docOps c u.doc ++ paramsOps c false u.genericParams) :=
    lines_append (lines_docs hl hd) (lines_params h hp _)
  have h4 := para_cond (wc := wc) h u.cfg (lines_then h3 (calm_append h1 h2).para)
  have e1 : emitUnion c u = unionOpsC c u := by
    unfold emitUnion
    revert hl
    cases c.language <;> simp
  rw [e1]
  simpa [unionOpsC] using h4

theorem para_opaque {c : OutConfig} (h : ConfigFine c) {o : OpaqueItem} (ho : OpaqueFine c o) : Para wc (emitOpaque c o) := by
  have hl := h.lang
  obtain ⟨hn, hp, hd⟩ := ho
  unfold emitOpaque
  refine para_cond h _ (lines_then (lines_append (lines_docs hl hd) (lines_params h hp _)) ?_)
  split
  · rename_i hc; exact absurd hc hl
  · exact Calm.para (by calm)

theorem para_typedef {c : OutConfig} (h : ConfigFine c) {t : TypedefItem} (ht : TypedefFine c t) :
    Para wc (emitTypedef c t) := by
  have hl := h.lang
  obtain ⟨hn, hp, ha, hd⟩ := ht
  unfold emitTypedef
  refine para_cond h _ ?_
  rw [List.append_assoc]
  refine lines_then (lines_docs hl hd) ?_
  split
  · rename_i hc; exact absurd hc hl
  · rename_i hc
    have h1 : Calm wc ([.text (c.language.typedefText ++ c!" ")] ++ (Field.of t.exportName t.aliased).ops c ++ [.text c!";"]) := by
      have g1 := calm_plainField (wc := wc) h hn ha
      have g2 : Plain c.language.typedefText := by rw [hc]; rfl
      calm
    have := lines_then (lines_params (wc := wc) h hp false) h1.para
    simpa using this
  · have h1 : Calm wc ([.text (c!"using " ++ t.exportName ++ c!" = ")] ++ typeOps c t.aliased ++ [.text c!";"]) := by
      have g1 := calm_typeOps (wc := wc) h ha
      calm
    have := lines_then (lines_params (wc := wc) h hp false) h1.para
    simpa using this

theorem para_static {c : OutConfig} (h : ConfigFine c) {s : StaticItem} (hs : StaticFine c s) : Para wc (emitStatic c s) := by
  obtain ⟨hn, ht, hd⟩ := hs
  have g1 := calm_declOps (wc := wc) h ht hn
  have h1 : Calm wc ([.text c!"extern "] ++ onlyIf (!s.ty.isConstPtr && !s.mutable) [.text c!"const "] ++
    declOps c s.ty s.exportName ++ [.text c!";"]) := by calm
  have := para_cond (wc := wc) h s.cfg (lines_then (lines_docs h.lang hd) h1.para)
  simpa [emitStatic] using this

/-! ## Functions -/

theorem plain_drop {s : Str} (h : Plain s) (n : Nat) : Plain (s.drop n) := by
  rw [Plain, List.all_eq_true] at *
  exact fun c hc => h c (List.mem_of_mem_drop hc)

theorem plain_dropWhile {s : Str} (h : Plain s) (p : Char → Bool) : Plain (s.dropWhile p) := by
  rw [Plain, List.all_eq_true] at *
  exact fun c hc => h c ((List.dropWhile_suffix p).subset hc)

theorem plain_trim {p : Str} : ∀ (n : Nat) {s : Str}, Plain s → Plain (trimPrefixAux p n s)
  | 0, s, h => h
  | n + 1, s, h => by
    unfold trimPrefixAux
    split
    · exact plain_trim n (plain_drop h _)
    · exact h

theorem plain_swiftArgs : ∀ {as : List FnArg} {s : Str}, (∀ a ∈ as, Words (argWords a)) → swiftArgs as = some s → Plain s
  | [], s, _, h => by simp only [swiftArgs, Option.some.injEq] at h; subst h; rfl
  | a :: as, s, hw, h => by
    unfold swiftArgs at h
    split at h
    · rename_i n t hn ht
      injection h with h
      subst h
      have h1 := hw a (by simp)
      simp only [argWords, words_append, words_toList] at h1
      have h2 := h1.1.1 n hn
      have h3 := plain_swiftArgs (fun x hx => hw x (by simp [hx])) ht
      plain
    · cases h

theorem plain_swiftName {c : OutConfig} {f : FuncItem} (hf : FuncFine c f) {s : Str} (h : f.swiftName c = some s) :
    Plain s := by
  obtain ⟨h1, h2, -, h4, -⟩ := hf
  unfold FuncItem.swiftName at h
  split at h
  · cases h
  · split at h
    · rename_i t ht
      have g1 := h2 t ht
      split at h
      · obtain ⟨as, ha, rfl⟩ := Option.map_eq_some_iff.mp h
        have g2 := plain_swiftArgs h4 ha
        have g3 := plain_dropWhile (plain_trim (p := t) f.path.length h1) (· == '_')
        plain
      · injection h with h; exact h ▸ h1
    · obtain ⟨as, ha, rfl⟩ := Option.map_eq_some_iff.mp h
      have g2 := plain_swiftArgs h4 ha
      have g3 := plain_dropWhile h1 (· == '_')
      plain

theorem calm_space (l : Layout) : Calm wc (spaceOps l) := by cases l <;> (simp only [spaceOps]; calm)

theorem calm_lead (l : Layout) {o : Option Str} (h : OptInline o) : Calm wc (leadOps l o) := by
  cases o with
  | none => exact calm_nil
  | some s => exact calm_append (calm_text (h s rfl)) (calm_space l)

theorem atomOr_inline {c : OutConfig} {a : Annotations} (h : NotesFine c a) (n : Str) {o : Option Str} (ho : OptInline o) :
    OptInline (a.atomOr n o) := by
  intro s hs
  unfold Annotations.atomOr at hs
  cases ha : a.atom n with
  | none => rw [ha] at hs; exact ho s hs
  | some x => rw [ha] at hs; exact h.1 n s (by rw [ha]; simpa using hs)

theorem para_funcOps {c : OutConfig} (h : ConfigFine c) {f : FuncItem} (hf : FuncFine c f) (l : Layout) :
    Para wc (funcOps c f l) := by
  have h1 := calm_funcDecl (wc := wc) h hf l
  obtain ⟨hn, hs, hr, ha, hnotes, hd⟩ := id hf
  have h2 : Calm wc (funcLead c f l) := by
    unfold funcLead
    split
    · calm
    · refine calm_append (calm_append (calm_lead l (atomOr_inline hnotes _ h.around.1)) (calm_lead l ?_)) (calm_lead l (hnotes.2 _))
      split
      · exact h.mustUse.1
      · exact nofun
  have h3 : Calm wc (funcTrail c f l) := by
    unfold funcTrail
    refine calm_append ?_ ?_
    · split
      · exact calm_nil
      · split
        · rename_i s hs
          exact calm_append (calm_space l) (calm_text (atomOr_inline hnotes _ h.around.2 s hs))
        · exact calm_nil
    · split
      · rename_i m n hm hn
        have g1 := h.swift m hm
        have g2 := plain_swiftName hf hn
        calm
      · exact calm_nil
  have h4 : Calm wc (funcLead c f l ++ funcDeclOps c f l ++ funcTrail c f l ++ [.text c!";"]) := by calm
  have := para_cond (wc := wc) h f.cfg (lines_then (lines_docs h.lang hd) h4.para)
  simpa [funcOps] using this

theorem para_func {c : OutConfig} (h : ConfigFine c) {f : FuncItem} (hf : FuncFine c f) : Para wc (emitFunc c f) := by
  unfold emitFunc
  split
  · exact para_funcOps h hf _
  · exact para_funcOps h hf _
  · exact fun d b => tri_try (para_funcOps h hf _ d b) (para_funcOps h hf _ d b)

end

end Cbindgen.PreSpec
