import Verif.Lemmas.LexDecl

/-!
# C58: the text of a declaration reads back
-/

namespace Cbindgen
open CSpec LexSpec

namespace LexSpec

/-- The tokens of a whole text. -/
theorem lex_of {wc : WConfig} {ops : List WOp} {ls : List Lx} (h : Tri wc .at ops ls .done) {w w' : W} {t : Str}
    (hw : w.lineNumber ≠ 0) (hx : WOp.exec wc ops w = some (t, w')) : lex t = some ls := by
  obtain ⟨s, e, h1, h2, h3⟩ := h w {} t w' hw rfl hx
  have h4 := scan_ending h2 .lf
  have h5 : e ++ (pend s ++ ending s.dir) = ls := h3
  unfold lex
  rw [show t ++ ['\n'] = t ++ LineEnding.lf.asStr from rfl, scan_some h1 h4]
  simp [h5]

theorem lex_decl {c : OutConfig} (ha : AttrsFine (attrsOf c.toDeclConfig)) {x : CDecl} {layout : Layout} {i : Option Str}
    (hx : declFine (attrsOf c.toDeclConfig) x) (hi : ∀ s, i = some s → Ident (attrsOf c.toDeclConfig) s) {wc : WConfig}
    {w w' : W} {t : Str} (hw : w.lineNumber ≠ 0) (h : WOp.exec wc (x.ops c layout i) w = some (t, w')) :
    ∃ ls, lex t = some ls ∧ declToks (attrsOf c.toDeclConfig) ls = some (x.write c.toDeclConfig i) := by
  have hk := known_attrsOf ha
  have h1 := inl_decl (wc := wc) hk.words x layout i hx fun s hs => (hi s hs).word
  exact ⟨_, lex_of (tri_post (tri_pre h1 at_le_gap) mid_le_done) hw h, declToks_found (found_decl hk x i hx hi)⟩

end LexSpec

/-- **C58.** The text that is written for a field, a static or an alias of any type, in any layout and with any line
endings, cut into tokens by the rules of C and read by the rules for declarators, declares the given name with the
C type of the Rust type.  (`const` directly on a pointer to a function is left out, as in C01.) -/
theorem C58_field_text (c : OutConfig) (t : Ty) (ident : Str) (ha : AttrsFine (attrsOf c.toDeclConfig))
    (ht : TyFine (attrsOf c.toDeclConfig) t) (hi : Ident (attrsOf c.toDeclConfig) ident)
    (hv : NoVoidParam c.toDeclConfig t) {w w' : W} {text : Str} (hw : w.lineNumber ≠ 0)
    (h : WOp.exec c.writer (declOps c t ident) w = some (text, w')) :
    ∃ ls ty, lex text = some ls ∧ readDeclared (attrsOf c.toDeclConfig) ls = some (ident, ty) ∧
      ty.forgetFnPtr = (meaning c.toDeclConfig false t).forgetFnPtr := by
  obtain ⟨ls, h1, h2⟩ := lex_decl ha (build_fine t false ht) (i := some ident) (by rintro s ⟨⟩; exact hi) hw h
  obtain ⟨ty, h3, h4⟩ := C01_field_reads_back c.toDeclConfig t ident hv
  exact ⟨ls, ty, h1, by rw [readDeclared, h2]; exact h3, h4⟩

/-- **C58.** The text that is written for a type alone (a template argument, a cast) reads back as the C type of the
Rust type. -/
theorem C58_type_text (c : OutConfig) (t : Ty) (ha : AttrsFine (attrsOf c.toDeclConfig))
    (ht : TyFine (attrsOf c.toDeclConfig) t) (hv : NoVoidParam c.toDeclConfig t) {w w' : W} {text : Str}
    (hw : w.lineNumber ≠ 0) (h : WOp.exec c.writer (typeOps c t) w = some (text, w')) :
    ∃ ls ty, lex text = some ls ∧ readTyped (attrsOf c.toDeclConfig) ls = some ty ∧
      ty.forgetFnPtr = (meaning c.toDeclConfig false t).forgetFnPtr := by
  obtain ⟨ls, h1, h2⟩ := lex_decl ha (build_fine t false ht) (i := none) nofun hw h
  obtain ⟨ty, h3, h4⟩ := C03_type_name_reads_back c.toDeclConfig t hv
  exact ⟨ls, ty, h1, by rw [readTyped, h2]; exact h3, h4⟩

/-- **C58.** The text that is written for a function, in any of the layouts, declares the function with its parameters
and its return type. -/
theorem C58_function_text (c : OutConfig) (f : FuncItem) (layout : Layout) (ha : AttrsFine (attrsOf c.toDeclConfig))
    (hr : TyFine (attrsOf c.toDeclConfig) f.ret) (has : ∀ a ∈ f.args, FnArgFine (attrsOf c.toDeclConfig) a)
    (hi : Ident (attrsOf c.toDeclConfig) f.path)
    (hl : ArrayLengthsOnPtrs ⟨f.path, f.ret, f.args, f.neverReturn⟩)
    (hv : FnNoVoidParam c.toDeclConfig ⟨f.path, f.ret, f.args, f.neverReturn⟩) {w w' : W} {text : Str}
    (hw : w.lineNumber ≠ 0) (h : WOp.exec c.writer (funcDeclOps c f layout) w = some (text, w')) :
    ∃ ls ty, lex text = some ls ∧ readDeclared (attrsOf c.toDeclConfig) ls = some (f.path, ty) ∧
      ty.forgetFnPtr = (meaningFn c.toDeclConfig ⟨f.path, f.ret, f.args, f.neverReturn⟩).forgetFnPtr := by
  obtain ⟨ts, ty, h3, h4, h5⟩ := C02_function_reads_back c.toDeclConfig ⟨f.path, f.ret, f.args, f.neverReturn⟩ hl hv
  unfold funcDeclOps at h
  unfold writeFunc at h3
  cases hd : CDecl.fromFunc c.toDeclConfig ⟨f.path, f.ret, f.args, f.neverReturn⟩ with
  | none => rw [hd] at h3; simp at h3
  | some x =>
    rw [hd] at h h3
    simp only [bind, Option.bind_some, pure, Option.some.injEq] at h3
    have hx : declFine (attrsOf c.toDeclConfig) x := by
      simp only [CDecl.fromFunc, bind, Option.bind_eq_some_iff, pure, Option.some.injEq] at hd
      obtain ⟨xs, h6, rfl⟩ := hd
      exact push_fine (build_fine f.ret false hr) (by simp [declaratorsFine, buildArgs_fine h6 has])
    obtain ⟨ls, h1, h2⟩ := lex_decl ha hx (i := some f.path) (by rintro s ⟨⟩; exact hi) hw h
    exact ⟨ls, ty, h1, by rw [readDeclared, h2, h3]; exact h4, h5⟩

/-- **C58.** The layout of the arguments, the line length, the indentation and the line endings change nothing but
white space: two texts for the same function have the same tokens. -/
theorem C58_layout_irrelevant (c c' : OutConfig) (he : c'.toDeclConfig = c.toDeclConfig) (f : FuncItem)
    (layout layout' : Layout) (ha : AttrsFine (attrsOf c.toDeclConfig))
    (hr : TyFine (attrsOf c.toDeclConfig) f.ret) (has : ∀ a ∈ f.args, FnArgFine (attrsOf c.toDeclConfig) a)
    (hi : Ident (attrsOf c.toDeclConfig) f.path) {w w' v v' : W} {text text' : Str}
    (hw : w.lineNumber ≠ 0) (hv : v.lineNumber ≠ 0)
    (h : WOp.exec c.writer (funcDeclOps c f layout) w = some (text, w'))
    (h' : WOp.exec c'.writer (funcDeclOps c' f layout') v = some (text', v')) :
    ∃ ls, lex text = some ls ∧ lex text' = some ls := by
  unfold funcDeclOps at h h'
  rw [he] at h'
  cases hd : CDecl.fromFunc c.toDeclConfig ⟨f.path, f.ret, f.args, f.neverReturn⟩ with
  | none => rw [hd] at h; simp [WOp.exec, WOp.exec1, andThen] at h
  | some x =>
    rw [hd] at h h'
    have hx : declFine (attrsOf c.toDeclConfig) x := by
      simp only [CDecl.fromFunc, bind, Option.bind_eq_some_iff, pure, Option.some.injEq] at hd
      obtain ⟨xs, h6, rfl⟩ := hd
      exact push_fine (build_fine f.ret false hr) (by simp [declaratorsFine, buildArgs_fine h6 has])
    have hk := known_attrsOf ha
    have hk' : Known (attrsOf c.toDeclConfig) c'.toDeclConfig := by rw [he]; exact hk
    have h1 := inl_decl (wc := c.writer) hk.words x layout (some f.path) hx (by rintro s ⟨⟩; exact hi.word)
    have h2 := inl_decl (wc := c'.writer) hk'.words x layout' (some f.path) hx (by rintro s ⟨⟩; exact hi.word)
    rw [he] at h2
    exact ⟨_, lex_of (tri_post (tri_pre h1 at_le_gap) mid_le_done) hw h,
      lex_of (tri_post (tri_pre h2 at_le_gap) mid_le_done) hv h'⟩

/-! ## A case -/

namespace TextCases

/-- `*const fn(x: *const [Foo; 4], unsigned long long) -> bool` -/
def callback : Ty :=
  .ptr (.fnptr (.prim .bool) [.mk (some c!"x") (.ptr (.array (.path c!"Foo" c!"Foo" [] (some .struct)) (.value c!"4")) true true false),
    .mk none (.prim (.integer false false .longlong))] true false) true true false

/-- With an attribute, one argument per line. -/
def cfg : OutConfig := { language := .c, nullableAttr := some c!"_Nullable", function := { args := .vertical } }

theorem attrs_fine : AttrsFine (attrsOf cfg.toDeclConfig) := by
  have : attrsOf cfg.toDeclConfig = [c!"_Nullable"] := rfl
  rw [this]
  intro a ha
  simp only [List.mem_singleton] at ha
  subst ha
  refine ⟨⟨by simp, by decide⟩, by decide, by decide, ?_⟩
  intro p u h
  cases p with
  | integer z s k => cases s <;> cases k <;> cases u <;> revert h <;> simp [Prim.toReprC]
  | _ => cases u <;> revert h <;> simp [Prim.toReprC]

theorem ty_fine : TyFine (attrsOf cfg.toDeclConfig) callback ∧ Ident (attrsOf cfg.toDeclConfig) c!"cb" ∧
    NoVoidParam cfg.toDeclConfig callback := by
  have hi : ∀ s : Str, s = c!"Foo" ∨ s = c!"x" ∨ s = c!"cb" → Ident (attrsOf cfg.toDeclConfig) s := by
    intro s hs
    rcases hs with rfl | rfl | rfl <;> exact ⟨by simp, by decide, by decide, by decide⟩
  refine ⟨?_, hi _ (by simp), ?_⟩
  · simp only [callback, TyFine, FArgsFine, GArgsFine, Option.some.injEq, and_true, true_and]
    refine ⟨?_, ⟨⟨⟨by simp [CExpr.asStr], by decide⟩, by decide⟩, hi _ (by simp)⟩, nofun⟩
    rintro s rfl
    exact hi _ (by simp)
  · simp [callback, NoVoidParam, NoVoidParamArgs, NoVoidParamGArgs, meaningArgs, isVoidList]

/-- The text spreads over two lines, and the tokens are those of the declaration. -/
theorem C58_case : ((WOp.exec cfg.writer (declOps cfg callback c!"cb") {}).map (·.1) ==
      some (c!"bool (*_Nullable *_Nullable cb)(const struct Foo (*_Nullable x)[4],\n" ++ List.replicate 32 ' ' ++
        c!"unsigned long long)")) = true ∧
    ((WOp.exec cfg.writer (declOps cfg callback c!"cb") {}).bind fun r => (lex r.1).bind fun ls =>
      (readDeclared [c!"_Nullable"] ls).map (·.1)) = some c!"cb" := by
  constructor <;> decide +kernel

end TextCases

end Cbindgen
