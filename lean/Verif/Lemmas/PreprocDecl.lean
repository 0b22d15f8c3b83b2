import Verif.Lemmas.PreprocOps

/-!
# Reading declarations and literals
-/

namespace Cbindgen.PreSpec
open TextSpec CommentSpec

theorem plain_app {a b : Str} (ha : Plain a) (hb : Plain b) : Plain (a ++ b) := plain_append.mpr ⟨ha, hb⟩

theorem plain_lit {s : Str} (h : s.all plainChar = true) : Plain s := h

/-- Texts put together from plain ones. -/
macro "plain" : tactic => `(tactic|
  repeat' first
    | with_reducible assumption
    | exact plain_lit rfl
    | with_reducible apply plain_app
    | split)

macro "inl" : tactic => `(tactic|
  first
    | with_reducible assumption
    | exact plain_inline (by plain))

/-- Calls put together from calm ones. -/
macro "calm" : tactic => `(tactic|
  repeat' first
    | with_reducible assumption
    | with_reducible exact calm_nil
    | with_reducible exact calm_newLine
    | with_reducible exact calm_pushTab
    | with_reducible exact calm_pushAlign
    | with_reducible exact calm_pop
    | with_reducible exact calm_panic
    | (with_reducible refine calm_text ?_; inl)
    | with_reducible apply calm_onlyIf
    | with_reducible apply calm_append
    | with_reducible apply calm_cons
    | with_reducible apply calm_try
    | split)

theorem inline_lit {s : Str} (h : s.all plainChar = true) : Inline s := plain_inline h

theorem optInline_lead {o : Option Str} (h : OptInline o) : ∀ s, o = some s → Inline (c!" " ++ s) :=
  fun s hs => inline_append (plain_inline rfl) (h s hs)

theorem optInline_trail {o : Option Str} (h : OptInline o) : ∀ s, o = some s → Inline (s ++ c!" ") :=
  fun s hs => inline_append (h s hs) (plain_inline rfl)

theorem words_append {a b : List Str} : Words (a ++ b) ↔ Words a ∧ Words b := by
  simp [Words, or_imp, forall_and]

theorem words_cons {s : Str} {b : List Str} : Words (s :: b) ↔ Plain s ∧ Words b := by
  simp [Words]

theorem words_toList {o : Option Str} : Words o.toList ↔ OptPlain o := by
  cases o <;> simp [Words, OptPlain]

/-! ## Declarations -/

mutual
def declPlain : CDecl → Prop
  | .mk _ _ n g ds => Plain n ∧ cgargsPlain g ∧ declaratorsPlain ds
def declaratorsPlain : List CDeclarator → Prop
  | [] => True
  | .ptr _ _ _ :: ds => declaratorsPlain ds
  | .array l :: ds => Plain l ∧ declaratorsPlain ds
  | .func as _ :: ds => cargsPlain as ∧ declaratorsPlain ds
def cgargsPlain : List CGArg → Prop
  | [] => True
  | .type d :: gs => declPlain d ∧ cgargsPlain gs
  | .const s :: gs => Plain s ∧ cgargsPlain gs
def cargsPlain : List CArg → Prop
  | [] => True
  | .mk n d :: as => OptPlain n ∧ declPlain d ∧ cargsPlain as
end

theorem declPlain_push {x : CDeclarator} {d : CDecl} (hx : declaratorsPlain [x]) (hd : declPlain d) :
    declPlain (d.push x) := by
  cases d with
  | mk q k n g ds =>
    simp only [CDecl.push, declPlain] at hd ⊢
    refine ⟨hd.1, hd.2.1, ?_⟩
    cases x <;> simp_all [declaratorsPlain]

theorem prim_plain (q : Bool) (p : Prim) : Plain (p.toReprC q) := by
  cases p with
  | integer z s k => cases s <;> cases k <;> cases q <;> rfl
  | _ => rfl

mutual
theorem buildType_plain {cfg : DeclConfig} : ∀ {t : Ty} {q : Bool}, Words (tyWords t) → declPlain (CDecl.buildType cfg t q)
  | .path _ e g k, q, h => by
    simp only [tyWords, words_cons] at h
    simp only [CDecl.buildType, declPlain, declaratorsPlain]
    exact ⟨h.1, buildGArgs_plain h.2, trivial⟩
  | .prim p, q, _ => by
    simp only [CDecl.buildType, declPlain, declaratorsPlain, cgargsPlain, and_true]
    exact prim_plain _ _
  | .ptr t pc nl rf, q, h => by
    simp only [tyWords] at h
    simp only [CDecl.buildType]
    exact declPlain_push (by simp [declaratorsPlain]) (buildType_plain h)
  | .array t len, q, h => by
    simp only [tyWords, words_cons] at h
    simp only [CDecl.buildType]
    exact declPlain_push (by simp [declaratorsPlain, h.1]) (buildType_plain h.2)
  | .fnptr ret args _ never, q, h => by
    simp only [tyWords, words_append] at h
    simp only [CDecl.buildType]
    exact declPlain_push (by simp [declaratorsPlain]) (declPlain_push
      (by simp only [declaratorsPlain, and_true]; exact buildFArgs_plain h.2) (buildType_plain h.1))
theorem buildGArgs_plain {cfg : DeclConfig} : ∀ {gs : List GArg}, Words (gargsWords gs) → cgargsPlain (CDecl.buildGArgs cfg gs)
  | [], _ => by simp only [CDecl.buildGArgs, cgargsPlain]
  | .type t :: gs, h => by
    simp only [gargsWords, words_append] at h
    simp only [CDecl.buildGArgs, cgargsPlain]
    exact ⟨buildType_plain h.1, buildGArgs_plain h.2⟩
  | .const c :: gs, h => by
    simp only [gargsWords, words_cons] at h
    simp only [CDecl.buildGArgs, cgargsPlain]
    exact ⟨h.1, buildGArgs_plain h.2⟩
theorem buildFArgs_plain {cfg : DeclConfig} : ∀ {as : List FArg}, Words (fargsWords as) → cargsPlain (CDecl.buildFArgs cfg as)
  | [], _ => by simp only [CDecl.buildFArgs, cargsPlain]
  | .mk n t :: as, h => by
    simp only [fargsWords, words_append, words_toList] at h
    simp only [CDecl.buildFArgs, cargsPlain]
    exact ⟨h.1.1, buildType_plain h.1.2, buildFArgs_plain h.2⟩
end

theorem buildArgs_plain {cfg : DeclConfig} : ∀ {as : List FnArg} {ds : List CArg}, (∀ a ∈ as, Words (argWords a)) →
    CDecl.buildArgs cfg as = some ds → cargsPlain ds
  | [], ds, _, h => by simp only [CDecl.buildArgs, Option.some.injEq] at h; subst h; simp only [cargsPlain]
  | a :: as, ds, hw, h => by
    have ha := hw a (by simp)
    simp only [argWords, words_append, words_toList] at ha
    simp only [CDecl.buildArgs, Option.bind_eq_bind, Option.bind_eq_some_iff, Option.pure_def, Option.some.injEq] at h
    obtain ⟨d, hd, xs, hxs, rfl⟩ := h
    simp only [cargsPlain]
    refine ⟨ha.1.1, ?_, buildArgs_plain (fun x hx => hw x (by simp [hx])) hxs⟩
    unfold CDecl.fromFuncArg at hd
    split at hd
    · simp only [Option.some.injEq] at hd; subst hd; exact buildType_plain ha.1.2
    · rename_i l hl
      split at hd
      · rename_i t' k _ _ ht
        simp only [Option.some.injEq] at hd; subst hd
        refine buildType_plain ?_
        have h1 := ha.1.2
        rw [ht] at h1
        simp only [tyWords] at h1 ⊢
        exact words_cons.mpr ⟨ha.2 _ hl, h1⟩
      · cases hd

section
variable {wc : WConfig}

theorem calm_paren {s : Str} (h : Plain s) (b : Bool) : Calm wc (parenOps s b) := by
  cases b <;> (simp only [parenOps]; calm)

theorem calm_leftOps {c : OutConfig} (h : ConfigFine c) (ds : List CDeclarator) : Calm wc (leftOps c ds) := by
  induction ds with
  | nil => exact calm_nil
  | cons d ds ih =>
    refine calm_append ?_ ih
    cases d with
    | ptr k nl rf =>
      have h1 : Calm wc (optText c.nonNullAttr (· ++ c!" ")) := calm_optText (optInline_trail h.pointers.1)
      have h2 : Calm wc (optText c.nullableAttr (· ++ c!" ")) := calm_optText (optInline_trail h.pointers.2)
      simp only [leftPieceOps, ptrAttrOps]
      cases k <;> (simp only [qualOps]; calm)
    | array l => exact calm_paren (plain_lit rfl) _
    | func a n => exact calm_paren (plain_lit rfl) _

theorem calm_layout (c : OutConfig) (l : Layout) {args : List (List WOp)} (h : ∀ i ∈ args, Calm wc i) :
    Calm wc (layoutOps c l args) := by
  have h1 := calm_vertical (wc := wc) (t := .join c!",") (plain_inline rfl) h
  have h2 := calm_horizontal (wc := wc) (t := .join c!", ") (plain_inline rfl) h
  cases l
  · exact h2
  · exact h1
  · exact calm_try h2 h1

mutual
theorem calm_decl {c : OutConfig} (h : ConfigFine c) (l : Layout) : ∀ (d : CDecl) (i : Option Str),
    declPlain d → OptPlain i → Calm wc (d.ops c l i)
  | .mk q k n g ds, i, hd, hi => by
    simp only [declPlain] at hd
    obtain ⟨hn, hg, hds⟩ := hd
    simp only [CDecl.ops]
    have h1 : Calm wc (qualOps q) := by cases q <;> (simp only [qualOps]; calm)
    have h2 : Calm wc (ctypeOps c k) := by
      rcases k with _ | k
      · exact calm_nil
      · cases k <;> (simp only [ctypeOps, DeclKind.word]; calm)
    have h3 : Calm wc (templateOps (CGArg.opsList c g)) := by
      have hg := calm_gargs h g hg
      revert hg
      cases CGArg.opsList c g with
      | nil => intro _; exact calm_nil
      | cons x xs =>
        intro hg
        exact calm_append (calm_append (calm_text (plain_inline rfl))
          (calm_horizontal (t := .join c!", ") (plain_inline rfl) hg)) (calm_text (plain_inline rfl))
    have h4 : Calm wc (identSpaceOps i) := by cases i <;> (simp only [identSpaceOps]; calm)
    have h5 : Calm wc (identOps i) := by
      cases i with
      | none => exact calm_nil
      | some i => exact calm_text (plain_inline (hi i rfl))
    have h6 := calm_leftOps (wc := wc) h ds.reverse
    have h7 := calm_right h l false ds hds
    calm
theorem calm_right {c : OutConfig} (h : ConfigFine c) (l : Layout) (p : Bool) : ∀ ds : List CDeclarator,
    declaratorsPlain ds → Calm wc (CDecl.rightOps c l p ds)
  | [], _ => by simp only [CDecl.rightOps]; exact calm_nil
  | .ptr _ _ _ :: rest, hd => by
    simp only [declaratorsPlain] at hd
    simp only [CDecl.rightOps]; exact calm_right h _ true rest hd
  | .array len :: rest, hd => by
    simp only [declaratorsPlain] at hd
    have := hd.1
    simp only [CDecl.rightOps]
    have h1 := calm_right h c.function.args false rest hd.2
    have h2 := calm_paren (wc := wc) (s := c!")") rfl p
    calm
  | .func args never :: rest, hd => by
    simp only [declaratorsPlain] at hd
    simp only [CDecl.rightOps]
    have h1 := calm_right h c.function.args true rest hd.2
    have h2 := calm_paren (wc := wc) (s := c!")") rfl p
    have h3 := calm_layout c l (calm_args h args hd.1)
    have h6 : Calm wc (optText c.noReturn (c!" " ++ ·)) := calm_optText (optInline_lead h.noReturn)
    have h4 : Calm wc (noReturnOps c never) := by unfold noReturnOps; calm
    have h5 : Calm wc (voidOps c args.isEmpty) := by unfold voidOps; calm
    calm
theorem calm_gargs {c : OutConfig} (h : ConfigFine c) : ∀ gs : List CGArg, cgargsPlain gs →
    ∀ i ∈ CGArg.opsList c gs, Calm wc i
  | [], _ => by simp [CGArg.opsList]
  | .type d :: gs, hd => by
    simp only [cgargsPlain] at hd
    simp only [CGArg.opsList, List.mem_cons, forall_eq_or_imp]
    exact ⟨calm_decl h _ d none hd.1 nofun, calm_gargs h gs hd.2⟩
  | .const s :: gs, hd => by
    simp only [cgargsPlain] at hd
    simp only [CGArg.opsList, List.mem_cons, forall_eq_or_imp]
    exact ⟨calm_text (plain_inline hd.1), calm_gargs h gs hd.2⟩
theorem calm_args {c : OutConfig} (h : ConfigFine c) : ∀ as : List CArg, cargsPlain as →
    ∀ i ∈ CArg.opsList c as, Calm wc i
  | [], _ => by simp [CArg.opsList]
  | .mk n d :: as, hd => by
    simp only [cargsPlain] at hd
    simp only [CArg.opsList, List.mem_cons, forall_eq_or_imp]
    exact ⟨calm_decl h _ d n hd.2.1 hd.1, calm_args h as hd.2.2⟩
end

theorem calm_declOps {c : OutConfig} (h : ConfigFine c) {t : Ty} (ht : Words (tyWords t)) {i : Str} (hi : Plain i) :
    Calm wc (declOps c t i) :=
  calm_decl h _ _ _ (buildType_plain ht) (by rintro s hs; injection hs with hs; exact hs ▸ hi)

theorem calm_typeOps {c : OutConfig} (h : ConfigFine c) {t : Ty} (ht : Words (tyWords t)) : Calm wc (typeOps c t) :=
  calm_decl h _ _ _ (buildType_plain ht) nofun

theorem calm_funcDecl {c : OutConfig} (h : ConfigFine c) {f : FuncItem} (hf : FuncFine c f) (l : Layout) :
    Calm wc (funcDeclOps c f l) := by
  obtain ⟨h1, -, h3, h4, -⟩ := hf
  unfold funcDeclOps
  split
  · rename_i d hd
    simp only [CDecl.fromFunc, Option.bind_eq_bind, Option.bind_eq_some_iff, Option.pure_def, Option.some.injEq] at hd
    obtain ⟨as, has, rfl⟩ := hd
    refine calm_decl h _ _ _ (declPlain_push ?_ (buildType_plain h3)) (by rintro s hs; injection hs with hs; exact hs ▸ h1)
    simp only [declaratorsPlain, and_true]
    exact buildArgs_plain h4 has
  · exact calm_panic

/-! ## Literals -/

theorem inline_braces {a m z : Str} (ha : Inline a) (hm : Inline m) (hz : Inline z) :
    Inline (a ++ c!"{" ++ m ++ c!"}" ++ z) := by
  intro d b r hr
  obtain ⟨r1, e1, o1⟩ := ha d b r hr
  have e2 : scan r1 c!"{" = some (midLine d (b + 1)) := by rcases o1 with rfl | rfl <;> rfl
  obtain ⟨r3, e3, o3⟩ := hm d (b + 1) _ (.inr rfl)
  have e4 : scan r3 c!"}" = some (midLine d b) := by rcases o3 with rfl | rfl <;> rfl
  obtain ⟨r5, e5, o5⟩ := hz d b _ (.inr rfl)
  refine ⟨r5, ?_, o5⟩
  rw [List.append_assoc, List.append_assoc, List.append_assoc, scan_some e1, scan_some e2, scan_some e3, scan_some e4, e5]

theorem inline_quoted {s : Str} (h : Plain s) : Inline (c!"\"" ++ s ++ c!"\"") := by
  intro d b r hr
  have e1 : scan r c!"\"" = some ⟨.quote '"', .rest, d, b⟩ := by rcases hr with rfl | rfl <;> rfl
  refine ⟨midLine d b, ?_, .inr rfl⟩
  rw [List.append_assoc, scan_some e1, scan_some (inline_quote h d b _)]
  rfl

/-- A comment with a plain text in a line. -/
theorem inline_comment {s : Str} (h : Plain s) : Inline (c!"/*" ++ s ++ c!"*/") := by
  intro d b r hr
  have key : ∀ l : Line, l = .start ∨ l = .rest → ∀ r, r = (⟨.code, l, d, b⟩ : Reader) →
      ∃ r', scan r (c!"/*" ++ s ++ c!"*/") = some r' ∧ Ok d b r' := by
    rintro l hl r rfl
    have e1 : scan ⟨.code, l, d, b⟩ c!"/*" = some ⟨.block, l, d, b⟩ := by rcases hl with rfl | rfl <;> rfl
    obtain ⟨r2, e2, o2⟩ := plain_block h (d := d) (b := b) (l := l) (.inl rfl)
    refine ⟨⟨.code, l, d, b⟩, ?_, ?_⟩
    · rw [List.append_assoc, scan_some e1, scan_some e2]
      rcases o2 with rfl | rfl <;> rcases hl with rfl | rfl <;> rfl
    · rcases hl with rfl | rfl
      · exact .inl rfl
      · exact .inr rfl
  rcases hr with rfl | rfl
  · exact key .start (.inl rfl) _ rfl
  · exact key .rest (.inr rfl) _ rfl

theorem inline_label {k : Str} (h : Plain k) : Inline (c!"/* ." ++ k ++ c!" = */ ") := by
  have h1 := inline_append (inline_comment (s := c!" ." ++ k ++ c!" = ") (by plain)) (plain_inline (s := c!" ") rfl)
  simpa using h1

theorem inline_initLabel {lang : Language} {k : Str} (h : Plain k) : Inline (initLabel lang k) := by
  cases lang with
  | cxx => exact inline_label h
  | _ => all_goals (simp only [initLabel]; inl)

theorem tail_initMulti {c : OutConfig} (h : ConfigFine c) (last : Bool) {k : Str} (hk : Plain k) {i : Option Init}
    (hi : ∀ x, i = some x → Calm wc x.1) : Tail wc (initMulti c last k i) := by
  cases i with
  | none => exact tail_nil
  | some x =>
    obtain ⟨ops, cfg⟩ := x
    have h1 : Calm wc ops := hi _ rfl
    have h2 := calm_text (wc := wc) (inline_label hk)
    have h3 : Calm wc ([.text (c!"/* ." ++ k ++ c!" = */ ")] ++ ops ++ onlyIf (!last) [.text c!","]) := by calm
    have := tail_para (para_cond h cfg h3.para)
    simpa [initMulti] using this

theorem tail_initsMulti {c : OutConfig} (h : ConfigFine c) {fields : List (Str × Init)}
    (hf : ∀ f ∈ fields, Plain f.1 ∧ Calm wc f.2.1) (keys : List Str) : Tail wc (initsMulti c fields keys) := by
  induction keys with
  | nil => exact tail_nil
  | cons k ks ih =>
    refine tail_append ?_ ih
    cases hl : fields.lookup k with
    | none => exact tail_nil
    | some i =>
      have := hf (k, i) (mem_of_lookup hl)
      exact tail_initMulti h _ this.1 (by rintro x hx; injection hx with hx; exact hx ▸ this.2)

theorem calm_initsSingle {c : OutConfig} {fields : List (Str × Init)}
    (hf : ∀ f ∈ fields, Plain f.1 ∧ Calm wc f.2.1) (keys : List Str) (first : Bool) :
    Calm wc (initsSingle c fields first keys) := by
  induction keys generalizing first with
  | nil => exact calm_nil
  | cons k ks ih =>
    refine calm_append ?_ (ih false)
    cases hl : fields.lookup k with
    | none => exact calm_nil
    | some i =>
      obtain ⟨ops, cfg⟩ := i
      obtain ⟨h1, h2⟩ := hf (k, ops, cfg) (mem_of_lookup hl)
      have h3 := calm_text (wc := wc) (inline_initLabel (lang := c.language) h1)
      simp only [initSingle]
      calm

theorem calm_structLit {e : Env} (h : ConfigFine e.cfg) (q : Bool) (p : Str) {x : Str} (hx : Plain x)
    {fields : List (Str × Init)} (hf : ∀ f ∈ fields, Plain f.1 ∧ Calm wc f.2.1) :
    Calm wc (structLitOps e q p x fields) := by
  have h1 := tail_initsMulti (wc := wc) h hf (e.fieldNames p)
  have h2 := calm_initsSingle (wc := wc) (c := e.cfg) hf (e.fieldNames p) true
  have hn : ∀ lang : Language, Calm wc [.text (if lang = .c then c!"(" ++ x ++ c!")" else x)] := by
    intro lang; calm
  intro d b
  have ho : Tri wc (Ok d b) [.text c!"{"] (Ok d (b + 1)) :=
    tri_text (fun _ h => h) fun r hr => ⟨midLine d (b + 1), by rcases hr with rfl | rfl <;> rfl, .inr rfl⟩
  have hc : Tri wc (Ok d (b + 1)) [.text c!"}"] (Ok d b) :=
    tri_text (fun _ h => h) fun r hr => ⟨midLine d b, by rcases hr with rfl | rfl <;> rfl, .inr rfl⟩
  have hm : Tri wc (Ok d (b + 1)) (if multiLine e.cfg q then
      [.pushTab] ++ initsMulti e.cfg fields (e.fieldNames p) ++ [.pop, .newLine]
      else [.text c!" "] ++ initsSingle e.cfg fields true (e.fieldNames p) ++ [.text c!" "]) (Ok d (b + 1)) := by
    split
    · refine tri_append (tri_append tri_pushTab (tri_pre (h1 d (b + 1)) fun _ h => h.done)) ?_
      exact tri_cons tri_pop (tri_post tri_newLine fun _ h => h.ok)
    · have : Calm wc ([.text c!" "] ++ initsSingle e.cfg fields true (e.fieldNames p) ++ [.text c!" "]) := by calm
      exact this d (b + 1)
  have hl := h.lang
  unfold structLitOps
  split
  · rename_i hc; exact absurd hc hl
  · exact tri_append (tri_append (tri_cons (hn _ d b) ho) hm) hc

theorem knownAssoc_plain {p n s : Str} (h : knownAssoc p n = some s) : Plain s := by
  unfold knownAssoc at h
  split at h
  · cases h
  · rename_i hn
    have hn : n = c!"MAX" ∨ n = c!"MIN" := by
      rcases Classical.em (n = c!"MAX") with h | h
      · exact .inl h
      · rcases Classical.em (n = c!"MIN") with h' | h'
        · exact .inr h'
        · exact absurd ⟨h, h'⟩ hn
    obtain ⟨q, hq, rfl⟩ := Option.map_eq_some_iff.mp h
    obtain ⟨r, -, hr⟩ := Option.bind_eq_some_iff.mp hq
    have h1 : Plain q := by
      unfold limitPrefix at hr
      split at hr <;> first | (injection hr with hr; subst hr; rfl) | cases hr
    have h2 : Plain n := by rcases hn with rfl | rfl <;> rfl
    plain

/-- The enums to which paths refer have plain names. -/
def EnumsPlain (e : Env) : Prop :=
  ∀ p, ∀ x ∈ (e.enums.getItems p).getD [], Plain x.exportName ∧ ∀ v ∈ x.variants, Plain v.exportName

theorem reference_plain {e : Env} (h : EnumsPlain e) {p n s : Str} (hs : e.variantReference p n = some s) : Plain s := by
  unfold Env.variantReference at hs
  obtain ⟨x, hx, hv⟩ := List.exists_of_findSome?_eq_some hs
  obtain ⟨h1, h2⟩ := h p x hx
  unfold EnumItem.variantReference at hv
  obtain ⟨v, hm, rfl⟩ := Option.map_eq_some_iff.mp hv
  have := h2 v (List.mem_of_find?_eq_some hm)
  plain

theorem pathText_plain {e : Env} (h : EnumsPlain e) {a : Option (Str × Str)} {n : Str}
    (hw : Words (litWords (.path a n))) : Plain (pathText e a n) := by
  rcases a with _ | ⟨p, x⟩
  · simp only [litWords] at hw; exact hw n (by simp)
  · simp only [litWords] at hw
    have h1 := hw x (by simp)
    have h2 := hw n (by simp)
    simp only [pathText]
    split
    · rename_i hk; exact knownAssoc_plain hk
    · split
      · rename_i hk; exact reference_plain h hk
      · unfold assocPrefix
        plain

theorem exprText_c {lang : Language} (h : lang ≠ .cython) (s : Str) : exprText lang s = s := by
  simp [exprText, h]

theorem calm_arrayOpen {lang : Language} (h : lang ≠ .cython) : arrayOpen lang = c!"{ " ∧ arrayClose lang = c!"}" := by
  cases lang <;> simp_all [arrayOpen, arrayClose]

mutual
theorem calm_lit {e : Env} (h : ConfigFine e.cfg) (he : EnumsPlain e) : ∀ l : Lit, Words (litWords l) →
    (∀ s ∈ litTexts l, Inline s) → Calm wc (l.ops e)
  | .expr s, _, ht => by
    simp only [Lit.ops, exprText_c h.lang]; exact calm_text (ht s (by simp [litTexts]))
  | .path a n, hw, _ => by simp only [Lit.ops]; exact calm_text (plain_inline (pathText_plain he hw))
  | .field b n, hw, ht => by
    simp only [litWords, words_cons] at hw
    simp only [litTexts] at ht
    have := calm_lit h he b hw.2 ht
    have := hw.1
    simp only [Lit.ops]; calm
  | .unary o v, hw, ht => by
    simp only [litWords] at hw
    simp only [litTexts, List.mem_cons, forall_eq_or_imp] at ht
    have := calm_lit h he v hw ht.2
    have := ht.1
    simp only [Lit.ops]; calm
  | .binop l o r, hw, ht => by
    simp only [litWords, words_append] at hw
    simp only [litTexts, List.mem_cons, forall_eq_or_imp, List.mem_append] at ht
    have := calm_lit h he l hw.1 fun s hs => ht.2 s (.inl hs)
    have := calm_lit h he r hw.2 fun s hs => ht.2 s (.inr hs)
    have := ht.1
    simp only [Lit.ops]; calm
  | .cast t v, hw, ht => by
    simp only [litWords, words_append] at hw
    simp only [litTexts] at ht
    have := calm_lit h he v hw.2 ht
    have := calm_typeOps (wc := wc) h hw.1
    simp only [Lit.ops, castOps]; calm
  | .array items, hw, ht => by
    simp only [litWords] at hw
    simp only [litTexts] at ht
    have hi := calm_litItems h he items hw ht
    simp only [Lit.ops, (calm_arrayOpen h.lang).1, (calm_arrayOpen h.lang).2]
    intro d b
    have ho : Tri wc (Ok d b) [.text c!"{ "] (Ok d (b + 1)) :=
      tri_text (fun _ h => h) fun r hr => ⟨midLine d (b + 1), by rcases hr with rfl | rfl <;> rfl, .inr rfl⟩
    have hc : Tri wc (Ok d (b + 1)) [.text c!"}"] (Ok d b) :=
      tri_text (fun _ h => h) fun r hr => ⟨midLine d b, by rcases hr with rfl | rfl <;> rfl, .inr rfl⟩
    exact tri_append (tri_append ho (hi d (b + 1))) hc
  | .struct p x fs, hw, ht => by
    simp only [litWords, words_cons] at hw
    simp only [litTexts] at ht
    simp only [Lit.ops]
    exact calm_structLit h _ p hw.1 (calm_litFields h he fs hw.2 ht)
theorem calm_litItems {e : Env} (h : ConfigFine e.cfg) (he : EnumsPlain e) : ∀ ls : List Lit, Words (litsWords ls) →
    (∀ s ∈ litsTexts ls, Inline s) → Calm wc (Lit.opsItems e ls)
  | [], _, _ => by simp only [Lit.opsItems]; calm
  | v :: vs, hw, ht => by
    simp only [litsWords, words_append] at hw
    simp only [litsTexts, List.mem_append] at ht
    have := calm_lit h he v hw.1 fun s hs => ht s (.inl hs)
    have := calm_litItems h he vs hw.2 fun s hs => ht s (.inr hs)
    simp only [Lit.opsItems]; calm
theorem calm_litFields {e : Env} (h : ConfigFine e.cfg) (he : EnumsPlain e) : ∀ fs : List LitField,
    Words (litFieldsWords fs) → (∀ s ∈ litFieldsTexts fs, Inline s) →
    ∀ f ∈ LitField.opsList e fs, Plain f.1 ∧ Calm wc f.2.1
  | [], _, _ => by simp [LitField.opsList]
  | .mk n v cfg :: fs, hw, ht => by
    simp only [litFieldsWords, words_cons, words_append] at hw
    simp only [litFieldsTexts, List.mem_append] at ht
    simp only [LitField.opsList, List.mem_cons, forall_eq_or_imp]
    exact ⟨⟨hw.1, calm_lit h he v hw.2.1 fun s hs => ht s (.inl hs)⟩,
      calm_litFields h he fs hw.2.2 fun s hs => ht s (.inr hs)⟩
end

theorem calm_fine {e : Env} (h : ConfigFine e.cfg) (he : EnumsPlain e) {l : Lit} (hl : LitFine l) : Calm wc (l.ops e) :=
  calm_lit h he l hl.1 hl.2

mutual
theorem fine_peel {f : Str → Bool} : ∀ {l v : Lit}, LitFine l → l.peel f = some v → LitFine v
  | .struct p x fs, v, h, hp => by
    simp only [Lit.peel] at hp
    split at hp
    · refine fine_peelHead (fs := fs) ?_ hp
      simp only [LitFine, litWords, litTexts, words_cons] at h
      exact ⟨h.1.2, h.2⟩
    · injection hp with hp; exact hp ▸ h
  | .expr s, v, h, hp => by simp only [Lit.peel, Option.some.injEq] at hp; exact hp ▸ h
  | .path a n, v, h, hp => by simp only [Lit.peel, Option.some.injEq] at hp; exact hp ▸ h
  | .unary o x, v, h, hp => by simp only [Lit.peel, Option.some.injEq] at hp; exact hp ▸ h
  | .binop a o x, v, h, hp => by simp only [Lit.peel, Option.some.injEq] at hp; exact hp ▸ h
  | .field b n, v, h, hp => by simp only [Lit.peel, Option.some.injEq] at hp; exact hp ▸ h
  | .cast t x, v, h, hp => by simp only [Lit.peel, Option.some.injEq] at hp; exact hp ▸ h
  | .array xs, v, h, hp => by simp only [Lit.peel, Option.some.injEq] at hp; exact hp ▸ h
theorem fine_peelHead {f : Str → Bool} : ∀ {fs : List LitField} {v : Lit},
    (Words (litFieldsWords fs) ∧ ∀ s ∈ litFieldsTexts fs, Inline s) → LitField.peelHead f fs = some v → LitFine v
  | [], v, _, hp => by simp [LitField.peelHead] at hp
  | .mk n x g :: fs, v, h, hp => by
    simp only [LitField.peelHead] at hp
    simp only [litFieldsWords, litFieldsTexts, words_cons, words_append, List.mem_append] at h
    exact fine_peel (l := x) ⟨h.1.2.1, fun s hs => h.2 s (.inl hs)⟩ hp
end

end

end Cbindgen.PreSpec
