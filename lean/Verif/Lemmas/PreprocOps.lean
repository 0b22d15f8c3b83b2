import Verif.Lemmas.Preproc
import Verif.Spec.Words
import Verif.Props.Prim
import Verif.Props.IntLit

/-!
# Reading what the writing functions write: the pieces
-/

namespace Cbindgen.PreSpec
open TextSpec CommentSpec

/-- From anywhere in the code to somewhere in the code. -/
def Calm (wc : WConfig) (ops : List WOp) : Prop := ∀ d b, Tri wc (Ok d b) ops (Ok d b)
/-- From the start of a line to the start of a line. -/
def Lines (wc : WConfig) (ops : List WOp) : Prop := ∀ d b, Tri wc (At d b) ops (At d b)
/-- From the start of a line to the end of one. -/
def Para (wc : WConfig) (ops : List WOp) : Prop := ∀ d b, Tri wc (At d b) ops (Done d b)
/-- From the end of a line to the end of one. -/
def Tail (wc : WConfig) (ops : List WOp) : Prop := ∀ d b, Tri wc (Done d b) ops (Done d b)

section
variable {wc : WConfig}

theorem Calm.para {ops : List WOp} (h : Calm wc ops) : Para wc ops := fun d b =>
  tri_post (tri_pre (h d b) fun _ h => h.ok) fun _ h => h.done

theorem Lines.para {ops : List WOp} (h : Lines wc ops) : Para wc ops := fun d b =>
  tri_post (h d b) fun _ h => h.done

/-! ## Calm -/

theorem calm_nil : Calm wc [] := fun _ _ => tri_nil

theorem calm_append {a e : List WOp} (h1 : Calm wc a) (h2 : Calm wc e) : Calm wc (a ++ e) := fun d b =>
  tri_append (h1 d b) (h2 d b)

theorem calm_cons {op : WOp} {ops : List WOp} (h1 : Calm wc [op]) (h2 : Calm wc ops) : Calm wc (op :: ops) :=
  calm_append h1 h2

theorem calm_text {s : Str} (h : Inline s) : Calm wc [.text s] := fun d b =>
  tri_text (fun _ h => h) fun r hr => h d b r hr

theorem calm_newLine : Calm wc [.newLine] := fun _ _ =>
  tri_post (tri_pre tri_newLine fun _ h => h.done) fun _ h => h.ok

theorem calm_pushTab : Calm wc [.pushTab] := fun _ _ => tri_pushTab
theorem calm_pushAlign : Calm wc [.pushAlign] := fun _ _ => tri_pushAlign
theorem calm_pop : Calm wc [.pop] := fun _ _ => tri_pop
theorem calm_panic : Calm wc [.panic] := fun _ _ => tri_panic (by simp)

theorem calm_try {max : Nat} {h v : List WOp} (h1 : Calm wc h) (h2 : Calm wc v) : Calm wc [.tryElse max h v] :=
  fun d b => tri_try (h1 d b) (h2 d b)

theorem calm_onlyIf {q : Bool} {ops : List WOp} (h : Calm wc ops) : Calm wc (onlyIf q ops) := by
  unfold onlyIf; split
  · exact h
  · exact calm_nil

theorem calm_optText {o : Option Str} {f : Str → Str} (h : ∀ s, o = some s → Inline (f s)) :
    Calm wc (optText o f) := by
  unfold optText; split
  · exact calm_text (h _ rfl)
  · exact calm_nil

theorem calm_flatMap {α : Type} {f : α → List WOp} {xs : List α} (h : ∀ x ∈ xs, Calm wc (f x)) :
    Calm wc (xs.flatMap f) := by
  induction xs with
  | nil => exact calm_nil
  | cons x xs ih =>
    rw [List.flatMap_cons]; exact calm_append (h x (by simp)) (ih fun y hy => h y (by simp [hy]))

/-- The text between items. -/
def ListType.sep : ListType → Str
  | .join s => s
  | .cap s => s

theorem calm_after {t : ListType} (ht : Inline (ListType.sep t)) (l : Bool) : Calm wc (t.after l) := by
  cases t <;> cases l <;> simp only [ListType.after] <;>
    first | exact calm_nil | exact calm_text ht

theorem calm_verticalItems {t : ListType} (ht : Inline (ListType.sep t)) : ∀ {items : List (List WOp)},
    (∀ i ∈ items, Calm wc i) → Calm wc (verticalItems t items)
  | [], _ => calm_nil
  | [x], h => calm_append (h x (by simp)) (calm_after ht true)
  | x :: y :: xs, h =>
    calm_append (calm_append (calm_append (h x (by simp)) (calm_after ht false)) calm_newLine)
      (calm_verticalItems ht fun i hi => h i (List.mem_cons_of_mem _ hi))

theorem calm_vertical {t : ListType} (ht : Inline (ListType.sep t)) {items : List (List WOp)}
    (h : ∀ i ∈ items, Calm wc i) : Calm wc (verticalList t items) :=
  calm_append (calm_append calm_pushAlign (calm_verticalItems ht h)) calm_pop

theorem calm_horizontal {t : ListType} (ht : Inline (ListType.sep t)) : ∀ {items : List (List WOp)},
    (∀ i ∈ items, Calm wc i) → Calm wc (horizontalList t items)
  | [], _ => calm_nil
  | [x], h => calm_append (h x (by simp)) (calm_after ht true)
  | x :: y :: xs, h =>
    calm_append (calm_append (h x (by simp)) (calm_after ht false))
      (calm_horizontal ht fun i hi => h i (List.mem_cons_of_mem _ hi))

theorem calm_map {α : Type} {f : α → List WOp} {xs : List α} (h : ∀ x ∈ xs, Calm wc (f x)) :
    ∀ i ∈ xs.map f, Calm wc i := by
  intro i hi
  obtain ⟨x, hx, rfl⟩ := List.mem_map.mp hi
  exact h x hx

theorem calm_texts {t : ListType} (ht : Inline (ListType.sep t)) {xs : List Str} (h : ∀ x ∈ xs, Inline x) :
    Calm wc (verticalTexts t xs) := calm_vertical ht (calm_map fun x hx => calm_text (h x hx))

/-! ## Lines, paragraphs and tails -/

theorem lines_nil : Lines wc [] := fun _ _ => tri_nil
theorem lines_append {a e : List WOp} (h1 : Lines wc a) (h2 : Lines wc e) : Lines wc (a ++ e) := fun d b =>
  tri_append (h1 d b) (h2 d b)
theorem lines_cons {op : WOp} {ops : List WOp} (h1 : Lines wc [op]) (h2 : Lines wc ops) : Lines wc (op :: ops) :=
  lines_append h1 h2
theorem lines_newLine : Lines wc [.newLine] := fun _ _ => tri_pre tri_newLine fun _ h => h.done
theorem lines_newLineIfNotStart : Lines wc [.newLineIfNotStart] := fun _ _ => tri_newLineIfNotStart
theorem lines_onlyIf {q : Bool} {ops : List WOp} (h : Lines wc ops) : Lines wc (onlyIf q ops) := by
  unfold onlyIf; split
  · exact h
  · exact lines_nil
theorem lines_flatMap {α : Type} {f : α → List WOp} {xs : List α} (h : ∀ x ∈ xs, Lines wc (f x)) :
    Lines wc (xs.flatMap f) := by
  induction xs with
  | nil => exact lines_nil
  | cons x xs ih =>
    rw [List.flatMap_cons]; exact lines_append (h x (by simp)) (ih fun y hy => h y (by simp [hy]))

/-- A paragraph with the end of its line. -/
theorem para_newLine {ops : List WOp} (h : Para wc ops) : Lines wc (ops ++ [.newLine]) := fun d b =>
  tri_append (h d b) tri_newLine

theorem lines_then {a e : List WOp} (h1 : Lines wc a) (h2 : Para wc e) : Para wc (a ++ e) := fun d b =>
  tri_append (h1 d b) (h2 d b)

theorem para_then {a e : List WOp} (h1 : Para wc a) (h2 : Tail wc e) : Para wc (a ++ e) := fun d b =>
  tri_append (h1 d b) (h2 d b)

theorem para_panic {ops : List WOp} (h : WOp.panic ∈ ops) : Para wc ops := fun _ _ => tri_panic h

theorem tail_nil : Tail wc [] := fun _ _ => tri_nil
theorem tail_append {a e : List WOp} (h1 : Tail wc a) (h2 : Tail wc e) : Tail wc (a ++ e) := fun d b =>
  tri_append (h1 d b) (h2 d b)
theorem tail_para {ops : List WOp} (h : Para wc ops) : Tail wc (.newLine :: ops) := fun d b =>
  tri_cons tri_newLine (h d b)
theorem tail_onlyIf {q : Bool} {ops : List WOp} (h : Tail wc ops) : Tail wc (onlyIf q ops) := by
  unfold onlyIf; split
  · exact h
  · exact tail_nil
theorem tail_flatMap {α : Type} {f : α → List WOp} {xs : List α} (h : ∀ x ∈ xs, Tail wc (f x)) :
    Tail wc (xs.flatMap f) := by
  induction xs with
  | nil => exact tail_nil
  | cons x xs ih =>
    rw [List.flatMap_cons]; exact tail_append (h x (by simp)) (ih fun y hy => h y (by simp [hy]))
theorem tail_flatten {xs : List (List WOp)} (h : ∀ x ∈ xs, Tail wc x) : Tail wc xs.flatten := by
  induction xs with
  | nil => exact tail_nil
  | cons x xs ih =>
    rw [List.flatten_cons]; exact tail_append (h x (by simp)) (ih fun y hy => h y (by simp [hy]))

/-- Paragraphs with line ends between them. -/
theorem para_spaced {xs : List (List WOp)} (h : ∀ x ∈ xs, Para wc x) : Para wc (spacedBlocks xs) := by
  cases xs with
  | nil => exact lines_nil.para
  | cons x xs =>
    exact para_then (h x (by simp)) (tail_flatMap fun y hy => tail_para (h y (by simp [hy])))

/-! ## Braces -/

theorem tri_open {c : OutConfig} (hl : c.language ≠ .cython) {d b : Nat} :
    Tri wc (Ok d b) c.opn (At d (b + 1)) := by
  have h1 : Tri wc (Ok d b) [.text c!" {"] (Ok d (b + 1)) :=
    tri_text (fun _ h => h) fun r hr => ⟨midLine d (b + 1), by rcases hr with rfl | rfl <;> rfl, .inr rfl⟩
  have h2 : Tri wc (Ok d b) [.text c!"{"] (Ok d (b + 1)) :=
    tri_text (fun _ h => h) fun r hr => ⟨midLine d (b + 1), by rcases hr with rfl | rfl <;> rfl, .inr rfl⟩
  have h3 : Tri wc (Ok d (b + 1)) [.newLine] (At d (b + 1)) := tri_pre tri_newLine fun _ h => h.done
  have h4 : Tri wc (Ok d b) [.newLine] (Ok d b) := calm_newLine d b
  unfold OutConfig.opn
  revert hl
  cases c.language with
  | cython => intro h; exact absurd rfl h
  | _ =>
    all_goals
      intro _
      cases c.braces with
      | sameLine => exact tri_cons h1 (tri_cons tri_pushTab h3)
      | nextLine => exact tri_cons h4 (tri_cons h2 (tri_cons tri_pushTab h3))

theorem tri_close {c : OutConfig} (hl : c.language ≠ .cython) {semi : Bool} {d b : Nat} :
    Tri wc (Done d (b + 1)) (c.cls semi) (Ok d b) := by
  have h : Tri wc (At d (b + 1)) [.text (if semi then c!"};" else c!"}")] (Ok d b) :=
    tri_text (fun _ h => h.ok) fun r hr => ⟨midLine d b, by cases hr; cases semi <;> rfl, .inr rfl⟩
  unfold OutConfig.cls
  revert hl
  cases c.language with
  | cython => intro h; exact absurd rfl h
  | _ => all_goals (intro _; exact tri_cons tri_pop (tri_cons tri_newLine h))

theorem calm_braces {c : OutConfig} (hl : c.language ≠ .cython) {semi : Bool} {body : List WOp}
    (h : Para wc body) : Calm wc (c.opn ++ body ++ c.cls semi) := fun d b =>
  tri_append (tri_append (tri_open hl) (h d (b + 1))) (tri_close hl)

theorem calm_inBraces {c : OutConfig} (hl : c.language ≠ .cython) {body : List WOp} (h : Para wc body) :
    Calm wc (inBraces c body) := calm_braces hl h

/-! ## Conditions -/

theorem plain_words {d : Str} (h : Plain d) {lang : Language} : Plain (defineText lang d) := by
  cases lang <;> simp only [defineText]
  · exact plain_append.mpr ⟨plain_append.mpr ⟨rfl, h⟩, rfl⟩
  · exact plain_append.mpr ⟨plain_append.mpr ⟨rfl, h⟩, rfl⟩
  · exact h

mutual
/-- The names of a condition are plain. -/
def condPlain : Condition → Prop
  | .define d => Plain d
  | .any cs => condsPlain cs
  | .all cs => condsPlain cs
  | .not c => condPlain c
def condsPlain : List Condition → Prop
  | [] => True
  | c :: cs => condPlain c ∧ condsPlain cs
end

mutual
theorem plain_condition {lang : Language} : ∀ {c : Condition}, condPlain c → Plain (c.text lang)
  | .define d, h => by simp only [Condition.text]; exact plain_words (by simpa [condPlain] using h)
  | .any cs, h => by
    simp only [Condition.text]
    refine plain_append.mpr ⟨plain_append.mpr ⟨rfl, plain_conditions ?_ (by simpa [condPlain] using h)⟩, rfl⟩
    cases lang <;> rfl
  | .all cs, h => by
    simp only [Condition.text]
    refine plain_append.mpr ⟨plain_append.mpr ⟨rfl, plain_conditions ?_ (by simpa [condPlain] using h)⟩, rfl⟩
    cases lang <;> rfl
  | .not c, h => by
    simp only [Condition.text]
    exact plain_append.mpr ⟨by cases lang <;> rfl, plain_condition (by simpa [condPlain] using h)⟩
theorem plain_conditions {lang : Language} {sep : Str} (hs : Plain sep) : ∀ {cs : List Condition},
    condsPlain cs → Plain (Condition.texts lang sep cs)
  | [], _ => by simp only [Condition.texts]; rfl
  | c :: cs, h => by
    simp only [condsPlain] at h
    simp only [Condition.texts]
    exact plain_append.mpr ⟨plain_condition h.1, plain_conditionsRest hs h.2⟩
theorem plain_conditionsRest {lang : Language} {sep : Str} (hs : Plain sep) : ∀ {cs : List Condition},
    condsPlain cs → Plain (Condition.textsRest lang sep cs)
  | [], _ => by simp only [Condition.textsRest]; rfl
  | c :: cs, h => by
    simp only [condsPlain] at h
    simp only [Condition.textsRest]
    exact plain_append.mpr ⟨plain_append.mpr ⟨hs, plain_condition h.1⟩, plain_conditionsRest hs h.2⟩
end

theorem findDefine_plain {ds : List (Str × Str)} (h : ∀ d ∈ ds, Plain d.2) {k : DefineKey} {s : Str}
    (hs : findDefine ds k = some s) : Plain s := by
  unfold findDefine at hs
  obtain ⟨m, hm, rfl⟩ := Option.map_eq_some_iff.mp hs
  exact h m (List.mem_of_find?_eq_some hm)

theorem collapse_plain {wrap : List Condition → Condition} {cs : List Condition} {c : Condition}
    (hw : condsPlain cs → condPlain (wrap cs)) (h : condsPlain cs) (hc : collapse wrap cs = some c) :
    condPlain c := by
  match cs, h, hw, hc with
  | [], _, _, hc => simp [collapse] at hc
  | [x], h, _, hc =>
    simp only [collapse, Option.some.injEq] at hc; subst hc; simp only [condsPlain] at h; exact h.1
  | x :: y :: ys, h, hw, hc => simp only [collapse, Option.some.injEq] at hc; subst hc; exact hw h

mutual
theorem condition_plain {ds : List (Str × Str)} (h : ∀ d ∈ ds, Plain d.2) : ∀ {g : Cfg} {c : Condition},
    g.toCondition ds = some c → condPlain c
  | .boolean n, c, hc => by
    simp only [Cfg.toCondition, Option.map_eq_some_iff] at hc
    obtain ⟨s, hs, rfl⟩ := hc
    simp only [condPlain]; exact findDefine_plain h hs
  | .named n v, c, hc => by
    simp only [Cfg.toCondition, Option.map_eq_some_iff] at hc
    obtain ⟨s, hs, rfl⟩ := hc
    simp only [condPlain]; exact findDefine_plain h hs
  | .any cs, c, hc => by
    simp only [Cfg.toCondition] at hc
    exact collapse_plain (fun h => by simpa only [condPlain] using h) (conditions_plain h) hc
  | .all cs, c, hc => by
    simp only [Cfg.toCondition] at hc
    exact collapse_plain (fun h => by simpa only [condPlain] using h) (conditions_plain h) hc
  | .not g, c, hc => by
    simp only [Cfg.toCondition, Option.map_eq_some_iff] at hc
    obtain ⟨x, hx, rfl⟩ := hc
    simp only [condPlain]; exact condition_plain h hx
theorem conditions_plain {ds : List (Str × Str)} (h : ∀ d ∈ ds, Plain d.2) : ∀ {cs : List Cfg},
    condsPlain (Cfg.toConditions ds cs)
  | [] => by simp only [Cfg.toConditions, condsPlain]
  | g :: cs => by
    have h1 := conditions_plain h (cs := cs)
    simp only [Cfg.toConditions]
    cases hg : g.toCondition ds with
    | none => exact h1
    | some c => exact ⟨condition_plain h hg, h1⟩
end

theorem cond_plain {c : OutConfig} (h : ConfigFine c) {g : Option Cfg} {x : Condition} (hx : c.cond g = some x) :
    Plain (x.text c.language) := by
  unfold OutConfig.cond optToCondition at hx
  obtain ⟨g', rfl, hg⟩ := Option.bind_eq_some_iff.mp hx
  exact plain_condition (condition_plain h.defines hg)

/-- The number of conditionals that a condition opens. -/
def condLevel (o : Option Condition) : Nat := if o.isSome then 1 else 0

theorem tri_condBefore {c : OutConfig} (h : ConfigFine c) (g : Option Cfg) {d b : Nat} :
    Tri wc (At d b) (condBefore c (c.cond g)) (At (d + condLevel (c.cond g)) b) := by
  cases hg : c.cond g with
  | none => exact tri_nil
  | some x =>
    have hp := cond_plain h hg
    have hl := h.lang
    have h1 : Tri wc (At d b) [.text c!"#if "] (Ok (d + 1) b) :=
      tri_text (fun _ h => h.ok) fun r hr => ⟨midLine (d + 1) b, by cases hr; rfl, .inr rfl⟩
    have h2 : Tri wc (Ok (d + 1) b) [.text (x.text c.language)] (Ok (d + 1) b) :=
      calm_text (plain_inline hp) _ _
    have h3 : Tri wc (Ok (d + 1) b) [.newLine] (At (d + 1) b) := tri_pre tri_newLine fun _ h => h.done
    have key : Tri wc (At d b) [.pushSpaces 0, .text c!"#if ", .text (x.text c.language), .pop, .newLine]
        (At (d + 1) b) :=
      tri_cons (tri_pushSpaces 0) (tri_cons h1 (tri_cons h2 (tri_cons tri_pop h3)))
    have e : condBefore c (some x) = [.pushSpaces 0, .text c!"#if ", .text (x.text c.language), .pop, .newLine] := by
      unfold condBefore
      revert hl
      cases hk : c.language <;> simp [hk]
    rw [e]; exact key

theorem done_endif (d b : Nat) : scan (lineStart (d + 1) b) c!"#endif" = some ⟨.code, .hash c!"endif", d + 1, b⟩ ∧
    Done d b ⟨.code, .hash c!"endif", d + 1, b⟩ := by
  refine ⟨rfl, fun c hc => ?_⟩
  rcases break_cases hc with rfl | rfl <;> rfl

theorem tri_condAfter {c : OutConfig} (hl : c.language ≠ .cython) (g : Option Cfg) {d b : Nat} :
    Tri wc (Done (d + condLevel (c.cond g)) b) (condAfter c (c.cond g)) (Done d b) := by
  cases hg : c.cond g with
  | none => exact tri_nil
  | some x =>
    have h1 : Tri wc (At (d + 1) b) [.text c!"#endif"] (Done d b) :=
      tri_text (fun _ h => h.ok) fun r hr => by cases hr; exact ⟨_, (done_endif d b).1, (done_endif d b).2⟩
    have key : Tri wc (Done (d + 1) b) [.newLine, .pushSpaces 0, .text c!"#endif", .pop] (Done d b) :=
      tri_cons tri_newLine (tri_cons (tri_pushSpaces 0) (tri_cons h1 tri_pop))
    have e : condAfter c (some x) = [.newLine, .pushSpaces 0, .text c!"#endif", .pop] := by
      unfold condAfter
      revert hl
      cases hk : c.language <;> simp
    rw [e]; exact key

/-- A paragraph under a condition. -/
theorem para_cond {c : OutConfig} (h : ConfigFine c) (g : Option Cfg) {body : List WOp} (hb : Para wc body) :
    Para wc (condBefore c (c.cond g) ++ body ++ condAfter c (c.cond g)) := fun d b =>
  tri_append (tri_append (tri_condBefore h g) (hb _ b)) (tri_condAfter h.lang g)

/-! ## Documentation -/

theorem scan_line_comment {s : Str} (h : OneLine s) (k : Bool) (l : Line) (d b : Nat) :
    scan ⟨.line k, l, d, b⟩ s = some ⟨.line ((s.getLast?.map (· == '\\')).getD k), l, d, b⟩ := by
  induction s generalizing k with
  | nil => rfl
  | cons c s ih =>
    have hc := h c (by simp)
    simp only [scan, step, hc, Bool.false_eq_true, if_false, Option.bind_some]
    rw [ih fun x hx => h x (by simp [hx])]
    cases s with
    | nil => simp
    | cons y ys =>
      rw [List.getLast?_cons_cons]
      cases hg : (y :: ys).getLast? with
      | none => simp at hg
      | some z => rfl

theorem tri_anyText {P Q : Reader → Prop} {s : Str} (hsp : ∀ r n, P r → ∃ r', scan r (List.replicate n ' ') = some r' ∧ P r')
    (hs : ∀ r, P r → ∃ r', scan r s = some r' ∧ Q r') : Tri wc P [.text s] Q := by
  intro w r t w' _ hp hx
  obtain ⟨r', e1, e2⟩ := hs r hp
  rw [exec_single] at hx
  simp only [WOp.exec1, W.put] at hx
  split at hx
  · rename_i hn
    simp only [Option.some.injEq, Prod.mk.injEq] at hx
    rw [← hx.1]
    exact ⟨r', by rw [← hn]; exact e1, e2⟩
  split at hx
  · simp only [Option.some.injEq, Prod.mk.injEq] at hx
    rw [← hx.1]
    exact ⟨r', e1, e2⟩
  · split at hx
    · cases hx
    · simp only [Option.some.injEq, Prod.mk.injEq] at hx
      rename_i n _ _
      obtain ⟨r1, g1, g2⟩ := hsp r n hp
      obtain ⟨r2, e3, e4⟩ := hs r1 g2
      rw [← hx.1, scan_some g1]
      exact ⟨r2, e3, e4⟩

theorem lines_comment {p l : Str} (hp : p = c!"//" ∨ p = c!"///") (h : OneLine l) (hb : l.getLast? ≠ some '\\') :
    Lines wc [.text p, .text l, .newLine] := by
  intro d b
  have h1 : Tri wc (At d b) [.text p] (· = ⟨.line false, .start, d, b⟩) :=
    tri_text (fun _ h => h.ok) fun r hr => by cases hr; rcases hp with rfl | rfl <;> exact ⟨_, rfl, rfl⟩
  have h2 : Tri wc (· = ⟨.line false, .start, d, b⟩) [.text l] (Done d b) := by
    refine tri_anyText (fun r n hr => ?_) fun r hr => ?_
    · subst hr
      refine ⟨_, scan_line_comment ?_ _ _ _ _, ?_⟩
      · intro x hx; simp only [List.mem_replicate] at hx; rw [hx.2]; decide
      · cases n with
        | zero => rfl
        | succ n => simp [List.getLast?_replicate]
    · subst hr
      refine ⟨_, scan_line_comment h _ _ _ _, ?_⟩
      have : (l.getLast?.map (· == '\\')).getD false = false := by
        cases hg : l.getLast? with
        | none => rfl
        | some x => simp; intro hx; exact hb (by rw [hg, hx])
      rw [this]
      intro c hc
      simp [step, hc, newline, lineStart]
  exact tri_cons h1 (tri_cons h2 tri_newLine)

/-- In a block comment at the start of a line, with the same line before. -/
def inComment (d b : Nat) (k : Bool) : Reader := ⟨if k then .star else .block, .start, d, b⟩

theorem scan_block_text {d b : Nat} {s : Str} : ∀ {k : Bool}, OneLine s →
    ¬ Closes ((if k then ['*'] else []) ++ s) → s.getLast? ≠ some '\\' → ∃ k', scan (inComment d b k) s = some (inComment d b k') := by
  have key : ∀ (s : Str) (x : Lex), (x = .block ∨ x = .star ∨ x = .blockBackslash) → OneLine s →
      ¬ Closes ((if x = .star then ['*'] else []) ++ s) →
      ∃ y, (y = .block ∨ y = .star ∨ y = .blockBackslash) ∧ scan ⟨x, .start, d, b⟩ s = some ⟨y, .start, d, b⟩ ∧
        (y = .blockBackslash → s.getLast? = some '\\' ∨ (s = [] ∧ x = .blockBackslash)) := by
    intro s
    induction s with
    | nil => intro x hx _ _; exact ⟨x, hx, rfl, fun h => .inr ⟨rfl, h⟩⟩
    | cons c s ih =>
      intro x hx ho hc
      have hb := ho c (by simp)
      have ho' : OneLine s := fun y hy => ho y (by simp [hy])
      have hstar : x = .star → c ≠ '/' := by
        rintro rfl rfl
        exact hc ⟨[], s, by simp⟩
      have htail : ¬ Closes s := fun h => hc (by
        obtain ⟨p, q, e⟩ := h
        exact ⟨(if x = .star then ['*'] else []) ++ c :: p, q, by rw [← e]; simp⟩)
      have hnext : c = '*' → ¬ Closes ('*' :: s) := by
        rintro rfl h
        obtain ⟨p, q, e⟩ := h
        exact hc ⟨(if x = .star then ['*'] else []) ++ p, q, by rw [← e]; simp⟩
      have hstep : step ⟨x, .start, d, b⟩ c =
          some ⟨if c = '*' then .star else if c = '\\' then .blockBackslash else .block, .start, d, b⟩ := by
        rcases hx with rfl | rfl | rfl
        · rfl
        · simp [step, hstar rfl]
        · simp [step, hb]
      obtain ⟨y, hy, hs, hlast⟩ := ih (if c = '*' then .star else if c = '\\' then .blockBackslash else .block)
        (by by_cases h1 : c = '*' <;> by_cases h2 : c = '\\' <;> simp [h1, h2]) ho' (by
          by_cases h1 : c = '*'
          · simpa [h1] using hnext h1
          · by_cases h2 : c = '\\' <;> simp [h1, h2, htail])
      refine ⟨y, hy, by rw [scan, hstep]; exact hs, fun hbs => .inl ?_⟩
      rcases hlast hbs with h | ⟨h1, h2⟩
      · cases s with
        | nil => simp at h
        | cons z zs => rw [List.getLast?_cons_cons]; exact h
      · subst h1
        by_cases h3 : c = '*'
        · simp [h3] at h2
        · by_cases h4 : c = '\\'
          · simp [h4]
          · simp [h3, h4] at h2
  intro k ho hc hb
  obtain ⟨y, hy, hs, hlast⟩ := key s (if k then .star else .block) (by cases k <;> simp) ho
    (by cases k <;> simpa using hc)
  rcases hy with rfl | rfl | rfl
  · exact ⟨false, hs⟩
  · exact ⟨true, hs⟩
  · rcases hlast rfl with h | ⟨-, h⟩
    · exact absurd h hb
    · cases k <;> simp at h

theorem scan_block_spaces (d b n : Nat) (k : Bool) : ∃ k', (k' = true → k = true ∧ n = 0) ∧
    scan (inComment d b k) (List.replicate n ' ') = some (inComment d b k') := by
  have h0 : ∀ n, scan (inComment d b false) (List.replicate n ' ') = some (inComment d b false) := by
    intro n
    induction n with
    | zero => rfl
    | succ n ih => rw [List.replicate_succ, scan]; exact ih
  cases n with
  | zero => exact ⟨k, fun h => ⟨h, rfl⟩, rfl⟩
  | succ n =>
    refine ⟨false, nofun, ?_⟩
    rw [List.replicate_succ, scan]
    cases k <;> exact h0 n

theorem tri_blockBreak {d b : Nat} : Tri wc (fun r => ∃ k, r = inComment d b k) [.newLine] (· = inComment d b false) := by
  intro w r t w' _ hp h
  rw [exec_single] at h
  simp only [WOp.exec1, Option.some.injEq, Prod.mk.injEq] at h
  rw [← h.1]
  obtain ⟨k, rfl⟩ := hp
  refine ⟨_, ?_, rfl⟩
  cases k <;> cases wc.lineEnding <;> rfl

theorem tri_blockLine {p l : Str} (hp : p = [] ∨ p = c!" *") (h : OneLine l) (hb : l.getLast? ≠ some '\\')
    (hc : ¬ Closes (p ++ l)) {d b : Nat} :
    Tri wc (· = inComment d b false) [.text p, .text l, .newLine] (· = inComment d b false) := by
  have hc0 : ¬ Closes l := fun ⟨x, y, e⟩ => hc ⟨p ++ x, y, by rw [← e]; simp⟩
  have h1 : Tri wc (· = inComment d b false) [.text p]
      (fun r => ∃ k, (k = true → ¬ Closes ('*' :: l)) ∧ r = inComment d b k) := by
    refine tri_anyText (fun r n hr => ?_) fun r hr => ?_
    · subst hr
      obtain ⟨k', hk, hs⟩ := scan_block_spaces d b n false
      exact ⟨_, hs, by cases k' with | false => rfl | true => exact absurd (hk rfl).1 (by simp)⟩
    · subst hr
      rcases hp with rfl | rfl
      · exact ⟨_, rfl, false, nofun, rfl⟩
      · exact ⟨_, rfl, true, fun _ ⟨x, y, e⟩ => hc ⟨' ' :: x, y, by simp [e]⟩, rfl⟩
  have h2 : Tri wc (fun r => ∃ k, (k = true → ¬ Closes ('*' :: l)) ∧ r = inComment d b k) [.text l]
      (fun r => ∃ k, r = inComment d b k) := by
    refine tri_anyText (fun r n hr => ?_) fun r hr => ?_
    · obtain ⟨k, hk, rfl⟩ := hr
      obtain ⟨k', hk', hs⟩ := scan_block_spaces d b n k
      exact ⟨_, hs, k', fun h => hk (hk' h).1, rfl⟩
    · obtain ⟨k, hk, rfl⟩ := hr
      obtain ⟨k', hs⟩ := scan_block_text (d := d) (b := b) (k := k) h (by
        cases k with
        | false => simpa using hc0
        | true => simpa using hk rfl) hb
      exact ⟨_, hs, k', rfl⟩
  exact tri_cons h1 (tri_cons h2 tri_blockBreak)

theorem lines_block {o p : Str} (ho : o = c!"/*" ∨ o = c!"/**") (hp : p = [] ∨ p = c!" *") {ls : List Str}
    (h : ∀ l ∈ ls, OneLine l ∧ l.getLast? ≠ some '\\' ∧ ¬ Closes (p ++ l)) :
    Lines wc ([.text o, .newLine] ++ ls.flatMap (fun l => [.text p, .text l, .newLine]) ++ [.text c!" */", .newLine]) := by
  intro d b
  have h1 : Tri wc (At d b) [.text o] (fun r => ∃ k, r = inComment d b k) :=
    tri_text (fun _ h => h.ok) fun r hr => by
      cases hr
      rcases ho with rfl | rfl
      · exact ⟨_, rfl, false, rfl⟩
      · exact ⟨_, rfl, true, rfl⟩
  have h2 : Tri wc (· = inComment d b false) (ls.flatMap fun l => [.text p, .text l, .newLine])
      (· = inComment d b false) := by
    induction ls with
    | nil => exact tri_nil
    | cons l ls ih =>
      rw [List.flatMap_cons]
      obtain ⟨g1, g2, g3⟩ := h l (by simp)
      exact tri_append (tri_blockLine hp g1 g2 g3) (ih fun x hx => h x (by simp [hx]))
  have h3 : Tri wc (· = inComment d b false) [.text c!" */"] (Done d b) := by
    refine tri_anyText (fun r n hr => ?_) fun r hr => ?_
    · subst hr
      obtain ⟨k', hk, hs⟩ := scan_block_spaces d b n false
      exact ⟨_, hs, by cases k' with | false => rfl | true => exact absurd (hk rfl).1 (by simp)⟩
    · subst hr
      exact ⟨lineStart d b, rfl, At.done rfl⟩
  exact tri_append (tri_append (tri_cons h1 tri_blockBreak) h2) (tri_cons h3 tri_newLine)

theorem lines_docs {c : OutConfig} (hl : c.language ≠ .cython) {doc : List Str} (h : DocFine c doc) :
    Lines wc (docOps c doc) := by
  have e : docOps c doc = docOpsC c doc := by
    unfold docOps; split
    · rename_i hc; exact absurd hc hl
    · rfl
  rw [e]
  have hd : ∀ l ∈ c.docLines doc, OneLine l ∧ l.getLast? ≠ some '\\' ∧ ¬ Closes (c.docStyle.linePrefix ++ l) := by
    intro l hm
    refine h l ?_
    unfold OutConfig.docLines at hm
    split at hm
    · exact List.mem_of_mem_take hm
    · exact hm
  unfold docOpsC
  split
  · exact lines_nil
  have hs : c.docStyle ≠ .auto := by
    unfold OutConfig.docStyle
    split <;> simp_all
  revert hd hs
  cases c.docStyle with
  | auto => intro _ hs; exact absurd rfl hs
  | c => intro hd _; exact lines_block (.inl rfl) (.inl rfl) hd
  | doxy => intro hd _; exact lines_block (.inr rfl) (.inr rfl) hd
  | c99 =>
    intro hd _
    simp only [DocStyle.opening, DocStyle.closing, DocStyle.linePrefix, List.nil_append, List.append_nil]
    exact lines_flatMap fun l hm => lines_comment (.inl rfl) (hd l hm).1 (hd l hm).2.1
  | cxx =>
    intro hd _
    simp only [DocStyle.opening, DocStyle.closing, DocStyle.linePrefix, List.nil_append, List.append_nil]
    exact lines_flatMap fun l hm => lines_comment (.inr rfl) (hd l hm).1 (hd l hm).2.1

end

end Cbindgen.PreSpec
