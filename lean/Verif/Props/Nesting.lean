import Verif.Props.Preproc

/-!
# C27: namespaces are closed in reverse order, and linkage blocks under the condition that opens them
-/

namespace Cbindgen.PreSpec
open TextSpec CommentSpec

theorem linesOf_ne_nil (s : Str) : TextSpec.linesOf s ≠ [] := by
  induction s with
  | nil => simp [TextSpec.linesOf]
  | cons c s ih =>
    simp only [TextSpec.linesOf]
    split
    · simp
    · split <;> simp

theorem linesOf_break {c : Char} (hc : isBreak c = true) : ∀ {a t : Str},
    TextSpec.linesOf (a ++ c :: t) = TextSpec.linesOf a ++ TextSpec.linesOf t
  | [], t => by simp [TextSpec.linesOf, hc]
  | x :: a, t => by
    have ih := linesOf_break hc (a := a) (t := t)
    simp only [List.cons_append, TextSpec.linesOf]
    by_cases hx : isBreak x = true
    · simp [hx, ih]
    · simp only [hx]
      rw [ih]
      cases hl : TextSpec.linesOf a with
      | nil => exact absurd hl (linesOf_ne_nil a)
      | cons l ls => simp

theorem linesOf_oneLine : ∀ {a : Str}, OneLine a → TextSpec.linesOf a = [a]
  | [], _ => rfl
  | x :: a, h => by
    have hx := h x (by simp)
    have ih : TextSpec.linesOf a = [a] := linesOf_oneLine fun y hy => h y (List.mem_cons_of_mem _ hy)
    simp [TextSpec.linesOf, hx, ih]

section
variable {α : Type} {f : Str → Option α}

theorem found_break {c : Char} (hc : isBreak c = true) (a t : Str) : found f (a ++ c :: t) = found f a ++ found f t := by
  simp [found, linesOf_break hc]

theorem found_nil (h0 : f [] = none) : found f [] = [] := by simp [found, TextSpec.linesOf, h0]

theorem found_eol (h0 : f [] = none) (k : LineEnding) (a t : Str) : found f (a ++ k.asStr ++ t) = found f a ++ found f t := by
  cases k with
  | lf => simpa [LineEnding.asStr] using found_break (f := f) (c := '\n') rfl a t
  | cr => simpa [LineEnding.asStr] using found_break (f := f) (c := '\r') rfl a t
  | crlf =>
    have h1 := found_break (f := f) (c := '\r') rfl a ('\n' :: t)
    have h2 := found_break (f := f) (c := '\n') rfl [] t
    rw [found_nil h0] at h2
    simp only [List.nil_append] at h2
    rw [h2] at h1
    simpa [LineEnding.asStr] using h1
  | native =>
    simpa [LineEnding.asStr] using found_break (f := f) (c := '\n') rfl a t

theorem found_line (n : Nat) {s : Str} (hs : OneLine s) :
    found f (List.replicate n ' ' ++ s) = (f (s.dropWhile (· == ' '))).toList := by
  have h1 : OneLine (List.replicate n ' ' ++ s) := by
    intro x hx
    rw [List.mem_append] at hx
    rcases hx with hx | hx
    · rw [List.mem_replicate] at hx; rw [hx.2]; rfl
    · exact hs x hx
  have h2 : (List.replicate n ' ' ++ s).dropWhile (· == ' ') = s.dropWhile (· == ' ') := by
    induction n with
    | zero => rfl
    | succ n ih =>
      rw [List.replicate_succ, List.cons_append, List.dropWhile_cons_of_pos (by simp)]
      exact ih fun x hx => h1 x (by
        rw [List.replicate_succ]; exact List.mem_cons_of_mem _ hx)
  rw [found, linesOf_oneLine h1]
  simp only [List.filterMap_cons, List.filterMap_nil, h2]
  cases f (s.dropWhile (· == ' ')) <;> simp

end

/-! ## Whole lines -/

inductive Row
  | line (s : Str)
  | eol
  | eolIf

def Row.ops : Row → List WOp
  | .line s => [.text s, .newLine]
  | .eol => [.newLine]
  | .eolIf => [.newLineIfNotStart]

def Row.text? : Row → Option Str
  | .line s => some s
  | _ => none

theorem put_spaces {s t : Str} {v v' : W} (hp : v.put s = some (t, v')) : ∃ n, t = List.replicate n ' ' ++ s := by
  unfold W.put at hp
  split at hp
  · rename_i he
    simp only [Option.some.injEq, Prod.mk.injEq] at hp
    obtain ⟨rfl, rfl⟩ := hp
    exact ⟨0, by simp [he]⟩
  · split at hp
    · simp only [Option.some.injEq, Prod.mk.injEq] at hp
      exact ⟨0, by simp [hp.1]⟩
    · split at hp
      · cases hp
      · simp only [Option.some.injEq, Prod.mk.injEq] at hp
        exact ⟨_, hp.1.symm⟩

theorem found_rows {α : Type} {f : Str → Option α} (h0 : f [] = none) {wc : WConfig} : ∀ {rows : List Row} {w w' : W} {t : Str},
    (∀ s, Row.line s ∈ rows → OneLine s) → WOp.exec wc (rows.flatMap Row.ops) w = some (t, w') →
    found f t = rows.filterMap fun r => r.text?.bind fun s => f (s.dropWhile (· == ' '))
  | [], w, w', t, _, hx => by
    rw [List.flatMap_nil, exec_nil] at hx
    simp only [Option.some.injEq, Prod.mk.injEq] at hx
    rw [← hx.1, found_nil h0]; rfl
  | r :: rows, w, w', t, ho, hx => by
    rw [List.flatMap_cons] at hx
    obtain ⟨t1, w1, t2, e1, e2, rfl⟩ := exec_append_some.mp hx
    have ih := found_rows h0 (fun s hs => ho s (by simp [hs])) e2
    have eol : ∀ a, found f (a ++ wc.lineEnding.asStr ++ t2) = found f a ++ found f t2 := fun a => found_eol h0 _ a t2
    cases r with
    | eol =>
      simp only [Row.ops, exec_single, WOp.exec1, Option.some.injEq, Prod.mk.injEq] at e1
      rw [← e1.1]
      have := eol []
      rw [found_nil h0] at this
      simpa [Row.text?, ih] using this
    | eolIf =>
      simp only [Row.ops, exec_single, WOp.exec1] at e1
      split at e1
      · simp only [Option.some.injEq, Prod.mk.injEq] at e1
        rw [← e1.1]
        simpa [Row.text?] using ih
      · simp only [Option.some.injEq, Prod.mk.injEq] at e1
        rw [← e1.1]
        have := eol []
        rw [found_nil h0] at this
        simpa [Row.text?, ih] using this
    | line s =>
      simp only [Row.ops] at e1
      obtain ⟨u1, v1, u2, g1, g2, rfl⟩ := exec_cons_some.mp e1
      simp only [exec_single, WOp.exec1, Option.some.injEq, Prod.mk.injEq] at g2
      obtain ⟨n, rfl⟩ := put_spaces (by simpa [WOp.exec1] using g1)
      rw [← g2.1, eol, found_line n (ho s (by simp)), ih]
      simp only [List.filterMap_cons, Row.text?, Option.bind_some]
      cases f (s.dropWhile (· == ' ')) <;> simp

theorem shift_newLine (ls : List Str) : ls.flatMap (fun l => [WOp.newLine, .text l]) ++ [.newLine] =
    .newLine :: ls.flatMap fun l => [.text l, .newLine] := by
  induction ls with
  | nil => rfl
  | cons l ls ih => simp only [List.flatMap_cons, List.append_assoc, ih]; rfl

def compatRows (c : OutConfig) (s : Str) : List Row := if c.cppCompatibleC then [.line s] else []

/-- The lines of the namespaces. -/
def spaceRows (c : OutConfig) (ls : List Str) : List Row :=
  if ls.isEmpty then [] else
    (if c.cppCompatibleC then [.eolIf, .line c!"#ifdef __cplusplus"] else [.eol]) ++ ls.map .line ++
      compatRows c c!"#endif  // __cplusplus"

theorem rows_lines (ls : List Str) : (ls.map Row.line).flatMap Row.ops = ls.flatMap fun l => [.text l, .newLine] := by
  induction ls with
  | nil => rfl
  | cons l ls ih => rw [List.map_cons, List.flatMap_cons, ih]; rfl

theorem spaceRows_ops (c : OutConfig) (ls : List Str) : (spaceRows c ls).flatMap Row.ops = namespaceLines c ls := by
  unfold spaceRows namespaceLines
  split
  · rfl
  · rw [List.flatMap_append, List.flatMap_append, rows_lines]
    have h := shift_newLine ls
    rw [List.append_assoc (onlyIf _ _), h]
    unfold compatRows onlyIf
    cases c.cppCompatibleC <;> simp [Row.ops]

theorem found_spaces {α : Type} {f : Str → Option α} (h0 : f [] = none) (h1 : f c!"#ifdef __cplusplus" = none)
    (h2 : f c!"#endif  // __cplusplus" = none) {wc : WConfig} {c : OutConfig} {ls : List Str} (ho : ∀ l ∈ ls, OneLine l)
    {w w' : W} {t : Str} (hx : WOp.exec wc (namespaceLines c ls) w = some (t, w')) :
    found f t = ls.filterMap fun l => f (l.dropWhile (· == ' ')) := by
  rw [← spaceRows_ops] at hx
  have hrows : ∀ s, Row.line s ∈ spaceRows c ls → OneLine s := by
    intro s hs
    unfold spaceRows compatRows at hs
    split at hs
    · cases hs
    · have hcases : s = c!"#ifdef __cplusplus" ∨ s ∈ ls ∨ s = c!"#endif  // __cplusplus" := by
        revert hs
        cases c.cppCompatibleC
        · simp only [Bool.false_eq_true, if_false, List.append_nil, List.mem_append, List.mem_map, Row.line.injEq, exists_eq_right]
          simp
          exact fun h => .inr (.inl h)
        · simp
      rcases hcases with rfl | hs | rfl
      · unfold OneLine; decide
      · exact ho s hs
      · unfold OneLine; decide
  rw [found_rows h0 hrows hx]
  have key : (ls.map Row.line).filterMap (fun r => r.text?.bind fun s => f (s.dropWhile (· == ' '))) =
      ls.filterMap fun l => f (l.dropWhile (· == ' ')) := by
    rw [List.filterMap_map]; rfl
  have d1 : c!"#ifdef __cplusplus".dropWhile (· == ' ') = c!"#ifdef __cplusplus" := rfl
  have d2 : c!"#endif  // __cplusplus".dropWhile (· == ' ') = c!"#endif  // __cplusplus" := rfl
  unfold spaceRows compatRows
  split
  · rename_i hls
    have : ls = [] := by simpa using hls
    subst this; rfl
  · rw [List.filterMap_append, List.filterMap_append, key]
    cases c.cppCompatibleC <;> simp [Row.text?, d1, d2, h1, h2]

theorem opensSpace_line {n : Str} : opensSpace ((c!"namespace " ++ n ++ c!" {").dropWhile (· == ' ')) = some n := by
  have h1 : (c!"namespace " ++ n ++ c!" {").dropWhile (· == ' ') = c!"namespace " ++ n ++ c!" {" := by
    simp
  rw [h1]
  unfold opensSpace
  have hl : (c!"namespace " ++ n ++ c!" {").length = n.length + 12 := by simp
  have e1 : (c!"namespace " ++ n ++ c!" {").take 10 = c!"namespace " := by
    rw [List.append_assoc]; exact List.take_left' rfl
  have e2 : (c!"namespace " ++ n ++ c!" {").drop (n.length + 12 - 2) = c!" {" :=
    List.drop_left' (by simp)
  have e3 : (c!"namespace " ++ n ++ c!" {").drop 10 = n ++ c!" {" := by
    rw [List.append_assoc]; exact List.drop_left' rfl
  rw [hl, e1, e2, e3, if_pos ⟨rfl, rfl⟩]
  simp

theorem closesSpace_line {n : Str} : closesSpace ((c!"}  // namespace " ++ n).dropWhile (· == ' ')) = some n := by
  have h1 : (c!"}  // namespace " ++ n).dropWhile (· == ' ') = c!"}  // namespace " ++ n := by simp
  rw [h1]
  unfold closesSpace
  have e1 : (c!"}  // namespace " ++ n).take 16 = c!"}  // namespace " := List.take_left' rfl
  have e2 : (c!"}  // namespace " ++ n).drop 16 = n := List.drop_left' rfl
  rw [e1, e2, if_pos rfl]

theorem filterMap_some {α : Type} {f : α → Option α} {ls : List α} (h : ∀ l ∈ ls, f l = some l) : ls.filterMap f = ls := by
  induction ls with
  | nil => rfl
  | cons l ls ih =>
    rw [List.filterMap_cons, h l (by simp)]
    simp only
    rw [ih fun x hx => h x (by simp [hx])]

theorem oneLine_app {a b : Str} (ha : OneLine a) (hb : OneLine b) : OneLine (a ++ b) := by
  intro x hx
  rcases List.mem_append.mp hx with h | h
  · exact ha x h
  · exact hb x h

theorem found_open {c : OutConfig} (h : ConfigFine c) {wc : WConfig} {w w' : W} {t : Str}
    (hx : WOp.exec wc (openNamespaces c) w = some (t, w')) : found opensSpace t = c.spaces := by
  rw [(openNamespaces_eq h.lang).1] at hx
  rw [found_spaces (by decide) (by decide) (by decide) ?_ hx, List.filterMap_map]
  · exact filterMap_some fun n _ => opensSpace_line
  · intro l hl
    obtain ⟨n, hn, rfl⟩ := List.mem_map.mp hl
    have h1 := plain_oneLine (spaces_plain h n hn)
    exact oneLine_app (oneLine_app (by unfold OneLine; decide) h1) (by unfold OneLine; decide)

theorem found_close {c : OutConfig} (h : ConfigFine c) {wc : WConfig} {w w' : W} {t : Str}
    (hx : WOp.exec wc (closeNamespaces c) w = some (t, w')) : found closesSpace t = c.spaces.reverse := by
  rw [(openNamespaces_eq h.lang).2] at hx
  rw [found_spaces (by decide) (by decide) (by decide) ?_ hx, List.filterMap_map]
  · exact filterMap_some fun n _ => closesSpace_line
  · intro l hl
    obtain ⟨n, hn, rfl⟩ := List.mem_map.mp hl
    have h1 := plain_oneLine (spaces_plain h n (List.mem_reverse.mp hn))
    exact oneLine_app (by unfold OneLine; decide) h1

/-! ## Linkage -/

/-- The lines before the items with linkage. -/
def externOpenRows (c : OutConfig) : List Row :=
  match c.language with
  | .cxx => (match c.usingNamespaces with
    | some ns => .eol :: ns.map (fun n => Row.line (c!"using namespace " ++ n ++ c!";"))
    | none => []) ++ [.eol, .line c!"extern \"C\" {"]
  | _ => if c.cppCompatibleC then
      [.eolIf, .line c!"#ifdef __cplusplus", .line c!"extern \"C\" {", .line c!"#endif // __cplusplus"] else []

/-- The lines after them. -/
def externCloseRows (c : OutConfig) : List Row :=
  match c.language with
  | .cxx => [.eol, .line c!"}  // extern \"C\""]
  | _ => if c.cppCompatibleC then
      [.eol, .line c!"#ifdef __cplusplus", .line c!"}  // extern \"C\"", .line c!"#endif  // __cplusplus"] else []

theorem externOpenRows_ops (c : OutConfig) (hl : c.language ≠ .cython) :
    (externOpenRows c).flatMap Row.ops = externOpen c := by
  unfold externOpenRows externOpen OutConfig.cppCompatibleC
  revert hl
  cases hk : c.language with
  | cython => intro h; exact absurd rfl h
  | cxx =>
    intro _
    cases c.usingNamespaces with
    | none => rfl
    | some ns =>
      have h1 : (ns.map fun n => Row.line (c!"using namespace " ++ n ++ c!";")) =
        (ns.map fun n => c!"using namespace " ++ n ++ c!";").map Row.line := by rw [List.map_map]; rfl
      have h2 := shift_newLine (ns.map fun n => c!"using namespace " ++ n ++ c!";")
      rw [List.flatMap_map] at h2
      simp only [onlyIf, show (Language.cxx == Language.c) = false from rfl, show (Language.cxx == Language.cxx) = true from rfl,
        Bool.false_and, Bool.true_or, Bool.false_eq_true, if_false, if_true, List.nil_append, List.append_nil]
      rw [h2, List.flatMap_append, List.flatMap_cons, h1, rows_lines]
      rfl
  | c => intro _; cases c.cppCompat <;> rfl

theorem externCloseRows_ops (c : OutConfig) (hl : c.language ≠ .cython) :
    (externCloseRows c).flatMap Row.ops = externClose c := by
  unfold externCloseRows externClose OutConfig.cppCompatibleC
  revert hl
  cases hk : c.language with
  | cython => intro h; exact absurd rfl h
  | cxx => intro _; rfl
  | c => intro _; cases c.cppCompat <;> rfl

/-- How often a linkage block is opened. -/
def linkRows (c : OutConfig) : List Unit := List.replicate (linkLevel c) ()

theorem found_externOpen {c : OutConfig} (h : ConfigFine c) {wc : WConfig} {w w' : W} {t : Str}
    (hx : WOp.exec wc (externOpen c) w = some (t, w')) :
    (found (isLine c!"extern \"C\" {") t).length = linkLevel c ∧
    (found (isLine c!"#ifdef __cplusplus") t).length = if c.cppCompatibleC then 1 else 0 := by
  have hl := h.lang
  rw [← externOpenRows_ops c hl] at hx
  have ho : ∀ s, Row.line s ∈ externOpenRows c → OneLine s := by
    intro s hs
    have hcases : s = c!"extern \"C\" {" ∨ s = c!"#ifdef __cplusplus" ∨ s = c!"#endif // __cplusplus" ∨
        ∃ n, Plain n ∧ s = c!"using namespace " ++ n ++ c!";" := by
      unfold externOpenRows at hs
      split at hs
      · rw [List.mem_append] at hs
        rcases hs with hs | hs
        · split at hs
          · rename_i ns hns
            simp only [List.mem_cons, List.mem_map, Row.line.injEq, reduceCtorEq, false_or] at hs
            obtain ⟨n, hn, rfl⟩ := hs
            exact .inr (.inr (.inr ⟨n, h.spaces n (by rw [hns]; simp [hn]), rfl⟩))
          · cases hs
        · simp at hs; exact .inl hs
      · split at hs
        · simp at hs
          rcases hs with rfl | rfl | rfl
          · exact .inr (.inl rfl)
          · exact .inl rfl
          · exact .inr (.inr (.inl rfl))
        · cases hs
    rcases hcases with rfl | rfl | rfl | ⟨n, hn, rfl⟩
    · unfold OneLine; decide
    · unfold OneLine; decide
    · unfold OneLine; decide
    · exact oneLine_app (oneLine_app (by unfold OneLine; decide) (plain_oneLine hn)) (by unfold OneLine; decide)
  have husing : ∀ (s : Str) (ns : List Str), s.head? ≠ some 'u' →
      (ns.map fun n => Row.line (c!"using namespace " ++ n ++ c!";")).filterMap
        (fun r => r.text?.bind fun x => isLine s (x.dropWhile (· == ' '))) = [] := by
    intro s ns hs
    rw [List.filterMap_eq_nil_iff]
    intro r hr
    obtain ⟨n, -, rfl⟩ := List.mem_map.mp hr
    have : (c!"using namespace " ++ n ++ c!";").dropWhile (· == ' ') = c!"using namespace " ++ n ++ c!";" := by simp
    simp only [Row.text?, Option.bind_some, this, isLine]
    rw [if_neg]
    rintro rfl
    exact hs rfl
  constructor
  · rw [found_rows (by decide) ho hx]
    unfold externOpenRows linkLevel OutConfig.cppCompatibleC
    cases hk : c.language with
    | cython => exact absurd hk hl
    | cxx =>
      cases c.usingNamespaces with
      | none => rfl
      | some ns =>
        simp only [List.filterMap_append, List.filterMap_cons]
        rw [husing _ _ (by decide)]
        rfl
    | c => cases c.cppCompat <;> rfl
  · rw [found_rows (by decide) ho hx]
    unfold externOpenRows OutConfig.cppCompatibleC
    cases hk : c.language with
    | cython => exact absurd hk hl
    | cxx =>
      cases c.usingNamespaces with
      | none => rfl
      | some ns =>
        simp only [List.filterMap_append, List.filterMap_cons]
        rw [husing _ _ (by decide)]
        rfl
    | c => cases c.cppCompat <;> rfl

theorem found_externClose {c : OutConfig} (hl : c.language ≠ .cython) {wc : WConfig} {w w' : W} {t : Str}
    (hx : WOp.exec wc (externClose c) w = some (t, w')) :
    (found (isLine c!"}  // extern \"C\"") t).length = linkLevel c ∧
    (found (isLine c!"#ifdef __cplusplus") t).length = if c.cppCompatibleC then 1 else 0 := by
  rw [← externCloseRows_ops c hl] at hx
  have ho : ∀ s, Row.line s ∈ externCloseRows c → OneLine s := by
    intro s hs
    have hcases : s = c!"}  // extern \"C\"" ∨ s = c!"#ifdef __cplusplus" ∨ s = c!"#endif  // __cplusplus" := by
      unfold externCloseRows at hs
      split at hs
      · simp at hs; exact .inl hs
      · split at hs
        · simp at hs
          rcases hs with rfl | rfl | rfl
          · exact .inr (.inl rfl)
          · exact .inl rfl
          · exact .inr (.inr rfl)
        · cases hs
    rcases hcases with rfl | rfl | rfl <;> (unfold OneLine; decide)
  constructor
  · rw [found_rows (by decide) ho hx]
    unfold externCloseRows linkLevel OutConfig.cppCompatibleC
    cases hk : c.language with
    | cython => exact absurd hk hl
    | cxx => rfl
    | c => cases c.cppCompat <;> rfl
  · rw [found_rows (by decide) ho hx]
    unfold externCloseRows OutConfig.cppCompatibleC
    cases hk : c.language with
    | cython => exact absurd hk hl
    | cxx => rfl
    | c => cases c.cppCompat <;> rfl

/-- What a triple says about one run. -/
theorem tri_run {wc : WConfig} {ops : List WOp} {w w' : W} {t : Str} (hw : w.lineNumber ≠ 0)
    (hx : WOp.exec wc ops w = some (t, w')) {d b d' b' : Nat} (h : Tri wc (At d b) ops (At d' b')) :
    scan (lineStart d b) t = some (lineStart d' b') := by
  obtain ⟨r, e, hr⟩ := h w _ t w' hw rfl hx
  cases hr
  exact e

end Cbindgen.PreSpec

namespace Cbindgen
open PreSpec

/-- A header is made of: a start; the lines that open the namespaces; constants and types; the lines that open
the linkage block; globals and functions; the lines that close the linkage block; the lines that close the
namespaces; an end.

* The namespaces that are closed are the ones that were opened, in reverse order.
* The linkage block is closed exactly when it is opened, in the same conditional (`#ifdef __cplusplus` or none).
* What is between an opening and its closing has no effect on the nesting, however deep it stands. -/
theorem C27_nesting_partial {e : Env} {b : Bindings} {t : Str} (h : Fine e b) (ht : headerText e b = some t) :
    ∃ t1 o m1 x m2 y c t2, t = t1 ++ o ++ (m1 ++ x ++ m2 ++ y) ++ c ++ t2 ∧
      found opensSpace o = e.cfg.spaces ∧ found closesSpace c = e.cfg.spaces.reverse ∧
      (found (isLine c!"extern \"C\" {") x).length = (found (isLine c!"}  // extern \"C\"") y).length ∧
      (found (isLine c!"#ifdef __cplusplus") x).length = (found (isLine c!"#ifdef __cplusplus") y).length ∧
      Neutral m1 ∧ Neutral m2 ∧
      (∀ d n, scan (lineStart d n) o = some (lineStart d (n + (found opensSpace o).length)) ∧
        scan (lineStart d (n + (found opensSpace o).length)) c = some (lineStart d n)) ∧
      ∀ d n, scan (lineStart d n) x = some (lineStart d (n + (found (isLine c!"extern \"C\" {") x).length)) ∧
        scan (lineStart d (n + (found (isLine c!"extern \"C\" {") x).length)) y = some (lineStart d n) := by
  obtain ⟨⟨t', w9⟩, hx, rfl⟩ := Option.map_eq_some_iff.mp ht
  have hc := h.cfg
  have hl := hc.lang
  have hk : ∀ p, Lines e.cfg.writer (constantsOps e p b.constants) := fun p =>
    lines_flatMap fun k hk => lines_itemOps (para_const hc h.enums (h.constants k (List.mem_filter.mp hk).1))
  have hi : Lines e.cfg.writer (itemsOps e b.items) :=
    lines_flatMap fun i hi => lines_itemOps (para_item hc h.enums (h.items i (List.mem_filter.mp hi).1))
  have hg : Lines e.cfg.writer (globalsDefault e.cfg b.globals) :=
    lines_flatMap fun g hg => lines_itemOps (para_static hc (h.globals g (List.mem_filter.mp hg).1))
  have hf : Lines e.cfg.writer (functionsDefault e.cfg b.functions) :=
    lines_flatMap fun f hf => lines_itemOps (para_func hc (h.functions f (List.mem_filter.mp hf).1))
  have e1 : globalsOps e.cfg b = onlyIf b.hasLinkage (externOpen e.cfg ++ globalsDefault e.cfg b.globals) := by
    unfold globalsOps
    revert hl
    cases hk : e.cfg.language <;> simp
  have e2 : functionsOps e.cfg b = onlyIf b.hasLinkage (functionsDefault e.cfg b.functions ++ externClose e.cfg) := by
    unfold functionsOps
    revert hl
    cases hk : e.cfg.language <;> simp
  have split : bindingsOps e b = headersOps e ++ (openNamespaces e.cfg ++
      ((constantsOps e true b.constants ++ itemsOps e b.items ++ constantsOps e false b.constants) ++
      (onlyIf b.hasLinkage (externOpen e.cfg) ++
      (onlyIf b.hasLinkage (globalsDefault e.cfg b.globals ++ functionsDefault e.cfg b.functions) ++
      (onlyIf b.hasLinkage (externClose e.cfg) ++
      (closeNamespaces e.cfg ++ (footersOps e.cfg ++ trailerOps e.cfg.trailer))))))) := by
    unfold bindingsOps
    rw [e1, e2]
    cases b.hasLinkage <;> simp [onlyIf]
  rw [split] at hx
  obtain ⟨t1, w1, _, x1, hx, q1⟩ := exec_append_some.mp hx
  obtain ⟨o, w2, _, x2, hx, q2⟩ := exec_append_some.mp hx
  obtain ⟨m1, w3, _, x3, hx, q3⟩ := exec_append_some.mp hx
  obtain ⟨x, w4, _, x4, hx, q4⟩ := exec_append_some.mp hx
  obtain ⟨m2, w5, _, x5, hx, q5⟩ := exec_append_some.mp hx
  obtain ⟨y, w6, _, x6, hx, q6⟩ := exec_append_some.mp hx
  obtain ⟨c, w7, t2, x7, hx, q7⟩ := exec_append_some.mp hx
  subst q7 q6 q5 q4 q3 q2 q1
  have n1 : w1.lineNumber ≠ 0 := by have := number_exec _ _ x1; simp at this; omega
  have n2 : w2.lineNumber ≠ 0 := by have := number_exec _ _ x2; omega
  have n3 : w3.lineNumber ≠ 0 := by have := number_exec _ _ x3; omega
  have n4 : w4.lineNumber ≠ 0 := by have := number_exec _ _ x4; omega
  have n5 : w5.lineNumber ≠ 0 := by have := number_exec _ _ x5; omega
  have n6 : w6.lineNumber ≠ 0 := by have := number_exec _ _ x6; omega
  have f1 := found_open hc x2
  have f2 := found_close hc x7
  refine ⟨t1, o, m1, x, m2, y, c, t2, by simp, f1, f2, ?_⟩
  have g1 : Neutral m1 := fun d n => tri_run n2 x3 (lines_append (lines_append (hk true) hi) (hk false) d n)
  have g2 : Neutral m2 := fun d n => tri_run n4 x5 (lines_onlyIf (lines_append hg hf) d n)
  have g3 : ∀ d n, scan (lineStart d n) o = some (lineStart d (n + (found opensSpace o).length)) ∧
        scan (lineStart d (n + (found opensSpace o).length)) c = some (lineStart d n) := by
    intro d n
    rw [f1]
    exact ⟨tri_run n1 x2 (tri_openNamespaces hc), tri_run n6 x7 (tri_closeNamespaces hc)⟩
  cases hb : b.hasLinkage with
  | false =>
    simp only [hb, onlyIf, Bool.false_eq_true, if_false, exec_nil, Option.some.injEq, Prod.mk.injEq] at x4 x6
    obtain ⟨rfl, rfl⟩ := x4
    obtain ⟨rfl, rfl⟩ := x6
    exact ⟨rfl, rfl, g1, g2, g3, fun d n => ⟨rfl, rfl⟩⟩
  | true =>
    simp only [hb, onlyIf, if_true] at x4 x6
    have f3 := found_externOpen hc x4
    have f4 := found_externClose hl x6
    refine ⟨by rw [f3.1, f4.1], by rw [f3.2, f4.2], g1, g2, g3, fun d n => ?_⟩
    rw [f3.1]
    exact ⟨tri_run n3 x4 (tri_externOpen hc), tri_run n5 x6 (tri_externClose hl)⟩

namespace C27Cases

def i32 : Ty := .prim (.integer true true .b32)

/-- `#[cfg(unix)] /// Text. struct S { x: i32 }` -/
def item : StructItem :=
  { path := c!"S", exportName := c!"S", fields := [{ name := c!"x", ty := i32 }], cfg := some (.boolean c!"unix"),
    doc := [c!" Text."] }

/-- `extern fn f(s: *const S) -> i32` -/
def func : FuncItem :=
  { path := c!"f", ret := i32, args := [⟨some c!"s", .ptr (.path c!"S" c!"S" [] none) true true false, none⟩] }

def env (doc : Bool) : Env :=
  { cfg := { language := .c, cppCompat := true, includeGuard := some c!"LIB_H", namespace_ := some c!"a",
             namespaces := some [c!"b"], defines := [(c!"unix", c!"DEFINED_UNIX")], documentation := doc } }

def bindings (s : StructItem) : Bindings := { constants := [], globals := [], items := [.struct s], functions := [func] }

end C27Cases

theorem C27Cases.refuted_of {e : Env} {b : Bindings}
    (h : (headerText e b).any (fun t => scan (lineStart 0 0) (t ++ ['\n']) != some (lineStart 0 0)) = true) :
    ∃ (e : Env) (b : Bindings) (t : Str), headerText e b = some t ∧ ¬ Balanced t := by
  obtain ⟨t, ht, hb⟩ := Option.any_eq_true _ _ |>.mp h
  exact ⟨e, b, t, ht, by simpa [Balanced] using hb⟩

open C27Cases in
/-- A line of documentation that closes its comment and opens a brace. -/
theorem C27_refuted : ∃ (e : Env) (b : Bindings) (t : Str), headerText e b = some t ∧ ¬ Balanced t := by
  refine refuted_of (e := env true) (b := bindings { item with doc := [c!" */ {"] }) ?_
  decide +kernel

open C27Cases in
/-- The text of the option `trailer` opens a conditional. -/
theorem C27_option_refuted : ∃ (e : Env) (b : Bindings) (t : Str), headerText e b = some t ∧ ¬ Balanced t := by
  refine ⟨{ cfg := { trailer := some c!"#if X" } }, { constants := [], globals := [], items := [], functions := [] }, _, rfl, ?_⟩
  unfold Balanced
  decide +kernel

/-! ## A case -/

open C27Cases in
theorem C27Cases.fine : Fine (env true) (bindings item) := by
  have hn : ∀ (c : OutConfig), NotesFine c {} := fun c => ⟨fun _ _ h => (nomatch h), fun k s h => by
    cases k <;> cases h⟩
  refine ⟨⟨?_, ?_, ?_, ?_, ?_, ?_, ?_, ?_, ?_, ?_, ?_, ?_, ?_, ?_, ?_, ?_, ?_, ?_, ?_, ?_, ?_⟩, rfl, ?_, ?_, ?_, ?_, ?_⟩
  case refine_1 => decide
  case refine_2 => intro s h; cases h
  case refine_3 => intro s h; cases h
  case refine_4 => intro s h; cases h
  case refine_5 => intro s h; cases h
  case refine_6 => intro p s h; cases h
  case refine_7 => intro p s h; cases h
  case refine_8 => intro s h; cases h; rfl
  case refine_9 => rfl
  case refine_10 => intro i h; cases h
  case refine_11 => intro i h; cases h
  case refine_12 => unfold Words Plain; decide
  case refine_13 => unfold Plain; decide
  case refine_14 =>
    intro n hn
    have e1 : (env true).cfg.argName n = n := by
      show RenameRule.apply _ .none n _ = n
      unfold RenameRule.apply
      split
      · rename_i h; rw [h]
      · rfl
    rw [e1]; exact hn
  case refine_15 => exact ⟨fun s h => (nomatch h), fun s h => (nomatch h)⟩
  case refine_16 => exact ⟨fun s h => (nomatch h), fun s h => (nomatch h)⟩
  case refine_17 => intro s h; cases h
  case refine_18 => exact ⟨fun s h => (nomatch h), fun s h => (nomatch h), fun s h => (nomatch h)⟩
  case refine_19 => exact ⟨fun s h => (nomatch h), fun s h => (nomatch h)⟩
  case refine_20 => intro s h; cases h
  case refine_21 => intro s h; cases h
  case refine_22 => intro p x h; cases h
  case refine_23 => intro k h; cases h
  case refine_24 =>
    intro i h
    simp only [bindings, List.mem_singleton] at h
    subst h
    refine ⟨rfl, fun p h => (nomatch h), ?_, hn _, ?_, fun k h => (nomatch h)⟩
    · intro f h
      simp only [item, List.mem_singleton] at h
      subst h
      exact ⟨rfl, fun s h => (nomatch h), fun l h => (nomatch h), hn _⟩
    · intro l h
      simp only [item, List.mem_singleton] at h
      subst h
      refine ⟨by unfold TextSpec.OneLine; decide, by decide, by unfold CommentSpec.Closes; decide⟩
  case refine_25 => intro k h; cases h
  case refine_26 =>
    intro f h
    simp only [bindings, List.mem_singleton] at h
    subst h
    refine ⟨rfl, fun s h => (nomatch h), fun s h => (nomatch h), ?_, hn _, fun l h => (nomatch h)⟩
    intro a h
    simp only [func, List.mem_singleton] at h
    subst h
    unfold Words Plain
    decide

open C27Cases in
example : ∃ t, headerText (env true) (bindings item) = some t ∧ Balanced t ∧ found opensSpace t = [c!"a", c!"b"] ∧
    found closesSpace t = [c!"b", c!"a"] ∧ (found (isLine c!"extern \"C\" {") t).length = 1 := by
  have h : (headerText (env true) (bindings item)).any (fun t => found opensSpace t = [c!"a", c!"b"] ∧
      found closesSpace t = [c!"b", c!"a"] ∧ (found (isLine c!"extern \"C\" {") t).length = 1) = true := by
    decide +kernel
  obtain ⟨t, ht, hb⟩ := Option.any_eq_true _ _ |>.mp h
  exact ⟨t, ht, C27_balanced_partial C27Cases.fine ht, by simpa using hb⟩

end Cbindgen
