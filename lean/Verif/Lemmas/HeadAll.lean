import Verif.Spec.HeaderAll
import Verif.Lemmas.HeadEnum

/-!
# Whole headers, as the reader finds them
-/

namespace Cbindgen.HeadSpec
open LexSpec CSpec PreSpec TextSpec

section
variable {wc : WConfig} {e : Env} {c : OutConfig} {R : Dialect} {on : Str → Bool} {D : List Str}

/-! ## Comments -/

theorem scan_blockSafe {s : Str} (h : CommentSafe s) (st d : Bool) :
    LexSpec.scan ⟨.block, st, d⟩ s = some (⟨.block, st, d⟩, []) := by
  induction s with
  | nil => rfl
  | cons k s ih =>
    have hk := h k (by simp)
    have h1 : LexSpec.step ⟨.block, st, d⟩ k = some (⟨.block, st, d⟩, []) := by
      simp [LexSpec.step, blockMode, hk.1, hk.2]
    exact scan_cons_some h1 (ih fun x hx => h x (by simp [hx]))

theorem scan_lineSafe {s : Str} (h : ∀ k ∈ s, isBreak k = false ∧ k ≠ '\\') (st d : Bool) :
    LexSpec.scan ⟨.line false, st, d⟩ s = some (⟨.line false, st, d⟩, []) := by
  induction s with
  | nil => rfl
  | cons k s ih =>
    have hk := h k (by simp)
    have h1 : LexSpec.step ⟨.line false, st, d⟩ k = some (⟨.line false, st, d⟩, []) := by
      simp [LexSpec.step, hk.1, hk.2]
    exact scan_cons_some h1 (ih fun x hx => h x (by simp [hx]))

/-- A text with a comment at its end. -/
theorem scans_blockComment {a s b : Str} {st d : Bool} {ls : List Lx} (ha : LexSpec.scan {} a = some (⟨.block, st, d⟩, ls))
    (h : CommentSafe s) (hb : LexSpec.scan ⟨.block, st, d⟩ b = some (⟨.code, st, d⟩, [])) : Scans .at (a ++ s ++ b) (ls ++ ending d) .done := by
  intro x hx
  cases hx
  refine ⟨_, _, scan_some (scan_some ha (scan_blockSafe h st d)) hb, .inl rfl, ?_⟩
  simp [Pos.done, Pos.at, pend]

theorem word_lineSafe {w : Str} (h : Word w) : ∀ k ∈ w, isBreak k = false ∧ k ≠ '\\' := by
  intro k hk
  have := List.all_eq_true.mp h.2 k hk
  constructor
  · cases hb : isBreak k with
    | false => rfl
    | true => rcases break_cases hb with rfl | rfl <;> exact absurd this (by decide)
  · rintro rfl; exact absurd this (by decide)

theorem word_commentSafe {w : Str} (h : Word w) : CommentSafe w := by
  intro k hk
  have := List.all_eq_true.mp h.2 k hk
  constructor <;> rintro rfl <;> exact absurd this (by decide)

/-! ## Lines -/

theorem seg_line {s : Str} {ls : List Lx} {o : Out} (h1 : LexSpec.Tri wc .at [.text s] ls .done) (h2 : Adds R on D ls o) :
    Seg wc R on D .at (lineOps s) o .at := ⟨_, LexSpec.tri_eq (LexSpec.tri_append h1 LexSpec.tri_newLine) (by simp), h2⟩

theorem seg_paragraph {s : Str} {ls : List Lx} {o : Out} (h1 : LexSpec.Tri wc .at [.text s] ls .done) (h2 : Adds R on D ls o) :
    Seg wc R on D .at (paragraphOps s) o .at := seg_left LexSpec.tri_newLineIfNotStart (seg_line h1 h2)

theorem seg_block {s : Str} (h : BlockText R on D s) : Seg wc R on D .at [.text s] (blockOut R on (some s)) .done := by
  obtain ⟨ls, o, h1, h2⟩ := h
  rw [block_of h1 h2]
  exact ⟨ls, LexSpec.tri_anyText spaces_at h1, h2⟩

theorem seg_optParagraph {o : Option Str} (h : ∀ s, o = some s → BlockText R on D s) :
    Seg wc R on D .at (optParagraph o) (blockOut R on o) .at := by
  cases o with
  | none => exact seg_nil
  | some s =>
    have := seg_left LexSpec.tri_newLineIfNotStart (seg_right (seg_block (wc := wc) (h s rfl)) LexSpec.tri_newLine)
    exact this

theorem seg_trailer {o : Option Str} (h : ∀ s, o = some s → BlockText R on D s) :
    Seg wc R on D .at (trailerOps o) (blockOut R on o) .done := by
  cases o with
  | none => exact seg_post seg_nil at_le_done
  | some s =>
    have h1 := seg_left LexSpec.tri_newLineIfNotStart (seg_block (wc := wc) (h s rfl))
    simp only [trailerOps, onlyIf]
    cases s.getLast? != some '\n' with
    | true => exact seg_post (seg_right h1 LexSpec.tri_newLine) at_le_done
    | false => simpa using h1

/-! ## Includes -/

theorem seg_sys {i : Str} (h : ExprText i) :
    Seg wc R on D .at (lineOps (c!"#include <" ++ i ++ c!">")) ⟨[], [], [[.punct '<'] ++ toks i ++ [.punct '>']]⟩ .at := by
  obtain ⟨ls, h1, h2⟩ := h
  rw [toks_gap (h2 false)]
  refine seg_line (ls := dirToks (.word c!"include" :: ([.punct '<'] ++ ls ++ [.punct '>']))) ?_ (adds_include (by simp [h1]))
  have a : Scans .at c!"#include <" [.hash, .word c!"include", .punct '<'] (.gap true) := by
    intro s hs; cases hs; exact ⟨_, _, rfl, ⟨rfl, rfl⟩, rfl⟩
  have b := LexSpec.tri_anyText (c := wc) spaces_at (scans_append (scans_append a (h2 true)) (scans_punct (c := '>') (by decide) true))
  refine LexSpec.tri_eq (LexSpec.tri_close (LexSpec.tri_post b (gap_le_any _))) ?_
  simp [dirToks]

theorem scan_quoteSafe {s : Str} (h : QuoteSafe s) (t : Str) (st d : Bool) :
    LexSpec.scan ⟨.quote '"' t, st, d⟩ s = some (⟨.quote '"' (t ++ s), st, d⟩, []) := by
  induction s generalizing t with
  | nil => simp [LexSpec.scan]
  | cons k s ih =>
    have hk := h k (by simp)
    have h1 : LexSpec.step ⟨.quote '"' t, st, d⟩ k = some (⟨.quote '"' (t ++ [k]), st, d⟩, []) := by
      simp [LexSpec.step, hk.1, hk.2.1, hk.2.2]
    have := scan_cons_some h1 (ih (fun x hx => h x (by simp [hx])) (t ++ [k]))
    simpa using this

theorem seg_quoted {i : Str} (h : QuoteSafe i) :
    Seg wc R on D .at (lineOps (c!"#include \"" ++ i ++ c!"\"")) ⟨[], [], [[.quoted '"' i]]⟩ .at := by
  refine seg_line (ls := dirToks (.word c!"include" :: [.quoted '"' i])) ?_ (adds_include (by simp))
  have b : Scans .at (c!"#include \"" ++ i ++ c!"\"") [.hash, .word c!"include", .quoted '"' i] (.any true) := by
    intro s hs; cases hs
    have h1 : LexSpec.scan {} c!"#include \"" = some (⟨.quote '"' [], false, true⟩, [.hash, .word c!"include"]) := rfl
    have h2 : LexSpec.scan ⟨.quote '"' ([] ++ i), false, true⟩ c!"\"" = some (⟨.code, false, true⟩, [.quoted '"' i]) := by
      simp [LexSpec.scan, LexSpec.step, LexSpec.emit, isBreak]
    exact ⟨_, _, scan_some (scan_some h1 (scan_quoteSafe h [] _ _)) h2, ⟨.inl rfl, rfl⟩, rfl⟩
  exact LexSpec.tri_eq (LexSpec.tri_close (LexSpec.tri_anyText (c := wc) spaces_at b)) (by simp [dirToks])

/-- Lines one after the other. -/
theorem seg_flatMap {α : Type} {P : Pos} {f : α → List WOp} {g : α → Out} : ∀ {xs : List α}, (∀ x ∈ xs, Seg wc R on D P (f x) (g x) P) →
    Seg wc R on D P (xs.flatMap f) (outs (xs.map g)) P
  | [], _ => seg_nil
  | x :: xs, h => by
    rw [List.flatMap_cons]
    exact seg_append (h x (by simp)) (seg_flatMap fun y hy => h y (by simp [hy]))

theorem outs_includes {α : Type} (f : α → List Lx) (xs : List α) : outs (xs.map fun x => (⟨[], [], [f x]⟩ : Out)) = ⟨[], [], xs.map f⟩ := by
  induction xs with
  | nil => rfl
  | cons x xs ih => simp only [List.map_cons, outs, List.foldr_cons] at ih ⊢; rw [ih]; rfl

theorem includes_append (a b : List (List Lx)) : (⟨[], [], a⟩ : Out) ++ ⟨[], [], b⟩ = ⟨[], [], a ++ b⟩ := rfl

theorem standard_ops (hl : c.language ≠ .cython) : standardIncludes c = (standardNames c).map fun i => c!"#include <" ++ i ++ c!">" := by
  unfold standardIncludes standardNames
  cases h : c.language with
  | cython => exact absurd h hl
  | c =>
    rw [if_neg (c := Language.c = Language.cxx) (by decide)]
    cases c.usizeIsSizeT <;> rfl
  | cxx =>
    rw [if_pos rfl]
    cases c.usizeIsSizeT <;>
      cases c.enumeration.castAssertName.isNone && (c.enumeration.deriveMutCasts || c.enumeration.deriveConstCasts) <;> rfl

theorem standard_fine : ∀ i ∈ standardNames c, ExprText i := by
  have key : ∀ a, Word a → ExprText (a ++ c!".h") := by
    intro a ha
    refine ⟨[.word a, .punct '.', .word c!"h"], by simp, fun d => ?_⟩
    exact scans_append (scans_wordMid ha) (scans_text (t := c!".h") (ls := [.punct '.', .word c!"h"]) (b := true) (x := true) (by decide))
  have key' : ∀ a, Word a → ExprText a := fun a ha => ⟨[.word a], by simp, fun d => scans_wordMid ha⟩
  intro i hi
  have : i ∈ [c!"stdarg.h", c!"stdbool.h", c!"stddef.h", c!"stdint.h", c!"stdlib.h", c!"cstdarg", c!"cstddef", c!"cstdint", c!"cstdlib",
      c!"ostream", c!"new", c!"cassert"] := by
    unfold standardNames at hi
    split at hi
    · split at hi <;> split at hi <;> simp at hi ⊢ <;> grind
    · split at hi <;> simp at hi ⊢ <;> grind
  simp only [List.mem_cons, List.not_mem_nil, or_false] at this
  rcases this with rfl | rfl | rfl | rfl | rfl | rfl | rfl | rfl | rfl | rfl | rfl | rfl
  · exact key c!"stdarg" ⟨by decide, by decide⟩
  · exact key c!"stdbool" ⟨by decide, by decide⟩
  · exact key c!"stddef" ⟨by decide, by decide⟩
  · exact key c!"stdint" ⟨by decide, by decide⟩
  · exact key c!"stdlib" ⟨by decide, by decide⟩
  all_goals exact key' _ ⟨by decide, by decide⟩

theorem seg_prelude (hl : c.language ≠ .cython) (hs : ∀ i ∈ c.allSysIncludes, ExprText i) (hq : ∀ i ∈ c.allIncludes, QuoteSafe i)
    (ha : ∀ s, c.afterIncludes = some s → BlockText R on D s) :
    Seg wc R on D .at (onlyIf (!noPrelude c) (preludeOps c)) (⟨[], [], includesOf c⟩ ++ blockOut R on c.afterIncludes) .at := by
  cases hn : noPrelude c with
  | true =>
    simp only [noPrelude, Bool.and_eq_true, List.isEmpty_iff, Option.isNone_iff_eq_none] at hn
    obtain ⟨⟨⟨⟨h1, h2⟩, h3⟩, _⟩, h5⟩ := hn
    have : (⟨[], [], includesOf c⟩ ++ blockOut R on c.afterIncludes : Out) = {} := by
      rw [h5]; simp [includesOf, h1, h2, h3, blockOut, Out.append_def]
    rw [this]
    exact seg_nil
  | false =>
    have h1 : Seg wc R on D .at (onlyIf (!c.noIncludes) ((standardIncludes c).flatMap lineOps))
        ⟨[], [], (if c.noIncludes then [] else standardNames c).map fun i => [.punct '<'] ++ toks i ++ [.punct '>']⟩ .at := by
      cases c.noIncludes with
      | true => exact seg_nil
      | false =>
        have := seg_flatMap (xs := standardNames c) (f := fun i => lineOps (c!"#include <" ++ i ++ c!">")) fun i hi =>
          seg_sys (wc := wc) (R := R) (on := on) (D := D) (standard_fine i hi)
        rw [outs_includes] at this
        rw [standard_ops hl]
        simp only [onlyIf, Bool.not_false, if_true, List.flatMap_map, Bool.false_eq_true, if_false]
        exact this
    have h2 := seg_flatMap (xs := c.allSysIncludes) (f := fun i => lineOps (c!"#include <" ++ i ++ c!">")) fun i hi =>
      seg_sys (wc := wc) (R := R) (on := on) (D := D) (hs i hi)
    have h3 := seg_flatMap (xs := c.allIncludes) (f := fun i => lineOps (c!"#include \"" ++ i ++ c!"\"")) fun i hi =>
      seg_quoted (wc := wc) (R := R) (on := on) (D := D) (hq i hi)
    rw [outs_includes] at h2 h3
    have h4 : Seg wc R on D .at (match c.afterIncludes with | some s => lineOps s | none => []) (blockOut R on c.afterIncludes) .at := by
      cases hx : c.afterIncludes with
      | none => exact seg_nil
      | some s => exact seg_right (seg_block (ha s hx)) LexSpec.tri_newLine
    have h5 := seg_left LexSpec.tri_newLineIfNotStart (seg_append (seg_append (seg_append h1 h2) h3) h4)
    rw [includes_append, includes_append, ← List.map_append] at h5
    unfold preludeOps
    simp only [onlyIf, Bool.not_false, if_true, List.append_assoc] at h5 ⊢
    cases hx : c.language with
    | cython => exact absurd hx hl
    | _ => exact h5

/-! ## C++ -/

/-- A group that is skipped. -/
theorem adds_skipped {ls body : List Lx} (ho : Opens on D ls false) (hs : Skips R on body) :
    Adds R on D (dirToks ls ++ body ++ dirToks [.word c!"endif"]) {} := by
  obtain ⟨he, h0, h1⟩ := ho
  have key : ∀ conds frs ms incs, run R on ⟨conds, none, frs, ms, incs⟩ (dirToks ls) = some ⟨false :: conds, none, frs, ms, incs⟩ →
      run R on ⟨conds, none, frs, ms, incs⟩ (dirToks ls ++ body ++ dirToks [.word c!"endif"]) = some ⟨conds, none, frs, ms, incs⟩ := by
    intro conds frs ms incs h
    rw [List.append_assoc, run_some h, run_some (hs (false :: conds) frs ms incs rfl), directive_endif]
  refine ⟨fun d => ⟨fun conds frs ms incs hc => key _ _ _ _ ?_, fun conds fs ms incs hc hm => ?_⟩, Fresh.nil⟩
  · rw [dirToks, run_directive he, h0 _ _ _ _ hc]
  · have := key conds (⟨d, []⟩ :: fs) ms incs (by rw [dirToks, run_directive he, h1 _ _ _ _ hc hm])
    simpa using this

theorem skips_toks : ∀ {ls : List Lx}, Lx.hash ∉ ls → Skips R on ls
  | [], _ => fun _ _ _ _ _ => rfl
  | l :: ls, h => by
    simp only [List.mem_cons, not_or] at h
    exact skips_append (skips_tok (Ne.symm h.1)) (skips_toks h.2)

theorem seg_namespaces (hc : c.cppCompatibleC = true → on cplusplus = false ∧ cplusplus ∈ D)
    {lines : List Str} (hn : c.cppCompatibleC = false → lines = [])
    (h : ∀ l ∈ lines, ∃ ls, Scans .at l ls .done ∧ Lx.hash ∉ ls) :
    Seg wc R on D .at (namespaceLines c lines) {} .at := by
  unfold namespaceLines
  split
  · exact seg_nil
  · rename_i hne
    cases hcc : c.cppCompatibleC with
    | false => exact absurd (by rw [hn hcc]; rfl) hne
    | true =>
      obtain ⟨h1, h2⟩ := hc hcc
      have key : ∀ ls : List Str, (∀ l ∈ ls, ∃ ks, Scans .at l ks .done ∧ Lx.hash ∉ ks) →
          ∃ ks, LexSpec.Tri wc .done (ls.flatMap fun l => [.newLine, .text l]) ks .done ∧ Lx.hash ∉ ks := by
        intro ls hls
        induction ls with
        | nil => exact ⟨[], LexSpec.tri_nil, by simp⟩
        | cons l ls ih =>
          obtain ⟨ks, k1, k2⟩ := ih fun x hx => hls x (by simp [hx])
          obtain ⟨js, j1, j2⟩ := hls l (by simp)
          refine ⟨js ++ ks, ?_, by simp [j2, k2]⟩
          rw [List.flatMap_cons]
          exact LexSpec.tri_append (LexSpec.tri_append (ls := []) LexSpec.tri_newLine (LexSpec.tri_anyText spaces_at j1)) k1
      obtain ⟨ks, k1, k2⟩ := key lines h
      have t1 : LexSpec.Tri wc .at [.text c!"#ifdef __cplusplus"] (dirToks [.word c!"ifdef", .word cplusplus]) .done :=
        tri_directive (t := c!"ifdef __cplusplus") (b := true) (by decide)
      have t2 : LexSpec.Tri wc .at [.text c!"#endif  // __cplusplus"] (dirToks [.word c!"endif"]) .done := tri_endif rfl
      have t3 := LexSpec.tri_append (LexSpec.tri_append (LexSpec.tri_append (LexSpec.tri_append (LexSpec.tri_append
        LexSpec.tri_newLineIfNotStart t1) k1) LexSpec.tri_newLine) t2) LexSpec.tri_newLine
      have o1 := opens_ifdef (on := on) h2
      rw [h1] at o1
      refine ⟨_, tri_ops t3 (by simp [onlyIf]), ?_⟩
      simpa using adds_skipped (R := R) o1 (skips_toks k2)

theorem seg_openNamespaces (hl : c.language = .c) (hc : c.cppCompatibleC = true → on cplusplus = false ∧ cplusplus ∈ D)
    (hs : ∀ n ∈ c.spaces, Word n) : Seg wc R on D .at (openNamespaces c) {} .at := by
  have e : openNamespaces c = namespaceLines c (c.spaces.map fun n => c!"namespace " ++ n ++ c!" {") := by
    unfold openNamespaces; rw [hl]
  rw [e]
  refine seg_namespaces hc (fun h => by simp [OutConfig.spaces, hl, h]) ?_
  intro l hl
  obtain ⟨n, hn, rfl⟩ := List.mem_map.mp hl
  refine ⟨[.word c!"namespace", .word n, .punct '{'], ?_, by simp⟩
  have := scans_append (scans_append (scans_text (d := false) (t := c!"namespace ") (ls := [.word c!"namespace"]) (b := false) (x := false) (by decide))
    (scans_wordMid (hs n hn))) (scans_text (t := c!" {") (ls := [.punct '{']) (x := false) (by decide))
  exact scans_pre (scans_post this mid_le_done) at_le_mid

theorem seg_closeNamespaces (hl : c.language = .c) (hc : c.cppCompatibleC = true → on cplusplus = false ∧ cplusplus ∈ D)
    (hs : ∀ n ∈ c.spaces, Word n) : Seg wc R on D .at (closeNamespaces c) {} .at := by
  have e : closeNamespaces c = namespaceLines c (c.spaces.reverse.map fun n => c!"}  // namespace " ++ n) := by
    unfold closeNamespaces; rw [hl]
  rw [e]
  refine seg_namespaces hc (fun h => by simp [OutConfig.spaces, hl, h]) ?_
  intro l hl
  obtain ⟨n, hn, rfl⟩ := List.mem_map.mp hl
  refine ⟨[.punct '}'], ?_, by simp⟩
  intro s hs'; cases hs'
  have h1 : LexSpec.scan {} c!"}  // namespace " = some (⟨.line false, false, false⟩, [.punct '}']) := rfl
  exact ⟨_, _, scan_some h1 (scan_lineSafe (word_lineSafe (hs n (List.mem_reverse.mp hn))) _ _), .inr (.inr rfl), rfl⟩

theorem seg_externOpen (hl : c.language = .c) (hc : c.cppCompatibleC = true → on cplusplus = false ∧ cplusplus ∈ D) :
    Seg wc R on D .at (externOpen c) {} .at := by
  unfold externOpen
  simp only [hl]
  cases hcc : c.cppCompatibleC with
  | false => exact seg_nil
  | true =>
    obtain ⟨h1, h2⟩ := hc hcc
    have t1 : LexSpec.Tri wc .at [.text c!"#ifdef __cplusplus"] (dirToks [.word c!"ifdef", .word cplusplus]) .done :=
      tri_directive (t := c!"ifdef __cplusplus") (b := true) (by decide)
    have t2 : LexSpec.Tri wc .at [.text c!"#endif // __cplusplus"] (dirToks [.word c!"endif"]) .done := tri_endif rfl
    have t4 : LexSpec.Tri wc .at [.text c!"extern \"C\" {"] [.word c!"extern", .quoted '"' c!"C", .punct '{'] .done := by
      refine LexSpec.tri_anyText spaces_at ?_
      intro s hs; cases hs; exact ⟨_, _, rfl, .inl rfl, rfl⟩
    have t3 := LexSpec.tri_append (LexSpec.tri_append (LexSpec.tri_append (LexSpec.tri_append (LexSpec.tri_append (LexSpec.tri_append
        LexSpec.tri_newLineIfNotStart t1) LexSpec.tri_newLine) t4) LexSpec.tri_newLine) t2) LexSpec.tri_newLine
    have o1 := opens_ifdef (on := on) h2
    rw [h1] at o1
    refine ⟨_, tri_ops t3 (by simp [onlyIf]), ?_⟩
    simpa using adds_skipped (R := R) o1 (skips_toks (ls := [.word c!"extern", .quoted '"' c!"C", .punct '{']) (by simp))

theorem seg_externClose (hl : c.language = .c) (hc : c.cppCompatibleC = true → on cplusplus = false ∧ cplusplus ∈ D) :
    Seg wc R on D .at (externClose c) {} .at := by
  unfold externClose
  simp only [hl]
  cases hcc : c.cppCompatibleC with
  | false => exact seg_nil
  | true =>
    obtain ⟨h1, h2⟩ := hc hcc
    have t1 : LexSpec.Tri wc .at [.text c!"#ifdef __cplusplus"] (dirToks [.word c!"ifdef", .word cplusplus]) .done :=
      tri_directive (t := c!"ifdef __cplusplus") (b := true) (by decide)
    have t2 : LexSpec.Tri wc .at [.text c!"#endif  // __cplusplus"] (dirToks [.word c!"endif"]) .done := tri_endif rfl
    have t4 : LexSpec.Tri wc .at [.text c!"}  // extern \"C\""] [.punct '}'] .done := by
      refine LexSpec.tri_anyText spaces_at ?_
      intro s hs; cases hs; exact ⟨_, _, rfl, .inr (.inr rfl), rfl⟩
    have nl : LexSpec.Tri wc .at [.newLine] [] .at := LexSpec.tri_pre LexSpec.tri_newLine at_le_done
    have t3 := LexSpec.tri_append (LexSpec.tri_append (LexSpec.tri_append (LexSpec.tri_append (LexSpec.tri_append (LexSpec.tri_append
        nl t1) LexSpec.tri_newLine) t4) LexSpec.tri_newLine) t2) LexSpec.tri_newLine
    have o1 := opens_ifdef (on := on) h2
    rw [h1] at o1
    refine ⟨_, tri_ops t3 (by simp [onlyIf]), ?_⟩
    simpa using adds_skipped (R := R) o1 (skips_toks (ls := [.punct '}']) (by simp))

/-! ## Items -/

theorem seg_item {ops : List WOp} {o : Out} (h : Seg wc R on D .at ops o .done) : Seg wc R on D .at (itemOps ops) o .at :=
  seg_right (seg_left LexSpec.tri_newLineIfNotStart h) LexSpec.tri_newLine

theorem seg_constants (ho : ReadFine e.cfg R D) (p : Bool) {ks : List ConstItem} (h : ∀ k ∈ ks, ConstGood R D e none k) :
    Seg wc R on D .at (constantsOps e p ks) (constantsOut e on p ks) .at :=
  seg_flatMap fun k hk => seg_item (seg_const ho (h k (List.mem_filter.mp hk).1))

theorem seg_container (ho : ReadFine e.cfg R D) {i : Container} (h : ContainerGood R on D e i) :
    Seg wc R on D .at (i.ops e) (containerOut R e on i) .done := by
  cases i with
  | enum x => exact seg_enum ho h
  | union x => exact seg_union ho h
  | «opaque» x => exact seg_opaque ho h
  | typedef x => exact seg_typedef ho h
  | struct x =>
    simp only [Container.ops, containerOut, structOrTypedef, ContainerGood] at h ⊢
    cases hx : x.asTypedef with
    | none => simp only [hx] at h ⊢; exact seg_struct ho h
    | some t => simp only [hx] at h ⊢; exact seg_append (seg_typedef ho h.1) (seg_assocs ho h.2)

theorem seg_items (ho : ReadFine e.cfg R D) {is : List Container} (h : ∀ i ∈ is, i.annotations.shouldExport = true → ContainerGood R on D e i) :
    Seg wc R on D .at (itemsOps e is) (outs ((is.filter fun i => i.annotations.shouldExport).map (containerOut R e on))) .at :=
  seg_flatMap fun i hi => seg_item (seg_container ho (h i (List.mem_filter.mp hi).1 (List.mem_filter.mp hi).2))

theorem seg_globals (ho : ReadFine c R D) {gs : List StaticItem} (h : ∀ g ∈ gs, g.annotations.shouldExport = true → StaticGood R c g) :
    Seg wc R on D .at (globalsDefault c gs) (outs ((gs.filter fun g => g.annotations.shouldExport).map (staticOut c on))) .at :=
  seg_flatMap fun g hg => seg_item (seg_static ho (h g (List.mem_filter.mp hg).1 (List.mem_filter.mp hg).2))

theorem seg_functions (ho : ReadFine c R D) {fs : List FuncItem} (h : ∀ f ∈ fs, f.annotations.shouldExport = true → FuncGood R c f) :
    Seg wc R on D .at (functionsDefault c fs) (outs ((fs.filter fun f => f.annotations.shouldExport).map (funcOut c on))) .at :=
  seg_flatMap fun f hf => seg_item (seg_func ho (h f (List.mem_filter.mp hf).1 (List.mem_filter.mp hf).2))

theorem seg_left' {P Q S : Pos} {a b : List WOp} {o : Out} (h1 : Seg wc R on D P a {} Q) (h2 : Seg wc R on D Q b o S) :
    Seg wc R on D P (a ++ b) o S := by
  have := seg_append h1 h2
  rwa [Out.nil_append] at this

theorem seg_right' {P Q S : Pos} {a b : List WOp} {o : Out} (h1 : Seg wc R on D P a o Q) (h2 : Seg wc R on D Q b {} S) :
    Seg wc R on D P (a ++ b) o S := by
  have := seg_append h1 h2
  rwa [Out.append_nil] at this

/-- What has linkage. -/
theorem seg_linkage (ho : OptsFine c R D) (hc : c.cppCompatibleC = true → on cplusplus = false ∧ cplusplus ∈ D) {b : Bindings}
    (hg : ∀ g ∈ b.globals, g.annotations.shouldExport = true → StaticGood R c g)
    (hf : ∀ f ∈ b.functions, f.annotations.shouldExport = true → FuncGood R c f) :
    Seg wc R on D .at (globalsOps c b ++ functionsOps c b)
      (outs ((b.globals.filter fun g => g.annotations.shouldExport).map (staticOut c on)) ++
       outs ((b.functions.filter fun f => f.annotations.shouldExport).map (funcOut c on))) .at := by
  unfold globalsOps functionsOps
  rw [ho.lang]
  simp only []
  cases hk : b.hasLinkage with
  | false =>
    simp only [Bindings.hasLinkage, Bool.or_eq_false_iff, Bool.not_eq_false', List.isEmpty_iff] at hk
    rw [hk.1, hk.2]
    exact seg_nil
  | true =>
    have := seg_append (seg_left' (seg_externOpen (wc := wc) (R := R) ho.lang hc) (seg_globals (wc := wc) (on := on) ho.toReadFine hg))
      (seg_right' (seg_functions (wc := wc) (on := on) ho.toReadFine hf) (seg_externClose (wc := wc) (R := R) ho.lang hc))
    exact this

/-- The declarations. -/
theorem seg_bindings {b : Bindings} (h : HeaderGood R on D e b) :
    Seg wc R on D .at (openNamespaces e.cfg ++ constantsOps e true b.constants ++ itemsOps e b.items ++
      constantsOps e false b.constants ++ globalsOps e.cfg b ++ functionsOps e.cfg b ++ closeNamespaces e.cfg)
      (bindingsOut R e on b) .at := by
  have ho := h.options
  have h1 := seg_append (seg_append (seg_append (seg_left' (seg_openNamespaces (wc := wc) (R := R) ho.lang h.cpp h.spaces)
    (seg_constants (wc := wc) (on := on) ho.toReadFine true h.constants)) (seg_items ho.toReadFine h.items)) (seg_constants ho.toReadFine false h.constants))
    (seg_linkage ho h.cpp h.globals h.functions)
  have h2 := seg_right' h1 (seg_closeNamespaces ho.lang h.cpp h.spaces)
  simp only [List.append_assoc, Out.append_assoc, bindingsOut] at h2 ⊢
  exact h2

/-- The hypotheses on everything but the declarations. -/
structure FrameGood (R : Dialect) (on : Str → Bool) (D : List Str) (e : Env) : Prop where
  text : e.cfg.language ≠ .cython
  version : CommentSafe e.packageVersion ∧ CommentSafe e.cfg.version
  guard : ∀ g, e.cfg.guard = some g → Word g ∧ g ∉ D
  header : ∀ s, e.cfg.header = some s → BlockText R on (e.cfg.guard.toList ++ D) s
  autogen : ∀ s, e.cfg.autogenWarning = some s → BlockText R on D s
  after : ∀ s, e.cfg.afterIncludes = some s → BlockText R on D s
  trailer : ∀ s, e.cfg.trailer = some s → BlockText R on D s
  sys : ∀ i ∈ e.cfg.allSysIncludes, ExprText i
  quoted : ∀ i ∈ e.cfg.allIncludes, QuoteSafe i

theorem HeaderGood.frame {b : Bindings} (h : HeaderGood R on D e b) : FrameGood R on D e :=
  { h with text := h.options.text }

theorem CxxHeaderGood.frame {b : Bindings} (h : CxxHeaderGood R on D e b) : FrameGood R on D e :=
  { h with text := h.options.text }

/-- The whole header, with the declarations. -/
def frameOut (R : Dialect) (e : Env) (on : Str → Bool) (o : Out) : Out :=
  blockOut R on e.cfg.header ++
  whenOut (e.cfg.guard.all fun g => !on g)
    (guardOut e.cfg.guard ++ blockOut R on e.cfg.autogenWarning ++ ⟨[], [], includesOf e.cfg⟩ ++ blockOut R on e.cfg.afterIncludes ++ o) ++
  blockOut R on e.cfg.trailer

/-- What comes before the guard. -/
theorem seg_top {D' : List Str} (hv : CommentSafe e.packageVersion) (hl : e.cfg.language ≠ .cython)
    (h : ∀ s, e.cfg.header = some s → BlockText R on D' s) :
    Seg wc R on D' .at (onlyIf e.cfg.packageVersion (lineOps (packageText e.cfg.language e.packageVersion)) ++ optParagraph e.cfg.header)
      (blockOut R on e.cfg.header) .at := by
  refine seg_left' ?_ (seg_optParagraph h)
  cases e.cfg.packageVersion with
  | false => exact seg_nil
  | true =>
    have := scans_blockComment (a := c!"/* Package version: ") (b := c!" */") (st := true) (d := false) (ls := []) rfl hv rfl
    have e1 : packageText e.cfg.language e.packageVersion = c!"/* Package version: " ++ e.packageVersion ++ c!" */" := by
      cases h : e.cfg.language with
      | cython => exact absurd h hl
      | _ => rfl
    simp only [onlyIf, if_true, e1]
    exact seg_line (LexSpec.tri_anyText spaces_at this) adds_nil

/-- What comes after the guard. -/
theorem seg_middle (h : FrameGood R on D e) :
    Seg wc R on D .at (onlyIf (e.cfg.language != .cython && e.cfg.pragmaOnce) (paragraphOps c!"#pragma once") ++
      onlyIf e.cfg.includeVersion (paragraphOps (c!"/* Generated with cbindgen:" ++ e.cfg.version ++ c!" */")) ++
      optParagraph e.cfg.autogenWarning ++ onlyIf (!noPrelude e.cfg) (preludeOps e.cfg))
      (blockOut R on e.cfg.autogenWarning ++ ⟨[], [], includesOf e.cfg⟩ ++ blockOut R on e.cfg.afterIncludes) .at := by
  have h1 : Seg wc R on D .at (onlyIf (e.cfg.language != .cython && e.cfg.pragmaOnce) (paragraphOps c!"#pragma once")) {} .at := by
    cases e.cfg.language != .cython && e.cfg.pragmaOnce with
    | false => exact seg_nil
    | true =>
      exact seg_paragraph (ls := dirToks [.word c!"pragma", .word c!"once"]) (tri_directive (t := c!"pragma once") (b := true) (by decide))
        (adds_pragma (by simp))
  have h2 : Seg wc R on D .at (onlyIf e.cfg.includeVersion (paragraphOps (c!"/* Generated with cbindgen:" ++ e.cfg.version ++ c!" */"))) {} .at := by
    cases e.cfg.includeVersion with
    | false => exact seg_nil
    | true =>
      have := scans_blockComment (a := c!"/* Generated with cbindgen:") (b := c!" */") (st := true) (d := false) (ls := []) rfl h.version.2 rfl
      exact seg_paragraph (LexSpec.tri_anyText spaces_at this) adds_nil
  have h3 := seg_append (seg_left' (seg_left' h1 h2) (seg_optParagraph h.autogen)) (seg_prelude (wc := wc) h.text h.sys h.quoted h.after)
  rw [Out.append_assoc]
  simp only [List.append_assoc] at h3 ⊢
  exact h3

theorem acts_mono {D' : List Str} (hd : ∀ x ∈ D, x ∈ D') {ls : List Lx} {f f' : Frame} {ms : List (Str × List Lx)} {is : List (List Lx)}
    (h : Acts R on D ls f f' ms is) : Acts R on D' ls f f' ms is :=
  ⟨h.1, fun conds fs ms incs hc hm => h.2 conds fs ms incs hc fun m hx hx' => hm m hx (hd _ hx')⟩

/-- Two parts, where the second asks for less. -/
theorem acts_append' {D' : List Str} (hd : ∀ x ∈ D, x ∈ D') {a b : List Lx} {f g k : Frame} {m1 m2 : List (Str × List Lx)} {i1 i2 : List (List Lx)}
    (h1 : Acts R on D' a f g m1 i1) (hf : Fresh D m1) (h2 : Acts R on D b g k m2 i2) :
    Acts R on D' (a ++ b) f k (m1 ++ m2) (i1 ++ i2) := by
  refine ⟨skips_append h1.1 h2.1, fun conds fs ms incs hc hm => ?_⟩
  rw [run_some (h1.2 conds fs ms incs hc hm), h2.2 conds fs _ _ hc (Fresh.append (fun m hx hx' => hm m hx (hd _ hx')) hf)]
  simp [List.append_assoc]

/-- The whole header. -/
theorem frame_toks {b : Bindings} (h : FrameGood R on D e) {o : Out}
    (hb : Seg wc R on D .at (openNamespaces e.cfg ++ constantsOps e true b.constants ++ itemsOps e b.items ++
      constantsOps e false b.constants ++ globalsOps e.cfg b ++ functionsOps e.cfg b ++ closeNamespaces e.cfg) o .at) :
    ∃ ls, LexSpec.Tri wc .at (bindingsOps e b) ls .done ∧
    Acts R on (e.cfg.guard.toList ++ D) ls ⟨[], []⟩ ⟨(frameOut R e on o).items, []⟩ (frameOut R e on o).macros (frameOut R e on o).includes := by
  have hl := h.text
  have hsub : ∀ x ∈ D, x ∈ e.cfg.guard.toList ++ D := fun x hx => List.mem_append_right _ hx
  obtain ⟨l1, t1, a1⟩ := seg_top (wc := wc) (D' := e.cfg.guard.toList ++ D) h.version.1 hl h.header
  obtain ⟨l2, t2, a2⟩ := seg_append (seg_middle (wc := wc) h) hb
  obtain ⟨l3, t3, a3⟩ := seg_trailer (wc := wc) h.trailer
  cases hg : e.cfg.guard with
  | none =>
    rw [hg] at a1
    have a4 := adds_append (adds_append (a1 : Adds R on D _ _) a2) a3
    refine ⟨_, tri_ops (LexSpec.tri_append (LexSpec.tri_append t1 t2) t3) ?_, ?_⟩
    · simp [bindingsOps, headersOps, hg, guardOps, footersOps]
    · have := a4.1 []
      simpa [frameOut, hg, guardOut, whenOut, Out.append_def] using this
  | some g =>
    obtain ⟨hw, hgD⟩ := h.guard g hg
    rw [hg] at a1 hsub
    have i1 : LexSpec.Tri wc .at [.text (c!"#ifndef " ++ g)] (dirToks [.word c!"ifndef", .word g]) .done := by
      have : Scans .at (c!"#ifndef " ++ g) ([.hash, .word c!"ifndef"] ++ [.word g]) (.any true) :=
        scans_append (P := .at) (Q := .gap true) (by intro s hs; cases hs; exact ⟨_, _, rfl, ⟨rfl, rfl⟩, rfl⟩) (scans_wordMid hw)
      exact LexSpec.tri_eq (LexSpec.tri_close (LexSpec.tri_anyText spaces_at this)) (by simp [dirToks])
    have i2 : LexSpec.Tri wc .at [.text (c!"#define " ++ g)] (dirToks [.word c!"define", .word g]) .done := by
      have : Scans .at (c!"#define " ++ g) ([.hash, .word c!"define"] ++ [.word g]) (.any true) :=
        scans_append (P := .at) (Q := .gap true) (by intro s hs; cases hs; exact ⟨_, _, rfl, ⟨rfl, rfl⟩, rfl⟩) (scans_wordMid hw)
      exact LexSpec.tri_eq (LexSpec.tri_close (LexSpec.tri_anyText spaces_at this)) (by simp [dirToks])
    have i3 : LexSpec.Tri wc .at [.text (if e.cfg.language = .c then c!"#endif  /* " ++ g ++ c!" */" else c!"#endif  // " ++ g)]
        (dirToks [.word c!"endif"]) .done := by
      split
      · exact LexSpec.tri_anyText spaces_at (scans_blockComment (a := c!"#endif  /* ") (b := c!" */") (st := false) (d := true)
          (ls := [.hash, .word c!"endif"]) rfl (word_commentSafe hw) rfl)
      · refine LexSpec.tri_anyText spaces_at ?_
        intro s hs'; cases hs'
        have h1 : LexSpec.scan {} c!"#endif  // " = some (⟨.line false, false, true⟩, [.hash, .word c!"endif"]) := rfl
        exact ⟨_, _, scan_some h1 (scan_lineSafe (word_lineSafe hw) _ _), .inr (.inr rfl), rfl⟩
    have nn : LexSpec.Tri wc .at [.newLineIfNotStart] [] .at := LexSpec.tri_newLineIfNotStart
    have nl : LexSpec.Tri wc .done [.newLine] [] .at := LexSpec.tri_newLine
    have t4 := LexSpec.tri_append (LexSpec.tri_append (LexSpec.tri_append (LexSpec.tri_append (LexSpec.tri_append t1
      (LexSpec.tri_append nn (LexSpec.tri_append i1 nl))) (LexSpec.tri_append i2 nl)) t2) (LexSpec.tri_append nn (LexSpec.tri_append i3 nl))) t3
    have a4 := adds_append (adds_define (R := R) (on := on) (body := []) (by simp) hgD) a2
    have o1 := opens_ifndef (on := on) (D := [g] ++ D) (x := g) (by simp)
    have a5 := acts_group o1 (acts_mono hsub (a4.1 (blockOut R on e.cfg.header).items))
    refine ⟨_, tri_ops t4 ?_, ?_⟩
    · simp [bindingsOps, headersOps, hg, guardOps, footersOps, paragraphOps]
    · have hf1 : Fresh D (blockOut R on e.cfg.header).macros := fun m hx hx' => a1.2 m hx (hsub _ hx')
      have a8 := a1.1 []
      simp only [List.nil_append] at a8
      cases hx : on g with
      | true =>
        simp only [hx, Bool.not_true, Bool.false_eq_true, if_false] at a5
        have a6 := acts_append a8 a1.2 a5
        have a7 := acts_append' hsub a6 (by simpa using hf1) (a3.1 _)
        simpa [frameOut, hg, whenOut, hx, Out.append_def] using a7
      | false =>
        simp only [hx, Bool.not_false, if_true] at a5
        have a6 := acts_append a8 a1.2 a5
        have a7 := acts_append' hsub a6 (hf1.append a4.2) (a3.1 _)
        simpa [frameOut, hg, whenOut, hx, Out.append_def, guardOut] using a7

theorem header_toks {b : Bindings} (h : HeaderGood R on D e b) : ∃ ls, LexSpec.Tri wc .at (bindingsOps e b) ls .done ∧
    Acts R on (e.cfg.guard.toList ++ D) ls ⟨[], []⟩ ⟨(headerOut R e on b).items, []⟩ (headerOut R e on b).macros (headerOut R e on b).includes :=
  frame_toks h.frame (seg_bindings h)

/-! ## C++ -/

/-- The tokens that open namespaces. -/
def openToks (ns : List Str) : List Lx := ns.flatMap fun n => [.word c!"namespace", .word n, .punct '{']

theorem adds_spaces (hx : R.cxx = true) {ls : List Lx} {o : Out} (h : Adds R on D ls o) : ∀ (ns : List Str),
    Adds R on D (openToks ns ++ ls ++ List.replicate ns.length (.punct '}')) (spacesOut ns o)
  | [] => by simpa [openToks, spacesOut] using h
  | n :: ns => by
    have := adds_space hx (n := n) (adds_spaces hx h ns)
    have e1 : openToks (n :: ns) ++ ls ++ List.replicate (n :: ns).length (.punct '}') =
        [.word c!"namespace", .word n, .punct '{'] ++ (openToks ns ++ ls ++ List.replicate ns.length (.punct '}')) ++ [.punct '}'] := by
      rw [List.length_cons, List.replicate_succ']
      simp [openToks]
    rw [e1]
    exact this

theorem lines_at (lines : List Str) (f : Str → List Lx) (h : ∀ l ∈ lines, Scans .at l (f l) .done) :
    LexSpec.Tri wc .done (lines.flatMap fun l => [.newLine, .text l]) (lines.flatMap f) .done := by
  induction lines with
  | nil => exact LexSpec.tri_nil
  | cons l ls ih =>
    rw [List.flatMap_cons, List.flatMap_cons]
    exact LexSpec.tri_append (LexSpec.tri_append (ls := []) LexSpec.tri_newLine (LexSpec.tri_anyText spaces_at (h l (by simp))))
      (ih fun x hx => h x (by simp [hx]))

theorem lines_cxx (hl : c.language = .cxx) (lines : List Str) (f : Str → List Lx) (h : ∀ l ∈ lines, Scans .at l (f l) .done) :
    LexSpec.Tri wc .at (namespaceLines c lines) (lines.flatMap f) .at := by
  have h1 := lines_at (wc := wc) lines f h
  unfold namespaceLines
  have hc : c.cppCompatibleC = false := by simp [OutConfig.cppCompatibleC, hl]
  split
  · rename_i he
    rw [List.isEmpty_iff] at he
    subst he
    exact LexSpec.tri_nil
  · simp only [hc, onlyIf, Bool.false_eq_true, if_false, List.nil_append, List.append_nil]
    exact LexSpec.tri_eq (LexSpec.tri_append (LexSpec.tri_pre h1 at_le_done) LexSpec.tri_newLine) (by simp)

theorem flatMap_opens (ns : List Str) (f : Str → List Lx) (h : ∀ n ∈ ns, f (c!"namespace " ++ n ++ c!" {") = [.word c!"namespace", .word n, .punct '{']) :
    (ns.map fun n => c!"namespace " ++ n ++ c!" {").flatMap f = openToks ns := by
  unfold openToks
  rw [List.flatMap_map]
  induction ns with
  | nil => rfl
  | cons n ns ih =>
    rw [List.flatMap_cons, List.flatMap_cons, h n (by simp), ih fun x hx => h x (by simp [hx])]

theorem tri_opens (hl : c.language = .cxx) (hs : ∀ n ∈ c.spaces, Word n) :
    LexSpec.Tri wc .at (openNamespaces c) (openToks c.spaces) .at := by
  have e1 : openNamespaces c = namespaceLines c (c.spaces.map fun n => c!"namespace " ++ n ++ c!" {") := by
    unfold openNamespaces; rw [hl]
  have key : ∀ n ∈ c.spaces, Scans .at (c!"namespace " ++ n ++ c!" {") [.word c!"namespace", .word n, .punct '{'] .done := by
    intro n hn
    have := scans_append (scans_append (scans_text (d := false) (t := c!"namespace ") (ls := [.word c!"namespace"]) (b := false) (x := false) (by decide))
      (scans_wordMid (hs n hn))) (scans_text (t := c!" {") (ls := [.punct '{']) (x := false) (by decide))
    exact scans_pre (scans_post this mid_le_done) at_le_mid
  rw [e1, ← flatMap_opens c.spaces toks fun n hn => toks_of (key n hn)]
  refine lines_cxx hl _ toks fun l hl => ?_
  obtain ⟨n, hn, rfl⟩ := List.mem_map.mp hl
  rw [toks_of (key n hn)]
  exact key n hn

theorem tri_closes (hl : c.language = .cxx) (hs : ∀ n ∈ c.spaces, Word n) :
    LexSpec.Tri wc .at (closeNamespaces c) (List.replicate c.spaces.length (.punct '}')) .at := by
  have e1 : closeNamespaces c = namespaceLines c (c.spaces.reverse.map fun n => c!"}  // namespace " ++ n) := by
    unfold closeNamespaces; rw [hl]
  rw [e1]
  refine LexSpec.tri_eq (lines_cxx hl _ (fun _ => [.punct '}']) fun l hl => ?_) ?_
  · obtain ⟨n, hn, rfl⟩ := List.mem_map.mp hl
    intro s hs'; cases hs'
    have h1 : LexSpec.scan {} c!"}  // namespace " = some (⟨.line false, false, false⟩, [.punct '}']) := rfl
    exact ⟨_, _, scan_some h1 (scan_lineSafe (word_lineSafe (hs n (List.mem_reverse.mp hn))) _ _), .inr (.inr rfl), rfl⟩
  · have : ∀ ns : List Str, ns.flatMap (fun _ => [Lx.punct '}']) = List.replicate ns.length (.punct '}') := by
      intro ns
      induction ns with
      | nil => rfl
      | cons n ns ih => rw [List.flatMap_cons, ih]; rfl
    rw [this]; simp

/-- A directive `using namespace`. -/
theorem adds_usingSpace (hx : R.cxx = true) {n : Str} :
    Adds R on D [.word c!"using", .word c!"namespace", .word n, .punct ';'] (decls [.usingSpace n]) := by
  refine adds_end (grow_toks (ls := [.word c!"using", .word c!"namespace", .word n]) rfl) (by simp [linkStart]) ?_
  rw [declaration, if_pos (by simp [cxxStart, hx, cxxWords]), flatToks_toks]
  simp [readPlainCxx]

theorem seg_uses (hx : R.cxx = true) (ns : List Str) (h : ∀ n ∈ ns, Word n) :
    Seg wc R on D .done (ns.flatMap fun n => [.newLine, .text (c!"using namespace " ++ n ++ c!";")]) (decls (ns.map .usingSpace)) .done := by
  induction ns with
  | nil => exact seg_nil
  | cons n ns ih =>
    have t : LexSpec.Tri wc .at [.text (c!"using namespace " ++ n ++ c!";")] [.word c!"using", .word c!"namespace", .word n, .punct ';'] .done := by
      refine LexSpec.tri_anyText spaces_at ?_
      have := scans_append (scans_append (scans_text (d := false) (t := c!"using namespace ") (ls := [.word c!"using", .word c!"namespace"])
        (b := false) (x := false) (by decide)) (scans_wordMid (h n (by simp)))) (scans_text (t := c!";") (ls := [.punct ';']) (x := false) (by decide))
      exact scans_pre (scans_post this mid_le_done) at_le_mid
    have h1 : Seg wc R on D .done [.newLine, .text (c!"using namespace " ++ n ++ c!";")] (decls [.usingSpace n]) .done :=
      ⟨_, LexSpec.tri_eq (LexSpec.tri_append LexSpec.tri_newLine t) (by simp), adds_usingSpace hx⟩
    rw [List.flatMap_cons]
    exact seg_append h1 (ih fun x hx => h x (by simp [hx]))

theorem seg_linkageCxx (ho : ReadFine e.cfg R D) (hl : e.cfg.language = .cxx) {b : Bindings}
    (hu : ∀ n ∈ e.cfg.usingNamespaces.getD [], Word n)
    (hg : ∀ g ∈ b.globals, g.annotations.shouldExport = true → StaticGood R e.cfg g)
    (hf : ∀ f ∈ b.functions, f.annotations.shouldExport = true → FuncGood R e.cfg f) :
    Seg wc R on D .at (globalsOps e.cfg b ++ functionsOps e.cfg b) (cxxLinkageOut e on b) .at := by
  have hx : R.cxx = true := by rw [ho.cxx, hl]; rfl
  have hc : e.cfg.cppCompatibleC = false := by simp [OutConfig.cppCompatibleC, hl]
  unfold globalsOps functionsOps cxxLinkageOut
  rw [hl]
  simp only []
  cases hk : b.hasLinkage with
  | false =>
    simp only [Bindings.hasLinkage, Bool.or_eq_false_iff, Bool.not_eq_false', List.isEmpty_iff] at hk
    rw [if_pos hk]
    exact seg_nil
  | true =>
    rw [if_neg (by rintro ⟨h1, h2⟩; simp [Bindings.hasLinkage, h1, h2] at hk)]
    obtain ⟨ls, t1, a1⟩ := seg_append (seg_globals (wc := wc) (on := on) ho hg) (seg_functions (wc := wc) (on := on) ho hf)
    have t4 : LexSpec.Tri wc .at [.text c!"extern \"C\" {"] [.word c!"extern", .quoted '"' c!"C", .punct '{'] .done := by
      refine LexSpec.tri_anyText spaces_at ?_
      intro s hs; cases hs; exact ⟨_, _, rfl, .inl rfl, rfl⟩
    have t5 : LexSpec.Tri wc .at [.text c!"}  // extern \"C\""] [.punct '}'] .done := by
      refine LexSpec.tri_anyText spaces_at ?_
      intro s hs; cases hs; exact ⟨_, _, rfl, .inr (.inr rfl), rfl⟩
    have nl : LexSpec.Tri wc .at [.newLine] [] .at := LexSpec.tri_pre LexSpec.tri_newLine at_le_done
    have t6 := LexSpec.tri_append (LexSpec.tri_append (LexSpec.tri_append (LexSpec.tri_append nl t4) LexSpec.tri_newLine) t1)
      (LexSpec.tri_append (LexSpec.tri_append nl t5) LexSpec.tri_newLine)
    have s1 : Seg wc R on D .at _ (aroundOut (.linkage c!"C") _) .at := ⟨_, LexSpec.tri_eq t6 (by simp), adds_linkage hx a1⟩
    have s2 : Seg wc R on D .at (match e.cfg.usingNamespaces with
        | some ns => ns.flatMap (fun n => [.newLine, .text (c!"using namespace " ++ n ++ c!";")]) ++ [.newLine]
        | none => []) (decls ((e.cfg.usingNamespaces.getD []).map .usingSpace)) .at := by
      cases hn : e.cfg.usingNamespaces with
      | none => exact seg_nil
      | some ns =>
        rw [hn] at hu
        exact seg_right (seg_pre (seg_uses hx ns hu) at_le_done) LexSpec.tri_newLine
    have s3 := seg_append s2 s1
    have e1 : externOpen e.cfg = (match e.cfg.usingNamespaces with
        | some ns => ns.flatMap (fun n => [.newLine, .text (c!"using namespace " ++ n ++ c!";")]) ++ [.newLine]
        | none => []) ++ [.newLine, .text c!"extern \"C\" {", .newLine] := by
      unfold externOpen
      rw [hl, hc]
      cases e.cfg.usingNamespaces <;> simp [onlyIf]
    have e2 : externClose e.cfg = [.newLine, .text c!"}  // extern \"C\"", .newLine] := by
      unfold externClose
      rw [hl, hc]
      rfl
    simp only [onlyIf, if_true, e1, e2]
    simp only [List.append_assoc, List.cons_append, List.nil_append] at s3 ⊢
    exact s3

theorem seg_bindingsCxx {b : Bindings} (h : CxxHeaderGood R on D e b) :
    Seg wc R on D .at (openNamespaces e.cfg ++ constantsOps e true b.constants ++ itemsOps e b.items ++
      constantsOps e false b.constants ++ globalsOps e.cfg b ++ functionsOps e.cfg b ++ closeNamespaces e.cfg)
      (cxxBindingsOut R e on b) .at := by
  have ho := h.options
  have hx : R.cxx = true := by rw [ho.cxx, h.lang]; rfl
  have es : e.cfg.spaces = e.cfg.namespace_.toList ++ e.cfg.namespaces.getD [] := by simp [OutConfig.spaces, h.lang]
  have hs := h.spaces
  rw [← es] at hs
  obtain ⟨ls, t1, a1⟩ := seg_append (seg_append (seg_append (seg_constants (wc := wc) (on := on) ho true h.constants) (seg_items ho h.items))
    (seg_constants ho false h.constants)) (seg_linkageCxx ho h.lang h.uses h.globals h.functions)
  have t2 := LexSpec.tri_append (LexSpec.tri_append (tri_opens (wc := wc) h.lang hs) t1) (tri_closes h.lang hs)
  refine ⟨_, tri_ops t2 (by simp), ?_⟩
  unfold cxxBindingsOut
  rw [← es]
  exact adds_spaces hx a1 e.cfg.spaces

theorem header_toksCxx {b : Bindings} (h : CxxHeaderGood R on D e b) : ∃ ls, LexSpec.Tri wc .at (bindingsOps e b) ls .done ∧
    Acts R on (e.cfg.guard.toList ++ D) ls ⟨[], []⟩ ⟨(cxxHeaderOut R e on b).items, []⟩ (cxxHeaderOut R e on b).macros (cxxHeaderOut R e on b).includes :=
  frame_toks h.frame (seg_bindingsCxx h)

end

end Cbindgen.HeadSpec
