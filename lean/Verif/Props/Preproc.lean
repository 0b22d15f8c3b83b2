import Verif.Lemmas.PreprocEnum
import Verif.Props.Layout

/-!
# C27: what a header opens it closes
-/

namespace Cbindgen.PreSpec
open TextSpec CommentSpec

section
variable {wc : WConfig}

/-! ## The start and the end of the file -/

theorem lines_block_text {s : Str} (h : Block s) : Lines wc (lineOps s) := by
  refine para_newLine (ops := [.text s]) fun d b => tri_text (fun _ h => h.ok) fun r hr => ?_
  cases hr
  exact h d b

theorem lines_paragraph {s : Str} (h : Block s) : Lines wc (paragraphOps s) :=
  lines_cons lines_newLineIfNotStart (lines_block_text h)

theorem lines_optParagraph {o : Option Str} (h : OptBlock o) : Lines wc (optParagraph o) := by
  cases o with
  | none => exact lines_nil
  | some s => exact lines_paragraph (h s rfl)

theorem block_comment {s : Str} (h : Plain s) : Block (c!"/* " ++ s ++ c!" */") := by
  intro d b
  have := inline_comment (s := c!" " ++ s ++ c!" ") (by plain) d b _ (.inl rfl)
  obtain ⟨r, e, o⟩ := this
  exact ⟨r, by simpa using e, o.done⟩

theorem block_include {i : Str} (h : Inline i) : Block (c!"#include <" ++ i ++ c!">") := by
  intro d b
  have h1 : scan (lineStart d b) c!"#include <" = some (midLine d b) := rfl
  obtain ⟨r, e, o⟩ := inline_append h (plain_inline (s := c!">") rfl) d b _ (.inr rfl)
  exact ⟨r, by rw [List.append_assoc, scan_some h1, e], o.done⟩

theorem scan_includeName {i : Str} (h : ∀ x ∈ i, isBreak x = false ∧ x ≠ '"' ∧ x ≠ '\\') (l : Line) (d b : Nat) :
    scan ⟨.quote '"', l, d, b⟩ i = some ⟨.quote '"', l, d, b⟩ := by
  induction i with
  | nil => rfl
  | cons c i ih =>
    obtain ⟨h1, h2, h3⟩ := h c (by simp)
    rw [scan]
    simp only [step, h1, h2, h3, Bool.false_eq_true, if_false, Option.bind_some]
    exact ih fun x hx => h x (by simp [hx])

theorem block_includeQuoted {i : Str} (h : ∀ x ∈ i, isBreak x = false ∧ x ≠ '"' ∧ x ≠ '\\') :
    Block (c!"#include \"" ++ i ++ c!"\"") := by
  intro d b
  have h1 : scan (lineStart d b) c!"#include \"" = some ⟨.quote '"', .rest, d, b⟩ := rfl
  have h2 : scan ⟨.quote '"', .rest, d, b⟩ c!"\"" = some (midLine d b) := rfl
  exact ⟨midLine d b, by rw [List.append_assoc, scan_some h1, scan_some (scan_includeName h _ _ _), h2],
    Ok.done (.inr rfl)⟩

theorem block_standard {c : OutConfig} (hl : c.language ≠ .cython) {s : Str} (h : s ∈ standardIncludes c) : Block s := by
  have key : ∃ n, Plain n ∧ s = c!"#include <" ++ n ++ c!">" := by
    unfold standardIncludes at h
    split at h
    · simp only [List.mem_append, List.mem_cons, List.not_mem_nil, or_false] at h
      rcases h with ((rfl | rfl) | h) | (rfl | rfl)
      · exact ⟨c!"stdarg.h", rfl, rfl⟩
      · exact ⟨c!"stdbool.h", rfl, rfl⟩
      · split at h
        · simp only [List.mem_cons, List.not_mem_nil, or_false] at h
          subst h; exact ⟨c!"stddef.h", rfl, rfl⟩
        · cases h
      · exact ⟨c!"stdint.h", rfl, rfl⟩
      · exact ⟨c!"stdlib.h", rfl, rfl⟩
    · simp only [List.mem_append, List.mem_cons, List.not_mem_nil, or_false] at h
      rcases h with ((rfl | h) | (rfl | rfl | rfl | rfl)) | h
      · exact ⟨c!"cstdarg", rfl, rfl⟩
      · split at h
        · simp only [List.mem_cons, List.not_mem_nil, or_false] at h
          subst h; exact ⟨c!"cstddef", rfl, rfl⟩
        · cases h
      · exact ⟨c!"cstdint", rfl, rfl⟩
      · exact ⟨c!"cstdlib", rfl, rfl⟩
      · exact ⟨c!"ostream", rfl, rfl⟩
      · exact ⟨c!"new", rfl, rfl⟩
      · split at h
        · simp only [List.mem_cons, List.not_mem_nil, or_false] at h
          subst h; exact ⟨c!"cassert", rfl, rfl⟩
        · cases h
    · cases h
  obtain ⟨n, hn, rfl⟩ := key
  exact block_include (plain_inline hn)

/-- The number of conditionals that the guard opens. -/
def guardLevel (c : OutConfig) : Nat := if c.guard.isSome then 1 else 0

theorem guard_plain {c : OutConfig} (h : ConfigFine c) {g : Str} (hg : c.guard = some g) : Plain g := by
  unfold OutConfig.guard at hg
  split at hg
  · cases hg
  · exact h.guard g hg

theorem tri_guard {c : OutConfig} (h : ConfigFine c) {d b : Nat} :
    Tri wc (At d b) (guardOps c.guard) (At (d + guardLevel c) b) := by
  unfold guardLevel
  cases hg : c.guard with
  | none => exact tri_nil
  | some g =>
    have hp := guard_plain h hg
    have h1 : Tri wc (At d b) [.text (c!"#ifndef " ++ g)] (Ok (d + 1) b) :=
      tri_text (fun _ h => h.ok) fun r hr => by
        cases hr
        have h1 : scan (lineStart d b) c!"#ifndef " = some (midLine (d + 1) b) := rfl
        exact ⟨midLine (d + 1) b, by rw [scan_some h1, inline_mid hp], .inr rfl⟩
    have h2 : Tri wc (At (d + 1) b) [.text (c!"#define " ++ g)] (Ok (d + 1) b) :=
      tri_text (fun _ h => h.ok) fun r hr => by
        cases hr
        have h1 : scan (lineStart (d + 1) b) c!"#define " = some (midLine (d + 1) b) := rfl
        exact ⟨midLine (d + 1) b, by rw [scan_some h1, inline_mid hp], .inr rfl⟩
    have h3 : Tri wc (Ok (d + 1) b) [.newLine] (At (d + 1) b) := tri_pre tri_newLine fun _ h => h.done
    exact tri_cons tri_newLineIfNotStart (tri_cons h1 (tri_cons h3 (tri_cons h2 h3)))

theorem tri_footers {c : OutConfig} (h : ConfigFine c) {d b : Nat} :
    Tri wc (At (d + guardLevel c) b) (footersOps c) (At d b) := by
  unfold guardLevel footersOps
  cases hg : c.guard with
  | none => exact tri_nil
  | some g =>
    have hp := guard_plain h hg
    have h1 : Tri wc (At (d + 1) b) [.text (if c.language = .c then c!"#endif  /* " ++ g ++ c!" */" else c!"#endif  // " ++ g)]
        (Done d b) := by
      split
      · refine tri_text (fun _ h => h.ok) fun r hr => ?_
        cases hr
        have h1 : scan (lineStart (d + 1) b) c!"#endif  /* " = some ⟨.block, .rest, d, b⟩ := rfl
        obtain ⟨r2, e2, o2⟩ := plain_block (s := g ++ c!" ") (by plain) (d := d) (b := b) (l := .rest) (.inl rfl)
        refine ⟨midLine d b, ?_, Ok.done (.inr rfl)⟩
        have : c!"#endif  /* " ++ g ++ c!" */" = c!"#endif  /* " ++ ((g ++ c!" ") ++ c!"*/") := by simp
        rw [this, scan_some h1, scan_some e2]
        rcases o2 with rfl | rfl <;> rfl
      · exact tri_endifLine2 hp
    exact tri_cons tri_newLineIfNotStart (tri_cons h1 tri_newLine)

theorem lines_prelude {c : OutConfig} (h : ConfigFine c) : Lines wc (preludeOps c) := by
  have hl := h.lang
  unfold preludeOps
  refine lines_append (lines_append lines_newLineIfNotStart ?_) ?_
  · split
    · rename_i hc; exact absurd hc hl
    · refine lines_append (lines_append (lines_onlyIf (lines_flatMap fun s hs => lines_block_text (block_standard hl hs)))
        (lines_flatMap fun i hi => lines_block_text (block_include (h.sysIncludes i ?_))))
        (lines_flatMap fun i hi => lines_block_text (block_includeQuoted (h.includes i ?_)))
      · simpa [OutConfig.allSysIncludes, hl] using hi
      · simpa [OutConfig.allIncludes, hl] using hi
  · split
    · rename_i s hs; exact lines_block_text (h.afterIncludes s hs)
    · exact lines_nil

theorem tri_headers {e : Env} (h : ConfigFine e.cfg) (hp : Plain e.packageVersion) {d b : Nat} :
    Tri wc (At d b) (headersOps e) (At (d + guardLevel e.cfg) b) := by
  have hl := h.lang
  have h1 : Lines wc (onlyIf e.cfg.packageVersion (lineOps (packageText e.cfg.language e.packageVersion))) := by
    refine lines_onlyIf (lines_block_text ?_)
    have := block_comment (s := c!"Package version: " ++ e.packageVersion) (by plain)
    unfold packageText
    split
    · rename_i hc; exact absurd hc hl
    · simpa using this
  have h2 := lines_optParagraph (wc := wc) h.header
  have h3 : Lines wc (onlyIf (e.cfg.language != .cython && e.cfg.pragmaOnce) (paragraphOps c!"#pragma once")) :=
    lines_onlyIf (lines_paragraph fun d b => ⟨midLine d b, rfl, Ok.done (.inr rfl)⟩)
  have h4 : Lines wc (onlyIf e.cfg.includeVersion (paragraphOps (c!"/* Generated with cbindgen:" ++ e.cfg.version ++ c!" */"))) := by
    refine lines_onlyIf (lines_paragraph ?_)
    have hv := h.version
    have := block_comment (s := c!"Generated with cbindgen:" ++ e.cfg.version) (by plain)
    simpa using this
  have h5 := lines_optParagraph (wc := wc) h.autogenWarning
  have h6 : Lines wc (onlyIf (!noPrelude e.cfg) (preludeOps e.cfg)) := lines_onlyIf (lines_prelude h)
  unfold headersOps
  exact tri_append (tri_append (tri_append (tri_append (tri_append (tri_append (h1 d b) (h2 d b)) (tri_guard h))
    (h3 _ b)) (h4 _ b)) (h5 _ b)) (h6 _ b)

/-! ## Namespaces -/

theorem spaces_plain {c : OutConfig} (h : ConfigFine c) : ∀ n ∈ c.spaces, Plain n := by
  intro n hn
  unfold OutConfig.spaces at hn
  split at hn
  · cases hn
  · refine h.spaces n ?_
    rw [List.mem_append] at hn ⊢
    exact .inl (List.mem_append.mpr hn)

theorem tri_namespaceLines {c : OutConfig} {ls : List Str} {b b' : Nat}
    (h : ls ≠ [] → ∀ d, Tri wc (Done d b) (ls.flatMap fun l => [.newLine, .text l]) (Done d b'))
    (h0 : ls = [] → b' = b) {d : Nat} : Tri wc (At d b) (namespaceLines c ls) (At d b') := by
  unfold namespaceLines
  cases hls : ls with
  | nil => rw [h0 hls]; exact tri_nil
  | cons x xs =>
    rw [← hls]
    have hne : ls ≠ [] := by rw [hls]; simp
    have : ls.isEmpty = false := by cases ls <;> simp_all
    simp only [this, Bool.false_eq_true, if_false]
    cases hc : c.cppCompatibleC with
    | false =>
      simp only [onlyIf, Bool.false_eq_true, if_false, List.nil_append, List.append_nil]
      exact tri_append (tri_pre (h hne d) fun _ h => h.done) tri_newLine
    | true =>
      simp only [onlyIf, if_true]
      have k1 : Tri wc (At d b) [.newLineIfNotStart, .text c!"#ifdef __cplusplus"] (Done (d + 1) b) :=
        tri_post (tri_cons tri_newLineIfNotStart tri_ifdef) fun _ h => h.done
      have k2 : Tri wc (At (d + 1) b') [.text c!"#endif  // __cplusplus", .newLine] (At d b') :=
        tri_cons (tri_endifLine2 (s := c!"__cplusplus") (plain_lit rfl)) tri_newLine
      exact tri_append (tri_append (tri_append k1 (h hne (d + 1))) tri_newLine) k2

theorem openNamespaces_eq {c : OutConfig} (hl : c.language ≠ .cython) :
    openNamespaces c = namespaceLines c (c.spaces.map fun n => c!"namespace " ++ n ++ c!" {") ∧
    closeNamespaces c = namespaceLines c (c.spaces.reverse.map fun n => c!"}  // namespace " ++ n) := by
  unfold openNamespaces closeNamespaces
  revert hl
  cases hk : c.language <;> simp

theorem tri_openNamespaces {c : OutConfig} (h : ConfigFine c) {d b : Nat} :
    Tri wc (At d b) (openNamespaces c) (At d (b + c.spaces.length)) := by
  rw [(openNamespaces_eq h.lang).1]
  refine tri_namespaceLines ?_ (by intro hs; rw [List.map_eq_nil_iff] at hs; simp [hs])
  intro _ d
  have hp := spaces_plain h
  revert hp
  generalize c.spaces = ns
  induction ns generalizing b with
  | nil => intro _; exact tri_nil
  | cons n ns ih =>
    intro hp
    have h1 := hp n (by simp)
    rw [List.map_cons, List.flatMap_cons]
    have k1 : Tri wc (At d b) [.text (c!"namespace " ++ n ++ c!" {")] (Done d (b + 1)) :=
      tri_text (fun _ h => h.ok) fun r hr => by
        cases hr
        have e1 : scan (lineStart d b) c!"namespace " = some (midLine d b) := rfl
        refine ⟨midLine d (b + 1), ?_, Ok.done (.inr rfl)⟩
        rw [List.append_assoc, scan_some e1, scan_some (inline_mid h1 d b)]
        rfl
    have k2 := ih (b := b + 1) fun m hm => hp m (by simp [hm])
    have e : b + 1 + ns.length = b + (n :: ns).length := by simp only [List.length_cons]; omega
    rw [e] at k2
    exact tri_append (tri_cons tri_newLine k1) k2

theorem tri_closeNamespaces {c : OutConfig} (h : ConfigFine c) {d b : Nat} :
    Tri wc (At d (b + c.spaces.length)) (closeNamespaces c) (At d b) := by
  rw [(openNamespaces_eq h.lang).2]
  refine tri_namespaceLines ?_ (by
    intro hs; rw [List.map_eq_nil_iff, List.reverse_eq_nil_iff] at hs; simp [hs])
  intro _ d
  have hp : ∀ n ∈ c.spaces.reverse, Plain n := fun n hn => spaces_plain h n (List.mem_reverse.mp hn)
  rw [← List.length_reverse]
  revert hp
  generalize c.spaces.reverse = ns
  induction ns generalizing b with
  | nil => intro _; exact tri_nil
  | cons n ns ih =>
    intro hp
    have h1 := hp n (by simp)
    rw [List.map_cons, List.flatMap_cons]
    have k1 : Tri wc (At d (b + ns.length + 1)) [.text (c!"}  // namespace " ++ n)] (Done d (b + ns.length)) :=
      tri_text (fun _ h => h.ok) fun r hr => by
        cases hr
        have e1 : scan (lineStart d (b + ns.length + 1)) c!"}  // namespace " =
          some ⟨.line false, .rest, d, b + ns.length⟩ := rfl
        rw [scan_some e1]
        exact done_line h1 _ _ _ (.inr rfl)
    have k2 := ih (b := b) fun m hm => hp m (by simp [hm])
    exact tri_append (tri_cons tri_newLine k1) k2

/-! ## Linkage -/

/-- The number of braces that `extern "C"` opens. -/
def linkLevel (c : OutConfig) : Nat := if c.language == .cxx || c.cppCompatibleC then 1 else 0

theorem tri_extern {d b : Nat} : Tri wc (Done d b) [.newLine, .text c!"extern \"C\" {", .newLine] (At d (b + 1)) := by
  have h1 : Tri wc (At d b) [.text c!"extern \"C\" {"] (Done d (b + 1)) :=
    tri_text (fun _ h => h.ok) fun r hr => by cases hr; exact ⟨midLine d (b + 1), rfl, Ok.done (.inr rfl)⟩
  exact tri_cons tri_newLine (tri_cons h1 tri_newLine)

theorem tri_externEnd {d b : Nat} :
    Tri wc (Done d (b + 1)) [.newLine, .text c!"}  // extern \"C\"", .newLine] (At d b) := by
  have h1 : Tri wc (At d (b + 1)) [.text c!"}  // extern \"C\""] (Done d b) :=
    tri_text (fun _ h => h.ok) fun r hr => by
      cases hr
      refine ⟨⟨.line false, .rest, d, b⟩, rfl, fun c hc => ?_⟩
      rcases break_cases hc with rfl | rfl <;> rfl
  exact tri_cons tri_newLine (tri_cons h1 tri_newLine)

theorem tri_externOpen {c : OutConfig} (h : ConfigFine c) {d b : Nat} :
    Tri wc (At d b) (externOpen c) (At d (b + linkLevel c)) := by
  have hl := h.lang
  have hu : ∀ ns, c.usingNamespaces = some ns → Lines wc (ns.flatMap (fun n => [.newLine, .text (c!"using namespace " ++ n ++ c!";")]) ++ [.newLine]) := by
    intro ns hns
    refine calm_lines (calm_flatMap fun n hn => ?_)
    have : Plain n := h.spaces n (by rw [hns]; simp [hn])
    calm
  unfold externOpen linkLevel OutConfig.cppCompatibleC
  cases hk : c.language with
  | cython => exact absurd hk hl
  | cxx =>
    simp only [onlyIf, show (Language.cxx == Language.c) = false from rfl, show (Language.cxx == Language.cxx) = true from rfl,
      Bool.false_and, Bool.true_or, Bool.false_eq_true, if_false, if_true, List.nil_append, List.append_nil]
    refine tri_append (Q := At d b) ?_ (tri_pre tri_extern fun _ h => h.done)
    split
    · rename_i ns hns; exact hu ns hns d b
    · exact tri_nil
  | c =>
    simp only [onlyIf, show (Language.c == Language.c) = true from rfl, show (Language.c == Language.cxx) = false from rfl,
      Bool.true_and, Bool.false_or, Bool.false_eq_true, if_false, List.append_nil]
    cases hc : c.cppCompat with
    | false => simpa using tri_nil
    | true =>
      simp only [if_true]
      have k1 : Tri wc (At d b) [.newLineIfNotStart, .text c!"#ifdef __cplusplus"] (Done (d + 1) b) :=
        tri_post (tri_cons tri_newLineIfNotStart tri_ifdef) fun _ h => h.done
      have k2 : Tri wc (At (d + 1) (b + 1)) [.text c!"#endif // __cplusplus", .newLine] (At d (b + 1)) :=
        tri_cons (tri_endifLine (s := c!"__cplusplus") (plain_lit rfl)) tri_newLine
      exact tri_append (tri_append k1 tri_extern) k2

theorem tri_externClose {c : OutConfig} (hl : c.language ≠ .cython) {d b : Nat} :
    Tri wc (At d (b + linkLevel c)) (externClose c) (At d b) := by
  unfold externClose linkLevel OutConfig.cppCompatibleC
  cases hk : c.language with
  | cython => exact absurd hk hl
  | cxx =>
    simp only [onlyIf, show (Language.cxx == Language.c) = false from rfl, show (Language.cxx == Language.cxx) = true from rfl,
      Bool.false_and, Bool.true_or, Bool.false_eq_true, if_false, if_true, List.nil_append, List.append_nil]
    exact tri_pre tri_externEnd fun _ h => h.done
  | c =>
    simp only [onlyIf, show (Language.c == Language.c) = true from rfl, show (Language.c == Language.cxx) = false from rfl,
      Bool.true_and, Bool.false_or]
    cases hc : c.cppCompat with
    | false => simpa using tri_nil
    | true =>
      simp only [if_true]
      have k1 : Tri wc (At d (b + 1)) [.newLine, .text c!"#ifdef __cplusplus"] (Done (d + 1) (b + 1)) :=
        tri_cons (lines_newLine d (b + 1)) (tri_post tri_ifdef fun _ h => h.done)
      have k2 : Tri wc (At (d + 1) b) [.text c!"#endif  // __cplusplus", .newLine] (At d b) :=
        tri_cons (tri_endifLine2 (s := c!"__cplusplus") (plain_lit rfl)) tri_newLine
      exact tri_append (tri_append k1 tri_externEnd) k2

/-! ## The whole header -/

theorem lines_itemOps {ops : List WOp} (h : Para wc ops) : Lines wc (itemOps ops) := by
  unfold itemOps
  rw [List.append_assoc]
  exact lines_append lines_newLineIfNotStart (para_newLine h)

theorem lines_inner {e : Env} {b : Bindings} (h : Fine e b) : Lines wc (innerOps e b) := by
  have hc := h.cfg
  have hl := hc.lang
  have hk : ∀ p, Lines wc (constantsOps e p b.constants) := fun p =>
    lines_flatMap fun k hk => lines_itemOps (para_const hc h.enums (h.constants k (List.mem_filter.mp hk).1))
  have hi : Lines wc (itemsOps e b.items) :=
    lines_flatMap fun i hi => lines_itemOps (para_item hc h.enums (h.items i (List.mem_filter.mp hi).1))
  have hg : Lines wc (globalsDefault e.cfg b.globals) :=
    lines_flatMap fun g hg => lines_itemOps (para_static hc (h.globals g (List.mem_filter.mp hg).1))
  have hf : Lines wc (functionsDefault e.cfg b.functions) :=
    lines_flatMap fun f hf => lines_itemOps (para_func hc (h.functions f (List.mem_filter.mp hf).1))
  have e1 : globalsOps e.cfg b = onlyIf b.hasLinkage (externOpen e.cfg ++ globalsDefault e.cfg b.globals) := by
    unfold globalsOps
    revert hl
    cases hk : e.cfg.language <;> simp
  have e2 : functionsOps e.cfg b = onlyIf b.hasLinkage (functionsDefault e.cfg b.functions ++ externClose e.cfg) := by
    unfold functionsOps
    revert hl
    cases hk : e.cfg.language <;> simp
  intro d n
  unfold innerOps
  rw [e1, e2]
  have k := lines_append (lines_append (hk true) hi) (hk false) d n
  cases hb : b.hasLinkage with
  | false => simpa [onlyIf] using k
  | true =>
    simp only [onlyIf, if_true]
    exact tri_append (tri_append k (tri_append (tri_externOpen hc) (hg _ _)))
      (tri_append (hf _ _) (tri_externClose hl))

theorem para_trailer {o : Option Str} (h : OptBlock o) : Para wc (trailerOps o) := by
  cases o with
  | none => exact lines_nil.para
  | some s =>
    unfold trailerOps
    have h1 : Para wc [.newLineIfNotStart, .text s] := fun d b =>
      tri_cons tri_newLineIfNotStart (tri_text (fun _ h => h.ok) fun r hr => by cases hr; exact h s rfl d b)
    exact para_then h1 (tail_onlyIf tail_newLine)

theorem para_bindings {e : Env} {b : Bindings} (h : Fine e b) : Para wc (bindingsOps e b) := by
  intro d n
  have h1 := tri_headers (wc := wc) h.cfg h.package (d := d) (b := n)
  have h2 := tri_openNamespaces (wc := wc) h.cfg (d := d + guardLevel e.cfg) (b := n)
  have h3 := lines_inner (wc := wc) h (d + guardLevel e.cfg) (n + e.cfg.spaces.length)
  have h4 := tri_closeNamespaces (wc := wc) h.cfg (d := d + guardLevel e.cfg) (b := n)
  have h5 := tri_footers (wc := wc) h.cfg (d := d) (b := n)
  have h6 := para_trailer (wc := wc) h.cfg.trailer d n
  have := tri_append (tri_append (tri_append (tri_append (tri_append h1 h2) h3) h4) h5) h6
  simpa [bindingsOps, innerOps] using this

end

end Cbindgen.PreSpec

namespace Cbindgen
open PreSpec

/-- Every conditional, every brace, every comment and every literal that a header in C or C++ opens is closed
again, in whatever way the bindings and the options are combined, as long as names are plain words and the
texts that users give leave nothing open themselves.  Partial: the condition `Fine` is not checked by the
generator (see `C27_refuted`), and Cython headers have no braces or directives to look at. -/
theorem C27_balanced_partial {e : Env} {b : Bindings} {t : Str} (h : Fine e b) (ht : headerText e b = some t) :
    Balanced t := by
  obtain ⟨⟨t', w⟩, hx, rfl⟩ := Option.map_eq_some_iff.mp ht
  obtain ⟨r, h1, h2⟩ := para_bindings (wc := e.cfg.writer) h 0 0 {} (lineStart 0 0) t' w (by simp) rfl hx
  unfold Balanced
  rw [scan_some h1, scan_cons, h2 '\n' rfl]
  rfl

end Cbindgen
