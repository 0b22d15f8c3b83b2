import Verif.Lemmas.HeadRun
import Verif.Lemmas.LexDecl

/-!
# Declarations of variables, functions and members, as the reader of headers finds them
-/

namespace Cbindgen.HeadSpec
open LexSpec CSpec

/-- The attributes that the reader knows, and those in the options. -/
structure DialectFine (R : Dialect) (cfg : DeclConfig) : Prop where
  known : Known R.attrs cfg
  /-- what stands before declarations is no name -/
  macros : ∀ m ∈ R.macros, m ∈ R.attrs
  apart : ∀ a ∈ attrsOf cfg, a ∉ R.macros
  noTypedef : c!"typedef" ∉ R.macros
  noExtern : c!"extern" ∉ R.macros
  /-- in C++, `class` and the words at the start of other declarations are no names -/
  reserved : R.cxx = true → ∀ w ∈ c!"class" :: cxxWords, w ∈ R.attrs ∧ w ∉ R.macros := by intro h; exact absurd h (by decide)

/-! ## Attributes -/

/-- The tokens are attributes: words that are known to be attributes, each possibly with arguments. -/
def isAttrs (macros : List Str) : AMode → List Lx → Bool
  | .inside _, [] => false
  | _, [] => true
  | .inside n, l :: ls =>
    isAttrs macros (if l = .punct '(' then .inside (n + 1)
      else if l = .punct ')' then (if n = 0 then .out else .inside (n - 1)) else .inside n) ls
  | m, l :: ls =>
    if isMacro macros l then isAttrs macros .after ls
    else
      match m, l with
      | .after, .punct '(' => isAttrs macros (.inside 0) ls
      | _, _ => false

/-- What follows is not the argument of an attribute. -/
def notParen : List Lx → Bool
  | .punct '(' :: _ => false
  | _ => true

section
variable {macros : List Str}

theorem lead_after {rest : List Lx} (h : notParen rest = true) : lead macros .after rest = lead macros .out rest := by
  cases rest with
  | nil => simp [lead]
  | cons l ls =>
    have hl : l ≠ .punct '(' := by rintro rfl; simp [notParen] at h
    simp only [lead]
    split
    · rfl
    · split
      · rename_i h1; exact absurd rfl hl
      · rfl

theorem lead_attrs : ∀ {ls : List Lx} {m : AMode}, isAttrs macros m ls = true → ∀ {rest : List Lx}, notParen rest = true →
    lead macros m (ls ++ rest) = (ls ++ (lead macros .out rest).1, (lead macros .out rest).2)
  | [], .out, _, rest, _ => rfl
  | [], .after, _, rest, h => by rw [List.nil_append, lead_after h]; rfl
  | [], .inside _, h, _, _ => by simp [isAttrs] at h
  | l :: ls, .inside n, h, rest, hr => by
    simp only [isAttrs] at h
    simp only [List.cons_append, lead]
    rw [lead_attrs h hr]
  | l :: ls, .out, h, rest, hr => by
    simp only [isAttrs] at h
    split at h
    · rename_i hm
      simp only [List.cons_append, lead, hm, if_true]
      rw [lead_attrs h hr]
    · simp at h
  | l :: ls, .after, h, rest, hr => by
    simp only [isAttrs] at h
    split at h
    · rename_i hm
      simp only [List.cons_append, lead, hm, if_true]
      rw [lead_attrs h hr]
    · rename_i hm
      split at h
      · simp only [List.cons_append, lead, hm]
        rw [lead_attrs h hr]
        rfl
      · simp at h

theorem isAttrs_append : ∀ {ls : List Lx} {m : AMode}, isAttrs macros m ls = true → ∀ {ks : List Lx},
    isAttrs macros .out ks = true → isAttrs macros m (ls ++ ks) = true
  | [], .out, _, ks, hk => hk
  | [], .after, _, ks, hk => by
    cases ks with
    | nil => rfl
    | cons l ks =>
      simp only [isAttrs] at hk
      simp only [List.nil_append, isAttrs]
      split at hk
      · rename_i hm; simp [hm, hk]
      · simp at hk
  | [], .inside _, h, _, _ => by simp [isAttrs] at h
  | l :: ls, .inside n, h, ks, hk => by
    simp only [isAttrs] at h
    simp only [List.cons_append, isAttrs]
    exact isAttrs_append h hk
  | l :: ls, .out, h, ks, hk => by
    simp only [isAttrs] at h
    split at h
    · rename_i hm
      simp only [List.cons_append, isAttrs, hm, if_true]
      exact isAttrs_append h hk
    · simp at h
  | l :: ls, .after, h, ks, hk => by
    simp only [isAttrs] at h
    split at h
    · rename_i hm
      simp only [List.cons_append, isAttrs, hm, if_true]
      exact isAttrs_append h hk
    · rename_i hm
      split at h
      · simp only [List.cons_append, isAttrs, hm]
        exact isAttrs_append h hk
      · simp at h

/-- Attributes begin with a word that is known to be one. -/
theorem isAttrs_cons {l : Lx} {ls : List Lx} (h : isAttrs macros .out (l :: ls) = true) : isMacro macros l = true := by
  simp only [isAttrs] at h
  split at h
  · assumption
  · simp at h

theorem isMacro_iff {l : Lx} : isMacro macros l = true ↔ ∃ w ∈ macros, l = .word w := by
  cases l <;> simp [isMacro]

/-- Tokens that are no attributes. -/
theorem lead_none {l : Lx} {ls : List Lx} (h : isMacro macros l = false) : lead macros .out (l :: ls) = ([], l :: ls) := by
  simp [lead, h]

end

/-! ## Tokens of declarations -/

/-- A token that stands in a declaration and is no attribute of the declaration as a whole. -/
def DeclTok (macros : List Str) : Lx → Prop
  | .word w => w ∉ macros
  | .punct p => p ∈ ['*', '&', '(', ')', '[', ']', '<', '>', ',', '.']
  | _ => False

section
variable {R : Dialect} {cfg : DeclConfig}

def AllDecl (R : Dialect) (ts : List Tok) : Prop := ∀ l ∈ spells ts, DeclTok R.macros l

theorem allDecl_nil : AllDecl R [] := nofun

theorem allDecl_append {a b : List Tok} (h1 : AllDecl R a) (h2 : AllDecl R b) : AllDecl R (a ++ b) := by
  intro l hl
  rw [spells_append, List.mem_append] at hl
  exact hl.elim (h1 l) (h2 l)

theorem allDecl_cons {a : Tok} {b : List Tok} (h1 : AllDecl R [a]) (h2 : AllDecl R b) : AllDecl R (a :: b) :=
  allDecl_append h1 h2

theorem allDecl_word {t : Tok} {w : Str} (h : spell t = [.word w]) (hw : w ∉ R.macros) : AllDecl R [t] := by
  intro l hl
  simp only [spells, List.flatMap_cons, List.flatMap_nil, List.append_nil, h, List.mem_singleton] at hl
  subst hl; exact hw

theorem allDecl_punct {t : Tok} {p : Char} (h : spell t = [.punct p])
    (hp : p ∈ ['*', '&', '(', ')', '[', ']', '<', '>', ',', '.']) : AllDecl R [t] := by
  intro l hl
  simp only [spells, List.flatMap_cons, List.flatMap_nil, List.append_nil, h, List.mem_singleton] at hl
  subst hl; exact hp

theorem free_of (h : DialectFine R cfg) {w : Str} (hw : w ∉ R.attrs) : w ∉ R.macros := fun hm => hw (h.macros w hm)

/-- A word that is read as something other than an attribute is none. -/
theorem free_wordTok (h : DialectFine R cfg) {w : Str} (hw : ∀ s, wordTok R.attrs w ≠ .attr s) : w ∉ R.macros := fun hm =>
  hw w (h.known.fine w (h.macros w hm)).2.1

theorem free_ident (h : DialectFine R cfg) {s : Str} (hs : Ident R.attrs s) : s ∉ R.macros :=
  free_wordTok h fun t => by rw [hs.2.2.1]; nofun

theorem prim_toks (p : Prim) (u : Bool) : ∀ l ∈ simpleToks none (Prim.toReprC u p),
    l = .punct '.' ∨ l = .word (Prim.toReprC u p) ∨ ∃ w, l = .word w ∧ isArith w = true := by
  have key : ∀ s : Str, ((simpleToks none s).all fun l => decide (l = .punct '.') || decide (l = .word s) ||
      (match l with | .word w => isArith w | _ => false)) = true → ∀ l ∈ simpleToks none s,
      l = .punct '.' ∨ l = .word s ∨ ∃ w, l = .word w ∧ isArith w = true := by
    intro s hs l hl
    have := List.all_eq_true.mp hs l hl
    simp only [Bool.or_eq_true, decide_eq_true_eq] at this
    rcases this with (h | h) | h
    · exact .inl h
    · exact .inr (.inl h)
    · cases l <;> simp at h
      exact .inr (.inr ⟨_, rfl, h⟩)
  apply key
  cases p with
  | integer z s k => cases z <;> cases s <;> cases k <;> cases u <;> decide +kernel
  | _ => cases u <;> decide +kernel

theorem allDecl_typeName (h : DialectFine R cfg) {s : Str} (hs : TypeName R.attrs s) : AllDecl R [.name s] := by
  rcases hs with hs | ⟨p, u, rfl⟩
  · exact allDecl_word (by simp [spell, simpleToks_word hs.word]) (free_ident h hs)
  · intro l hl
    simp only [spells, List.flatMap_cons, List.flatMap_nil, List.append_nil, spell] at hl
    rcases prim_toks p u l hl with rfl | rfl | ⟨w, rfl, hw⟩
    · simp [DeclTok]
    · exact free_of h fun hm => (h.known.fine _ hm).2.2.2 p u rfl
    · exact free_of h (arith_free h.known.fine hw)

theorem allDecl_const (h : DialectFine R cfg) (q : Bool) : AllDecl R (constToks q) := by
  cases q
  · exact allDecl_nil
  · exact allDecl_word rfl (free_wordTok h fun s => by simp [wordTok])

theorem allDecl_ctype (h : DialectFine R cfg) (k : Option DeclKind) : AllDecl R (ctypeToks cfg k) := by
  cases k with
  | none => exact allDecl_nil
  | some k =>
    simp only [ctypeToks]
    split
    · exact allDecl_nil
    · refine allDecl_word rfl (free_wordTok h fun s => ?_)
      cases k <;> simp [wordTok, DeclKind.word]

theorem allDecl_attr (h : DialectFine R cfg) {o : Option Str} (ho : ∀ a, o = some a → a ∈ attrsOf cfg ∧ a ∈ R.attrs) :
    AllDecl R (o.map Tok.attr).toList := by
  cases o with
  | none => exact allDecl_nil
  | some a =>
    obtain ⟨h1, h2⟩ := ho a rfl
    exact allDecl_word (by simp [spell, simpleToks_word (h.known.fine a h2).1]) (h.apart a h1)

theorem allDecl_ptrAttr (h : DialectFine R cfg) (nl rf : Bool) : AllDecl R (ptrAttr cfg nl rf) := by
  unfold ptrAttr
  split
  · exact allDecl_nil
  split
  · exact allDecl_attr h fun a ha => ⟨by simp [attrsOf, ha], h.known.nonNull a ha⟩
  split
  · exact allDecl_attr h fun a ha => ⟨by simp [attrsOf, ha], h.known.nullable a ha⟩
  · exact allDecl_nil

theorem allDecl_noReturn (h : DialectFine R cfg) (nv : Bool) : AllDecl R (noReturnAttr cfg nv) := by
  unfold noReturnAttr
  split
  · exact allDecl_attr h fun a ha => ⟨by simp [attrsOf, ha], h.known.noReturn a ha⟩
  · exact allDecl_nil

theorem allDecl_leftPiece (h : DialectFine R cfg) (n : Bool) (x : CDeclarator) : AllDecl R (leftPiece cfg n x) := by
  cases x with
  | ptr k nl rf =>
    simp only [leftPiece]
    refine allDecl_cons ?_ (allDecl_append (allDecl_const h k) (allDecl_ptrAttr h nl rf))
    cases rf
    · exact allDecl_punct (p := '*') rfl (by decide)
    · exact allDecl_punct (p := '&') rfl (by decide)
  | array l => cases n <;> first | exact allDecl_nil | exact allDecl_punct (p := '(') rfl (by decide)
  | func as nv => cases n <;> first | exact allDecl_nil | exact allDecl_punct (p := '(') rfl (by decide)

theorem allDecl_left (h : DialectFine R cfg) : ∀ xs : List CDeclarator, AllDecl R (leftPart cfg xs)
  | [] => allDecl_nil
  | x :: xs => by
    simp only [leftPart]
    exact allDecl_append (allDecl_leftPiece h _ x) (allDecl_left h xs)

theorem allDecl_closeParen (q : Bool) : AllDecl R (closeParen q) := by
  cases q
  · exact allDecl_nil
  · exact allDecl_punct (p := ')') rfl (by decide)

theorem allDecl_ident (h : DialectFine R cfg) {i : Option Str} (hi : ∀ s, i = some s → Ident R.attrs s) :
    AllDecl R (identToks i) := by
  cases i with
  | none => exact allDecl_nil
  | some s => exact allDecl_word (by simp [spell, simpleToks_word (hi s rfl).word]) (free_ident h (hi s rfl))

theorem allDecl_number (h : DialectFine R cfg) {s : Str} (hs : Word s ∧ wordTok R.attrs s = .lit s ∧ isArith s = false) :
    AllDecl R [.lit s] :=
  allDecl_word (w := s) (by simp [spell, simpleToks_word hs.1]) (free_wordTok h fun t => by rw [hs.2.1]; nofun)

mutual
theorem allDecl_decl (hk : DialectFine R cfg) : ∀ (x : CDecl) (i : Option Str), declFine R.attrs x →
    (∀ s, i = some s → Ident R.attrs s) → AllDecl R (x.write cfg i)
  | .mk q k n gs ds, i, h, hi => by
    simp only [declFine] at h
    simp only [CDecl.write]
    exact allDecl_append (allDecl_append (allDecl_append (allDecl_append (allDecl_append (allDecl_append
      (allDecl_const hk q) (allDecl_ctype hk k)) (allDecl_typeName hk h.1)) (allDecl_gargList hk gs h.2.1))
      (allDecl_left hk _)) (allDecl_ident hk hi)) (allDecl_right hk ds false h.2.2)
theorem allDecl_right (hk : DialectFine R cfg) : ∀ (ds : List CDeclarator) (q : Bool), declaratorsFine R.attrs ds →
    AllDecl R (CDecl.rightPart cfg q ds)
  | [], _, _ => by simp only [CDecl.rightPart]; exact allDecl_nil
  | .ptr _ _ _ :: ds, q, h => by
    simp only [declaratorsFine] at h
    simp only [CDecl.rightPart]
    exact allDecl_right hk ds true h
  | .array l :: ds, q, h => by
    simp only [declaratorsFine] at h
    simp only [CDecl.rightPart]
    refine allDecl_append (allDecl_append (allDecl_closeParen q) (allDecl_cons (allDecl_punct (p := '[') rfl (by decide))
      (allDecl_cons ?_ (allDecl_punct (p := ']') rfl (by decide))))) (allDecl_right hk ds false h.2)
    exact allDecl_word (by simp [spell, simpleToks_word h.1.1]) (free_of hk h.1.2)
  | .func as nv :: ds, q, h => by
    simp only [declaratorsFine] at h
    simp only [CDecl.rightPart]
    exact allDecl_append (allDecl_append (allDecl_append (allDecl_append (allDecl_append (allDecl_closeParen q)
      (allDecl_punct (p := '(') rfl (by decide))) (allDecl_argList hk as h.1)) (allDecl_punct (p := ')') rfl (by decide)))
      (allDecl_noReturn hk nv)) (allDecl_right hk ds true h.2)
theorem allDecl_gargList (hk : DialectFine R cfg) : ∀ (gs : List CGArg), gargsFine R.attrs gs →
    AllDecl R (CDecl.writeGArgList cfg gs)
  | [], _ => by simp only [CDecl.writeGArgList]; exact allDecl_nil
  | .type x :: gs, h => by
    simp only [gargsFine] at h
    simp only [CDecl.writeGArgList, CDecl.writeGArg]
    exact allDecl_cons (allDecl_punct (p := '<') rfl (by decide)) (allDecl_append (allDecl_append
      (allDecl_decl hk x none h.1 nofun) (allDecl_gargs hk gs h.2)) (allDecl_punct (p := '>') rfl (by decide)))
  | .const s :: gs, h => by
    simp only [gargsFine] at h
    simp only [CDecl.writeGArgList, CDecl.writeGArg]
    exact allDecl_cons (allDecl_punct (p := '<') rfl (by decide)) (allDecl_append (allDecl_append
      (allDecl_number hk h.1) (allDecl_gargs hk gs h.2)) (allDecl_punct (p := '>') rfl (by decide)))
theorem allDecl_gargs (hk : DialectFine R cfg) : ∀ (gs : List CGArg), gargsFine R.attrs gs →
    AllDecl R (CDecl.writeGArgs cfg gs)
  | [], _ => by simp only [CDecl.writeGArgs]; exact allDecl_nil
  | .type x :: gs, h => by
    simp only [gargsFine] at h
    simp only [CDecl.writeGArgs, CDecl.writeGArg]
    exact allDecl_cons (allDecl_punct (p := ',') rfl (by decide)) (allDecl_append
      (allDecl_decl hk x none h.1 nofun) (allDecl_gargs hk gs h.2))
  | .const s :: gs, h => by
    simp only [gargsFine] at h
    simp only [CDecl.writeGArgs, CDecl.writeGArg]
    exact allDecl_cons (allDecl_punct (p := ',') rfl (by decide)) (allDecl_append
      (allDecl_number hk h.1) (allDecl_gargs hk gs h.2))
theorem allDecl_argList (hk : DialectFine R cfg) : ∀ (as : List CArg), cargsFine R.attrs as →
    AllDecl R (CDecl.writeArgList cfg as)
  | [], _ => by
    simp only [CDecl.writeArgList]
    split
    · exact allDecl_typeName hk (.inr ⟨.void, false, rfl⟩)
    · exact allDecl_nil
  | .mk n x :: as, h => by
    simp only [cargsFine] at h
    simp only [CDecl.writeArgList, CDecl.writeArg]
    exact allDecl_append (allDecl_decl hk x n h.2.1 h.1) (allDecl_args hk as h.2.2)
theorem allDecl_args (hk : DialectFine R cfg) : ∀ (as : List CArg), cargsFine R.attrs as →
    AllDecl R (CDecl.writeArgs cfg as)
  | [], _ => by simp only [CDecl.writeArgs]; exact allDecl_nil
  | .mk n x :: as, h => by
    simp only [cargsFine] at h
    simp only [CDecl.writeArgs, CDecl.writeArg]
    exact allDecl_cons (allDecl_punct (p := ',') rfl (by decide)) (allDecl_append
      (allDecl_decl hk x n h.2.1 h.1) (allDecl_args hk as h.2.2))
end

theorem DeclTok.plain {macros : List Str} {l : Lx} (h : DeclTok macros l) : isPlainTok l = true := by
  cases l with
  | word w => rfl
  | punct p =>
    simp only [DeclTok, List.mem_cons, List.not_mem_nil, or_false] at h
    rcases h with rfl | rfl | rfl | rfl | rfl | rfl | rfl | rfl | rfl | rfl <;> decide
  | _ => exact h.elim

theorem DeclTok.noMacro {macros : List Str} {l : Lx} (h : DeclTok macros l) : isMacro macros l = false := by
  cases l with
  | word w => exact decide_eq_false h
  | _ => rfl

theorem DeclTok.noColon {macros : List Str} {l : Lx} (h : DeclTok macros l) : l ≠ .punct ':' := by
  rintro rfl
  simp [DeclTok] at h

theorem DeclTok.noEq {macros : List Str} {l : Lx} (h : DeclTok macros l) : l ≠ .punct '=' := by
  rintro rfl
  simp [DeclTok] at h

/-! ## The start of a declaration -/

/-- The tokens do not begin with `typedef`, `extern`, a word that only C++ has or `(`, and are not a tag alone. -/
def plainStart (R : Dialect) : List Lx → Prop
  | [] => False
  | .word w :: ls => w ≠ c!"typedef" ∧ w ≠ c!"extern" ∧ (∀ k, tagKind w = some k → 2 ≤ ls.length) ∧ (R.cxx = true → w ∉ cxxWords)
  | l :: _ => l ≠ .punct '('

theorem readPlain_object {ls : List Lx} (h : plainStart R ls) :
    readPlain R ls = (readObject R false ls).map fun i => [i] := by
  cases ls with
  | nil => exact h.elim
  | cons l ls =>
    cases l with
    | word w =>
      obtain ⟨h1, h2, h3, _⟩ := h
      simp only [readPlain, h1, h2, if_false]
      split
      · rename_i k n hk
        exact absurd (h3 k hk) (by simp)
      · rfl
    | _ => rfl

theorem ordinary_head {w : Str} (h1 : R.cxx = true → w ∉ cxxWords) (ps : List Part) (h2 : w = c!"extern" → quotedFirst ps = false) :
    ordinary R (.tok (.word w) :: ps) = true := by
  cases hc : R.cxx with
  | false => simp [ordinary, cxxStart, linkStart, hc]
  | true =>
    have h3 := h1 hc
    have h4 : w ≠ c!"namespace" := by rintro rfl; exact h3 (by decide)
    by_cases h5 : w = c!"extern"
    · simp [ordinary, cxxStart, linkStart, hc, h3, h4, h2 h5]
    · simp [ordinary, cxxStart, linkStart, hc, h3, h4, h5]

/-- Tokens that start in this way are a declaration of C. -/
theorem ordinary_plain {ls : List Lx} (h : plainStart R ls) (ps : List Part) : ordinary R (ls.map .tok ++ ps) = true := by
  cases ls with
  | nil => exact h.elim
  | cons l ls =>
    cases l with
    | word w =>
      obtain ⟨_, h2, _, h3⟩ := h
      exact ordinary_head h3 _ fun h => absurd h h2
    | _ => rfl

theorem ordinary_toks {ls : List Lx} (h : plainStart R ls) : ordinary R (ls.map .tok) = true := by
  simpa using ordinary_plain h []

theorem free_cxx (h : DialectFine R cfg) {s : Str} (hs : Ident R.attrs s) : R.cxx = true → s ∉ cxxWords := fun hc hm => by
  have := (h.known.fine s (h.reserved hc s (.tail _ hm)).1).2.1
  rw [hs.2.2.1] at this
  cases this

theorem not_class (h : DialectFine R cfg) {s : Str} (hs : Ident R.attrs s) : R.cxx = true → s ≠ c!"class" := by
  rintro hc rfl
  have := (h.known.fine _ (h.reserved hc _ (.head _)).1).2.1
  rw [hs.2.2.1] at this
  cases this

theorem tagKind_word {w : Str} {k : DeclKind} (h : tagKind w = some k) : w = c!"struct" ∨ w = c!"union" ∨ w = c!"enum" := by
  simp only [tagKind] at h
  split at h
  · exact .inl ‹_›
  split at h
  · exact .inr (.inl ‹_›)
  split at h
  · exact .inr (.inr ‹_›)
  · cases h

theorem tagKind_ident {attrs : List Str} {s : Str} (h : Ident attrs s) : tagKind s = none := by
  have h1 := h.2.2.1
  simp only [tagKind]
  split
  · rename_i e; subst e; simp [wordTok] at h1
  split
  · rename_i e; subst e; simp [wordTok] at h1
  split
  · rename_i e; subst e; simp [wordTok] at h1
  · rfl

theorem prim_first (p : Prim) (u : Bool) : ∃ l ls, simpleToks none (Prim.toReprC u p) = l :: ls ∧
    l ≠ .punct '(' ∧ ∀ w, l = .word w → w ≠ c!"typedef" ∧ w ≠ c!"extern" ∧ tagKind w = none ∧ w ∉ cxxWords := by
  have key : ∀ s : Str, (match simpleToks none s with
      | .word w :: _ => decide (w ≠ c!"typedef") && decide (w ≠ c!"extern") && (tagKind w).isNone && decide (w ∉ cxxWords)
      | [] => false
      | l :: _ => decide (l ≠ .punct '(')) = true → ∃ l ls, simpleToks none s = l :: ls ∧
      l ≠ .punct '(' ∧ ∀ w, l = .word w → w ≠ c!"typedef" ∧ w ≠ c!"extern" ∧ tagKind w = none ∧ w ∉ cxxWords := by
    intro s hs
    cases hx : simpleToks none s with
    | nil => rw [hx] at hs; simp at hs
    | cons l ls =>
      rw [hx] at hs
      cases l with
      | word w =>
        refine ⟨_, ls, rfl, nofun, ?_⟩
        rintro w ⟨⟩
        simpa [and_assoc] using hs
      | _ => exact ⟨_, ls, rfl, by simpa using hs, nofun⟩
  apply key
  cases p with
  | integer z s k => cases z <;> cases s <;> cases k <;> cases u <;> decide +kernel
  | _ => cases u <;> decide +kernel

theorem typeName_first (hk : DialectFine R cfg) {s : Str} (h : TypeName R.attrs s) : ∃ l ls, spell (.name s) = l :: ls ∧
    l ≠ .punct '(' ∧ ∀ w, l = .word w → w ≠ c!"typedef" ∧ w ≠ c!"extern" ∧ tagKind w = none ∧ (R.cxx = true → w ∉ cxxWords) := by
  rcases h with h | ⟨p, u, rfl⟩
  · refine ⟨.word s, [], by simp [spell, simpleToks_word h.word], nofun, ?_⟩
    rintro w ⟨⟩
    exact ⟨h.2.2.2.2.1, h.2.2.2.2.2, tagKind_ident h, free_cxx hk h⟩
  · obtain ⟨l, ls, h1, h2, h3⟩ := prim_first p u
    exact ⟨l, ls, h1, h2, fun w hw => ⟨(h3 w hw).1, (h3 w hw).2.1, (h3 w hw).2.2.1, fun _ => (h3 w hw).2.2.2⟩⟩

theorem spells_ident {s : Str} (h : Word s) : spells (identToks (some s)) = [.word s] := by
  simp [spells, identToks, spell, simpleToks_word h]

/-- A declaration of a name starts as it should. -/
theorem decl_start (hk : DialectFine R cfg) {x : CDecl} {i : Str} (h : declFine R.attrs x) (hi : Ident R.attrs i) :
    plainStart R (spells (x.write cfg (some i))) := by
  obtain ⟨q, k, n, gs, ds⟩ := x
  simp only [declFine] at h
  obtain ⟨l, ls, h1, h0, h2⟩ := typeName_first hk h.1
  have hn : spells [Tok.name n] = l :: ls := by simp [spells, h1]
  simp only [CDecl.write, spells_append, hn, spells_ident hi.word]
  cases q with
  | true =>
    have e : spells (constToks true) = [.word c!"const"] := rfl
    simp only [e, List.cons_append, List.nil_append, plainStart]
    exact ⟨by decide, by decide, fun k hk => by simp [tagKind] at hk, fun _ => by decide⟩
  | false =>
    have e : spells (constToks false) = [] := rfl
    simp only [e, List.nil_append]
    have fin : plainStart R (l :: (ls ++ spells (CDecl.writeGArgList cfg gs) ++ spells (leftPart cfg ds.reverse) ++ [.word i] ++
        spells (CDecl.rightPart cfg false ds))) := by
      cases l with
      | word w => exact ⟨(h2 w rfl).1, (h2 w rfl).2.1, fun k hk => (by rw [(h2 w rfl).2.2.1] at hk; cases hk), (h2 w rfl).2.2.2⟩
      | _ => exact h0
    cases k with
    | none =>
      have e : spells (ctypeToks cfg none) = [] := rfl
      simpa only [e, List.nil_append, List.cons_append, List.append_assoc] using fin
    | some k =>
      simp only [ctypeToks]
      split
      · simpa only [spells_nil, List.nil_append, List.cons_append, List.append_assoc] using fin
      · have e : spells [Tok.kwTag k] = [.word k.word] := rfl
        simp only [e, List.cons_append, List.nil_append, plainStart]
        refine ⟨by cases k <;> decide, by cases k <;> decide, fun _ _ => ?_, fun _ => by cases k <;> decide⟩
        simp only [List.length_cons, List.length_append, List.length_nil]
        omega

/-! ## Reading -/

theorem takeWhile_all {α : Type} {p : α → Bool} : ∀ {a b : List α}, (∀ x ∈ a, p x = true) →
    (∀ x, b.head? = some x → p x = false) → (a ++ b).takeWhile p = a ∧ (a ++ b).dropWhile p = b
  | [], [], _, _ => ⟨rfl, rfl⟩
  | [], x :: b, _, h => by simp [h x rfl]
  | x :: a, b, h1, h2 => by
    have := takeWhile_all (a := a) (b := b) (fun y hy => h1 y (by simp [hy])) h2
    simp [h1 x (by simp), this.1, this.2]

theorem cutAt_none {p : Char} : ∀ {ls : List Lx}, (∀ l ∈ ls, l ≠ .punct p) → cutAt p ls = (ls, none)
  | [], _ => rfl
  | l :: ls, h => by
    simp [cutAt, h l (by simp), cutAt_none (ls := ls) fun x hx => h x (by simp [hx])]

theorem cutAt_some {p : Char} {ks : List Lx} : ∀ {ls : List Lx}, (∀ l ∈ ls, l ≠ .punct p) →
    cutAt p (ls ++ .punct p :: ks) = (ls, some ks)
  | [], _ => by simp [cutAt]
  | l :: ls, h => by
    simp [cutAt, h l (by simp), cutAt_some (ls := ls) fun x hx => h x (by simp [hx])]

/-- A declaration with attributes before and after it, and possibly a width. -/
theorem readObject_decl {ext : Bool} {pre decl post : List Lx} {bits : Option (List Lx)} (hpre : isAttrs R.macros .out pre = true)
    (hd : ∀ l ∈ decl, DeclTok R.macros l) (hne : plainStart R decl)
    (hb : ∀ b, bits = some b → ∀ l ∈ b, isMacro R.macros l = false) (hpost : isAttrs R.macros .out post = true) {n : Str} {t : CTy}
    (hr : readDeclared R.attrs decl = some (n, t)) :
    readObject R ext (pre ++ decl ++ bits.elim [] (.punct ':' :: ·) ++ post) =
      some (.object ext (pre ++ post) n t.forgetFnPtr (bits.getD [])) := by
  have hbody : ∀ l ∈ decl ++ bits.elim [] (.punct ':' :: ·), isMacro R.macros l = false := by
    intro l hl
    rcases List.mem_append.mp hl with hl | hl
    · exact (hd l hl).noMacro
    · cases bits with
      | none => simp at hl
      | some b =>
        rcases List.mem_cons.mp hl with rfl | hl
        · rfl
        · exact hb b rfl l hl
  have hcut : cutAt ':' (decl ++ bits.elim [] (.punct ':' :: ·)) = (decl, bits) := by
    cases bits with
    | none => rw [Option.elim_none, List.append_nil]; exact cutAt_none fun l hl => (hd l hl).noColon
    | some b => exact cutAt_some fun l hl => (hd l hl).noColon
  have hlead : lead R.macros .out (pre ++ (decl ++ bits.elim [] (.punct ':' :: ·) ++ post)) =
      (pre, decl ++ bits.elim [] (.punct ':' :: ·) ++ post) := by
    have hf : ∃ l ks, decl ++ bits.elim [] (.punct ':' :: ·) ++ post = l :: ks ∧ isMacro R.macros l = false ∧ l ≠ .punct '(' := by
      cases decl with
      | nil => exact hne.elim
      | cons l ks =>
        refine ⟨_, _, rfl, hbody _ (by simp), ?_⟩
        cases l with
        | word w => nofun
        | _ => exact hne
    obtain ⟨l, ks, e, h1, h2⟩ := hf
    rw [e]
    rw [lead_attrs hpre (rest := l :: ks) (by unfold notParen; split <;> simp_all), lead_none h1]
    simp
  have hsplit := takeWhile_all (p := fun l => !isMacro R.macros l) (a := decl ++ bits.elim [] (.punct ':' :: ·)) (b := post)
    (fun l hl => by simp [hbody l hl]) (fun l hl => by
      cases post with
      | nil => simp at hl
      | cons m post =>
        simp only [List.head?_cons, Option.some.injEq] at hl
        subst hl
        simp [isAttrs_cons hpost])
  have hend : (lead R.macros .out post).2 = [] := by
    have := lead_attrs hpost (rest := []) rfl
    rw [List.append_nil] at this
    rw [this]; rfl
  unfold readObject
  rw [show pre ++ decl ++ bits.elim [] (.punct ':' :: ·) ++ post = pre ++ (decl ++ bits.elim [] (.punct ':' :: ·) ++ post) by
    simp [List.append_assoc], hlead]
  simp only [hsplit.1, hsplit.2, hend, if_true, hcut, hr, Option.map_some]

end

end Cbindgen.HeadSpec
