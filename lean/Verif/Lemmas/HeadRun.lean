import Verif.Spec.Header

/-!
# How the reader of headers goes over sequences of tokens
-/

namespace Cbindgen.HeadSpec
open LexSpec CSpec

instance : Append Out := ⟨fun a b => ⟨a.items ++ b.items, a.macros ++ b.macros, a.includes ++ b.includes⟩⟩

theorem Out.append_def (a b : Out) :
    a ++ b = ⟨a.items ++ b.items, a.macros ++ b.macros, a.includes ++ b.includes⟩ := rfl

theorem Out.append_nil (a : Out) : a ++ ({} : Out) = a := by simp [Out.append_def]
theorem Out.nil_append (a : Out) : ({} : Out) ++ a = a := by simp [Out.append_def]
theorem Out.append_assoc (a b c : Out) : a ++ b ++ c = a ++ (b ++ c) := by simp [Out.append_def]

section
variable (R : Dialect) (on : Str → Bool) (D : List Str)

/-- The macros are none of those that conditions ask for. -/
def Fresh (ms : List (Str × List Lx)) : Prop := ∀ m ∈ ms, m.1 ∉ D

/-- In a group that is skipped, the tokens change nothing. -/
def Skips (ls : List Lx) : Prop :=
  ∀ conds frs ms incs, conds.all id = false →
    run R on ⟨conds, none, frs, ms, incs⟩ ls = some ⟨conds, none, frs, ms, incs⟩

/-- The tokens take the innermost level from `f` to `f'`, where they are compiled. -/
def Acts (ls : List Lx) (f f' : Frame) (ms' : List (Str × List Lx)) (is' : List (List Lx)) : Prop :=
  Skips R on ls ∧ ∀ conds fs ms incs, conds.all id = true → Fresh D ms →
    run R on ⟨conds, none, f :: fs, ms, incs⟩ ls = some ⟨conds, none, f' :: fs, ms ++ ms', incs ++ is'⟩

/-- The tokens are declarations. -/
def Adds (ls : List Lx) (o : Out) : Prop :=
  (∀ d, Acts R on D ls ⟨d, []⟩ ⟨d ++ o.items, []⟩ o.macros o.includes) ∧ Fresh D o.macros

/-- The first of the parts is a text in quotes. -/
def quotedFirst : List Part → Bool
  | .tok (.quoted _ _) :: _ => true
  | _ => false

/-- The declaration starts like a block with a linkage or a namespace. -/
def linkStart : List Part → Bool
  | .tok (.word w) :: ps => R.cxx && (decide (w = c!"namespace") || (decide (w = c!"extern") && quotedFirst ps))
  | _ => false

/-- The tokens are a part of a declaration, which is no block. -/
def Grow (ls : List Lx) (ps : List Part) : Prop :=
  ∀ d q, linkStart R (q ++ ps) = false → Acts R on D ls ⟨d, q⟩ ⟨d, q ++ ps⟩ [] []

/-- The declaration is none of those that only C++ has. -/
def ordinary (ps : List Part) : Bool := !cxxStart R ps && !linkStart R ps

end

section
variable {R : Dialect} {on : Str → Bool} {D : List Str}

theorem run_append (s : St) (a b : List Lx) : run R on s (a ++ b) = (run R on s a).bind fun s' => run R on s' b := by
  induction a generalizing s with
  | nil => rfl
  | cons l a ih =>
    simp only [List.cons_append, run]
    cases step R on s l with
    | none => rfl
    | some s' => simpa using ih s'

theorem run_some {s s' : St} {a b : List Lx} (h : run R on s a = some s') : run R on s (a ++ b) = run R on s' b := by
  rw [run_append, h]; rfl

theorem run_cons {s s' : St} {l : Lx} {b : List Lx} (h : step R on s l = some s') : run R on s (l :: b) = run R on s' b := by
  simp only [run, h, Option.bind_some]

theorem Fresh.nil : Fresh D [] := nofun

theorem Fresh.append {a b : List (Str × List Lx)} (h1 : Fresh D a) (h2 : Fresh D b) : Fresh D (a ++ b) := by
  intro m hm
  rcases List.mem_append.mp hm with h | h
  · exact h1 m h
  · exact h2 m h

theorem skips_append {a b : List Lx} (h1 : Skips R on a) (h2 : Skips R on b) : Skips R on (a ++ b) := by
  intro conds frs ms incs hc
  rw [run_some (h1 conds frs ms incs hc), h2 conds frs ms incs hc]

theorem acts_nil {f : Frame} : Acts R on D [] f f [] [] :=
  ⟨fun _ _ _ _ _ => rfl, fun conds fs ms incs _ _ => by simp [run]⟩

theorem acts_append {a b : List Lx} {f g k : Frame} {m1 m2 : List (Str × List Lx)} {i1 i2 : List (List Lx)}
    (h1 : Acts R on D a f g m1 i1) (hf : Fresh D m1) (h2 : Acts R on D b g k m2 i2) :
    Acts R on D (a ++ b) f k (m1 ++ m2) (i1 ++ i2) := by
  refine ⟨skips_append h1.1 h2.1, fun conds fs ms incs hc hm => ?_⟩
  rw [run_some (h1.2 conds fs ms incs hc hm), h2.2 conds fs _ _ hc (hm.append hf)]
  simp [List.append_assoc]

theorem adds_nil : Adds R on D [] {} := ⟨fun d => by simpa using acts_nil, Fresh.nil⟩

theorem adds_append {a b : List Lx} {o p : Out} (h1 : Adds R on D a o) (h2 : Adds R on D b p) :
    Adds R on D (a ++ b) (o ++ p) := by
  refine ⟨fun d => ?_, h1.2.append h2.2⟩
  have := acts_append (h1.1 d) h1.2 (h2.1 _)
  simpa [Out.append_def, List.append_assoc] using this

theorem linkStart_mono {q ps : List Part} (h : linkStart R (q ++ ps) = false) : linkStart R q = false := by
  match q, h with
  | [], _ => rfl
  | [.tok (.word w)], h =>
    simp only [List.cons_append, linkStart, Bool.and_eq_false_iff, Bool.or_eq_false_iff] at h ⊢
    rcases h with h | h
    · exact .inl h
    · exact .inr ⟨h.1, .inr rfl⟩
  | .tok (.word w) :: p :: q, h =>
    simp only [List.cons_append, linkStart] at h ⊢
    have e : quotedFirst (p :: (q ++ ps)) = quotedFirst (p :: q) := by
      cases p with
      | tok l => cases l <;> rfl
      | group a b => rfl
    rw [← e]; exact h
  | .tok (.punct w) :: q, h => rfl
  | .tok (.quoted _ w) :: q, h => rfl
  | .tok .hash :: q, h => rfl
  | .tok .eol :: q, h => rfl
  | .group _ _ :: q, h => rfl

theorem block_none {q : List Part} (h : linkStart R q = false) : blockOf R q = none := by
  unfold blockOf
  split
  · simp only [linkStart, quotedFirst, Bool.and_true, Bool.and_eq_false_iff, Bool.or_eq_false_iff] at h
    rcases h with h | h
    · simp [h]
    · simp [h.2]
  · simp only [linkStart, Bool.and_eq_false_iff, Bool.or_eq_false_iff] at h
    rcases h with h | h
    · simp [h]
    · simp [h.1]
  · rfl

theorem flatToks_toks (ls : List Lx) : flatToks (ls.map .tok) = some ls := by
  induction ls with
  | nil => rfl
  | cons l ls ih => simp [flatToks, ih]

theorem grow_nil : Grow R on D [] [] := fun d q _ => by simpa using acts_nil

theorem grow_append {a b : List Lx} {p q : List Part} (h1 : Grow R on D a p) (h2 : Grow R on D b q) :
    Grow R on D (a ++ b) (p ++ q) := fun d r hr => by
  rw [← List.append_assoc] at hr
  have := acts_append (h1 d r (linkStart_mono hr)) Fresh.nil (h2 d _ hr)
  simpa [List.append_assoc] using this

/-- A token that can stand in a declaration. -/
def isPlainTok (l : Lx) : Bool :=
  !(l == .hash || l == .punct '{' || l == .punct '}' || l == .punct ';')

theorem skips_tok {l : Lx} (h : l ≠ .hash) : Skips R on [l] := by
  intro conds frs ms incs hc
  simp [run, step, h, St.active, hc]

theorem grow_tok {l : Lx} (h : isPlainTok l = true) : Grow R on D [l] [.tok l] := by
  simp only [isPlainTok, Bool.not_eq_true', Bool.or_eq_false_iff, beq_eq_false_iff_ne] at h
  obtain ⟨⟨⟨h1, h2⟩, h3⟩, h4⟩ := h
  intro d q _
  refine ⟨skips_tok h1, fun conds fs ms incs hc hm => ?_⟩
  simp [run, step, h1, St.active, hc, code, h2, h3, h4]

theorem grow_toks : ∀ {ls : List Lx}, ls.all isPlainTok = true → Grow R on D ls (ls.map .tok)
  | [], _ => grow_nil
  | l :: ls, h => by
    simp only [List.all_cons, Bool.and_eq_true] at h
    exact grow_append (grow_tok h.1) (grow_toks h.2)

/-- A template is no other declaration. -/
theorem template_none {ps : List Part} (h : templateStart R ps = true) : declaration R ps = none := by
  unfold templateStart at h
  split at h
  · rename_i w qs
    simp only [Bool.and_eq_true, decide_eq_true_eq] at h
    obtain ⟨hx, rfl⟩ := h
    rw [declaration, if_pos (by simp [cxxStart, hx, cxxWords])]
    simp only [flatToks]
    cases flatToks qs with
    | none => rfl
    | some ls => simp [readPlainCxx]
  · cases h

theorem statement_of {ps : List Part} {xs : List CItem} (h : declaration R ps = some xs) : statement R ps = some xs := by
  unfold statement
  split
  · rename_i ht; rw [template_none ht] at h; cases h
  · exact h

/-- The end of a declaration. -/
theorem adds_end {ls : List Lx} {ps : List Part} {xs : List CItem} (h : Grow R on D ls ps)
    (hl : linkStart R ps = false) (hd : declaration R ps = some xs) : Adds R on D (ls ++ [.punct ';']) ⟨xs, [], []⟩ := by
  refine ⟨fun d => ?_, Fresh.nil⟩
  have h1 := h d [] hl
  refine ⟨skips_append h1.1 (skips_tok (by simp)), fun conds fs ms incs hc hm => ?_⟩
  rw [run_some (h1.2 conds fs ms incs hc hm)]
  simp [run, step, St.active, hc, code, statement_of hd]

/-- The tokens are one declaration, up to its semicolon. -/
def Decl (R : Dialect) (on : Str → Bool) (D : List Str) (ls : List Lx) (x : CItem) : Prop :=
  ∃ ks ps, ls = ks ++ [.punct ';'] ∧ Grow R on D ks ps ∧ linkStart R ps = false ∧ declaration R ps = some [x]

theorem Decl.adds {ls : List Lx} {x : CItem} (h : Decl R on D ls x) : Adds R on D ls ⟨[x], [], []⟩ := by
  obtain ⟨ks, ps, rfl, h1, h2, h3⟩ := h
  exact adds_end h1 h2 h3

theorem takeAngles_toks {ts : List Lx} (h : ∀ l ∈ ts, l ≠ .punct '<' ∧ l ≠ .punct '>' ∧ l ≠ .punct '(' ∧ l ≠ .punct ')') (ps : List Part) :
    takeAngles 0 (ts.map .tok ++ .tok (.punct '>') :: ps) = some (ts, ps) := by
  induction ts with
  | nil => simp [takeAngles]
  | cons l ts ih =>
    have hl := h l (by simp)
    simp [takeAngles, hl, depthAfter, ih fun x hx => h x (by simp [hx])]

/-- A declaration after the parameters of a template. -/
theorem Decl.template (hx : R.cxx = true) {ls ts : List Lx} {x : CItem} {params : List TParam} (h : Decl R on D ls x)
    (hp : ts.all isPlainTok = true) (hn : ∀ l ∈ ts, l ≠ .punct '<' ∧ l ≠ .punct '>' ∧ l ≠ .punct '(' ∧ l ≠ .punct ')')
    (hr : readAll (readTParam R) (splitParams 0 [] ts) = some params) :
    Adds R on D (.word c!"template" :: .punct '<' :: ts ++ .punct '>' :: ls) ⟨[.template params x], [], []⟩ := by
  obtain ⟨ks, ps, rfl, h1, h2, h3⟩ := h
  have hl : (Lx.word c!"template" :: .punct '<' :: ts ++ [Lx.punct '>']).all isPlainTok = true := by
    simpa [isPlainTok] using hp
  have hg := grow_append (grow_toks (R := R) (on := on) (D := D) hl) h1
  refine ⟨fun d => ?_, Fresh.nil⟩
  have g1 := hg d [] (by simp [linkStart])
  have e : .word c!"template" :: .punct '<' :: ts ++ .punct '>' :: (ks ++ [.punct ';']) =
      (Lx.word c!"template" :: .punct '<' :: ts ++ [Lx.punct '>']) ++ ks ++ [.punct ';'] := by simp
  rw [e]
  refine ⟨skips_append g1.1 (skips_tok (by simp)), fun conds fs ms incs hc hm => ?_⟩
  rw [run_some (g1.2 conds fs ms incs hc hm)]
  have hs : statement R ([] ++ ((Lx.word c!"template" :: .punct '<' :: ts ++ [Lx.punct '>']).map Part.tok ++ ps)) = some [.template params x] := by
    have e2 : ([] ++ ((Lx.word c!"template" :: .punct '<' :: ts ++ [Lx.punct '>']).map Part.tok ++ ps)) =
        .tok (Lx.word c!"template") :: .tok (.punct '<') :: (ts.map .tok ++ .tok (.punct '>') :: ps) := by simp
    rw [e2, statement, if_pos (by simp [templateStart, hx])]
    simp only [List.drop_succ_cons, List.drop_zero, readTemplate, takeAngles_toks hn, hr, h3]
  revert hs
  generalize ([] ++ ((Lx.word c!"template" :: .punct '<' :: ts ++ [Lx.punct '>']).map Part.tok ++ ps)) = q
  intro hs
  simp [run, step, St.active, hc, code, hs]

/-- The end of a declaration that C has too. -/
theorem adds_semi {ls : List Lx} {ps : List Part} {xs : List CItem} (h : Grow R on D ls ps)
    (ho : ordinary R ps = true) (hd : declarationC R ps = some xs) : Adds R on D (ls ++ [.punct ';']) ⟨xs, [], []⟩ := by
  simp only [ordinary, Bool.and_eq_true, Bool.not_eq_true'] at ho
  exact adds_end h ho.2 (by rw [declaration, ho.1]; exact hd)

theorem decl_semi {ls : List Lx} {ps : List Part} {x : CItem} (h : Grow R on D ls ps)
    (ho : ordinary R ps = true) (hd : declarationC R ps = some [x]) : Decl R on D (ls ++ [.punct ';']) x := by
  simp only [ordinary, Bool.and_eq_true, Bool.not_eq_true'] at ho
  exact ⟨ls, ps, rfl, h, ho.2, by rw [declaration, ho.1]; exact hd⟩

/-- Declarations in braces. -/
theorem grow_group {ls : List Lx} {xs : List CItem} (h : Adds R on D ls ⟨xs, [], []⟩) :
    Grow R on D ([.punct '{'] ++ ls ++ [.punct '}']) [.group xs []] := by
  intro d q hq
  have hk := block_none (linkStart_mono hq)
  have h1 := h.1 []
  refine ⟨skips_append (skips_append (skips_tok (by simp)) h1.1) (skips_tok (by simp)), fun conds fs ms incs hc hm => ?_⟩
  have e1 : run R on ⟨conds, none, ⟨d, q⟩ :: fs, ms, incs⟩ [.punct '{'] = some ⟨conds, none, {} :: ⟨d, q⟩ :: fs, ms, incs⟩ := by
    simp [run, step, St.active, hc, code]
  rw [List.append_assoc, run_some e1, run_some (h1.2 conds _ ms incs hc hm)]
  simp [run, step, St.active, hc, code, flatToks, close, hk]

theorem plainToks_toks (ls : List Lx) : plainToks (ls.map .tok) = some ls := by
  induction ls with
  | nil => rfl
  | cons l ls ih => simp [plainToks, ih]

theorem splitGroup_toks (ls : List Lx) (ms : List CItem) (rest post : List Lx) :
    splitGroup (ls.map .tok ++ .group ms rest :: post.map .tok) = some (ls, (ms, rest), post) := by
  induction ls with
  | nil => simp [splitGroup, plainToks_toks]
  | cons l ls ih => simp [splitGroup, ih]

theorem plainToks_group (ls : List Lx) (ms : List CItem) (rest : List Lx) (ps : List Part) :
    plainToks (ls.map .tok ++ .group ms rest :: ps) = none := by
  induction ls with
  | nil => rfl
  | cons l ls ih => simp [plainToks, ih]

/-- Tokens in braces. -/
theorem grow_flat {ls ts : List Lx} {ps : List Part} (ht : linkStart R ps = false) (hf : flatToks ps = some ts) (h : Grow R on D ls ps) :
    Grow R on D ([.punct '{'] ++ ls ++ [.punct '}']) [.group [] ts] := by
  intro d q hq
  have hk := block_none (linkStart_mono hq)
  have h1 := h [] [] ht
  refine ⟨skips_append (skips_append (skips_tok (by simp)) h1.1) (skips_tok (by simp)), fun conds fs ms incs hc hm => ?_⟩
  have e1 : run R on ⟨conds, none, ⟨d, q⟩ :: fs, ms, incs⟩ [.punct '{'] = some ⟨conds, none, {} :: ⟨d, q⟩ :: fs, ms, incs⟩ := by
    simp [run, step, St.active, hc, code]
  rw [List.append_assoc, run_some e1, run_some (h1.2 conds _ ms incs hc hm)]
  simp [run, step, St.active, hc, code, hf, close, hk]

theorem grow_braced {ls ts : List Lx} (ht : linkStart R (ts.map .tok) = false) (h : Grow R on D ls (ts.map .tok)) :
    Grow R on D ([.punct '{'] ++ ls ++ [.punct '}']) [.group [] ts] := grow_flat ht (flatToks_toks ts) h

/-- A block of declarations. -/
theorem adds_block {a b : Lx} {f : List CItem → CItem} (ha : isPlainTok a = true) (hb : isPlainTok b = true)
    (hf : blockOf R [.tok a, .tok b] = some f) {ls : List Lx} {o : Out} (h : Adds R on D ls o) :
    Adds R on D ([a, b, .punct '{'] ++ ls ++ [.punct '}']) ⟨[f o.items], o.macros, o.includes⟩ := by
  refine ⟨fun d => ?_, h.2⟩
  have h1 := h.1 []
  simp only [isPlainTok, Bool.not_eq_true', Bool.or_eq_false_iff, beq_eq_false_iff_ne] at ha hb
  obtain ⟨⟨⟨a1, a2⟩, a3⟩, a4⟩ := ha
  obtain ⟨⟨⟨b1, b2⟩, b3⟩, b4⟩ := hb
  refine ⟨skips_append (skips_append (skips_append (a := [a]) (b := [b, .punct '{']) (skips_tok a1)
    (skips_append (a := [b]) (b := [.punct '{']) (skips_tok b1) (skips_tok (by simp)))) h1.1) (skips_tok (by simp)),
    fun conds fs ms incs hc hm => ?_⟩
  have e1 : run R on ⟨conds, none, ⟨d, []⟩ :: fs, ms, incs⟩ [a, b, .punct '{'] =
      some ⟨conds, none, {} :: ⟨d, [.tok a, .tok b]⟩ :: fs, ms, incs⟩ := by
    have hc' : false ∉ conds := by simpa using hc
    simp [run, step, St.active, hc', code, a1, a2, a3, a4, b1, b2, b3, b4]
  rw [List.append_assoc, run_some e1, run_some (h1.2 conds _ ms incs hc hm)]
  simp [run, step, St.active, hc, code, flatToks, close, hf]

theorem adds_linkage (hx : R.cxx = true) {l : Str} {ls : List Lx} {o : Out} (h : Adds R on D ls o) :
    Adds R on D ([.word c!"extern", .quoted '"' l, .punct '{'] ++ ls ++ [.punct '}'])
      ⟨[.linkage l o.items], o.macros, o.includes⟩ :=
  adds_block rfl rfl (by simp [blockOf, hx]) h

theorem adds_space (hx : R.cxx = true) {n : Str} {ls : List Lx} {o : Out} (h : Adds R on D ls o) :
    Adds R on D ([.word c!"namespace", .word n, .punct '{'] ++ ls ++ [.punct '}'])
      ⟨[.space n o.items], o.macros, o.includes⟩ :=
  adds_block rfl rfl (by simp [blockOf, hx]) h

/-! ## Directives -/

theorem run_collect {s : St} {ts ls : List Lx} (hd : s.dir = some ts) (h : Lx.eol ∉ ls) :
    run R on s (ls ++ [.eol]) = directive on { s with dir := none } (ts ++ ls) := by
  induction ls generalizing s ts with
  | nil => simp [run, step, hd]
  | cons l ls ih =>
    simp only [List.mem_cons, not_or] at h
    rw [List.cons_append, run_cons (s' := { s with dir := some (ts ++ [l]) }) (by simp [step, hd, Ne.symm h.1])]
    rw [ih rfl h.2]
    simp

theorem run_directive {conds : List Bool} {frs : List Frame} {ms : List (Str × List Lx)} {incs : List (List Lx)}
    {ls : List Lx} (h : Lx.eol ∉ ls) :
    run R on ⟨conds, none, frs, ms, incs⟩ (.hash :: (ls ++ [.eol])) = directive on ⟨conds, none, frs, ms, incs⟩ ls := by
  rw [run_cons (s' := ⟨conds, some [], frs, ms, incs⟩) (by simp [step]), run_collect rfl h]
  rfl

/-- The line of a directive. -/
def dirToks (ls : List Lx) : List Lx := .hash :: (ls ++ [.eol])

theorem truth_fresh {conds : List Bool} {dir : Option (List Lx)} {frs : List Frame} {ms : List (Str × List Lx)}
    {incs : List (List Lx)} (h : Fresh D ms) {x : Str} (hx : x ∈ D) : St.truth on ⟨conds, dir, frs, ms, incs⟩ x = on x := by
  simp only [St.truth]
  have : (ms.any fun m => m.1 == x) = false := by
    rw [List.any_eq_false]
    intro m hm
    simp only [beq_iff_eq]
    rintro rfl
    exact h m hm hx
  simp [this]

/-- The directive `ls` opens a group, which is compiled if `v` holds. -/
def Opens (on : Str → Bool) (D : List Str) (ls : List Lx) (v : Bool) : Prop :=
  Lx.eol ∉ ls ∧ (∀ conds frs ms incs, conds.all id = false →
    directive on ⟨conds, none, frs, ms, incs⟩ ls = some ⟨false :: conds, none, frs, ms, incs⟩) ∧
  ∀ conds frs ms incs, conds.all id = true → Fresh D ms →
    directive on ⟨conds, none, frs, ms, incs⟩ ls = some ⟨v :: conds, none, frs, ms, incs⟩

theorem directive_endif {b : Bool} {conds : List Bool} {frs : List Frame} {ms : List (Str × List Lx)} {incs : List (List Lx)} :
    run R on ⟨b :: conds, none, frs, ms, incs⟩ (dirToks [.word c!"endif"]) = some ⟨conds, none, frs, ms, incs⟩ := by
  rw [dirToks, run_directive (by simp)]
  simp [directive]

theorem directive_else {b : Bool} {conds : List Bool} {frs : List Frame} {ms : List (Str × List Lx)} {incs : List (List Lx)} :
    run R on ⟨b :: conds, none, frs, ms, incs⟩ (dirToks [.word c!"else"]) = some ⟨(!b) :: conds, none, frs, ms, incs⟩ := by
  rw [dirToks, run_directive (by simp)]
  simp [directive]

theorem acts_group {ls body : List Lx} {v : Bool} {f f' : Frame} {ms' : List (Str × List Lx)} {is' : List (List Lx)}
    (ho : Opens on D ls v) (hb : Acts R on D body f f' ms' is') :
    Acts R on D (dirToks ls ++ body ++ dirToks [.word c!"endif"]) f (if v then f' else f) (if v then ms' else [])
      (if v then is' else []) := by
  obtain ⟨he, h0, h1⟩ := ho
  refine ⟨fun conds frs ms incs hc => ?_, fun conds fs ms incs hc hm => ?_⟩
  · have e1 : run R on ⟨conds, none, frs, ms, incs⟩ (dirToks ls) = some ⟨false :: conds, none, frs, ms, incs⟩ := by
      rw [dirToks, run_directive he, h0 conds frs ms incs hc]
    rw [List.append_assoc, run_some e1, run_some (hb.1 (false :: conds) frs ms incs (by simp)), directive_endif]
  · have e1 : run R on ⟨conds, none, f :: fs, ms, incs⟩ (dirToks ls) = some ⟨v :: conds, none, f :: fs, ms, incs⟩ := by
      rw [dirToks, run_directive he, h1 conds _ ms incs hc hm]
    rw [List.append_assoc, run_some e1]
    cases v with
    | true =>
      rw [run_some (hb.2 (true :: conds) fs ms incs (by simpa using hc) hm), directive_endif]; rfl
    | false =>
      rw [run_some (hb.1 (false :: conds) _ ms incs (by simp)), directive_endif]; simp

/-- A group that is not compiled. -/
theorem acts_hidden {ls body : List Lx} {f : Frame} (ho : Opens on D ls false) (hb : Skips R on body) :
    Acts R on D (dirToks ls ++ body ++ dirToks [.word c!"endif"]) f f [] [] := by
  obtain ⟨he, h0, h1⟩ := ho
  refine ⟨fun conds frs ms incs hc => ?_, fun conds fs ms incs hc hm => ?_⟩
  · have e1 : run R on ⟨conds, none, frs, ms, incs⟩ (dirToks ls) = some ⟨false :: conds, none, frs, ms, incs⟩ := by
      rw [dirToks, run_directive he, h0 conds frs ms incs hc]
    rw [List.append_assoc, run_some e1, run_some (hb (false :: conds) frs ms incs (by simp)), directive_endif]
  · have e1 : run R on ⟨conds, none, f :: fs, ms, incs⟩ (dirToks ls) = some ⟨false :: conds, none, f :: fs, ms, incs⟩ := by
      rw [dirToks, run_directive he, h1 conds _ ms incs hc hm]
    rw [List.append_assoc, run_some e1, run_some (hb (false :: conds) _ ms incs (by simp)), directive_endif]
    simp

theorem acts_groupElse {ls body other : List Lx} {v : Bool} {f f' g' : Frame} {ms' ns' : List (Str × List Lx)}
    {is' js' : List (List Lx)} (ho : Opens on D ls v) (hb : Acts R on D body f f' ms' is')
    (hc : Acts R on D other f g' ns' js') :
    Acts R on D (dirToks ls ++ body ++ (dirToks [.word c!"else"] ++ other ++ dirToks [.word c!"endif"])) f
      (if v then f' else g') (if v then ms' else ns') (if v then is' else js') := by
  obtain ⟨he, h0, h1⟩ := ho
  refine ⟨fun conds frs ms incs hs => ?_, fun conds fs ms incs hs hm => ?_⟩
  · have e1 : run R on ⟨conds, none, frs, ms, incs⟩ (dirToks ls) = some ⟨false :: conds, none, frs, ms, incs⟩ := by
      rw [dirToks, run_directive he, h0 conds frs ms incs hs]
    rw [List.append_assoc, run_some e1, run_some (hb.1 (false :: conds) frs ms incs (by simp)), List.append_assoc,
      run_some directive_else, run_some (hc.1 _ frs ms incs (by simpa using hs)), directive_endif]
  · have e1 : run R on ⟨conds, none, f :: fs, ms, incs⟩ (dirToks ls) = some ⟨v :: conds, none, f :: fs, ms, incs⟩ := by
      rw [dirToks, run_directive he, h1 conds _ ms incs hs hm]
    rw [List.append_assoc, run_some e1]
    cases v with
    | true =>
      rw [run_some (hb.2 (true :: conds) fs ms incs (by simpa using hs) hm), List.append_assoc, run_some directive_else,
        run_some (hc.1 _ _ _ _ (by simp)), directive_endif]; rfl
    | false =>
      rw [run_some (hb.1 (false :: conds) _ ms incs (by simp)), List.append_assoc, run_some directive_else,
        run_some (hc.2 _ fs ms incs (by simpa using hs) hm), directive_endif]; rfl

/-- What a group gives. -/
def whenOut (v : Bool) (o : Out) : Out := if v then o else {}

theorem adds_group {ls body : List Lx} {v : Bool} {o : Out} (ho : Opens on D ls v) (hb : Adds R on D body o) :
    Adds R on D (dirToks ls ++ body ++ dirToks [.word c!"endif"]) (whenOut v o) := by
  refine ⟨fun d => ?_, ?_⟩
  · have := acts_group ho (hb.1 d)
    cases v <;> simpa [whenOut] using this
  · cases v
    · exact Fresh.nil
    · exact hb.2

theorem adds_groupElse {ls body other : List Lx} {v : Bool} {o p : Out} (ho : Opens on D ls v) (hb : Adds R on D body o)
    (hc : Adds R on D other p) :
    Adds R on D (dirToks ls ++ body ++ (dirToks [.word c!"else"] ++ other ++ dirToks [.word c!"endif"])) (if v then o else p) := by
  refine ⟨fun d => ?_, ?_⟩
  · have := acts_groupElse ho (hb.1 d) (hc.1 d)
    cases v <;> simpa using this
  · cases v
    · exact hc.2
    · exact hb.2

theorem grow_cond {ls body : List Lx} {v : Bool} {ps : List Part} (ho : Opens on D ls v) (hb : Grow R on D body ps) :
    Grow R on D (dirToks ls ++ body ++ dirToks [.word c!"endif"]) (if v then ps else []) := by
  intro d q hq
  cases v with
  | true => simpa using acts_group ho (hb d q hq)
  | false => simpa using acts_hidden ho (hb [] [.group [] []] rfl).1

theorem opens_ifdef {x : Str} (hx : x ∈ D) : Opens on D [.word c!"ifdef", .word x] (on x) := by
  refine ⟨by simp, fun conds frs ms incs hc => ?_, fun conds frs ms incs hc hm => ?_⟩
  · simp [directive, St.enterIf, St.active, hc, St.enter]
  · simp [directive, St.enterIf, St.active, hc, St.enter, truth_fresh hm hx]

theorem opens_ifndef {x : Str} (hx : x ∈ D) : Opens on D [.word c!"ifndef", .word x] (!on x) := by
  refine ⟨by simp, fun conds frs ms incs hc => ?_, fun conds frs ms incs hc hm => ?_⟩
  · simp [directive, St.enterIf, St.active, hc, St.enter]
  · simp [directive, St.enterIf, St.active, hc, St.enter, truth_fresh hm hx]

theorem opens_if {ls : List Lx} {v : Bool} (he : Lx.eol ∉ ls)
    (h : ∀ truth : Str → Bool, (∀ x ∈ D, truth x = on x) → evalCond truth ls = some v) :
    Opens on D (.word c!"if" :: ls) v := by
  refine ⟨by simp [he], fun conds frs ms incs hc => ?_, fun conds frs ms incs hc hm => ?_⟩
  · simp [directive, St.enterIf, St.active, hc, St.enter]
  · simp [directive, St.enterIf, St.active, hc, St.enter, h _ fun x hx => truth_fresh hm hx]

/-- A directive that opens and closes nothing. -/
theorem adds_line {ls : List Lx} (he : Lx.eol ∉ ls) {o : Out} (ho : o.items = []) (hf : Fresh D o.macros)
    (h0 : ∀ conds frs ms incs, conds.all id = false →
      directive on ⟨conds, none, frs, ms, incs⟩ ls = some ⟨conds, none, frs, ms, incs⟩)
    (h1 : ∀ conds frs ms incs, conds.all id = true →
      directive on ⟨conds, none, frs, ms, incs⟩ ls = some ⟨conds, none, frs, ms ++ o.macros, incs ++ o.includes⟩) :
    Adds R on D (dirToks ls) o := by
  refine ⟨fun d => ⟨fun conds frs ms incs hc => ?_, fun conds fs ms incs hc hm => ?_⟩, hf⟩
  · rw [dirToks, run_directive he, h0 _ _ _ _ hc]
  · rw [dirToks, run_directive he, h1 _ _ _ _ hc]; simp [ho]

theorem adds_define {x : Str} {body : List Lx} (he : Lx.eol ∉ body) (hx : x ∉ D) :
    Adds R on D (dirToks (.word c!"define" :: .word x :: body)) ⟨[], [(x, body)], []⟩ := by
  refine adds_line (by simp [he]) rfl (by intro m hm; simp only [List.mem_singleton] at hm; subst hm; exact hx) ?_ ?_
  · intro conds frs ms incs hc; simp [directive, St.active, hc]
  · intro conds frs ms incs hc; simp [directive, St.active, hc]

theorem adds_include {ls : List Lx} (he : Lx.eol ∉ ls) :
    Adds R on D (dirToks (.word c!"include" :: ls)) ⟨[], [], [ls]⟩ := by
  refine adds_line (by simp [he]) rfl Fresh.nil ?_ ?_
  · intro conds frs ms incs hc; simp [directive, St.active, hc]
  · intro conds frs ms incs hc; simp [directive, St.active, hc]

theorem adds_pragma {ls : List Lx} (he : Lx.eol ∉ ls) : Adds R on D (dirToks (.word c!"pragma" :: ls)) {} := by
  refine adds_line (by simp [he]) rfl Fresh.nil ?_ ?_
  · intro conds frs ms incs hc; simp [directive, St.active, hc]
  · intro conds frs ms incs hc; simp [directive, St.active, hc]

end

end Cbindgen.HeadSpec
