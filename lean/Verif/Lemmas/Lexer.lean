import Verif.Spec.Lexer
import Verif.Lemmas.Preproc
import Verif.Model.OutConfig

/-!
# The tokens of what sequences of calls write
-/

namespace Cbindgen.LexSpec
open TextSpec

theorem scan_nil (s : State) : scan s [] = some (s, []) := rfl

theorem emit_nil (r : Option (State × List Lx)) : emit [] r = r := by
  cases r <;> simp [emit]

theorem emit_emit (a b : List Lx) (r : Option (State × List Lx)) : emit a (emit b r) = emit (a ++ b) r := by
  cases r <;> simp [emit]

theorem emit_bind (a : List Lx) (r : Option (State × List Lx)) (f : State → Option (State × List Lx)) :
    ((emit a r).bind fun p => emit p.2 (f p.1)) = emit a (r.bind fun p => emit p.2 (f p.1)) := by
  cases r with
  | none => rfl
  | some p => simp [emit]; cases f p.1 <;> simp

theorem scan_append (s : State) (a b : Str) :
    scan s (a ++ b) = (scan s a).bind fun p => emit p.2 (scan p.1 b) := by
  induction a generalizing s with
  | nil => simp [scan, emit_nil]
  | cons c a ih =>
    simp only [List.cons_append, scan]
    cases h : step s c with
    | none => rfl
    | some p =>
      simp only [Option.bind_some]
      rw [ih p.1]
      exact (emit_bind p.2 (scan p.1 a) (scan · b)).symm

theorem scan_some {s s1 s2 : State} {a b : Str} {e1 e2 : List Lx} (h1 : scan s a = some (s1, e1))
    (h2 : scan s1 b = some (s2, e2)) : scan s (a ++ b) = some (s2, e1 ++ e2) := by
  rw [scan_append, h1]; simp [h2, emit]

theorem scan_cons_some {s s1 s2 : State} {c : Char} {b : Str} {e1 e2 : List Lx} (h1 : step s c = some (s1, e1))
    (h2 : scan s1 b = some (s2, e2)) : scan s (c :: b) = some (s2, e1 ++ e2) := by
  simp [scan, h1, h2, emit]

/-! ## Positions -/

/-- A place between two calls: the states that the reader can be in, and the tokens that it has read but not
given yet. -/
structure Pos where
  holds : State → Prop
  owed : State → List Lx

def pend (s : State) : List Lx :=
  match s.mode with
  | .word w => [.word w]
  | _ => []

/-- At the start of a line. -/
def Pos.at : Pos := ⟨fun s => s = {}, fun _ => []⟩
/-- Between two tokens. -/
def Pos.gap (d : Bool) : Pos := ⟨fun s => s.mode = .code ∧ s.dir = d, fun _ => []⟩
/-- Between two tokens, or at the end of a word. -/
def Pos.any (d : Bool) : Pos := ⟨fun s => (s.mode = .code ∨ ∃ w, s.mode = .word w) ∧ s.dir = d, pend⟩
/-- Nothing but the end of the line follows. -/
def Pos.done : Pos :=
  ⟨fun s => s.mode = .code ∨ (∃ w, s.mode = .word w) ∨ s.mode = .line false, fun s => pend s ++ ending s.dir⟩

/-- From `P`, the reader reads what the calls write, finds the tokens `ls` and gets to `Q`. -/
def Tri (c : WConfig) (P : Pos) (ops : List WOp) (ls : List Lx) (Q : Pos) : Prop :=
  ∀ w s t w', w.lineNumber ≠ 0 → P.holds s → WOp.exec c ops w = some (t, w') →
    ∃ s' e, scan s t = some (s', e) ∧ Q.holds s' ∧ e ++ Q.owed s' = P.owed s ++ ls

/-- Every place `P` is a place `Q`. -/
def Pos.le (P Q : Pos) : Prop := ∀ s, P.holds s → Q.holds s ∧ Q.owed s = P.owed s

theorem Pos.le_refl (P : Pos) : P.le P := fun _ h => ⟨h, rfl⟩

theorem at_le_gap : Pos.at.le (.gap false) := by
  intro s h; cases h; exact ⟨⟨rfl, rfl⟩, rfl⟩

theorem gap_le_any (d : Bool) : (Pos.gap d).le (.any d) := by
  intro s h; exact ⟨⟨.inl h.1, h.2⟩, by simp [Pos.any, Pos.gap, pend, h.1]⟩

theorem any_le_done : (Pos.any false).le .done := by
  intro s h
  refine ⟨?_, by simp [Pos.any, Pos.done, h.2, ending]⟩
  rcases h.1 with h | h
  · exact .inl h
  · exact .inr (.inl h)

theorem Pos.le_trans {P Q R : Pos} (h1 : P.le Q) (h2 : Q.le R) : P.le R := fun s h =>
  ⟨(h2 s (h1 s h).1).1, by rw [(h2 s (h1 s h).1).2, (h1 s h).2]⟩

theorem gap_le_done : (Pos.gap false).le .done := Pos.le_trans (gap_le_any _) any_le_done
theorem at_le_done : Pos.at.le .done := Pos.le_trans at_le_gap gap_le_done
theorem at_le_any : Pos.at.le (.any false) := Pos.le_trans at_le_gap (gap_le_any _)

section
variable {c : WConfig} {P Q R : Pos} {ls ks : List Lx}

theorem tri_nil : Tri c P [] [] P := by
  intro w s t w' _ hp h
  rw [exec_nil] at h
  simp only [Option.some.injEq, Prod.mk.injEq] at h
  rw [← h.1]
  exact ⟨s, [], rfl, hp, by simp⟩

theorem tri_append {a b : List WOp} (h1 : Tri c P a ls Q) (h2 : Tri c Q b ks R) : Tri c P (a ++ b) (ls ++ ks) R := by
  intro w s t w' hw hp h
  obtain ⟨t1, w1, t2, e1, e2, rfl⟩ := exec_append_some.mp h
  obtain ⟨s1, m1, g1, q1, o1⟩ := h1 w s t1 w1 hw hp e1
  have := PreSpec.number_exec c a e1
  obtain ⟨s2, m2, g2, q2, o2⟩ := h2 w1 s1 t2 w' (by omega) q1 e2
  refine ⟨s2, m1 ++ m2, scan_some g1 g2, q2, ?_⟩
  rw [List.append_assoc, o2, ← List.append_assoc, o1, List.append_assoc]

theorem tri_cons {op : WOp} {b : List WOp} (h1 : Tri c P [op] ls Q) (h2 : Tri c Q b ks R) :
    Tri c P (op :: b) (ls ++ ks) R := tri_append h1 h2

theorem tri_pre {P' : Pos} {ops : List WOp} (h : Tri c P ops ls Q) (hp : P'.le P) : Tri c P' ops ls Q := by
  intro w s t w' hw hs hx
  obtain ⟨s', e, h1, h2, h3⟩ := h w s t w' hw (hp s hs).1 hx
  exact ⟨s', e, h1, h2, by rw [h3, (hp s hs).2]⟩

theorem tri_post {Q' : Pos} {ops : List WOp} (h : Tri c P ops ls Q) (hq : Q.le Q') : Tri c P ops ls Q' := by
  intro w s t w' hw hs hx
  obtain ⟨s', e, h1, h2, h3⟩ := h w s t w' hw hs hx
  exact ⟨s', e, h1, (hq s' h2).1, by rw [(hq s' h2).2, h3]⟩

theorem tri_eq {ops : List WOp} {ks : List Lx} (h : Tri c P ops ls Q) (e : ls = ks) : Tri c P ops ks Q := e ▸ h

/-- The end of a directive. -/
theorem tri_close {ops : List WOp} (h : Tri c P ops ls (.any true)) : Tri c P ops (ls ++ [.eol]) .done := by
  intro w s t w' hw hs hx
  obtain ⟨s', e, h1, h2, h3⟩ := h w s t w' hw hs hx
  refine ⟨s', e, h1, ?_, ?_⟩
  · rcases h2.1 with h | h
    · exact .inl h
    · exact .inr (.inl h)
  · show e ++ (pend s' ++ ending s'.dir) = _
    rw [h2.2, ← List.append_assoc]
    have : e ++ pend s' = P.owed s ++ ls := h3
    rw [this]; simp [ending]

theorem tri_panic {ops : List WOp} (h : WOp.panic ∈ ops) : Tri c P ops ls Q := by
  intro w s t w' _ _ hx
  exfalso
  obtain ⟨a, b, rfl⟩ := List.append_of_mem h
  obtain ⟨t1, w1, t2, h1, h2, _⟩ := exec_append_some.mp hx
  rw [exec_cons] at h2
  simp [WOp.exec1, andThen] at h2

/-- The end of a line. -/
theorem step_break {s : State} (h : Pos.done.holds s) {k : Char} (hk : isBreak k = true) :
    step s k = some ({}, pend s ++ ending s.dir) := by
  have hw : wordChar k = false := by
    rcases PreSpec.break_cases hk with rfl | rfl <;> decide
  rcases h with h | ⟨w, h⟩ | h <;> simp [step, h, pend, stepCode, hk, hw, emit, ending]

theorem scan_ending {s : State} (h : Pos.done.holds s) (e : LineEnding) :
    scan s e.asStr = some ({}, pend s ++ ending s.dir) := by
  have h1 := step_break h (k := '\n') (by decide)
  have h2 := step_break h (k := '\r') (by decide)
  have h3 : step {} '\n' = some ({}, []) := step_break (s := {}) (.inl rfl) (by decide)
  cases e <;> simp [LineEnding.asStr, scan, h1, h2, h3, emit]

theorem tri_newLine : Tri c .done [.newLine] [] .at := by
  intro w s t w' _ hp h
  rw [exec_single] at h
  simp only [WOp.exec1, Option.some.injEq, Prod.mk.injEq] at h
  rw [← h.1]
  exact ⟨_, _, scan_ending hp _, rfl, by simp [Pos.at, Pos.done]⟩

theorem tri_newLineIfNotStart : Tri c .at [.newLineIfNotStart] [] .at := by
  intro w s t w' _ hp h
  rw [exec_single] at h
  simp only [WOp.exec1] at h
  split at h
  · simp only [Option.some.injEq, Prod.mk.injEq] at h
    rw [← h.1]
    exact ⟨s, [], rfl, hp, by simp⟩
  · simp only [Option.some.injEq, Prod.mk.injEq] at h
    rw [← h.1]
    have := (at_le_done s hp).1
    refine ⟨_, _, scan_ending this _, rfl, ?_⟩
    cases hp; rfl

/-- A line end that is left out on the first line only, after a line end. -/
theorem tri_newLineLater {ops : List WOp} (h : Tri c P ops ls .done) (hm : WOp.newLine ∈ ops) :
    Tri c P (ops ++ [.newLineIfNotStart]) ls .at := by
  intro w s t w' hw hp hx
  obtain ⟨t1, w1, t2, e1, e2, rfl⟩ := exec_append_some.mp hx
  obtain ⟨s1, m1, g1, q1, o1⟩ := h w s t1 w1 hw hp e1
  have hn := PreSpec.number_newLine hm e1
  rw [exec_single] at e2
  simp only [WOp.exec1] at e2
  rw [if_neg (by omega)] at e2
  simp only [Option.some.injEq, Prod.mk.injEq] at e2
  rw [← e2.1]
  refine ⟨_, _, scan_some g1 (scan_ending q1 _), rfl, ?_⟩
  have : m1 ++ (pend s1 ++ ending s1.dir) = P.owed s ++ ls := o1
  simpa [Pos.at] using this

theorem tri_silent {op : WOp} (h : ∀ w t w', WOp.exec1 c op w = some (t, w') → t = []) : Tri c P [op] [] P := by
  intro w s t w' _ hp hx
  rw [exec_single] at hx
  rw [h w t w' hx]
  exact ⟨s, [], rfl, hp, by simp⟩

theorem tri_pushTab : Tri c P [.pushTab] [] P :=
  tri_silent fun w t w' h => (silent_some.mp (by simpa [WOp.exec1] using h)).2
theorem tri_pushAlign : Tri c P [.pushAlign] [] P :=
  tri_silent fun w t w' h => (silent_some.mp (by simpa [WOp.exec1] using h)).2
theorem tri_pop : Tri c P [.pop] [] P :=
  tri_silent fun w t w' h => (silent_some.mp (by simpa [WOp.exec1] using h)).2
theorem tri_pushSpaces (n : Nat) : Tri c P [.pushSpaces n] [] P :=
  tri_silent fun w t w' h => by
    simp only [WOp.exec1, Option.some.injEq, Prod.mk.injEq] at h
    exact h.1.symm

theorem tri_try {max : Nat} {h v : List WOp} (h1 : Tri c P h ls Q) (h2 : Tri c P v ls Q) :
    Tri c P [.tryElse max h v] ls Q := by
  intro w s t w' hw hp hx
  rw [exec_single] at hx
  rcases exec_tryElse hx with ⟨m, _, hm, _, _⟩ | hv
  · exact h1 w.measurer s t m hw hp hm
  · exact h2 w s t w' hw hp hv

/-- The reader reads the text from `P`, finds `ls` and gets to `Q`. -/
def Scans (P : Pos) (t : Str) (ls : List Lx) (Q : Pos) : Prop :=
  ∀ s, P.holds s → ∃ s' e, scan s t = some (s', e) ∧ Q.holds s' ∧ e ++ Q.owed s' = P.owed s ++ ls

theorem tri_raw {t : Str} (h : Scans P t ls Q) : Tri c P [.raw t] ls Q := by
  intro w s t' w' _ hp hx
  obtain ⟨s', e, h1, h2, h3⟩ := h s hp
  rw [exec_single] at hx
  simp only [WOp.exec1, W.put] at hx
  split at hx
  · rename_i hn
    simp only [Option.some.injEq, Prod.mk.injEq] at hx
    rw [← hx.1]
    exact ⟨s', e, by rw [← hn]; exact h1, h2, h3⟩
  · simp only [if_true, Option.some.injEq, Prod.mk.injEq] at hx
    rw [← hx.1]
    exact ⟨s', e, h1, h2, h3⟩

/-- A text, where indentation may come first. -/
theorem tri_anyText {t : Str} (hsp : ∀ n, Scans P (List.replicate n ' ') [] P) (h : Scans P t ls Q) :
    Tri c P [.text t] ls Q := by
  intro w s t' w' _ hp hx
  rw [exec_single] at hx
  simp only [WOp.exec1, W.put] at hx
  split at hx
  · rename_i hn
    obtain ⟨s', e, h1, h2, h3⟩ := h s hp
    simp only [Option.some.injEq, Prod.mk.injEq] at hx
    rw [← hx.1]
    exact ⟨s', e, by rw [← hn]; exact h1, h2, h3⟩
  split at hx
  · obtain ⟨s', e, h1, h2, h3⟩ := h s hp
    simp only [Option.some.injEq, Prod.mk.injEq] at hx
    rw [← hx.1]
    exact ⟨s', e, h1, h2, h3⟩
  · split at hx
    · cases hx
    · rename_i n _ _
      simp only [Option.some.injEq, Prod.mk.injEq] at hx
      obtain ⟨s1, e1, g1, g2, g3⟩ := hsp n s hp
      obtain ⟨s2, e2, f1, f2, f3⟩ := h s1 g2
      rw [← hx.1]
      refine ⟨s2, e1 ++ e2, scan_some g1 f1, f2, ?_⟩
      rw [List.append_assoc, f3, ← List.append_assoc, g3, List.append_nil]

end

/-! ## Texts -/

theorem step_space_code {s : State} (h : s.mode = .code) : step s ' ' = some (s, []) := by
  obtain ⟨m, b, d⟩ := s
  cases h
  simp [step, stepCode, isBreak]

theorem scan_spaces_code {s : State} (h : s.mode = .code) (n : Nat) : scan s (List.replicate n ' ') = some (s, []) := by
  induction n with
  | zero => rfl
  | succ n ih => rw [List.replicate_succ, scan, step_space_code h]; simp [ih, emit]

theorem spaces_at (n : Nat) : Scans .at (List.replicate n ' ') [] .at := by
  intro s hs
  cases hs
  exact ⟨_, _, scan_spaces_code rfl n, rfl, rfl⟩

theorem spaces_gap (d : Bool) (n : Nat) : Scans (.gap d) (List.replicate n ' ') [] (.gap d) := by
  intro s hs
  exact ⟨_, _, scan_spaces_code hs.1 n, hs, rfl⟩

theorem step_space_any {d : Bool} {s : State} (h : (Pos.any d).holds s) : ∃ s', step s ' ' = some (s', pend s) ∧
    (Pos.gap d).holds s' := by
  obtain ⟨m, b, k⟩ := s
  obtain ⟨h | ⟨w, h⟩, rfl⟩ := h
  · cases h; exact ⟨_, by rw [step_space_code rfl]; rfl, rfl, rfl⟩
  · cases h; exact ⟨⟨.code, b, k⟩, rfl, rfl, rfl⟩

theorem spaces_any (d : Bool) (n : Nat) : Scans (.any d) (List.replicate n ' ') [] (.any d) := by
  intro s hs
  cases n with
  | zero => exact ⟨s, [], rfl, hs, by simp⟩
  | succ n =>
    obtain ⟨s', h1, h2⟩ := step_space_any hs
    refine ⟨s', pend s ++ [], scan_cons_some h1 (scan_spaces_code h2.1 n), (gap_le_any _ _ h2).1, ?_⟩
    simp [Pos.any, pend, h2.1]

theorem spaces_any_gap (d : Bool) {n : Nat} (hn : n ≠ 0) : Scans (.any d) (List.replicate n ' ') [] (.gap d) := by
  intro s hs
  cases n with
  | zero => exact absurd rfl hn
  | succ n =>
    obtain ⟨s', h1, h2⟩ := step_space_any hs
    refine ⟨s', pend s ++ [], scan_cons_some h1 (scan_spaces_code h2.1 n), h2, ?_⟩
    simp [Pos.any, Pos.gap]

/-- Between tokens, possibly at the end of a word (`b`), on the line of a directive (`d`). -/
def Pos.mid (d b : Bool) : Pos := if b then .any d else .gap d

theorem mid_le {d b b' : Bool} (h : b = true → b' = true) : (Pos.mid d b).le (.mid d b') := by
  cases b <;> cases b'
  · exact Pos.le_refl _
  · exact gap_le_any d
  · exact absurd (h rfl) (by simp)
  · exact Pos.le_refl _

theorem mid_le_any {d b : Bool} : (Pos.mid d b).le (.any d) := mid_le (b' := true) (fun _ => rfl)
theorem gap_le_mid {d b : Bool} : (Pos.gap d).le (.mid d b) := mid_le (b := false) nofun
theorem mid_le_done {b : Bool} : (Pos.mid false b).le .done := Pos.le_trans mid_le_any any_le_done
theorem at_le_mid {b : Bool} : Pos.at.le (.mid false b) := Pos.le_trans at_le_gap gap_le_mid

theorem spaces_mid (d b : Bool) (n : Nat) : Scans (.mid d b) (List.replicate n ' ') [] (.mid d b) := by
  cases b
  · exact spaces_gap d n
  · exact spaces_any d n

theorem scans_nil {P : Pos} : Scans P [] [] P := fun s hs => ⟨s, [], rfl, hs, by simp⟩

theorem scans_append {P Q R : Pos} {a b : Str} {ls ks : List Lx} (h1 : Scans P a ls Q) (h2 : Scans Q b ks R) :
    Scans P (a ++ b) (ls ++ ks) R := by
  intro s hs
  obtain ⟨s1, e1, g1, q1, o1⟩ := h1 s hs
  obtain ⟨s2, e2, g2, q2, o2⟩ := h2 s1 q1
  exact ⟨s2, e1 ++ e2, scan_some g1 g2, q2, by rw [List.append_assoc, o2, ← List.append_assoc, o1, List.append_assoc]⟩

theorem scans_pre {P P' Q : Pos} {t : Str} {ls : List Lx} (h : Scans P t ls Q) (hp : P'.le P) : Scans P' t ls Q := by
  intro s hs
  obtain ⟨s', e, h1, h2, h3⟩ := h s (hp s hs).1
  exact ⟨s', e, h1, h2, by rw [h3, (hp s hs).2]⟩

theorem scans_post {P Q Q' : Pos} {t : Str} {ls : List Lx} (h : Scans P t ls Q) (hq : Q.le Q') : Scans P t ls Q' := by
  intro s hs
  obtain ⟨s', e, h1, h2, h3⟩ := h s hs
  exact ⟨s', e, h1, (hq s' h2).1, by rw [(hq s' h2).2, h3]⟩

theorem wordChar_forms {c : Char} (h : wordChar c = true) : isBreak c = false ∧ c ≠ ' ' ∧ c ≠ '\t' := by
  refine ⟨?_, ?_, ?_⟩
  · cases hb : isBreak c with
    | false => rfl
    | true => rcases PreSpec.break_cases hb with rfl | rfl <;> exact absurd h (by decide)
  · rintro rfl; exact absurd h (by decide)
  · rintro rfl; exact absurd h (by decide)

theorem scan_word {w a : Str} (h : w.all wordChar = true) (b d : Bool) :
    scan ⟨.word a, b, d⟩ w = some (⟨.word (a ++ w), b, d⟩, []) := by
  induction w generalizing a with
  | nil => simp [scan]
  | cons c w ih =>
    simp only [List.all_cons, Bool.and_eq_true] at h
    have : step ⟨.word a, b, d⟩ c = some (⟨.word (a ++ [c]), b, d⟩, []) := by simp [step, h.1]
    rw [scan_cons_some this (ih h.2)]
    simp

theorem scans_word {w : Str} (h : Word w) (d : Bool) : Scans (.gap d) w [.word w] (.any d) := by
  intro s hs
  obtain ⟨m, b, k⟩ := s
  obtain ⟨h1, h2⟩ := hs
  cases h1; cases h2
  obtain ⟨hn, ha⟩ := h
  cases w with
  | nil => exact absurd rfl hn
  | cons c w =>
    simp only [List.all_cons, Bool.and_eq_true] at ha
    obtain ⟨f1, f2, f3⟩ := wordChar_forms ha.1
    have : step ⟨.code, b, k⟩ c = some (⟨.word [c], false, k⟩, []) := by
      simp [step, stepCode, f1, f2, f3, ha.1]
    refine ⟨_, _, scan_cons_some this (scan_word ha.2 false k), ⟨.inr ⟨_, rfl⟩, rfl⟩, ?_⟩
    simp [Pos.any, pend, Pos.gap]

/-- A token of one character. -/
def isPunct (c : Char) : Bool :=
  !(isBreak c || c == ' ' || c == '\t' || wordChar c || c == '/' || c == '\\' || c == '"' || c == '\'' || c == '#')

theorem scans_punct {c : Char} (h : isPunct c = true) (d : Bool) : Scans (.any d) [c] [.punct c] (.gap d) := by
  intro s hs
  simp only [isPunct, Bool.not_eq_true', Bool.or_eq_false_iff, beq_eq_false_iff_ne] at h
  obtain ⟨⟨⟨⟨⟨⟨⟨⟨h1, h2⟩, h3⟩, h4⟩, h5⟩, h6⟩, h7⟩, h8⟩, h9⟩ := h
  obtain ⟨m, b, k⟩ := s
  obtain ⟨h | ⟨w, h⟩, rfl⟩ := hs
  · cases h
    have : step ⟨.code, b, k⟩ c = some (⟨.code, false, k⟩, [.punct c]) := by
      simp [step, stepCode, h1, h2, h3, h4, h5, h6, h7, h8, h9]
    exact ⟨_, _, scan_cons_some this (scan_nil _), ⟨rfl, rfl⟩, rfl⟩
  · cases h
    have : step ⟨.word w, b, k⟩ c = some (⟨.code, false, k⟩, [.word w, .punct c]) := by
      simp [step, stepCode, h1, h2, h3, h4, h5, h6, h7, h8, h9, emit]
    exact ⟨_, _, scan_cons_some this (scan_nil _), ⟨rfl, rfl⟩, rfl⟩

theorem scans_space (d : Bool) : Scans (.any d) [' '] [] (.gap d) := spaces_any_gap d (n := 1) (by simp)

/-! ## Texts that are given -/

/-- The tokens of a simple text: words, spaces and characters. -/
def simpleToks : Option Str → Str → List Lx
  | none, [] => []
  | some w, [] => [.word w]
  | none, c :: cs =>
    if wordChar c then simpleToks (some [c]) cs
    else if c = ' ' then simpleToks none cs else .punct c :: simpleToks none cs
  | some w, c :: cs =>
    if wordChar c then simpleToks (some (w ++ [c])) cs
    else .word w :: (if c = ' ' then simpleToks none cs else .punct c :: simpleToks none cs)

/-- A text of words, spaces and characters that are tokens. -/
def simple (t : Str) : Bool := t.all fun c => wordChar c || c == ' ' || isPunct c

/-- The text does not begin with a word. -/
def startsFree (t : Str) : Bool := match t with | [] => true | c :: _ => !wordChar c
/-- The text ends with a word. -/
def endsWord (t : Str) : Bool := match t.getLast? with | none => false | some c => wordChar c

theorem scan_simple {t : Str} (h : simple t = true) : ∀ (o : Option Str) (b d : Bool),
    ∃ s' e, scan ⟨o.elim .code .word, b, d⟩ t = some (s', e) ∧ e ++ pend s' = simpleToks o t ∧ s'.dir = d ∧
      ((if t = [] then o.isSome else endsWord t) = true → ∃ w, s'.mode = .word w) ∧
      ((if t = [] then o.isSome else endsWord t) = false → s'.mode = .code) := by
  induction t with
  | nil =>
    intro o b d
    refine ⟨_, _, rfl, ?_, rfl, ?_, ?_⟩ <;> cases o <;> simp [simpleToks, pend]
  | cons c t ih =>
    intro o b d
    simp only [simple, List.all_cons, Bool.and_eq_true] at h
    obtain ⟨hc, ht⟩ := h
    have key : ∀ (o' : Option Str) (b' : Bool) (e' : List Lx),
        step ⟨o.elim .code .word, b, d⟩ c = some (⟨o'.elim .code .word, b', d⟩, e') →
        e' ++ simpleToks o' t = simpleToks o (c :: t) → o'.isSome = wordChar c →
        ∃ s' e, scan ⟨o.elim .code .word, b, d⟩ (c :: t) = some (s', e) ∧ e ++ pend s' = simpleToks o (c :: t) ∧
          s'.dir = d ∧ ((if c :: t = [] then o.isSome else endsWord (c :: t)) = true → ∃ w, s'.mode = .word w) ∧
          ((if c :: t = [] then o.isSome else endsWord (c :: t)) = false → s'.mode = .code) := by
      intro o' b' e' h1 h2 h3
      obtain ⟨s', e, g1, g2, g3, g4, g5⟩ := ih ht o' b' d
      have he : (if c :: t = [] then o.isSome else endsWord (c :: t)) = (if t = [] then o'.isSome else endsWord t) := by
        simp only [reduceCtorEq, if_false]
        cases t with
        | nil => simp [endsWord, h3]
        | cons x xs => simp [endsWord, List.getLast?_cons_cons]
      rw [he]
      exact ⟨s', e' ++ e, scan_cons_some h1 g1, by rw [List.append_assoc, g2, h2], g3, g4, g5⟩
    by_cases hw : wordChar c = true
    · obtain ⟨f1, f2, f3⟩ := wordChar_forms hw
      cases o with
      | none =>
        refine key (some [c]) false [] ?_ (by simp [simpleToks, hw]) (by simp [hw])
        simp [step, stepCode, f1, f2, f3, hw]
      | some w =>
        refine key (some (w ++ [c])) b [] ?_ (by simp [simpleToks, hw]) (by simp [hw])
        simp [step, hw]
    · simp only [Bool.not_eq_true] at hw
      by_cases hs : c = ' '
      · subst hs
        cases o with
        | none =>
          exact key none b [] (step_space_code rfl) (by simp [simpleToks, hw]) (by simp [hw])
        | some w =>
          exact key none b [.word w] rfl (by simp [simpleToks, hw]) (by simp [hw])
      · have hp : isPunct c = true := by simpa [hw, hs] using hc
        have hp' := hp
        simp only [isPunct, Bool.not_eq_true', Bool.or_eq_false_iff, beq_eq_false_iff_ne] at hp'
        obtain ⟨⟨⟨⟨⟨⟨⟨⟨h1, h2⟩, h3⟩, h4⟩, h5⟩, h6⟩, h7⟩, h8⟩, h9⟩ := hp'
        cases o with
        | none =>
          refine key none false [.punct c] ?_ (by simp [simpleToks, hw, hs]) (by simp [hw])
          simp [step, stepCode, h1, h2, h3, h4, h5, h6, h7, h8, h9]
        | some w =>
          refine key none false [.word w, .punct c] ?_ (by simp [simpleToks, hw, hs]) (by simp [hw])
          simp [step, stepCode, h1, h2, h3, h4, h5, h6, h7, h8, h9, emit]

theorem simpleToks_some {w t : Str} (h : startsFree t = true) : simpleToks (some w) t = .word w :: simpleToks none t := by
  cases t with
  | nil => rfl
  | cons c t =>
    simp only [startsFree, Bool.not_eq_true'] at h
    simp [simpleToks, h]

theorem scans_simple {t : Str} (h : simple t = true) {d b : Bool} (hb : b = true → startsFree t = true) :
    Scans (.mid d b) t (simpleToks none t) (.mid d (endsWord t || (b && t.isEmpty))) := by
  intro s hs
  have hany : (Pos.any d).holds s := (mid_le_any s hs).1
  have howed : (Pos.mid d b).owed s = pend s := (mid_le_any s hs).2.symm
  obtain ⟨m, k, d'⟩ := s
  obtain ⟨hm, rfl⟩ := hany
  have hmode : ∃ o : Option Str, m = o.elim .code .word ∧ (o.isSome = true → b = true) ∧ pend ⟨m, k, d'⟩ = (o.map Lx.word).toList := by
    rcases hm with hm | ⟨w, hm⟩
    · cases hm; exact ⟨none, rfl, nofun, rfl⟩
    · cases hm
      refine ⟨some w, rfl, fun _ => ?_, rfl⟩
      cases b with
      | true => rfl
      | false => exact absurd hs.1 (by simp)
  obtain ⟨o, rfl, ho, hpd⟩ := hmode
  obtain ⟨s', e, g1, g2, g3, g4, g5⟩ := scan_simple h o k d'
  refine ⟨s', e, g1, ?_, ?_⟩
  · by_cases ht : t = []
    · subst ht
      simp only [if_true] at g4 g5
      cases o with
      | none =>
        have := g5 rfl
        cases b
        · exact ⟨this, g3⟩
        · exact ⟨.inl this, g3⟩
      | some w =>
        have hb' := ho rfl
        subst hb'
        exact ⟨.inr (g4 rfl), g3⟩
    · rw [if_neg ht] at g4 g5
      have he : t.isEmpty = false := by cases t <;> simp_all
      cases hE : endsWord t with
      | false => simp only [he, Bool.and_false, Bool.or_false]; exact ⟨g5 hE, g3⟩
      | true => exact ⟨.inr (g4 hE), g3⟩
  · have h1 : ∀ b', (Pos.mid d' b').holds s' → (Pos.mid d' b').owed s' = pend s' := fun b' hh => ((mid_le_any s' hh).2).symm
    have h2 : (Pos.mid d' (endsWord t || (b && t.isEmpty))).owed s' = pend s' := by
      cases hx : (endsWord t || (b && t.isEmpty)) with
      | true => rfl
      | false =>
        simp only [Bool.or_eq_false_iff] at hx
        have : s'.mode = .code := by
          by_cases ht : t = []
          · subst ht
            simp only [if_true] at g5
            apply g5
            cases o with
            | none => rfl
            | some w => have := ho rfl; subst this; simp at hx
          · rw [if_neg ht] at g5; exact g5 hx.1
        simp [Pos.mid, Pos.gap, pend, this]
    rw [h2, g2, howed, hpd]
    cases o with
    | none => rfl
    | some w =>
      have hb' := ho rfl
      rw [simpleToks_some (hb hb')]
      rfl

end Cbindgen.LexSpec
