import Verif.Spec.Preproc
import Verif.Lemmas.Writer

/-!
# Reading what sequences of calls write
-/

namespace Cbindgen.PreSpec
open TextSpec

theorem scan_nil (r : Reader) : scan r [] = some r := rfl

theorem scan_cons (r : Reader) (c : Char) (cs : Str) : scan r (c :: cs) = (step r c).bind (scan · cs) := rfl

theorem scan_append (r : Reader) (a b : Str) : scan r (a ++ b) = (scan r a).bind (scan · b) := by
  induction a generalizing r with
  | nil => rfl
  | cons c a ih =>
    simp only [List.cons_append, scan]
    cases step r c with
    | none => rfl
    | some r' => simp only [Option.bind_some]; exact ih r'

theorem scan_some {r r' : Reader} {a b : Str} (h : scan r a = some r') : scan r (a ++ b) = scan r' b := by
  rw [scan_append, h]; rfl

/-! ## Where the reader is -/

/-- At the start of a line. -/
def At (d b : Nat) (r : Reader) : Prop := r = lineStart d b

theorem At.ok {d b : Nat} {r : Reader} (h : At d b r) : Ok d b r := .inl h

theorem break_cases {c : Char} (h : isBreak c = true) : c = '\n' ∨ c = '\r' := by
  simpa [isBreak] using h

theorem Ok.done {d b : Nat} {r : Reader} (h : Ok d b r) : Done d b r := by
  intro c hc
  rcases h with rfl | rfl <;> simp [step, stepCode, hc, newline, lineStart, midLine]

theorem At.done {d b : Nat} {r : Reader} (h : At d b r) : Done d b r := h.ok.done

theorem Done.ending {d b : Nat} {r : Reader} (h : Done d b r) (e : LineEnding) :
    scan r e.asStr = some (lineStart d b) := by
  have h1 := h '\n' (by decide)
  have h2 := h '\r' (by decide)
  have h3 : step (lineStart d b) '\n' = some (lineStart d b) := (Ok.done (.inl rfl)) '\n' (by decide)
  cases e <;> simp [LineEnding.asStr, scan, h1, h2, h3]

theorem blank_start (d b : Nat) : step (lineStart d b) ' ' = some (lineStart d b) := by
  simp [step, stepCode, lineStart, isBreak, blank]

theorem scan_spaces_start (d b n : Nat) : scan (lineStart d b) (List.replicate n ' ') = some (lineStart d b) := by
  induction n with
  | zero => rfl
  | succ n ih => rw [List.replicate_succ, scan, blank_start]; exact ih

theorem scan_spaces_mid (d b n : Nat) : scan (midLine d b) (List.replicate n ' ') = some (midLine d b) := by
  induction n with
  | zero => rfl
  | succ n ih =>
    rw [List.replicate_succ, scan]
    have : step (midLine d b) ' ' = some (midLine d b) := by
      simp [step, stepCode, midLine, isBreak, blank]
    rw [this]; exact ih

theorem scan_spaces {d b : Nat} {r : Reader} (h : Ok d b r) (n : Nat) : scan r (List.replicate n ' ') = some r := by
  rcases h with rfl | rfl
  · exact scan_spaces_start d b n
  · exact scan_spaces_mid d b n

/-! ## Line numbers -/

theorem put_number {w w' : W} {s t : Str} (h : w.put s = some (t, w')) : w'.lineNumber = w.lineNumber := by
  unfold W.put at h
  split at h
  · simp only [Option.some.injEq, Prod.mk.injEq] at h; rw [← h.2]
  split at h
  · simp only [Option.some.injEq, Prod.mk.injEq] at h; rw [← h.2]; rfl
  · split at h
    · cases h
    · simp only [Option.some.injEq, Prod.mk.injEq] at h; rw [← h.2]; rfl

mutual
theorem number_exec1 (c : WConfig) : ∀ (op : WOp) {w w' : W} {t : Str},
    WOp.exec1 c op w = some (t, w') → w.lineNumber ≤ w'.lineNumber
  | .text s, w, w', t, hx => Nat.le_of_eq (put_number (by simpa [WOp.exec1] using hx)).symm
  | .raw s, w, w', t, hx =>
    Nat.le_of_eq (put_number (w := { w with lineStarted := true }) (by simpa [WOp.exec1] using hx)).symm
  | .newLine, w, w', t, hx => by
    simp only [WOp.exec1, Option.some.injEq, Prod.mk.injEq] at hx
    rw [← hx.2]; simp [W.endLine]
  | .newLineIfNotStart, w, w', t, hx => by
    simp only [WOp.exec1] at hx
    split at hx
    · simp only [Option.some.injEq, Prod.mk.injEq] at hx
      rw [hx.2]; exact Nat.le_refl _
    · simp only [Option.some.injEq, Prod.mk.injEq] at hx
      rw [← hx.2]; simp [W.endLine]
  | .pushTab, w, w', t, hx => by
    have := silent_some.mp (by simpa [WOp.exec1] using hx)
    obtain ⟨h1, -⟩ := this
    unfold W.pushTab at h1
    split at h1
    · cases h1
    · split at h1
      · cases h1
      · simp only [Option.some.injEq] at h1; rw [← h1]; exact Nat.le_refl _
  | .pushSpaces n, w, w', t, hx => by
    simp only [WOp.exec1, Option.some.injEq, Prod.mk.injEq] at hx
    rw [← hx.2]; exact Nat.le_refl _
  | .pushAlign, w, w', t, hx => by
    have := silent_some.mp (by simpa [WOp.exec1] using hx)
    obtain ⟨h1, -⟩ := this
    unfold W.pushAlign at h1
    split at h1
    · simp only [Option.some.injEq] at h1; rw [← h1]; exact Nat.le_refl _
    · split at h1
      · cases h1
      · simp only [Option.some.injEq] at h1; rw [← h1]; exact Nat.le_refl _
  | .pop, w, w', t, hx => by
    have := silent_some.mp (by simpa [WOp.exec1] using hx)
    obtain ⟨h1, -⟩ := this
    unfold W.pop at h1
    split at h1
    · cases h1
    · simp only [Option.some.injEq] at h1; rw [← h1]; exact Nat.le_refl _
  | .tryElse max hs vs, w, w', t, hx => by
    rcases exec_tryElse hx with ⟨m, _, _, _, hf⟩ | hv
    · exact Nat.le_of_eq (put_number (w := { w with lineStarted := true }) hf).symm
    · exact number_exec c vs hv
  | .panic, w, w', t, hx => by simp [WOp.exec1] at hx
theorem number_exec (c : WConfig) : ∀ (ops : List WOp) {w w' : W} {t : Str},
    WOp.exec c ops w = some (t, w') → w.lineNumber ≤ w'.lineNumber
  | [], w, w', t, hx => by
    rw [exec_nil] at hx
    simp only [Option.some.injEq, Prod.mk.injEq] at hx
    rw [hx.2]; exact Nat.le_refl _
  | op :: ops, w, w', t, hx => by
    obtain ⟨t1, w1, t2, h1, h2, -⟩ := exec_cons_some.mp hx
    exact Nat.le_trans (number_exec1 c op h1) (number_exec c ops h2)
end

theorem number_newLine {c : WConfig} {ops : List WOp} (hm : WOp.newLine ∈ ops) {w w' : W} {t : Str}
    (h : WOp.exec c ops w = some (t, w')) : w.lineNumber < w'.lineNumber := by
  obtain ⟨a, b, rfl⟩ := List.append_of_mem hm
  obtain ⟨t1, w1, t2, h1, h2, -⟩ := exec_append_some.mp h
  obtain ⟨t3, w2, t4, h3, h4, -⟩ := exec_cons_some.mp h2
  have e1 := number_exec c a h1
  have e2 := number_exec c b h4
  simp only [WOp.exec1, Option.some.injEq, Prod.mk.injEq] at h3
  rw [← h3.2] at e2
  simp [W.endLine] at e2
  omega

/-! ## Triples -/

/-- From `P`, the reader reads what the calls write and gets to `Q`. -/
def Tri (c : WConfig) (P : Reader → Prop) (ops : List WOp) (Q : Reader → Prop) : Prop :=
  ∀ w r t w', w.lineNumber ≠ 0 → P r → WOp.exec c ops w = some (t, w') → ∃ r', scan r t = some r' ∧ Q r'

section
variable {c : WConfig} {P Q R : Reader → Prop} {d b : Nat}

theorem tri_nil : Tri c P [] P := by
  intro w r t w' _ hp h
  rw [exec_nil] at h
  simp only [Option.some.injEq, Prod.mk.injEq] at h
  rw [← h.1]
  exact ⟨r, rfl, hp⟩

theorem tri_append {a e : List WOp} (h1 : Tri c P a Q) (h2 : Tri c Q e R) : Tri c P (a ++ e) R := by
  intro w r t w' hw hp h
  obtain ⟨t1, w1, t2, e1, e2, rfl⟩ := exec_append_some.mp h
  obtain ⟨r1, s1, q1⟩ := h1 w r t1 w1 hw hp e1
  have := number_exec c a e1
  obtain ⟨r2, s2, q2⟩ := h2 w1 r1 t2 w' (by omega) q1 e2
  exact ⟨r2, by rw [scan_some s1, s2], q2⟩

theorem tri_cons {op : WOp} {ops : List WOp} (h1 : Tri c P [op] Q) (h2 : Tri c Q ops R) : Tri c P (op :: ops) R :=
  tri_append h1 h2

theorem tri_pre {P' : Reader → Prop} {ops : List WOp} (h : Tri c P ops Q) (hp : ∀ r, P' r → P r) :
    Tri c P' ops Q := fun w r t w' hw hr hx => h w r t w' hw (hp r hr) hx

theorem tri_post {Q' : Reader → Prop} {ops : List WOp} (h : Tri c P ops Q) (hq : ∀ r, Q r → Q' r) :
    Tri c P ops Q' := by
  intro w r t w' hw hr hx
  obtain ⟨r', h1, h2⟩ := h w r t w' hw hr hx
  exact ⟨r', h1, hq r' h2⟩

theorem tri_panic {ops : List WOp} (h : WOp.panic ∈ ops) : Tri c P ops Q := by
  intro w r t w' _ _ hx
  exfalso
  obtain ⟨a, b, rfl⟩ := List.append_of_mem h
  obtain ⟨t1, w1, t2, h1, h2, _⟩ := exec_append_some.mp hx
  rw [exec_cons] at h2
  simp [WOp.exec1, andThen] at h2

theorem tri_newLine : Tri c (Done d b) [.newLine] (At d b) := by
  intro w r t w' _ hp h
  rw [exec_single] at h
  simp only [WOp.exec1, Option.some.injEq, Prod.mk.injEq] at h
  rw [← h.1]
  exact ⟨_, hp.ending _, rfl⟩

theorem tri_newLineIfNotStart : Tri c (At d b) [.newLineIfNotStart] (At d b) := by
  intro w r t w' _ hp h
  rw [exec_single] at h
  simp only [WOp.exec1] at h
  split at h
  · simp only [Option.some.injEq, Prod.mk.injEq] at h
    rw [← h.1]
    exact ⟨r, rfl, hp⟩
  · simp only [Option.some.injEq, Prod.mk.injEq] at h
    rw [← h.1]
    exact ⟨_, hp.done.ending _, rfl⟩

/-- A line end that is left out on the first line only, after a line end. -/
theorem tri_newLineLater {ops : List WOp} (h : Tri c P ops (Done d b)) (hm : WOp.newLine ∈ ops) :
    Tri c P (ops ++ [.newLineIfNotStart]) (At d b) := by
  intro w r t w' hw hp hx
  obtain ⟨t1, w1, t2, e1, e2, rfl⟩ := exec_append_some.mp hx
  obtain ⟨r1, s1, q1⟩ := h w r t1 w1 hw hp e1
  have hn := number_newLine hm e1
  rw [exec_single] at e2
  simp only [WOp.exec1] at e2
  rw [if_neg (by omega)] at e2
  simp only [Option.some.injEq, Prod.mk.injEq] at e2
  rw [← e2.1, scan_some s1]
  exact ⟨_, q1.ending _, rfl⟩

theorem tri_silent {op : WOp} (h : ∀ w t w', WOp.exec1 c op w = some (t, w') → t = []) : Tri c P [op] P := by
  intro w r t w' _ hp hx
  rw [exec_single] at hx
  rw [h w t w' hx]
  exact ⟨r, rfl, hp⟩

theorem tri_pushTab : Tri c P [.pushTab] P :=
  tri_silent fun w t w' h => (silent_some.mp (by simpa [WOp.exec1] using h)).2

theorem tri_pushAlign : Tri c P [.pushAlign] P :=
  tri_silent fun w t w' h => (silent_some.mp (by simpa [WOp.exec1] using h)).2

theorem tri_pop : Tri c P [.pop] P :=
  tri_silent fun w t w' h => (silent_some.mp (by simpa [WOp.exec1] using h)).2

theorem tri_pushSpaces (n : Nat) : Tri c P [.pushSpaces n] P :=
  tri_silent fun w t w' h => by
    simp only [WOp.exec1, Option.some.injEq, Prod.mk.injEq] at h
    exact h.1.symm

theorem tri_try {max : Nat} {h v : List WOp} (h1 : Tri c P h Q) (h2 : Tri c P v Q) : Tri c P [.tryElse max h v] Q := by
  intro w r t w' hw hp hx
  rw [exec_single] at hx
  rcases exec_tryElse hx with ⟨m, _, hm, _, _⟩ | hv
  · exact h1 w.measurer r t m hw hp hm
  · exact h2 w r t w' hw hp hv

/-- A text read from one of the places in the code. -/
theorem tri_text {s : Str} (h : ∀ r, P r → Ok d b r) (hs : ∀ r, P r → ∃ r', scan r s = some r' ∧ Q r') :
    Tri c P [.text s] Q := by
  intro w r t w' _ hp hx
  obtain ⟨r', e1, e2⟩ := hs r hp
  rw [exec_single] at hx
  simp only [WOp.exec1, W.put] at hx
  split at hx
  · rename_i hn
    simp only [Option.some.injEq, Prod.mk.injEq] at hx
    rw [← hx.1]
    exact ⟨r', by rw [← hn]; exact e1, e2⟩
  split at hx
  · simp only [Option.some.injEq, Prod.mk.injEq] at hx
    rw [← hx.1]
    exact ⟨r', e1, e2⟩
  · split at hx
    · cases hx
    · simp only [Option.some.injEq, Prod.mk.injEq] at hx
      rw [← hx.1, scan_some (scan_spaces (h r hp) _)]
      exact ⟨r', e1, e2⟩

theorem tri_raw {s : Str} (hs : ∀ r, P r → ∃ r', scan r s = some r' ∧ Q r') : Tri c P [.raw s] Q := by
  intro w r t w' _ hp hx
  obtain ⟨r', e1, e2⟩ := hs r hp
  rw [exec_single] at hx
  simp only [WOp.exec1, W.put] at hx
  split at hx
  · rename_i hn
    simp only [Option.some.injEq, Prod.mk.injEq] at hx
    rw [← hx.1]
    exact ⟨r', by rw [← hn]; exact e1, e2⟩
  · simp only [if_true, Option.some.injEq, Prod.mk.injEq] at hx
    rw [← hx.1]
    exact ⟨r', e1, e2⟩

end

/-! ## Texts -/

theorem plain_nil : Plain [] := rfl

theorem plain_append {a b : Str} : Plain (a ++ b) ↔ Plain a ∧ Plain b := by
  simp [Plain, List.all_append]

theorem plain_cons {c : Char} {s : Str} : Plain (c :: s) ↔ plainChar c = true ∧ Plain s := by
  simp [Plain]

theorem plainChar_forms {c : Char} (h : plainChar c = true) : isBreak c = false ∧ c ≠ '/' ∧ c ≠ '\\' ∧ c ≠ '"' ∧
    c ≠ '\'' ∧ c ≠ '{' ∧ c ≠ '}' ∧ c ≠ '#' := by
  simpa [plainChar, and_assoc] using h

theorem plain_step {c : Char} (h : plainChar c = true) {d b : Nat} {r : Reader} (hr : Ok d b r) :
    ∃ r', step r c = some r' ∧ Ok d b r' := by
  obtain ⟨h1, h2, h3, h4, h5, h6, h7, h8⟩ := plainChar_forms h
  by_cases hb : c = ' ' ∨ c = '\t'
  · rcases hr with rfl | rfl
    · exact ⟨lineStart d b, by simp [step, stepCode, lineStart, h1, hb, blank], .inl rfl⟩
    · exact ⟨midLine d b, by simp [step, stepCode, midLine, h1, hb, blank], .inr rfl⟩
  · refine ⟨midLine d b, ?_, .inr rfl⟩
    rcases hr with rfl | rfl <;>
      simp [step, stepCode, lineStart, midLine, h1, h2, h3, h4, h5, h6, h7, h8, hb, ordinary, brace]

theorem plain_inline {s : Str} (h : Plain s) : Inline s := by
  intro d b
  induction s with
  | nil => intro r hr; exact ⟨r, rfl, hr⟩
  | cons c s ih =>
    intro r hr
    obtain ⟨h1, h2⟩ := plain_cons.mp h
    obtain ⟨r1, e1, o1⟩ := plain_step h1 hr
    obtain ⟨r2, e2, o2⟩ := ih h2 r1 o1
    exact ⟨r2, by rw [scan, e1]; exact e2, o2⟩

theorem inline_append {a b : Str} (ha : Inline a) (hb : Inline b) : Inline (a ++ b) := by
  intro d k r hr
  obtain ⟨r1, e1, o1⟩ := ha d k r hr
  obtain ⟨r2, e2, o2⟩ := hb d k r1 o1
  exact ⟨r2, by rw [scan_some e1, e2], o2⟩

theorem inline_mid {s : Str} (h : Plain s) (d b : Nat) : scan (midLine d b) s = some (midLine d b) := by
  induction s with
  | nil => rfl
  | cons c s ih =>
    obtain ⟨h1, h2⟩ := plain_cons.mp h
    have : step (midLine d b) c = some (midLine d b) := by
      obtain ⟨g1, g2, g3, g4, g5, g6, g7, g8⟩ := plainChar_forms h1
      by_cases hb : c = ' ' ∨ c = '\t'
      · simp [step, stepCode, midLine, g1, hb, blank]
      · simp [step, stepCode, midLine, g1, g2, g3, g4, g5, g6, g7, hb, ordinary, brace]
    rw [scan, this]
    exact ih h2

theorem inline_quote {s : Str} (h : Plain s) (d b : Nat) (l : Line) :
    scan ⟨.quote '"', l, d, b⟩ s = some ⟨.quote '"', l, d, b⟩ := by
  induction s with
  | nil => rfl
  | cons c s ih =>
    obtain ⟨h1, h2⟩ := plain_cons.mp h
    obtain ⟨g1, g2, g3, g4, g5, g6, g7, g8⟩ := plainChar_forms h1
    rw [scan]
    simp only [step, g1, g3, g4, Bool.false_eq_true, if_false, Option.bind_some]
    exact ih h2

/-- In a block comment. -/
def InBlock (d b : Nat) (l : Line) (r : Reader) : Prop := r = ⟨.block, l, d, b⟩ ∨ r = ⟨.star, l, d, b⟩

theorem plain_block {s : Str} (h : Plain s) {d b : Nat} {l : Line} : ∀ {r : Reader}, InBlock d b l r →
    ∃ r', scan r s = some r' ∧ InBlock d b l r' := by
  induction s with
  | nil => intro r hr; exact ⟨r, rfl, hr⟩
  | cons c s ih =>
    intro r hr
    obtain ⟨h1, h2⟩ := plain_cons.mp h
    obtain ⟨g1, g2, g3, g4, g5, g6, g7, g8⟩ := plainChar_forms h1
    have : ∃ r', step r c = some r' ∧ InBlock d b l r' := by
      by_cases hc : c = '*'
      · subst hc
        rcases hr with rfl | rfl <;> exact ⟨⟨.star, l, d, b⟩, by simp [step], .inr rfl⟩
      · rcases hr with rfl | rfl <;> exact ⟨⟨.block, l, d, b⟩, by simp [step, hc, g2, g3], .inl rfl⟩
    obtain ⟨r1, e1, o1⟩ := this
    obtain ⟨r2, e2, o2⟩ := ih h2 o1
    exact ⟨r2, by rw [scan, e1]; exact e2, o2⟩

end Cbindgen.PreSpec
