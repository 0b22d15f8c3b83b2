import Verif.Lemmas.Writer

/-!
# C25 and C26: the writer, for all sequences of calls
-/

namespace Cbindgen
open TextSpec

/-! ## C25: the automatic layout -/

/-- Whatever was written before (`pre`) and whatever the two layouts do, nested tries included: the
automatic layout either writes exactly what the horizontal layout writes, and then all the lines it
touches (also the one that was started before) are within the limit; or the outcome is exactly that of
the other layout started from the same writer, so that nothing of the attempt is in the output. -/
theorem C25_auto_layout (c : WConfig) (pre h v : List WOp) (max : Nat) (before t : Str) (w w' : W)
    (hpre : WOp.exec c pre {} = some (before, w))
    (hx : WOp.exec c [.tryElse max h v] w = some (t, w')) :
    ((∃ m, WOp.exec c h w.measurer = some (t, m)) ∧ Fits max (endLen 0 before) t) ∨
      WOp.exec c v w = some (t, w') := by
  have hb := bounds_exec c pre (w := {}) (Nat.le_refl _) hpre
  rw [exec_single] at hx
  rcases exec_tryElse hx with ⟨m, hlen, hm, hmax, hf⟩ | hv
  · refine .inl ⟨⟨m, hm⟩, ?_⟩
    have hb2 := bounds_exec c h (w := w.measurer) (Nat.le_refl _) hm
    exact (hb2.fits.mono hmax).anti hb.last
  · exact .inr hv

/-- In the words of lines: if the text before ends with a complete line, the horizontal layout is only
kept if all of its lines are within the limit. -/
theorem C25_lines_within (c : WConfig) (pre h v : List WOp) (max : Nat) (before t : Str) (w w' : W)
    (hpre : WOp.exec c pre {} = some (before, w)) (hend : endLen 0 before = 0)
    (hx : WOp.exec c [.tryElse max h v] w = some (t, w')) :
    (∀ l ∈ linesOf t, byteLen l ≤ max) ∨ WOp.exec c v w = some (t, w') := by
  rcases C25_auto_layout c pre h v max before t w w' hpre hx with ⟨_, hf⟩ | hv
  · rw [hend] at hf; exact .inl ((fits_linesOf max t).mp hf)
  · exact .inr hv

/-- A horizontal form that has a line over the limit is not kept. -/
theorem C25_too_long (c : WConfig) (pre h v : List WOp) (max : Nat) (before t th : Str) (w w' m : W)
    (hpre : WOp.exec c pre {} = some (before, w))
    (hh : WOp.exec c h w.measurer = some (th, m)) (hlong : ¬ Fits max (endLen 0 before) th)
    (hx : WOp.exec c [.tryElse max h v] w = some (t, w')) : WOp.exec c v w = some (t, w') := by
  rcases C25_auto_layout c pre h v max before t w w' hpre hx with ⟨⟨m', hm⟩, hf⟩ | hv
  · rw [hh] at hm
    simp only [Option.some.injEq, Prod.mk.injEq] at hm
    rw [hm.1] at hlong
    exact absurd hf hlong
  · exact hv

/-- Cases: an argument list that fits stays on its line, one byte less and it is broken. -/
def argsH : List WOp := [.text c!"int a", .text c!", ", .text c!"int b"]
def argsV : List WOp := [.pushAlign, .text c!"int a", .text c!",", .newLine, .text c!"int b", .pop]

theorem C25_case_fits :
    WOp.exec {} [.text c!"f(", .tryElse 14 argsH argsV, .text c!")"] {} =
      some (c!"f(int a, int b)", { lineStarted := true, lineLength := 15, maxLineLength := 15 }) := by
  decide

theorem C25_case_broken :
    WOp.exec {} [.text c!"f(", .tryElse 13 argsH argsV, .text c!")"] {} =
      some (c!"f(int a,\n  int b)",
        { lineStarted := true, lineLength := 8, lineNumber := 2, maxLineLength := 8 }) := by
  decide

/-! ## C26: the recorded length -/

mutual
/-- No line ends during this call. -/
def WOp.InLine : WOp → Prop
  | .text s => OneLine s
  | .raw s => OneLine s
  | .newLine => False
  | .newLineIfNotStart => False
  | .tryElse _ h v => WOp.InLines h ∧ WOp.InLines v
  | _ => True
def WOp.InLines : List WOp → Prop
  | [] => True
  | op :: ops => op.InLine ∧ WOp.InLines ops
end

mutual
/-- Lines only end in calls of `new_line`, and not inside of the first form of a try. -/
def WOp.Tracked1 : WOp → Prop
  | .text s => OneLine s
  | .raw s => OneLine s
  | .tryElse _ h v => WOp.InLines h ∧ WOp.Tracked v
  | _ => True
def WOp.Tracked : List WOp → Prop
  | [] => True
  | op :: ops => op.Tracked1 ∧ WOp.Tracked ops
end

theorem oneLine_spaces (n : Nat) : OneLine (List.replicate n ' ') := by
  intro c hc
  rw [List.mem_replicate] at hc
  rw [hc.2]; decide

theorem oneLine_append {a b : Str} (ha : OneLine a) (hb : OneLine b) : OneLine (a ++ b) := by
  intro c hc
  rcases List.mem_append.mp hc with h | h
  · exact ha c h
  · exact hb c h

theorem put_length {w w' : W} {s t : Str} (hs : OneLine s) (hp : w.put s = some (t, w')) :
    OneLine t ∧ w'.lineLength = w.lineLength + byteLen t ∧ w'.lineNumber = w.lineNumber := by
  unfold W.put at hp
  split at hp
  · simp only [Option.some.injEq, Prod.mk.injEq] at hp
    obtain ⟨rfl, rfl⟩ := hp
    exact ⟨by intro c hc; simp at hc, rfl, rfl⟩
  split at hp
  · simp only [Option.some.injEq, Prod.mk.injEq] at hp
    obtain ⟨rfl, rfl⟩ := hp
    exact ⟨hs, rfl, rfl⟩
  · split at hp
    · simp at hp
    · simp only [Option.some.injEq, Prod.mk.injEq] at hp
      obtain ⟨rfl, rfl⟩ := hp
      refine ⟨oneLine_append (oneLine_spaces _) hs, ?_, rfl⟩
      simp only [W.wrote, byteLen_append, byteLen_spaces]
      omega

/-- What silent calls leave alone. -/
theorem silent_length {c : WConfig} {op : WOp} {w w' : W} {t : Str}
    (hop : op = .pushTab ∨ (∃ n, op = .pushSpaces n) ∨ op = .pushAlign ∨ op = .pop)
    (hx : WOp.exec1 c op w = some (t, w')) :
    t = [] ∧ w'.lineLength = w.lineLength ∧ w'.lineNumber = w.lineNumber ∧
      w'.lineStarted = w.lineStarted := by
  rcases hop with rfl | ⟨n, rfl⟩ | rfl | rfl
  · simp only [WOp.exec1] at hx
    obtain ⟨hy, rfl⟩ := silent_some.mp hx; clear hx; have hx := hy; clear hy
    unfold W.pushTab at hx
    split at hx
    · simp at hx
    · split at hx
      · simp at hx
      · simp only [Option.some.injEq] at hx; subst hx; exact ⟨rfl, rfl, rfl, rfl⟩
  · simp only [WOp.exec1, Option.some.injEq, Prod.mk.injEq] at hx
    obtain ⟨rfl, rfl⟩ := hx
    exact ⟨rfl, rfl, rfl, rfl⟩
  · simp only [WOp.exec1] at hx
    obtain ⟨hy, rfl⟩ := silent_some.mp hx; clear hx; have hx := hy; clear hy
    unfold W.pushAlign at hx
    split at hx
    · simp only [Option.some.injEq] at hx; subst hx; exact ⟨rfl, rfl, rfl, rfl⟩
    · split at hx
      · simp at hx
      · simp only [Option.some.injEq] at hx; subst hx; exact ⟨rfl, rfl, rfl, rfl⟩
  · simp only [WOp.exec1] at hx
    obtain ⟨hy, rfl⟩ := silent_some.mp hx; clear hx; have hx := hy; clear hy
    unfold W.pop at hx
    split at hx
    · simp at hx
    · simp only [Option.some.injEq] at hx; subst hx; exact ⟨rfl, rfl, rfl, rfl⟩

mutual
theorem inLine_exec1 (c : WConfig) : ∀ (op : WOp) {w w' : W} {t : Str}, op.InLine →
    WOp.exec1 c op w = some (t, w') →
    OneLine t ∧ w'.lineLength = w.lineLength + byteLen t ∧ w'.lineNumber = w.lineNumber
  | .text s, w, w', t, h, hx => put_length h (by simpa [WOp.exec1] using hx)
  | .raw s, w, w', t, h, hx =>
    put_length (w := { w with lineStarted := true }) h (by simpa [WOp.exec1] using hx)
  | .newLine, _, _, _, h, _ => h.elim
  | .newLineIfNotStart, _, _, _, h, _ => h.elim
  | .pushTab, w, w', t, _, hx => by
    obtain ⟨rfl, h1, h2, _⟩ := silent_length (.inl rfl) hx
    exact ⟨by intro c hc; simp at hc, by simpa [byteLen_nil] using h1, h2⟩
  | .pushSpaces n, w, w', t, _, hx => by
    obtain ⟨rfl, h1, h2, _⟩ := silent_length (.inr (.inl ⟨n, rfl⟩)) hx
    exact ⟨by intro c hc; simp at hc, by simpa [byteLen_nil] using h1, h2⟩
  | .pushAlign, w, w', t, _, hx => by
    obtain ⟨rfl, h1, h2, _⟩ := silent_length (.inr (.inr (.inl rfl))) hx
    exact ⟨by intro c hc; simp at hc, by simpa [byteLen_nil] using h1, h2⟩
  | .pop, w, w', t, _, hx => by
    obtain ⟨rfl, h1, h2, _⟩ := silent_length (.inr (.inr (.inr rfl))) hx
    exact ⟨by intro c hc; simp at hc, by simpa [byteLen_nil] using h1, h2⟩
  | .tryElse max hs vs, w, w', t, h, hx => by
    simp only [WOp.InLine] at h
    rcases exec_tryElse hx with ⟨m, _, hm, _, hf⟩ | hv
    · have h1 := inLine_exec c hs h.1 hm
      exact put_length (w := { w with lineStarted := true }) h1.1 hf
    · exact inLine_exec c vs h.2 hv
  | .panic, w, w', t, _, hx => by simp [WOp.exec1] at hx
theorem inLine_exec (c : WConfig) : ∀ (ops : List WOp) {w w' : W} {t : Str}, WOp.InLines ops →
    WOp.exec c ops w = some (t, w') →
    OneLine t ∧ w'.lineLength = w.lineLength + byteLen t ∧ w'.lineNumber = w.lineNumber
  | [], w, w', t, _, hx => by
    rw [exec_nil] at hx
    simp only [Option.some.injEq, Prod.mk.injEq] at hx
    obtain ⟨rfl, rfl⟩ := hx
    exact ⟨by intro c hc; simp at hc, rfl, rfl⟩
  | op :: ops, w, w', t, h, hx => by
    simp only [WOp.InLines] at h
    obtain ⟨t1, w1, t2, h1, h2, rfl⟩ := exec_cons_some.mp hx
    obtain ⟨a1, a2, a3⟩ := inLine_exec1 c op h.1 h1
    obtain ⟨b1, b2, b3⟩ := inLine_exec c ops h.2 h2
    exact ⟨oneLine_append a1 b1, by rw [byteLen_append]; omega, by omega⟩
end

mutual
theorem tracked_exec1 (c : WConfig) : ∀ (op : WOp) {w w' : W} {t : Str}, op.Tracked1 →
    WOp.exec1 c op w = some (t, w') → endLen w.lineLength t = w'.lineLength
  | .text s, w, w', t, h, hx => by
    obtain ⟨h1, h2, _⟩ := put_length h (by simpa [WOp.exec1] using hx : w.put s = some (t, w'))
    rw [endLen_oneLine _ _ h1, h2]
  | .raw s, w, w', t, h, hx => by
    obtain ⟨h1, h2, _⟩ := put_length (w := { w with lineStarted := true }) h
      (by simpa [WOp.exec1] using hx)
    rw [endLen_oneLine _ _ h1, h2]
  | .newLine, w, w', t, _, hx => by
    simp only [WOp.exec1, Option.some.injEq, Prod.mk.injEq] at hx
    obtain ⟨rfl, rfl⟩ := hx
    rw [endLen_ending]; rfl
  | .newLineIfNotStart, w, w', t, _, hx => by
    simp only [WOp.exec1] at hx
    split at hx
    · simp only [Option.some.injEq, Prod.mk.injEq] at hx
      obtain ⟨rfl, rfl⟩ := hx
      rfl
    · simp only [Option.some.injEq, Prod.mk.injEq] at hx
      obtain ⟨rfl, rfl⟩ := hx
      rw [endLen_ending]; rfl
  | .pushTab, w, w', t, _, hx => by
    obtain ⟨rfl, h1, h2, _⟩ := silent_length (.inl rfl) hx
    exact h1.symm
  | .pushSpaces n, w, w', t, _, hx => by
    obtain ⟨rfl, h1, h2, _⟩ := silent_length (.inr (.inl ⟨n, rfl⟩)) hx
    exact h1.symm
  | .pushAlign, w, w', t, _, hx => by
    obtain ⟨rfl, h1, h2, _⟩ := silent_length (.inr (.inr (.inl rfl))) hx
    exact h1.symm
  | .pop, w, w', t, _, hx => by
    obtain ⟨rfl, h1, h2, _⟩ := silent_length (.inr (.inr (.inr rfl))) hx
    exact h1.symm
  | .tryElse max hs vs, w, w', t, h, hx => by
    simp only [WOp.Tracked1] at h
    rcases exec_tryElse hx with ⟨m, _, hm, _, hf⟩ | hv
    · have h1 := inLine_exec c hs h.1 hm
      obtain ⟨h3, h4, _⟩ := put_length (w := { w with lineStarted := true }) h1.1 hf
      rw [endLen_oneLine _ _ h3, h4]
    · exact tracked_exec c vs h.2 hv
  | .panic, w, w', t, _, hx => by simp [WOp.exec1] at hx
theorem tracked_exec (c : WConfig) : ∀ (ops : List WOp) {w w' : W} {t : Str}, WOp.Tracked ops →
    WOp.exec c ops w = some (t, w') → endLen w.lineLength t = w'.lineLength
  | [], w, w', t, _, hx => by
    rw [exec_nil] at hx
    simp only [Option.some.injEq, Prod.mk.injEq] at hx
    obtain ⟨rfl, rfl⟩ := hx
    rfl
  | op :: ops, w, w', t, h, hx => by
    simp only [WOp.Tracked] at h
    obtain ⟨t1, w1, t2, h1, h2, rfl⟩ := exec_cons_some.mp hx
    rw [endLen_append, tracked_exec1 c op h.1 h1]
    exact tracked_exec c ops h.2 h2
end

/-- For every sequence of calls in which lines only end in calls of `new_line` and tried forms stay on
one line, the recorded length is the length of the current output line. -/
theorem C26_line_length_partial (c : WConfig) (ops : List WOp) (t : Str) (w : W)
    (h : WOp.Tracked ops) (hx : WOp.exec c ops {} = some (t, w)) : w.lineLength = endLen 0 t :=
  (tracked_exec c ops h hx).symm

/-- In all cases it is at least that. -/
theorem C26_line_length_at_least (c : WConfig) (ops : List WOp) (t : Str) (w : W)
    (hx : WOp.exec c ops {} = some (t, w)) : endLen 0 t ≤ w.lineLength :=
  (bounds_exec c ops (w := {}) (Nat.le_refl _) hx).last

theorem C26_case_length :
    WOp.Tracked [.text c!"struct A {", .pushTab, .newLine, .text c!"int x;", .pop] ∧
    WOp.exec {} [.text c!"struct A {", .pushTab, .newLine, .text c!"int x;", .pop] {} =
      some (c!"struct A {\n  int x;",
        { lineStarted := true, lineLength := 8, lineNumber := 2, maxLineLength := 10 }) := by
  refine ⟨?_, by decide⟩
  simp only [WOp.Tracked, WOp.Tracked1, and_true, true_and]
  exact ⟨by unfold OneLine; decide, by unfold OneLine; decide⟩

/-- The claim fails in general: the text of a `body` option with two lines is counted as one line, so
that a list that is aligned after it is aligned to the wrong column. -/
theorem C26_line_length_refuted : ∃ (ops : List WOp) (t : Str) (w : W),
    WOp.exec {} ops {} = some (t, w) ∧ w.lineLength ≠ endLen 0 t :=
  ⟨[.raw c!"int a;\nint b;"], c!"int a;\nint b;",
    { lineStarted := true, lineLength := 13, maxLineLength := 13 }, by decide, by decide⟩

/-- Also after a tried form that has several lines, such as a function with a comment. -/
theorem C26_try_length_refuted : ∃ (ops : List WOp) (t : Str) (w : W),
    WOp.exec {} ops {} = some (t, w) ∧ w.lineLength ≠ endLen 0 t :=
  ⟨[.tryElse 80 [.text c!"// x", .newLine, .text c!"void f(", .text c!");"] []],
    c!"// x\nvoid f();",
    { lineStarted := true, lineLength := 14, maxLineLength := 14 }, by decide, by decide⟩

/-! ## C26: indentation of lines -/

/-- The calls that only change the stack of indentations. -/
inductive IsMove : WOp → Prop
  | tab : IsMove .pushTab
  | spaces (n : Nat) : IsMove (.pushSpaces n)
  | align : IsMove .pushAlign
  | pop : IsMove .pop

/-- Calls on one line: changes of the indentation and texts. -/
def OnLine (ops : List WOp) : Prop := ∀ op ∈ ops, IsMove op ∨ ∃ s, op = .text s

/-- The texts of calls, one after the other. -/
def textsOf : List WOp → Str
  | [] => []
  | .text s :: ops => s ++ textsOf ops
  | _ :: ops => textsOf ops

theorem IsMove.cases4 {op : WOp} (h : IsMove op) :
    op = .pushTab ∨ (∃ n, op = .pushSpaces n) ∨ op = .pushAlign ∨ op = .pop := by
  cases h with
  | tab => exact .inl rfl
  | spaces n => exact .inr (.inl ⟨n, rfl⟩)
  | align => exact .inr (.inr (.inl rfl))
  | pop => exact .inr (.inr (.inr rfl))

theorem textsOf_move {op : WOp} (h : IsMove op) (ops : List WOp) :
    textsOf (op :: ops) = textsOf ops := by
  cases h <;> rfl

/-- On a started line, texts are appended without any white space added. -/
theorem onLine_started (c : WConfig) (ops : List WOp) {w w' : W} {t : Str} (ho : OnLine ops)
    (hs : w.lineStarted = true) (hx : WOp.exec c ops w = some (t, w')) :
    t = textsOf ops ∧ w'.lineStarted = true := by
  induction ops generalizing w t with
  | nil =>
    rw [exec_nil] at hx
    simp only [Option.some.injEq, Prod.mk.injEq] at hx
    obtain ⟨rfl, rfl⟩ := hx
    exact ⟨rfl, hs⟩
  | cons op ops ih =>
    have ho' : OnLine ops := fun o h => ho o (List.mem_cons_of_mem _ h)
    obtain ⟨t1, w1, t2, h1, h2, rfl⟩ := exec_cons_some.mp hx
    rcases ho op (by simp) with hm | ⟨s, rfl⟩
    · obtain ⟨rfl, _, _, h3⟩ := silent_length hm.cases4 h1
      obtain ⟨rfl, h4⟩ := ih ho' (by rw [h3, hs]) h2
      exact ⟨by rw [textsOf_move hm]; rfl, h4⟩
    · have : t1 = s ∧ w1.lineStarted = true := by
        simp only [WOp.exec1, W.put, hs, if_true] at h1
        split at h1
        · rename_i he
          simp only [Option.some.injEq, Prod.mk.injEq] at h1
          exact ⟨by rw [← h1.1, he], by rw [← h1.2]; exact hs⟩
        · simp only [Option.some.injEq, Prod.mk.injEq] at h1
          exact ⟨h1.1.symm, by rw [← h1.2]; exact hs⟩
      obtain ⟨rfl, h4⟩ := ih ho' this.2 h2
      exact ⟨by rw [this.1]; rfl, h4⟩

/-- After a line end, whatever was written before and whatever is pushed and popped in between: either
nothing is written on the new line, or the line begins with exactly the indentation that is in force
when its first text is written, followed by the texts with no white space added. -/
theorem C26_indentation (c : WConfig) (pre ops : List WOp) (t : Str) (w w' : W) (ho : OnLine ops)
    (hx : WOp.exec c (pre ++ [.newLine] ++ ops) w = some (t, w')) :
    ∃ before, (∃ w0, WOp.exec c (pre ++ [.newLine]) w = some (before, w0)) ∧
      ((textsOf ops = [] ∧ t = before) ∨
       ∃ a b n rest, ops = a ++ b ∧ textsOf a = [] ∧
         (∃ w1, WOp.exec c (pre ++ [.newLine] ++ a) w = some (before, w1) ∧ w1.spaces = n :: rest) ∧
         (∃ s b', b = .text s :: b' ∧ s ≠ []) ∧
         t = before ++ List.replicate n ' ' ++ textsOf ops) := by
  obtain ⟨before, w0, t2, hb, h2, rfl⟩ := exec_append_some.mp hx
  have hns : w0.lineStarted = false := by
    obtain ⟨_, _, _, _, h3, _⟩ := exec_append_some.mp hb
    rw [exec_single] at h3
    simp only [WOp.exec1, Option.some.injEq, Prod.mk.injEq] at h3
    rw [← h3.2]; rfl
  refine ⟨before, ⟨w0, hb⟩, ?_⟩
  suffices H : (textsOf ops = [] ∧ t2 = []) ∨
      ∃ a b n rest, ops = a ++ b ∧ textsOf a = [] ∧
        (∃ w1, WOp.exec c a w0 = some ([], w1) ∧ w1.spaces = n :: rest) ∧
        (∃ s b', b = .text s :: b' ∧ s ≠ []) ∧ t2 = List.replicate n ' ' ++ textsOf ops by
    rcases H with ⟨h3, rfl⟩ | ⟨a, b, n, rest, h3, h4, ⟨w1, h5, h6⟩, h7, rfl⟩
    · exact .inl ⟨h3, by simp⟩
    · refine .inr ⟨a, b, n, rest, h3, h4, ⟨w1, ?_, h6⟩, h7, by simp⟩
      exact exec_append_some.mpr ⟨before, w0, [], hb, h5, by simp⟩
  clear hx hb
  induction ops generalizing w0 t2 with
  | nil =>
    rw [exec_nil] at h2
    simp only [Option.some.injEq, Prod.mk.injEq] at h2
    exact .inl ⟨rfl, h2.1.symm⟩
  | cons op ops ih =>
    have ho' : OnLine ops := fun o h => ho o (List.mem_cons_of_mem _ h)
    obtain ⟨t1, w1, t3, h3, h4, rfl⟩ := exec_cons_some.mp h2
    have step : ∀ (he : t1 = []) (hst : w1.lineStarted = false)
        (htx : textsOf (op :: ops) = textsOf ops) (hto : textsOf [op] = []),
        (textsOf (op :: ops) = [] ∧ t1 ++ t3 = []) ∨
        ∃ a b n rest, op :: ops = a ++ b ∧ textsOf a = [] ∧
          (∃ w2, WOp.exec c a w0 = some ([], w2) ∧ w2.spaces = n :: rest) ∧
          (∃ s b', b = .text s :: b' ∧ s ≠ []) ∧
          t1 ++ t3 = List.replicate n ' ' ++ textsOf (op :: ops) := by
      intro he hst htx hto
      rcases ih ho' w1 t3 h4 hst with ⟨h5, h6⟩ | ⟨a, b, n, rest, h5, h6, ⟨w2, h7, h8⟩, h9, h10⟩
      · exact .inl ⟨by rw [htx, h5], by rw [he, h6]; rfl⟩
      · refine .inr ⟨op :: a, b, n, rest, by rw [h5]; rfl, ?_, ⟨w2, ?_, h8⟩, h9, by rw [he, htx, h10]; rfl⟩
        · have : textsOf (op :: a) = textsOf [op] ++ textsOf a := by
            cases op <;> simp [textsOf]
          rw [this, hto, h6]; rfl
        · exact exec_cons_some.mpr ⟨[], w1, [], by rw [h3, he], h7, rfl⟩
    rcases ho op (by simp) with hm | ⟨s, rfl⟩
    · obtain ⟨he, _, _, h5⟩ := silent_length hm.cases4 h3
      exact step he (by rw [h5, hns]) (textsOf_move hm _) (by rw [textsOf_move hm]; rfl)
    · by_cases hs : s = []
      · subst hs
        simp only [WOp.exec1, W.put, if_true, Option.some.injEq, Prod.mk.injEq] at h3
        exact step h3.1.symm (by rw [← h3.2, hns]) rfl rfl
      · refine .inr ?_
        cases hsp : w0.spaces with
        | nil => simp [WOp.exec1, W.put, hns, hs, hsp] at h3
        | cons n rest =>
          refine ⟨[], .text s :: ops, n, rest, rfl, rfl, ⟨w0, exec_nil c w0, hsp⟩,
            ⟨s, ops, rfl, hs⟩, ?_⟩
          simp only [WOp.exec1, W.put, hns, hs, if_false, hsp, Option.some.injEq, Prod.mk.injEq,
            Bool.false_eq_true] at h3
          obtain ⟨h5, h6⟩ := h3
          obtain ⟨h7, _⟩ := onLine_started c ops ho' (by rw [← h6]; rfl) h4
          rw [← h5, h7]
          simp [textsOf]

/-! ## C26: the stack of indentations -/

/-- The calls leave the stack of indentations as they found it. -/
def Restores (c : WConfig) (ops : List WOp) : Prop :=
  ∀ w w' t, WOp.exec c ops w = some (t, w') → w'.spaces = w.spaces

theorem restores_nil (c : WConfig) : Restores c [] := by
  intro w w' t hx
  rw [exec_nil] at hx
  simp only [Option.some.injEq, Prod.mk.injEq] at hx
  rw [← hx.2]

theorem restores_append {c : WConfig} {a b : List WOp} (ha : Restores c a) (hb : Restores c b) :
    Restores c (a ++ b) := by
  intro w w' t hx
  obtain ⟨t1, w1, t2, h1, h2, _⟩ := exec_append_some.mp hx
  rw [hb _ _ _ h2, ha _ _ _ h1]

theorem put_spaces {w w' : W} {s t : Str} (hp : w.put s = some (t, w')) : w'.spaces = w.spaces := by
  unfold W.put at hp
  split at hp
  · simp only [Option.some.injEq, Prod.mk.injEq] at hp; rw [← hp.2]
  split at hp
  · simp only [Option.some.injEq, Prod.mk.injEq] at hp; rw [← hp.2]; rfl
  · split at hp
    · simp at hp
    · simp only [Option.some.injEq, Prod.mk.injEq] at hp; rw [← hp.2]; rfl

theorem restores_text (c : WConfig) (s : Str) : Restores c [.text s] := by
  intro w w' t hx
  rw [exec_single] at hx
  exact put_spaces (by simpa [WOp.exec1] using hx)

theorem restores_raw (c : WConfig) (s : Str) : Restores c [.raw s] := by
  intro w w' t hx
  rw [exec_single] at hx
  exact put_spaces (w := { w with lineStarted := true }) (by simpa [WOp.exec1] using hx)

theorem restores_newLine (c : WConfig) : Restores c [.newLine] := by
  intro w w' t hx
  rw [exec_single] at hx
  simp only [WOp.exec1, Option.some.injEq, Prod.mk.injEq] at hx
  rw [← hx.2]; rfl

theorem restores_newLineIfNotStart (c : WConfig) : Restores c [.newLineIfNotStart] := by
  intro w w' t hx
  rw [exec_single] at hx
  simp only [WOp.exec1] at hx
  split at hx
  · simp only [Option.some.injEq, Prod.mk.injEq] at hx; rw [← hx.2]
  · simp only [Option.some.injEq, Prod.mk.injEq] at hx; rw [← hx.2]; rfl

theorem restores_panic (c : WConfig) : Restores c [.panic] := by
  intro w w' t hx
  rw [exec_single] at hx
  simp [WOp.exec1] at hx

/-- Whatever the tried form does to the stack is undone: only the other form has to restore it. -/
theorem restores_try {c : WConfig} {max : Nat} {h v : List WOp} (hv : Restores c v) :
    Restores c [.tryElse max h v] := by
  intro w w' t hx
  rw [exec_single] at hx
  rcases exec_tryElse hx with ⟨m, _, _, _, hf⟩ | hv'
  · exact put_spaces (w := { w with lineStarted := true }) hf
  · exact hv _ _ _ hv'

/-- A push of any kind, calls that restore the stack, and a pop. -/
theorem restores_wrap {c : WConfig} {push : WOp} {body : List WOp}
    (hp : push = .pushTab ∨ (∃ n, push = .pushSpaces n) ∨ push = .pushAlign)
    (hb : Restores c body) : Restores c ([push] ++ body ++ [.pop]) := by
  intro w w' t hx
  obtain ⟨t1, w1, t2, h1, h2, _⟩ := exec_append_some.mp hx
  obtain ⟨t3, w3, t4, h3, h4, _⟩ := exec_append_some.mp h1
  have e1 : ∃ n, w3.spaces = n :: w.spaces := by
    rw [exec_single] at h3
    rcases hp with rfl | ⟨n, rfl⟩ | rfl
    · simp only [WOp.exec1] at h3
      replace h3 := (silent_some.mp h3).1
      unfold W.pushTab at h3
      split at h3
      · simp at h3
      · rename_i n rest hsp
        split at h3
        · simp at h3
        · simp only [Option.some.injEq] at h3; rw [← h3, hsp]; exact ⟨_, rfl⟩
    · simp only [WOp.exec1, Option.some.injEq, Prod.mk.injEq] at h3
      rw [← h3.2]; exact ⟨_, rfl⟩
    · simp only [WOp.exec1] at h3
      replace h3 := (silent_some.mp h3).1
      unfold W.pushAlign at h3
      split at h3
      · simp only [Option.some.injEq] at h3; rw [← h3]; exact ⟨_, rfl⟩
      · split at h3
        · simp at h3
        · rename_i n rest hsp
          simp only [Option.some.injEq] at h3; rw [← h3, hsp]; exact ⟨_, rfl⟩
  obtain ⟨n, e1⟩ := e1
  have e2 := hb _ _ _ h4
  rw [exec_single] at h2
  simp only [WOp.exec1] at h2
  replace h2 := (silent_some.mp h2).1
  unfold W.pop at h2
  rw [e2, e1] at h2
  simp only [Option.some.injEq] at h2
  rw [← h2]

/-- Braces restore the indentation they found, for all languages and styles of braces. -/
theorem C26_braces (c : WConfig) (lang : Language) (b : Braces) (semi : Bool) (body : List WOp)
    (hb : Restores c body) : Restores c (openBrace lang b ++ body ++ closeBrace lang semi) := by
  have key : ∀ pre mid post : List WOp, Restores c pre → Restores c mid → Restores c post →
      Restores c (pre ++ ([.pushTab] ++ (mid ++ body) ++ [.pop]) ++ post) := by
    intro pre mid post h1 h2 h3
    exact restores_append (restores_append h1 (restores_wrap (.inl rfl) (restores_append h2 hb))) h3
  have hn := restores_newLine c
  have ht := restores_text c
  cases lang <;> cases b
  all_goals first
    | simpa [openBrace, closeBrace] using
        key [.text c!" {"] [.newLine] [.newLine, .text (if semi then c!"};" else c!"}")]
          (ht _) hn (restores_append hn (ht _))
    | simpa [openBrace, closeBrace] using
        key [.newLine, .text c!"{"] [.newLine] [.newLine, .text (if semi then c!"};" else c!"}")]
          (restores_append hn (ht _)) hn (restores_append hn (ht _))
    | simpa [openBrace, closeBrace] using
        key [.text c!":", .newLine] [] [] (restores_append (ht _) hn) (restores_nil c) (restores_nil c)

theorem restores_after (c : WConfig) (t : ListType) (last : Bool) : Restores c (t.after last) := by
  cases t with
  | join s =>
    simp only [ListType.after]
    split
    · exact restores_nil c
    · exact restores_text c s
  | cap s => exact restores_text c s

theorem restores_verticalItems {c : WConfig} (t : ListType) : ∀ {items : List (List WOp)},
    (∀ i ∈ items, Restores c i) → Restores c (verticalItems t items)
  | [], _ => restores_nil c
  | [x], h => restores_append (h x (by simp)) (restores_after c t true)
  | x :: y :: xs, h => by
    simp only [verticalItems]
    exact restores_append (restores_append (restores_append (h x (by simp)) (restores_after c t false))
      (restores_newLine c)) (restores_verticalItems t (fun i hi => h i (List.mem_cons_of_mem _ hi)))

theorem restores_horizontal {c : WConfig} (t : ListType) : ∀ {items : List (List WOp)},
    (∀ i ∈ items, Restores c i) → Restores c (horizontalList t items)
  | [], _ => restores_nil c
  | [x], h => restores_append (h x (by simp)) (restores_after c t true)
  | x :: y :: xs, h => by
    simp only [horizontalList]
    exact restores_append (restores_append (h x (by simp)) (restores_after c t false))
      (restores_horizontal t (fun i hi => h i (List.mem_cons_of_mem _ hi)))

/-- The list helpers restore the indentation they found, for all items that do. -/
theorem C26_lists (c : WConfig) (t : ListType) (items : List (List WOp))
    (h : ∀ i ∈ items, Restores c i) :
    Restores c (verticalList t items) ∧ Restores c (horizontalList t items) :=
  ⟨restores_wrap (.inr (.inr rfl)) (restores_verticalItems t h), restores_horizontal t h⟩

theorem put_keeps_spaces {s t : Str} {v v' : W} (hp : v.put s = some (t, v')) : v'.spaces = v.spaces := by
  unfold W.put at hp
  split at hp
  · simp only [Option.some.injEq, Prod.mk.injEq] at hp; rw [← hp.2]
  · split at hp
    · simp only [Option.some.injEq, Prod.mk.injEq] at hp; rw [← hp.2]; rfl
    · split at hp
      · simp at hp
      · simp only [Option.some.injEq, Prod.mk.injEq] at hp; rw [← hp.2]; simp [W.wrote]

/-- Inside of braces the indentation is the next multiple of the tab width above the indentation
outside, for all languages and styles of braces, and what was pushed before is below it. -/
theorem C26_brace_indentation (c : WConfig) (lang : Language) (b : Braces) (n : Nat) (rest : List Nat) (w w' : W)
    (t : Str) (hs : w.spaces = n :: rest) (hx : WOp.exec c (openBrace lang b) w = some (t, w')) :
    ∃ m, w'.spaces = m :: n :: rest ∧ n < m ∧ m ≤ n + c.tabWidth ∧ c.tabWidth ∣ m := by
  have push : ∀ v v' : W, v.spaces = n :: rest → v.pushTab c.tabWidth = some v' →
      ∃ m, v'.spaces = m :: n :: rest ∧ n < m ∧ m ≤ n + c.tabWidth ∧ c.tabWidth ∣ m := by
    intro v v' hv hp
    unfold W.pushTab at hp
    rw [hv] at hp
    simp only at hp
    split at hp
    · simp at hp
    · rename_i ht
      simp only [Option.some.injEq] at hp
      have hlt := Nat.mod_lt n (Nat.pos_of_ne_zero ht)
      have hle := Nat.mod_le n c.tabWidth
      exact ⟨_, by rw [← hp], by omega, by omega, Nat.dvd_add (Nat.dvd_sub_mod n) (Nat.dvd_refl _)⟩
  have step : ∀ (op : WOp) (ops : List WOp) (v v' : W) (t : Str), WOp.exec c (op :: ops) v = some (t, v') →
      ∃ a x b, WOp.exec1 c op v = some (a, x) ∧ WOp.exec c ops x = some (b, v') := by
    intro op ops v v' t h
    simp only [WOp.exec] at h
    cases h1 : WOp.exec1 c op v with
    | none => simp [andThen, h1] at h
    | some q =>
      obtain ⟨a, x⟩ := q
      cases h2 : WOp.exec c ops x with
      | none => simp [andThen, h1, h2] at h
      | some r =>
        obtain ⟨b, y⟩ := r
        simp only [andThen, h1, h2, Option.map_some, Option.some.injEq, Prod.mk.injEq] at h
        exact ⟨a, x, b, rfl, by rw [h2, ← h.2]⟩
  have text : ∀ (s t : Str) (v v' : W), WOp.exec1 c (.text s) v = some (t, v') → v'.spaces = v.spaces :=
    fun s t v v' h => put_keeps_spaces (by simpa [WOp.exec1] using h)
  have line : ∀ (t : Str) (v v' : W), WOp.exec1 c .newLine v = some (t, v') → v'.spaces = v.spaces := by
    intro t v v' h
    simp only [WOp.exec1, Option.some.injEq, Prod.mk.injEq] at h
    rw [← h.2]; rfl
  have tab : ∀ (t : Str) (v v' : W), v.spaces = n :: rest → WOp.exec1 c .pushTab v = some (t, v') →
      ∃ m, v'.spaces = m :: n :: rest ∧ n < m ∧ m ≤ n + c.tabWidth ∧ c.tabWidth ∣ m := by
    intro t v v' hv h
    simp only [WOp.exec1] at h
    exact push v v' hv (silent_some.mp h).1
  have stop : ∀ (t : Str) (v v' : W), WOp.exec c [] v = some (t, v') → v' = v := by
    intro t v v' h
    simp only [WOp.exec, Option.some.injEq, Prod.mk.injEq] at h
    exact h.2.symm
  cases lang <;> cases b <;> simp only [openBrace] at hx
  case c.sameLine | cxx.sameLine =>
    obtain ⟨_, x1, _, h1, hx⟩ := step _ _ _ _ _ hx
    obtain ⟨_, x2, _, h2, hx⟩ := step _ _ _ _ _ hx
    obtain ⟨_, x3, _, h3, hx⟩ := step _ _ _ _ _ hx
    cases stop _ _ _ hx
    obtain ⟨m, hm⟩ := tab _ _ _ ((text _ _ _ _ h1).trans hs) h2
    exact ⟨m, by rw [line _ _ _ h3, hm.1], hm.2⟩
  case c.nextLine | cxx.nextLine =>
    obtain ⟨_, x1, _, h1, hx⟩ := step _ _ _ _ _ hx
    obtain ⟨_, x2, _, h2, hx⟩ := step _ _ _ _ _ hx
    obtain ⟨_, x3, _, h3, hx⟩ := step _ _ _ _ _ hx
    obtain ⟨_, x4, _, h4, hx⟩ := step _ _ _ _ _ hx
    cases stop _ _ _ hx
    obtain ⟨m, hm⟩ := tab _ _ _ ((text _ _ _ _ h2).trans ((line _ _ _ h1).trans hs)) h3
    exact ⟨m, by rw [line _ _ _ h4, hm.1], hm.2⟩
  all_goals
    obtain ⟨_, x1, _, h1, hx⟩ := step _ _ _ _ _ hx
    obtain ⟨_, x2, _, h2, hx⟩ := step _ _ _ _ _ hx
    obtain ⟨_, x3, _, h3, hx⟩ := step _ _ _ _ _ hx
    cases stop _ _ _ hx
    exact tab _ _ _ ((line _ _ _ h2).trans ((text _ _ _ _ h1).trans hs)) h3

/-- Case: from a column that is no multiple of the tab width. -/
theorem C26_case_brace_indentation :
    (WOp.exec { tabWidth := 4 } (openBrace .c .sameLine) { spaces := [6, 0] }).map (·.2.spaces) = some [8, 6, 0] := by
  decide +kernel

/-- Case: a nested vertical list inside of braces. -/
theorem C26_case_nested :
    WOp.exec {} ([.text c!"struct A"] ++ openBrace .c .sameLine ++
        verticalList (.cap c!";") [[.text c!"int (*f)("] ++
          verticalList (.join c!",") [[.text c!"int a"], [.text c!"int b"]] ++ [.text c!")"],
          [.text c!"int x"]] ++ closeBrace .c true) {} =
      some (c!"struct A {\n  int (*f)(int a,\n           int b);\n  int x;\n};",
        { lineStarted := true, lineLength := 2, lineNumber := 5, maxLineLength := 18 }) := by
  decide +kernel

end Cbindgen
