import Verif.Spec.Writer

/-!
# The source writer, for all sequences of calls
-/

namespace Cbindgen
open TextSpec

/-! ## Lines of texts -/

theorem byteLen_nil : byteLen [] = 0 := rfl
theorem byteLen_cons (c : Char) (s : Str) : byteLen (c :: s) = c.utf8Size + byteLen s := by
  simp [byteLen]
theorem byteLen_append (a b : Str) : byteLen (a ++ b) = byteLen a + byteLen b := by
  simp [byteLen, List.sum_append]
theorem byteLen_spaces (n : Nat) : byteLen (List.replicate n ' ') = n := by
  induction n with
  | zero => rfl
  | succ n ih => rw [List.replicate_succ, byteLen_cons, ih]; have : ' '.utf8Size = 1 := rfl; omega

theorem endLen_append (cur : Nat) (a b : Str) : endLen cur (a ++ b) = endLen (endLen cur a) b := by
  induction a generalizing cur with
  | nil => rfl
  | cons c a ih => simp only [List.cons_append, endLen]; split <;> exact ih _

theorem endLen_le (cur : Nat) (s : Str) : endLen cur s ≤ cur + byteLen s := by
  induction s generalizing cur with
  | nil => exact Nat.le_refl _
  | cons c s ih =>
    simp only [endLen, byteLen_cons]
    split
    · have := ih 0; omega
    · have := ih (cur + c.utf8Size); omega

theorem endLen_mono {a b : Nat} (h : a ≤ b) (s : Str) : endLen a s ≤ endLen b s := by
  induction s generalizing a b with
  | nil => exact h
  | cons c s ih =>
    simp only [endLen]; split
    · exact Nat.le_refl _
    · exact ih (by omega)

theorem endLen_oneLine (cur : Nat) (s : Str) (h : OneLine s) : endLen cur s = cur + byteLen s := by
  induction s generalizing cur with
  | nil => rfl
  | cons c s ih =>
    have hc := h c (by simp)
    simp only [endLen, hc, byteLen_cons]
    rw [if_neg (by simp), ih _ (fun x hx => h x (List.mem_cons_of_mem _ hx))]
    omega

theorem TextSpec.Fits.append (max cur : Nat) (a b : Str) :
    Fits max cur (a ++ b) ↔ Fits max cur a ∧ Fits max (endLen cur a) b := by
  induction a generalizing cur with
  | nil =>
    simp only [List.nil_append, Fits, endLen]
    constructor
    · intro h
      refine ⟨?_, h⟩
      induction b generalizing cur with
      | nil => exact h
      | cons c b ih =>
        simp only [Fits] at h
        split at h
        · exact h.1
        · have := ih _ h; omega
    · exact fun h => h.2
  | cons c a ih =>
    simp only [List.cons_append, Fits, endLen]
    split
    · rw [ih]; exact and_assoc.symm
    · exact ih _

theorem TextSpec.Fits.mono {max max' cur : Nat} {s : Str} (h : max ≤ max') (hf : Fits max cur s) :
    Fits max' cur s := by
  induction s generalizing cur with
  | nil => exact Nat.le_trans hf h
  | cons c s ih =>
    simp only [Fits] at hf ⊢
    split at hf
    · rename_i hb; rw [if_pos hb]; exact ⟨Nat.le_trans hf.1 h, ih hf.2⟩
    · rename_i hb; rw [if_neg hb]; exact ih hf

theorem TextSpec.Fits.anti {max a b : Nat} {s : Str} (h : a ≤ b) (hf : Fits max b s) : Fits max a s := by
  induction s generalizing a b with
  | nil => exact Nat.le_trans h hf
  | cons c s ih =>
    simp only [Fits] at hf ⊢
    split at hf
    · rename_i hb; rw [if_pos hb]; exact ⟨Nat.le_trans h hf.1, hf.2⟩
    · rename_i hb; rw [if_neg hb]; exact ih (by omega) hf

theorem TextSpec.Fits.of_le {max cur : Nat} {s : Str} (h : cur + byteLen s ≤ max) : Fits max cur s := by
  induction s generalizing cur with
  | nil => simp only [byteLen_nil] at h; exact h
  | cons c s ih =>
    rw [byteLen_cons] at h
    simp only [Fits]; split
    · exact ⟨by omega, ih (by omega)⟩
    · exact ih (by omega)

theorem linesOf_ne_nil (s : Str) : linesOf s ≠ [] := by
  cases s with
  | nil => simp [linesOf]
  | cons c s =>
    simp only [linesOf]
    split
    · simp
    · split <;> simp

/-- `Fits` from the start of a line speaks of the lines of the text. -/
theorem fits_linesOf (max : Nat) (s : Str) :
    Fits max 0 s ↔ ∀ l ∈ linesOf s, byteLen l ≤ max := by
  suffices ∀ cur, Fits max cur s ↔
      ∃ l ls, linesOf s = l :: ls ∧ cur + byteLen l ≤ max ∧ ∀ x ∈ ls, byteLen x ≤ max by
    rw [this 0]
    constructor
    · rintro ⟨l, ls, h, h1, h2⟩ x hx
      rw [h] at hx
      rcases List.mem_cons.mp hx with rfl | hx
      · omega
      · exact h2 x hx
    · intro h
      cases hl : linesOf s with
      | nil => exact absurd hl (linesOf_ne_nil s)
      | cons l ls =>
        rw [hl] at h
        exact ⟨l, ls, rfl, by have := h l (by simp); omega, fun x hx => h x (by simp [hx])⟩
  induction s with
  | nil =>
    intro cur
    simp only [Fits, linesOf]
    constructor
    · exact fun h => ⟨[], [], rfl, by simpa [byteLen_nil] using h, by simp⟩
    · rintro ⟨l, ls, _, h, _⟩; omega
  | cons c s ih =>
    intro cur
    simp only [Fits, linesOf]
    by_cases hb : isBreak c = true
    · rw [if_pos hb, if_pos hb, ih 0]
      constructor
      · rintro ⟨h, l, ls, hl, h1, h2⟩
        refine ⟨[], linesOf s, rfl, by simpa [byteLen_nil] using h, ?_⟩
        rw [hl]; intro x hx
        rcases List.mem_cons.mp hx with rfl | hx
        · omega
        · exact h2 x hx
      · rintro ⟨l, ls, hl, h1, h2⟩
        injection hl with hl hls
        subst hl; subst hls
        refine ⟨by simpa [byteLen_nil] using h1, ?_⟩
        cases hl : linesOf s with
        | nil => exact absurd hl (linesOf_ne_nil s)
        | cons l ls =>
          rw [hl] at h2
          exact ⟨l, ls, rfl, by have := h2 l (by simp); omega, fun x hx => h2 x (by simp [hx])⟩
    · rw [if_neg hb, if_neg hb, ih]
      constructor
      · rintro ⟨l, ls, hl, h1, h2⟩
        rw [hl]
        exact ⟨c :: l, ls, rfl, by rw [byteLen_cons]; omega, h2⟩
      · rintro ⟨l, ls, hl, h1, h2⟩
        cases hs : linesOf s with
        | nil => exact absurd hs (linesOf_ne_nil s)
        | cons l' ls' =>
          rw [hs] at hl
          injection hl with hl hls
          subst hl; subst hls
          rw [byteLen_cons] at h1
          exact ⟨l', ls', rfl, by omega, h2⟩

theorem endLen_ending (e : LineEnding) (cur : Nat) : endLen cur e.asStr = 0 := by
  cases e <;> simp [LineEnding.asStr, endLen, isBreak]

theorem fits_ending (e : LineEnding) {max cur : Nat} (h : cur ≤ max) : Fits max cur e.asStr := by
  cases e <;> simp [LineEnding.asStr, Fits, isBreak, h]

/-! ## Running sequences -/

theorem andThen_some {r : Option (Str × W)} {k : W → Option (Str × W)} {q : Str × W} :
    andThen r k = some q ↔ ∃ a w b w', r = some (a, w) ∧ k w = some (b, w') ∧ q = (a ++ b, w') := by
  unfold andThen
  cases r with
  | none => simp
  | some p =>
    obtain ⟨a, w⟩ := p
    cases hk : k w with
    | none => simp [hk]
    | some q' =>
      obtain ⟨b, w'⟩ := q'
      constructor
      · intro h
        simp only [hk, Option.map_some, Option.some.injEq] at h
        exact ⟨a, w, b, w', rfl, hk, h.symm⟩
      · rintro ⟨a2, w2, b2, w2', h1, h2, h3⟩
        simp only [Option.some.injEq, Prod.mk.injEq] at h1
        obtain ⟨rfl, rfl⟩ := h1
        rw [hk] at h2
        simp only [Option.some.injEq, Prod.mk.injEq] at h2
        obtain ⟨rfl, rfl⟩ := h2
        simp [hk, h3]

theorem exec_nil (c : WConfig) (w : W) : WOp.exec c [] w = some ([], w) := by
  simp [WOp.exec]

theorem exec_cons (c : WConfig) (op : WOp) (ops : List WOp) (w : W) :
    WOp.exec c (op :: ops) w = andThen (WOp.exec1 c op w) (WOp.exec c ops) := by
  simp [WOp.exec]

theorem andThen_assoc (r : Option (Str × W)) (k l : W → Option (Str × W)) :
    andThen (andThen r k) l = andThen r fun w => andThen (k w) l := by
  cases r with
  | none => rfl
  | some p =>
    obtain ⟨a, w⟩ := p
    simp only [andThen]
    cases k w with
    | none => simp
    | some q =>
      obtain ⟨b, w'⟩ := q
      simp only [Option.map_some]
      cases l w' with
      | none => simp
      | some r => simp

theorem andThen_pure (w : W) (k : W → Option (Str × W)) : andThen (some ([], w)) k = k w := by
  simp only [andThen, List.nil_append]
  cases k w <;> simp

theorem exec_append (c : WConfig) (a b : List WOp) (w : W) :
    WOp.exec c (a ++ b) w = andThen (WOp.exec c a w) (WOp.exec c b) := by
  induction a generalizing w with
  | nil => rw [List.nil_append, exec_nil, andThen_pure]
  | cons op a ih =>
    rw [List.cons_append, exec_cons, exec_cons, andThen_assoc]
    congr 1
    funext w; exact ih w

theorem exec_append_some {c : WConfig} {a b : List WOp} {w w' : W} {t : Str} :
    WOp.exec c (a ++ b) w = some (t, w') ↔
      ∃ t1 w1 t2, WOp.exec c a w = some (t1, w1) ∧ WOp.exec c b w1 = some (t2, w') ∧ t = t1 ++ t2 := by
  rw [exec_append, andThen_some]
  constructor
  · rintro ⟨a, w1, b, w2, h1, h2, h3⟩
    injection h3 with h3 h4
    subst h4
    exact ⟨a, w1, b, h1, h2, h3⟩
  · rintro ⟨a, w1, b, h1, h2, h3⟩
    exact ⟨a, w1, b, w', h1, h2, by rw [h3]⟩

theorem exec_cons_some {c : WConfig} {op : WOp} {b : List WOp} {w w' : W} {t : Str} :
    WOp.exec c (op :: b) w = some (t, w') ↔
      ∃ t1 w1 t2, WOp.exec1 c op w = some (t1, w1) ∧ WOp.exec c b w1 = some (t2, w') ∧
        t = t1 ++ t2 := by
  rw [exec_cons, andThen_some]
  constructor
  · rintro ⟨a, w1, b, w2, h1, h2, h3⟩
    injection h3 with h3 h4
    subst h4
    exact ⟨a, w1, b, h1, h2, h3⟩
  · rintro ⟨a, w1, b, h1, h2, h3⟩
    exact ⟨a, w1, b, w', h1, h2, by rw [h3]⟩

theorem exec_single (c : WConfig) (op : WOp) (w : W) : WOp.exec c [op] w = WOp.exec1 c op w := by
  rw [exec_cons]
  cases h : WOp.exec1 c op w with
  | none => rfl
  | some p => simp [andThen, exec_nil]

theorem silent_some {w : Option W} {t : Str} {w' : W} :
    silent w = some (t, w') ↔ w = some w' ∧ t = [] := by
  cases w with
  | none => simp [silent]
  | some x =>
    simp only [silent, Option.map_some, Option.some.injEq, Prod.mk.injEq]
    exact ⟨fun h => ⟨h.2, h.1.symm⟩, fun h => ⟨h.2.symm, h.1⟩⟩

/-- How the two branches of a try are chosen. -/
theorem exec_tryElse {c : WConfig} {max : Nat} {h v : List WOp} {w w' : W} {t : Str}
    (hx : WOp.exec1 c (.tryElse max h v) w = some (t, w')) :
    (∃ m, w.lineLength ≤ max ∧ WOp.exec c h w.measurer = some (t, m) ∧ m.maxLineLength ≤ max ∧
        w.flush t = some (t, w')) ∨
      WOp.exec c v w = some (t, w') := by
  simp only [WOp.exec1, W.tryFlush] at hx
  split at hx
  · exact .inr hx
  · rename_i hlen
    cases hm : WOp.exec c h w.measurer with
    | none => simp [hm, W.orElse] at hx
    | some p =>
      obtain ⟨b, m⟩ := p
      simp only [hm] at hx
      split at hx
      · exact .inr hx
      · rename_i hmax
        refine .inl ?_
        cases hf : w.flush b with
        | none => simp [hf, W.orElse] at hx
        | some q =>
          obtain ⟨b', w2⟩ := q
          have hb : b' = b := by
            unfold W.flush W.put at hf
            split at hf
            · rename_i he; simp only [Option.some.injEq, Prod.mk.injEq] at hf; rw [← hf.1, he]
            · simp only [if_true, Option.some.injEq, Prod.mk.injEq] at hf; exact hf.1.symm
          simp only [hf, Option.map_some, W.orElse, Option.some.injEq, Prod.mk.injEq] at hx
          obtain ⟨h1, h2⟩ := hx
          subst h1; subst h2; subst hb
          exact ⟨m, Nat.le_of_not_lt hlen, rfl, Nat.le_of_not_lt hmax, hf⟩

/-! ## What the recorded lengths bound -/

/-- What a run does: written after a line of at most `lineLength` bytes, all the lines are within the
recorded maximum and the last one is within the recorded length. -/
structure Bounds (w : W) (t : Str) (w' : W) : Prop where
  fits : Fits w'.maxLineLength w.lineLength t
  last : endLen w.lineLength t ≤ w'.lineLength
  len : w'.lineLength ≤ w'.maxLineLength
  grow : w.maxLineLength ≤ w'.maxLineLength

theorem bounds_refl {w w' : W} (h : w.lineLength ≤ w.maxLineLength)
    (h1 : w'.lineLength = w.lineLength) (h2 : w'.maxLineLength = w.maxLineLength) :
    Bounds w [] w' := by
  refine ⟨?_, ?_, ?_, ?_⟩
  · show w.lineLength ≤ w'.maxLineLength; omega
  · show w.lineLength ≤ w'.lineLength; omega
  · omega
  · omega

theorem bounds_trans {w w1 w2 : W} {a b : Str} (h1 : Bounds w a w1) (h2 : Bounds w1 b w2) :
    Bounds w (a ++ b) w2 := by
  refine ⟨?_, ?_, h2.len, Nat.le_trans h1.grow h2.grow⟩
  · rw [Fits.append]
    exact ⟨h1.fits.mono h2.grow, h2.fits.anti h1.last⟩
  · rw [endLen_append]
    exact Nat.le_trans (endLen_mono h1.last b) h2.last

theorem bounds_put {w w' : W} {s t : Str} (h : w.lineLength ≤ w.maxLineLength)
    (hp : w.put s = some (t, w')) : Bounds w t w' := by
  unfold W.put at hp
  split at hp
  · simp only [Option.some.injEq, Prod.mk.injEq] at hp
    obtain ⟨rfl, rfl⟩ := hp
    exact bounds_refl h rfl rfl
  split at hp
  · simp only [Option.some.injEq, Prod.mk.injEq] at hp
    obtain ⟨rfl, rfl⟩ := hp
    have hm : w.lineLength + byteLen s ≤ Nat.max w.maxLineLength (w.lineLength + byteLen s) :=
      Nat.le_max_right ..
    exact ⟨Fits.of_le hm, endLen_le _ _, hm, Nat.le_max_left ..⟩
  · split at hp
    · simp at hp
    · rename_i n rest _
      simp only [Option.some.injEq, Prod.mk.injEq] at hp
      obtain ⟨rfl, rfl⟩ := hp
      have hl : byteLen (List.replicate n ' ' ++ s) = n + byteLen s := by
        rw [byteLen_append, byteLen_spaces]
      have hm : w.lineLength + n + byteLen s ≤
          Nat.max w.maxLineLength (w.lineLength + n + byteLen s) := Nat.le_max_right ..
      refine ⟨Fits.of_le (by simp only [W.wrote]; rw [hl]; omega), ?_, hm, Nat.le_max_left ..⟩
      have := endLen_le w.lineLength (List.replicate n ' ' ++ s)
      rw [hl] at this
      simp only [W.wrote]; omega

theorem bounds_silent {w w' : W} {t : Str} {o : Option W} (h : w.lineLength ≤ w.maxLineLength)
    (hs : silent o = some (t, w'))
    (ho : ∀ x, o = some x → x.lineLength = w.lineLength ∧ x.maxLineLength = w.maxLineLength) :
    Bounds w t w' := by
  obtain ⟨h1, rfl⟩ := silent_some.mp hs
  exact bounds_refl h (ho _ h1).1 (ho _ h1).2

mutual
theorem bounds_exec1 (c : WConfig) : ∀ (op : WOp) {w w' : W} {t : Str},
    w.lineLength ≤ w.maxLineLength → WOp.exec1 c op w = some (t, w') → Bounds w t w'
  | .text s, w, w', t, h, hx => bounds_put h (by simpa [WOp.exec1] using hx)
  | .raw s, w, w', t, h, hx =>
    have := bounds_put (w := { w with lineStarted := true }) h (by simpa [WOp.exec1] using hx)
    ⟨this.fits, this.last, this.len, this.grow⟩
  | .newLine, w, w', t, h, hx => by
    simp only [WOp.exec1, Option.some.injEq, Prod.mk.injEq] at hx
    obtain ⟨rfl, rfl⟩ := hx
    exact ⟨fits_ending _ h, by rw [endLen_ending]; exact Nat.zero_le _, Nat.zero_le _,
      Nat.le_refl _⟩
  | .newLineIfNotStart, w, w', t, h, hx => by
    simp only [WOp.exec1] at hx
    split at hx
    · simp only [Option.some.injEq, Prod.mk.injEq] at hx
      obtain ⟨rfl, rfl⟩ := hx
      exact bounds_refl h rfl rfl
    · simp only [Option.some.injEq, Prod.mk.injEq] at hx
      obtain ⟨rfl, rfl⟩ := hx
      exact ⟨fits_ending _ h, by rw [endLen_ending]; exact Nat.zero_le _, Nat.zero_le _,
        Nat.le_refl _⟩
  | .pushTab, w, w', t, h, hx => by
    refine bounds_silent h (by simpa [WOp.exec1] using hx) ?_
    intro x hx
    unfold W.pushTab at hx
    split at hx
    · simp at hx
    · split at hx
      · simp at hx
      · simp only [Option.some.injEq] at hx; subst hx; exact ⟨rfl, rfl⟩
  | .pushSpaces n, w, w', t, h, hx => by
    simp only [WOp.exec1, Option.some.injEq, Prod.mk.injEq] at hx
    obtain ⟨rfl, rfl⟩ := hx
    exact bounds_refl h rfl rfl
  | .pushAlign, w, w', t, h, hx => by
    refine bounds_silent h (by simpa [WOp.exec1] using hx) ?_
    intro x hx
    unfold W.pushAlign at hx
    split at hx
    · simp only [Option.some.injEq] at hx; subst hx; exact ⟨rfl, rfl⟩
    · split at hx
      · simp at hx
      · simp only [Option.some.injEq] at hx; subst hx; exact ⟨rfl, rfl⟩
  | .pop, w, w', t, h, hx => by
    refine bounds_silent h (by simpa [WOp.exec1] using hx) ?_
    intro x hx
    unfold W.pop at hx
    split at hx
    · simp at hx
    · simp only [Option.some.injEq] at hx; subst hx; exact ⟨rfl, rfl⟩
  | .tryElse max hs vs, w, w', t, h, hx => by
    rcases exec_tryElse hx with ⟨m, hlen, hm, hmax, hf⟩ | hv
    · have hb := bounds_put (w := { w with lineStarted := true }) h hf
      exact ⟨hb.fits, hb.last, hb.len, hb.grow⟩
    · exact bounds_exec c vs h hv
  | .panic, w, w', t, h, hx => by simp [WOp.exec1] at hx
theorem bounds_exec (c : WConfig) : ∀ (ops : List WOp) {w w' : W} {t : Str},
    w.lineLength ≤ w.maxLineLength → WOp.exec c ops w = some (t, w') → Bounds w t w'
  | [], w, w', t, h, hx => by
    rw [exec_nil] at hx
    simp only [Option.some.injEq, Prod.mk.injEq] at hx
    obtain ⟨rfl, rfl⟩ := hx
    exact bounds_refl h rfl rfl
  | op :: ops, w, w', t, h, hx => by
    obtain ⟨t1, w1, t2, h1, h2, rfl⟩ := exec_cons_some.mp hx
    have b1 := bounds_exec1 c op h h1
    exact bounds_trans b1 (bounds_exec c ops b1.len h2)
end

end Cbindgen
