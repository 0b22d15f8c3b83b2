import Verif.Model.LibConfig

/-!
# Words and underscores: reading back a mangled name

Trees of words stand for generic types without pointers, arrays and functions.
-/

namespace Cbindgen.Mangle

/-- A word applied to arguments. -/
inductive Tree
  | node (w : Str) (ts : List Tree)

mutual
/-- A tree that is followed by something. -/
def full : Tree → Str
  | .node w ts => w ++ fullArgs ts
/-- The arguments with brackets. -/
def fullArgs : List Tree → Str
  | [] => []
  | t :: ts => '_' :: (full t ++ fullRest ts)
/-- The arguments after the first one and the closing bracket. -/
def fullRest : List Tree → Str
  | [] => ['_', '_', '_']
  | t :: ts => '_' :: '_' :: (full t ++ fullRest ts)
end

mutual
/-- A tree at the end. -/
def final : Tree → Str
  | .node w ts => w ++ finalArgs ts
def finalArgs : List Tree → Str
  | [] => []
  | t :: ts => '_' :: (finalArg t ts ++ finalRest ts)
/-- One argument, before others. -/
def finalArg (t : Tree) : List Tree → Str
  | [] => final t
  | _ :: _ => full t
def finalRest : List Tree → Str
  | [] => []
  | t :: ts => '_' :: '_' :: (finalArg t ts ++ finalRest ts)
end

/-- A word: not empty, without underscores. -/
def Word (w : Str) : Prop := w ≠ [] ∧ '_' ∉ w

mutual
def Good : Tree → Prop
  | .node w ts => Word w ∧ GoodList ts
def GoodList : List Tree → Prop
  | [] => True
  | t :: ts => Good t ∧ GoodList ts
end

/-- Nothing, or an underscore first. -/
def Sep (s : Str) : Prop := s = [] ∨ ∃ r, s = '_' :: r

/-- Two underscores first. -/
def Sep2 (s : Str) : Prop := ∃ r, s = '_' :: '_' :: r

theorem Sep2.sep {s : Str} (h : Sep2 s) : Sep s := by
  obtain ⟨r, rfl⟩ := h
  exact .inr ⟨_, rfl⟩

theorem word_inj {w w' s s' : Str} (hw : '_' ∉ w) (hw' : '_' ∉ w') (hs : Sep s) (hs' : Sep s')
    (h : w ++ s = w' ++ s') : w = w' ∧ s = s' := by
  induction w generalizing w' with
  | nil =>
    cases w' with
    | nil => exact ⟨rfl, h⟩
    | cons c w' =>
      simp only [List.nil_append, List.cons_append] at h
      rcases hs with hs | ⟨r, hs⟩
      · rw [hs] at h; simp at h
      · rw [hs] at h
        simp only [List.cons.injEq] at h
        exact absurd (by rw [h.1]; simp) hw'
  | cons c w ih =>
    cases w' with
    | nil =>
      simp only [List.nil_append, List.cons_append] at h
      rcases hs' with hs | ⟨r, hs⟩
      · rw [hs] at h; simp at h
      · rw [hs] at h
        simp only [List.cons.injEq] at h
        exact absurd (by simp [h.1]) hw
    | cons c' w' =>
      simp only [List.cons_append, List.cons.injEq] at h
      obtain ⟨rfl, k⟩ := h
      have := ih (w' := w') (fun h => hw (by simp [h])) (fun h => hw' (by simp [h])) k
      exact ⟨by rw [this.1], this.2⟩

/-- A tree does not start with an underscore. -/
theorem word_head {w s r : Str} (hw : Word w) (h : w ++ s = '_' :: r) : False := by
  obtain ⟨h1, h2⟩ := hw
  cases w with
  | nil => exact h1 rfl
  | cons c w =>
    simp only [List.cons_append, List.cons.injEq] at h
    exact h2 (by simp [h.1])

theorem full_head {t : Tree} {s r : Str} (ht : Good t) (h : full t ++ s = '_' :: r) : False := by
  obtain ⟨w, ts⟩ := t
  simp only [full, List.append_assoc] at h
  exact word_head ht.1 h

theorem final_head {t : Tree} {s r : Str} (ht : Good t) (h : final t ++ s = '_' :: r) : False := by
  obtain ⟨w, ts⟩ := t
  simp only [final, List.append_assoc] at h
  exact word_head ht.1 h

theorem finalArg_head {t : Tree} {ts : List Tree} {s r : Str} (ht : Good t)
    (h : finalArg t ts ++ s = '_' :: r) : False := by
  cases ts with
  | nil => exact final_head ht (by simpa [finalArg] using h)
  | cons u us => exact full_head ht (by simpa [finalArg] using h)

theorem fullRest_sep2 (ts : List Tree) (s : Str) : Sep2 (fullRest ts ++ s) := by
  cases ts with
  | nil => exact ⟨_, by simp [fullRest]; rfl⟩
  | cons t ts => exact ⟨_, by simp [fullRest]; rfl⟩

theorem fullArgs_sep (ts : List Tree) {s : Str} (hs : Sep2 s) : Sep (fullArgs ts ++ s) := by
  cases ts with
  | nil => simpa [fullArgs] using hs.sep
  | cons t ts => exact .inr ⟨_, by simp [fullArgs]; rfl⟩

theorem finalArgs_sep (ts : List Tree) : Sep (finalArgs ts) := by
  cases ts with
  | nil => exact .inl (by simp [finalArgs])
  | cons t ts => exact .inr ⟨_, by simp [finalArgs]; rfl⟩

theorem finalRest_sep2 (t : Tree) (ts : List Tree) : Sep2 (finalRest (t :: ts)) :=
  ⟨_, by simp [finalRest]; rfl⟩

/-! ## Trees that are followed by something -/

mutual
theorem full_inj : ∀ (t t' : Tree) (s s' : Str), Good t → Good t' → Sep2 s → Sep2 s' →
    full t ++ s = full t' ++ s' → t = t' ∧ s = s'
  | .node w ts, .node w' ts', s, s', ht, ht', hs, hs', h => by
    simp only [full, List.append_assoc] at h
    obtain ⟨rfl, k⟩ := word_inj ht.1.2 ht'.1.2 (fullArgs_sep ts hs) (fullArgs_sep ts' hs') h
    obtain ⟨rfl, rfl⟩ := fullArgs_inj ts ts' s s' ht.2 ht'.2 hs hs' k
    exact ⟨rfl, rfl⟩
theorem fullArgs_inj : ∀ (ts ts' : List Tree) (s s' : Str), GoodList ts → GoodList ts' → Sep2 s →
    Sep2 s' → fullArgs ts ++ s = fullArgs ts' ++ s' → ts = ts' ∧ s = s'
  | [], [], s, s', _, _, _, _, h => by
    simp only [fullArgs, List.nil_append] at h
    exact ⟨rfl, h⟩
  | [], t' :: ts', s, s', _, ht', hs, _, h => by
    obtain ⟨r, rfl⟩ := hs
    simp only [fullArgs, List.nil_append, List.cons_append, List.cons.injEq, true_and,
      List.append_assoc] at h
    exact (full_head ht'.1 h.symm).elim
  | t :: ts, [], s, s', ht, _, _, hs', h => by
    obtain ⟨r, rfl⟩ := hs'
    simp only [fullArgs, List.nil_append, List.cons_append, List.cons.injEq, true_and,
      List.append_assoc] at h
    exact (full_head ht.1 h).elim
  | t :: ts, t' :: ts', s, s', ht, ht', hs, hs', h => by
    simp only [fullArgs, List.cons_append, List.cons.injEq, true_and, List.append_assoc] at h
    obtain ⟨rfl, k⟩ := full_inj t t' _ _ ht.1 ht'.1 (fullRest_sep2 ts s) (fullRest_sep2 ts' s') h
    obtain ⟨rfl, rfl⟩ := fullRest_inj ts ts' s s' ht.2 ht'.2 hs hs' k
    exact ⟨rfl, rfl⟩
theorem fullRest_inj : ∀ (ts ts' : List Tree) (s s' : Str), GoodList ts → GoodList ts' → Sep2 s →
    Sep2 s' → fullRest ts ++ s = fullRest ts' ++ s' → ts = ts' ∧ s = s'
  | [], [], s, s', _, _, _, _, h => by
    simp only [fullRest, List.cons_append, List.cons.injEq, true_and, List.nil_append] at h
    exact ⟨rfl, h⟩
  | [], t' :: ts', s, s', _, ht', _, _, h => by
    simp only [fullRest, List.nil_append, List.cons_append, List.cons.injEq, true_and,
      List.append_assoc] at h
    exact (full_head ht'.1 h.symm).elim
  | t :: ts, [], s, s', ht, _, _, _, h => by
    simp only [fullRest, List.nil_append, List.cons_append, List.cons.injEq, true_and,
      List.append_assoc] at h
    exact (full_head ht.1 h).elim
  | t :: ts, t' :: ts', s, s', ht, ht', hs, hs', h => by
    simp only [fullRest, List.cons_append, List.cons.injEq, true_and, List.append_assoc] at h
    obtain ⟨rfl, k⟩ := full_inj t t' _ _ ht.1 ht'.1 (fullRest_sep2 ts s) (fullRest_sep2 ts' s') h
    obtain ⟨rfl, rfl⟩ := fullRest_inj ts ts' s s' ht.2 ht'.2 hs hs' k
    exact ⟨rfl, rfl⟩
end

/-! ## Trees at the end -/

mutual
/-- A tree at the end is no tree that is followed by something. -/
theorem final_ne_full : ∀ (t t' : Tree) (s : Str), Good t → Good t' → Sep2 s →
    final t ≠ full t' ++ s
  | .node w ts, .node w' ts', s, ht, ht', hs, h => by
    simp only [full, final, List.append_assoc] at h
    obtain ⟨rfl, k⟩ := word_inj ht.1.2 ht'.1.2 (finalArgs_sep ts) (fullArgs_sep ts' hs) h
    exact finalArgs_ne_full ts ts' s ht.2 ht'.2 hs k
theorem finalArgs_ne_full : ∀ (ts ts' : List Tree) (s : Str), GoodList ts → GoodList ts' → Sep2 s →
    finalArgs ts ≠ fullArgs ts' ++ s
  | [], [], s, _, _, hs, h => by
    obtain ⟨r, rfl⟩ := hs
    simp [finalArgs, fullArgs] at h
  | [], t' :: ts', s, _, _, _, h => by simp [finalArgs, fullArgs] at h
  | t :: ts, [], s, ht, _, hs, h => by
    obtain ⟨r, rfl⟩ := hs
    simp only [finalArgs, fullArgs, List.nil_append, List.cons.injEq, true_and] at h
    exact finalArg_head ht.1 h
  | [t], t' :: ts', s, ht, ht', hs, h => by
    simp only [finalArgs, finalArg, finalRest, fullArgs, List.append_nil, List.cons_append,
      List.cons.injEq, true_and, List.append_assoc] at h
    exact final_ne_full t t' _ ht.1 ht'.1 (fullRest_sep2 ts' s) h
  | t :: u :: us, t' :: ts', s, ht, ht', hs, h => by
    have e : finalArgs (t :: u :: us) = '_' :: (full t ++ finalRest (u :: us)) := by
      simp [finalArgs, finalArg]
    rw [e] at h
    simp only [fullArgs, List.cons_append, List.cons.injEq, true_and, List.append_assoc] at h
    obtain ⟨_, k⟩ := full_inj t t' _ _ ht.1 ht'.1 (finalRest_sep2 u us) (fullRest_sep2 ts' s) h
    exact finalRest_ne_full (u :: us) ts' s ht.2 ht'.2 hs k
theorem finalRest_ne_full : ∀ (ts ts' : List Tree) (s : Str), GoodList ts → GoodList ts' → Sep2 s →
    finalRest ts ≠ fullRest ts' ++ s
  | [], ts', s, _, _, _, h => by
    obtain ⟨r, hr⟩ := fullRest_sep2 ts' s
    rw [hr] at h
    simp [finalRest] at h
  | t :: ts, [], s, ht, _, _, h => by
    simp only [finalRest, fullRest, List.cons_append, List.cons.injEq, true_and] at h
    exact finalArg_head ht.1 h
  | [t], t' :: ts', s, ht, ht', hs, h => by
    simp only [finalArg, finalRest, fullRest, List.append_nil, List.cons_append,
      List.cons.injEq, true_and, List.append_assoc] at h
    exact final_ne_full t t' _ ht.1 ht'.1 (fullRest_sep2 ts' s) h
  | t :: u :: us, t' :: ts', s, ht, ht', hs, h => by
    have e : finalRest (t :: u :: us) = '_' :: '_' :: (full t ++ finalRest (u :: us)) := by
      rw [finalRest]; simp [finalArg]
    rw [e] at h
    simp only [fullRest, List.cons_append, List.cons.injEq, true_and, List.append_assoc] at h
    obtain ⟨_, k⟩ := full_inj t t' _ _ ht.1 ht'.1 (finalRest_sep2 u us) (fullRest_sep2 ts' s) h
    exact finalRest_ne_full (u :: us) ts' s ht.2 ht'.2 hs k
end

mutual
theorem final_inj : ∀ (t t' : Tree), Good t → Good t' → final t = final t' → t = t'
  | .node w ts, .node w' ts', ht, ht', h => by
    simp only [final] at h
    obtain ⟨rfl, k⟩ := word_inj ht.1.2 ht'.1.2 (finalArgs_sep ts) (finalArgs_sep ts') h
    rw [finalArgs_inj ts ts' ht.2 ht'.2 k]
theorem finalArgs_inj : ∀ (ts ts' : List Tree), GoodList ts → GoodList ts' →
    finalArgs ts = finalArgs ts' → ts = ts'
  | [], [], _, _, _ => rfl
  | [], t' :: ts', _, _, h => by simp [finalArgs] at h
  | t :: ts, [], _, _, h => by simp [finalArgs] at h
  | [t], [t'], ht, ht', h => by
    simp only [finalArgs, finalArg, finalRest, List.append_nil, List.cons.injEq, true_and] at h
    rw [final_inj t t' ht.1 ht'.1 h]
  | [t], t' :: u' :: us', ht, ht', h => by
    have e : finalArgs (t' :: u' :: us') = '_' :: (full t' ++ finalRest (u' :: us')) := by
      simp [finalArgs, finalArg]
    rw [e] at h
    simp only [finalArgs, finalArg, finalRest, List.append_nil, List.cons.injEq, true_and] at h
    exact (final_ne_full t t' _ ht.1 ht'.1 (finalRest_sep2 u' us') (by rw [h, finalRest])).elim
  | t :: u :: us, [t'], ht, ht', h => by
    have e : finalArgs (t :: u :: us) = '_' :: (full t ++ finalRest (u :: us)) := by
      simp [finalArgs, finalArg]
    rw [e] at h
    simp only [finalArgs, finalArg, finalRest, List.append_nil, List.cons.injEq, true_and] at h
    exact (final_ne_full t' t _ ht'.1 ht.1 (finalRest_sep2 u us) (by rw [← h, finalRest])).elim
  | t :: u :: us, t' :: u' :: us', ht, ht', h => by
    have e : finalArgs (t :: u :: us) = '_' :: (full t ++ finalRest (u :: us)) := by
      simp [finalArgs, finalArg]
    have e' : finalArgs (t' :: u' :: us') = '_' :: (full t' ++ finalRest (u' :: us')) := by
      simp [finalArgs, finalArg]
    rw [e, e', List.cons.injEq] at h
    obtain ⟨rfl, k⟩ := full_inj t t' _ _ ht.1 ht'.1 (finalRest_sep2 u us) (finalRest_sep2 u' us') h.2
    rw [finalRest_inj (u :: us) (u' :: us') ht.2 ht'.2 k]
theorem finalRest_inj : ∀ (ts ts' : List Tree), GoodList ts → GoodList ts' →
    finalRest ts = finalRest ts' → ts = ts'
  | [], [], _, _, _ => rfl
  | [], t' :: ts', _, _, h => by simp [finalRest] at h
  | t :: ts, [], _, _, h => by simp [finalRest] at h
  | [t], [t'], ht, ht', h => by
    simp only [finalArg, finalRest, List.append_nil, List.cons.injEq, true_and] at h
    rw [final_inj t t' ht.1 ht'.1 h]
  | [t], t' :: u' :: us', ht, ht', h => by
    have e : finalRest (t' :: u' :: us') = '_' :: '_' :: (full t' ++ finalRest (u' :: us')) := by
      rw [finalRest]; simp [finalArg]
    rw [e] at h
    simp only [finalRest, finalArg, List.append_nil, List.cons.injEq, true_and] at h
    exact (final_ne_full t t' _ ht.1 ht'.1 (finalRest_sep2 u' us') (by rw [h, finalRest])).elim
  | t :: u :: us, [t'], ht, ht', h => by
    have e : finalRest (t :: u :: us) = '_' :: '_' :: (full t ++ finalRest (u :: us)) := by
      rw [finalRest]; simp [finalArg]
    rw [e] at h
    simp only [finalRest, finalArg, List.append_nil, List.cons.injEq, true_and] at h
    exact (final_ne_full t' t _ ht'.1 ht.1 (finalRest_sep2 u us) (by rw [← h, finalRest])).elim
  | t :: u :: us, t' :: u' :: us', ht, ht', h => by
    have e : finalRest (t :: u :: us) = '_' :: '_' :: (full t ++ finalRest (u :: us)) := by
      rw [finalRest]; simp [finalArg]
    have e' : finalRest (t' :: u' :: us') = '_' :: '_' :: (full t' ++ finalRest (u' :: us')) := by
      rw [finalRest]; simp [finalArg]
    rw [e, e', List.cons.injEq, List.cons.injEq] at h
    obtain ⟨rfl, k⟩ := full_inj t t' _ _ ht.1 ht'.1 (finalRest_sep2 u us) (finalRest_sep2 u' us')
      h.2.2
    rw [finalRest_inj (u :: us) (u' :: us') ht.2 ht'.2 k]
end

end Cbindgen.Mangle
