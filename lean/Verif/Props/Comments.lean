import Verif.Spec.Comments
import Verif.Spec.Constants
import Verif.Model.OutConfig
import Verif.Lemmas.Writer
import Verif.Props.Docs

/-!
# C23: documentation stays inside its comment
-/

namespace Cbindgen
open TextSpec CommentSpec ConstSpec

/-! ## Readers -/

theorem scan_append (m : Mode) (a b : Str) : scan m (a ++ b) = (scan m a).bind (scan · b) := by
  induction a generalizing m with
  | nil => rfl
  | cons c a ih =>
    simp only [List.cons_append, scan]
    cases step m c with
    | none => rfl
    | some m' => simpa using ih m'

theorem pyScan_append (m : Bool) (a b : Str) : pyScan m (a ++ b) = (pyScan m a).bind (pyScan · b) := by
  induction a generalizing m with
  | nil => rfl
  | cons c a ih =>
    simp only [List.cons_append, pyScan]
    cases pyStep m c with
    | none => rfl
    | some m' => simpa using ih m'

theorem splice_cons {c : Char} {cs : Str} (h : c ≠ '\\' ∨ ∀ d ds, cs = d :: ds → isBreak d = false) :
    splice (c :: cs) = c :: splice cs := by
  rw [splice.eq_def]
  split
  · rename_i he; cases he
    rcases h with h | h
    · exact absurd rfl h
    · exact absurd (h _ _ rfl) (by decide)
  · rename_i he; cases he
    rcases h with h | h
    · exact absurd rfl h
    · exact absurd (h _ _ rfl) (by decide)
  · rename_i he; cases he
    rcases h with h | h
    · exact absurd rfl h
    · exact absurd (h _ _ rfl) (by decide)
  · rename_i he; cases he; rfl
  · rename_i he; cases he

/-- A text on one line that does not end in a backslash stays as it is. -/
theorem splice_oneLine {a b : Str} (h : OneLine a) (hb : a.getLast? ≠ some '\\') :
    splice (a ++ b) = a ++ splice b := by
  induction a with
  | nil => rfl
  | cons c a ih =>
    have h1 : OneLine a := fun d hd => h d (by simp [hd])
    cases a with
    | nil =>
      have : c ≠ '\\' := by simpa using hb
      rw [List.singleton_append, splice_cons (.inl this)]; rfl
    | cons d a =>
      rw [List.cons_append, splice_cons (.inr ?_), ih h1 (by simpa using hb)]
      · rfl
      · intro x xs hx; cases hx; exact h d (by simp)

theorem splice_break (e : LineEnding) (b : Str) : splice (e.asStr ++ b) = e.asStr ++ splice b := by
  cases e <;> simp [LineEnding.asStr, splice_cons (.inl (by decide : '\n' ≠ '\\')),
    splice_cons (.inl (by decide : '\r' ≠ '\\'))]

theorem splice_joined {a b : Str} (h : OneLine (a ++ ['\\'])) (e : LineEnding) (hb : e = .cr → '\n' ∉ b) :
    splice ((a ++ ['\\']) ++ e.asStr ++ b) = a ++ splice b := by
  induction a with
  | nil =>
    have h13 : '\n' ∉ b → splice ('\\' :: '\r' :: b) = splice b := by
      intro hn
      cases b with
      | nil => rfl
      | cons d ds =>
        have hd : d ≠ '\n' := by rintro rfl; exact hn (by simp)
        rw [splice.eq_def]
        split
        · rename_i he; cases he; exact absurd rfl hd
        · rename_i he; cases he; rfl
        · rename_i he; cases he
        · rename_i h1 h2 he; cases he; exact absurd rfl (h1 (d :: ds) rfl)
        · rename_i he; cases he
    cases e with
    | cr => exact h13 (hb rfl)
    | _ => rfl
  | cons c a ih =>
    have h1 : OneLine (a ++ ['\\']) := fun d hd => h d (by simp at hd ⊢; exact .inr hd)
    have : splice (c :: (a ++ ['\\'] ++ e.asStr ++ b)) = c :: splice (a ++ ['\\'] ++ e.asStr ++ b) := by
      apply splice_cons
      right
      intro d ds hd
      cases a with
      | nil => simp at hd; rw [← hd.1]; decide
      | cons x a => simp at hd; rw [← hd.1]; exact h1 x (by simp)
    rw [List.cons_append, List.cons_append, List.cons_append, this, ih h1]
    rfl

theorem getLast_form {s : Str} (h : s.getLast? = some '\\') : ∃ a, s = a ++ ['\\'] := by
  rw [List.getLast?_eq_some_iff] at h
  exact h

theorem scan_line {s : Str} (h : OneLine s) : scan .line s = some .line := by
  induction s with
  | nil => rfl
  | cons c s ih =>
    have hc := h c (by simp)
    simp only [scan, step, hc, Bool.false_eq_true, if_false]
    exact ih fun d hd => h d (by simp [hd])

theorem scan_spaces (n : Nat) : scan .code (List.replicate n ' ') = some .code := by
  induction n with
  | zero => rfl
  | succ n ih => rw [List.replicate_succ]; exact ih

theorem scan_line_break (e : LineEnding) : scan .line e.asStr = some .code := by
  cases e <;> rfl

theorem oneLine_spaces (n : Nat) : OneLine (List.replicate n ' ') := by
  intro c hc
  rw [(List.mem_replicate.mp hc).2]; decide

theorem oneLine_append {a b : Str} (ha : OneLine a) (hb : OneLine b) : OneLine (a ++ b) := by
  intro c hc
  rcases List.mem_append.mp hc with h | h
  · exact ha c h
  · exact hb c h

/-! ## The text of a comment -/

/-- The text of one line. -/
theorem docLine_text {c : WConfig} {p l t : Str} {w w' : W}
    (h : WOp.exec c [.text p, .text l, .newLine] w = some (t, w')) :
    ∃ n, t = List.replicate n ' ' ++ (p ++ l) ++ c.lineEnding.asStr := by
  obtain ⟨t1, w1, t2, h1, h2, rfl⟩ := exec_cons_some.mp h
  obtain ⟨t3, w2, t4, h3, h4, rfl⟩ := exec_cons_some.mp h2
  rw [exec_single] at h4
  simp only [WOp.exec1, Option.some.injEq, Prod.mk.injEq] at h1 h3 h4
  obtain ⟨rfl, rfl⟩ := h4
  have put_started : ∀ {s t : Str} {v v' : W}, v.put s = some (t, v') → v.lineStarted = true →
      t = s ∧ v'.lineStarted = true := by
    intro s t v v' hp hv
    unfold W.put at hp
    rw [if_pos hv] at hp
    split at hp
    · rename_i he
      simp only [Option.some.injEq, Prod.mk.injEq] at hp
      obtain ⟨rfl, rfl⟩ := hp
      exact ⟨he.symm, hv⟩
    · simp only [Option.some.injEq, Prod.mk.injEq] at hp
      obtain ⟨rfl, rfl⟩ := hp
      exact ⟨rfl, by simpa [W.wrote] using hv⟩
  have put_pad : ∀ {s t : Str} {v v' : W}, v.put s = some (t, v') →
      (∃ n, t = List.replicate n ' ' ++ s) ∧ (v'.lineStarted = true ∨ (s = [] ∧ t = [] ∧ v' = v)) := by
    intro s t v v' hp
    unfold W.put at hp
    split at hp
    · rename_i he
      simp only [Option.some.injEq, Prod.mk.injEq] at hp
      obtain ⟨rfl, rfl⟩ := hp
      exact ⟨⟨0, by simp [he]⟩, .inr ⟨he, rfl, rfl⟩⟩
    · split at hp
      · rename_i hs
        simp only [Option.some.injEq, Prod.mk.injEq] at hp
        obtain ⟨rfl, rfl⟩ := hp
        exact ⟨⟨0, rfl⟩, .inl (by simpa [W.wrote] using hs)⟩
      · split at hp
        · cases hp
        · simp only [Option.some.injEq, Prod.mk.injEq] at hp
          obtain ⟨rfl, rfl⟩ := hp
          exact ⟨⟨_, rfl⟩, .inl (by simp [W.wrote])⟩
  obtain ⟨⟨n, rfl⟩, hs | ⟨rfl, he, rfl⟩⟩ := put_pad h1
  · obtain ⟨rfl, _⟩ := put_started h3 hs
    exact ⟨n, by simp⟩
  · obtain ⟨⟨k, rfl⟩, _⟩ := put_pad h3
    rw [he]
    exact ⟨k, by simp⟩

/-- The text of one line. -/
def LineText (c : WConfig) (p l t : Str) : Prop :=
  ∃ n, t = List.replicate n ' ' ++ (p ++ l) ++ c.lineEnding.asStr

theorem docLines_text {c : WConfig} {p : Str} : ∀ {ls : List Str} {w w' : W} {t : Str},
    WOp.exec c (ls.flatMap fun l => [.text p, .text l, .newLine]) w = some (t, w') →
    ∃ ts, t = ts.flatten ∧ TextsOf (LineText c p) ls ts
  | [], w, w', t, h => by
    rw [List.flatMap_nil, exec_nil] at h
    simp only [Option.some.injEq, Prod.mk.injEq] at h
    exact ⟨[], h.1.symm, .nil⟩
  | l :: ls, w, w', t, h => by
    rw [List.flatMap_cons] at h
    obtain ⟨t1, w1, t2, h1, h2, rfl⟩ := exec_append_some.mp h
    obtain ⟨ts, rfl, hts⟩ := docLines_text h2
    exact ⟨t1 :: ts, rfl, .cons (docLine_text h1) hts⟩

/-! ## Line comments -/

theorem no_feed {s : Str} (h : OneLine s) : '\n' ∉ s := fun hm => absurd (h _ hm) (by decide)

theorem no_feed_lines {c : WConfig} {p : Str} (hp : OneLine p) (hc : c.lineEnding = .cr) {ls ts : List Str}
    (h : TextsOf (LineText c p) ls ts) (ho : ∀ l ∈ ls, OneLine l) : '\n' ∉ ts.flatten := by
  induction h with
  | nil => simp
  | @cons l t ls ts h1 _ ih =>
    obtain ⟨n, rfl⟩ := h1
    have h2 := no_feed (oneLine_append (oneLine_spaces n) (oneLine_append hp (ho l (by simp))))
    have h3 := ih fun x hx => ho x (by simp [hx])
    rw [List.flatten_cons, List.mem_append, List.mem_append, hc]
    rintro ((h | h) | h)
    · exact h2 h
    · revert h; decide
    · exact h3 h

theorem lines_scan {c : WConfig} {p : Str} (hp : p = c!"//" ∨ p = c!"///") :
    ∀ {ls ts : List Str} {m : Mode}, (m = .code ∨ m = .line) → TextsOf (LineText c p) ls ts →
      (∀ l ∈ ls, OneLine l) → (∀ l, ls.getLast? = some l → l.getLast? ≠ some '\\') →
      (ls = [] → m = .code) → scan m (splice ts.flatten) = some .code
  | [], _, m, _, .nil, _, _, he => by rw [he rfl]; rfl
  | l :: ls, _, m, hm, .cons (t := t) (ts := ts) h1 hts, ho, hl, _ => by
    obtain ⟨n, rfl⟩ := h1
    have hpo : OneLine p := by rcases hp with rfl | rfl <;> (intro c hc; revert c; decide)
    have hol : OneLine l := ho l (by simp)
    have hline : OneLine (List.replicate n ' ' ++ (p ++ l)) :=
      oneLine_append (oneLine_spaces n) (oneLine_append hpo hol)
    have hstart : ∀ {s : Str}, OneLine s → ∀ {pre : Str}, pre = List.replicate n ' ' ++ p →
        scan m (pre ++ s) = some .line := by
      intro s hs pre hpre
      subst hpre
      rcases hm with rfl | rfl
      · rw [scan_append, scan_append, scan_spaces]
        have : scan .code p = some .line := by rcases hp with rfl | rfl <;> rfl
        simp only [Option.bind_some, this, scan_line hs]
      · exact scan_line (oneLine_append (oneLine_append (oneLine_spaces n) hpo) hs)
    rw [List.flatten_cons]
    by_cases hb : l.getLast? = some '\\'
    · obtain ⟨a, rfl⟩ := getLast_form hb
      have hls : ls ≠ [] := by
        rintro rfl
        exact hl (a ++ ['\\']) (by simp) hb
      have ha : OneLine a := fun x hx => hol x (by simp [hx])
      have hclean : c.lineEnding = .cr → '\n' ∉ ts.flatten := fun hc =>
        no_feed_lines hpo hc hts fun x hx => ho x (by simp [hx])
      have he : List.replicate n ' ' ++ (p ++ (a ++ ['\\'])) ++ c.lineEnding.asStr ++ ts.flatten =
          ((List.replicate n ' ' ++ p ++ a) ++ ['\\']) ++ c.lineEnding.asStr ++ ts.flatten := by simp
      rw [he, splice_joined (by simpa using hline) _ hclean, scan_append, hstart ha rfl, Option.bind_some]
      refine lines_scan hp (.inr rfl) hts (fun x hx => ho x (by simp [hx])) (fun x hx => hl x ?_) (fun h => absurd h hls)
      rw [List.getLast?_cons, hx]; rfl
    · have hb' : (List.replicate n ' ' ++ (p ++ l)).getLast? ≠ some '\\' := by
        cases l with
        | nil => rcases hp with rfl | rfl <;> simp
        | cons x xs =>
          rw [← List.append_assoc, List.getLast?_append]
          simp only [List.getLast?_cons] at hb ⊢
          simpa using hb
      rw [List.append_assoc, splice_oneLine hline hb', splice_break, ← List.append_assoc, scan_append,
        scan_append, ← List.append_assoc, hstart hol rfl, Option.bind_some, scan_line_break, Option.bind_some]
      refine lines_scan hp (.inl rfl) hts (fun x hx => ho x (by simp [hx])) (fun x hx => hl x ?_) (fun _ => rfl)
      rw [List.getLast?_cons, hx]; rfl

/-! ## Block comments -/

theorem scan_inside {s : Str} : ∀ {m : Mode}, (m = .block ∨ m = .star) → ¬ Closes s →
    (m = .star → ∀ cs, s ≠ '/' :: cs) →
    ∃ m', scan m s = some m' ∧ (m' = .block ∨ m' = .star) ∧ (m' = .star → s = [] ∨ s.getLast? = some '*') := by
  induction s with
  | nil => exact fun hm _ _ => ⟨_, rfl, hm, fun _ => .inl rfl⟩
  | cons c s ih =>
    intro m hm hc hs
    have hc' : ¬ Closes s := fun ⟨a, b, h⟩ => hc ⟨c :: a, b, by simp [← h]⟩
    have hnext : ∀ m', (m' = .block ∨ m' = .star) → (m' = .star → c = '*') →
        ∃ m'', scan m' s = some m'' ∧ (m'' = .block ∨ m'' = .star) ∧
          (m'' = .star → c :: s = [] ∨ (c :: s).getLast? = some '*') := by
      intro m' hm' hstar
      obtain ⟨m'', h1, h2, h3⟩ := ih hm' hc' (by
        intro h cs hcs
        exact hc ⟨[], cs, by rw [hstar h, hcs]; rfl⟩)
      refine ⟨m'', h1, h2, fun h => .inr ?_⟩
      rcases h3 h with rfl | h4
      · simp only [scan, Option.some.injEq] at h1
        rw [hstar (h1.trans h)]; rfl
      · rw [List.getLast?_cons, h4]; rfl
    rcases hm with rfl | rfl
    · simp only [scan, step, Option.bind_some]
      split
      · rename_i h; exact hnext _ (.inr rfl) fun _ => h
      · exact hnext _ (.inl rfl) (by intro h; cases h)
    · simp only [scan, step, Option.bind_some]
      split
      · rename_i h; subst h; exact absurd rfl (hs rfl s)
      · split
        · rename_i h; exact hnext _ (.inr rfl) fun _ => h
        · exact hnext _ (.inl rfl) (by intro h; cases h)

theorem scan_in_break {m : Mode} (hm : m = .block ∨ m = .star) (e : LineEnding) :
    scan m e.asStr = some .block := by
  rcases hm with rfl | rfl <;> cases e <;> rfl

theorem not_closes_pad {s : Str} (h : ¬ Closes s) (n : Nat) : ¬ Closes (List.replicate n ' ' ++ s) := by
  induction n with
  | zero => simpa using h
  | succ n ih =>
    rw [List.replicate_succ, List.cons_append]
    rintro ⟨a, b, he⟩
    cases a with
    | nil => simp at he
    | cons x a => simp at he; exact ih ⟨a, b, by simpa using he.2⟩

/-- The lines of a block comment and its end. -/
theorem block_scan {c : WConfig} {p : Str} (hp : p = [] ∨ p = c!" *") {k : Nat} :
    ∀ {ls ts : List Str} {m : Mode}, (m = .block ∨ (m = .star ∧ p = c!" *")) → TextsOf (LineText c p) ls ts →
      (∀ l ∈ ls, OneLine l ∧ ¬ Closes (p ++ l) ∧ (p = [] → ¬ c!"*\\" <:+ l)) →
      scan m (splice (ts.flatten ++ (List.replicate k ' ' ++ c!" */" ++ c.lineEnding.asStr))) = some .code
  | [], _, m, hm, .nil, _ => by
    have ho : OneLine (List.replicate k ' ' ++ c!" */") := oneLine_append (oneLine_spaces k) (by
      intro c hc; revert c; decide)
    rw [List.flatten_nil, List.nil_append, splice_oneLine ho (by simp), ← List.append_nil c.lineEnding.asStr,
      splice_break, scan_append, scan_append]
    have h1 : ∃ m', scan m (List.replicate k ' ') = some m' ∧ (m' = .block ∨ m' = .star) := by
      obtain ⟨m', h, h', _⟩ := scan_inside (s := List.replicate k ' ') (m := m)
        (by rcases hm with h | h; exact .inl h; exact .inr h.1)
        (by
          rintro ⟨a, b, he⟩
          have : '*' ∈ List.replicate k ' ' := by rw [← he]; simp
          rw [List.mem_replicate] at this
          exact absurd this.2 (by decide))
        (by
          rintro _ cs hcs
          have : '/' ∈ List.replicate k ' ' := by rw [hcs]; simp
          rw [List.mem_replicate] at this
          exact absurd this.2 (by decide))
      exact ⟨m', h, h'⟩
    obtain ⟨m', h, hm'⟩ := h1
    rw [h, Option.bind_some]
    have h2 : scan m' c!" */" = some .code := by rcases hm' with rfl | rfl <;> rfl
    rw [h2, Option.bind_some]
    cases c.lineEnding <;> rfl
  | l :: ls, _, m, hm, .cons (t := t) (ts := ts) h1 hts, ho => by
    obtain ⟨n, rfl⟩ := h1
    obtain ⟨hol, hcl, hbs⟩ := ho l (by simp)
    have hpo : OneLine p := by rcases hp with rfl | rfl <;> (intro c hc; revert c; decide)
    have hline : OneLine (List.replicate n ' ' ++ (p ++ l)) :=
      oneLine_append (oneLine_spaces n) (oneLine_append hpo hol)
    have hstar : m = .star → ∀ cs, List.replicate n ' ' ++ (p ++ l) ≠ '/' :: cs := by
      intro h cs he
      rcases hm with h' | ⟨_, rfl⟩
      · rw [h] at h'; cases h'
      · cases n <;> simp [List.replicate_succ] at he
    have hmm : m = .block ∨ m = .star := by
      rcases hm with h | h
      · exact .inl h
      · exact .inr h.1
    have hrest : ∀ x ∈ ls, OneLine x ∧ ¬ Closes (p ++ x) ∧ (p = [] → ¬ c!"*\\" <:+ x) :=
      fun x hx => ho x (by simp [hx])
    rw [List.flatten_cons, List.append_assoc]
    generalize hr : ts.flatten ++ (List.replicate k ' ' ++ c!" */" ++ c.lineEnding.asStr) = rest
    have ih : ∀ m', (m' = .block ∨ (m' = .star ∧ p = c!" *")) → scan m' (splice rest) = some .code := by
      intro m' hm'
      rw [← hr]
      exact block_scan hp hm' hts hrest
    by_cases hb : (List.replicate n ' ' ++ (p ++ l)).getLast? = some '\\'
    · obtain ⟨a, ha⟩ := getLast_form hb
      have hl : ∃ l', l = l' ++ ['\\'] := by
        apply getLast_form
        cases l with
        | nil =>
          rcases hp with rfl | rfl
          · rw [List.append_nil, List.append_nil] at hb
            have := List.mem_of_getLast? hb
            rw [List.mem_replicate] at this
            exact absurd this.2 (by decide)
          · simp at hb
        | cons x xs =>
          rw [← List.append_assoc, List.getLast?_append] at hb
          simpa [List.getLast?_cons] using hb
      have hclean : c.lineEnding = .cr → '\n' ∉ rest := by
        intro hc
        have h2 := no_feed_lines hpo hc hts fun x hx => (hrest x hx).1
        have h3 := no_feed (oneLine_spaces k)
        rw [← hr, hc]
        simp only [List.mem_append, not_or]
        exact ⟨h2, ⟨h3, by decide⟩, by decide⟩
      rw [ha, splice_joined (ha ▸ hline) _ hclean, scan_append]
      have hca : ¬ Closes a := by
        rintro ⟨x, y, he⟩
        exact not_closes_pad hcl n (by rw [ha, ← he]; exact ⟨x, y ++ ['\\'], by simp⟩)
      obtain ⟨m', h2, h3, h4⟩ := scan_inside hmm hca (by
        intro h cs he
        exact hstar h (cs ++ ['\\']) (by rw [ha, he]; rfl))
      rw [h2, Option.bind_some]
      apply ih
      rcases h3 with rfl | rfl
      · exact .inl rfl
      · rcases hp with rfl | rfl
        · exfalso
          obtain ⟨l', rfl⟩ := hl
          have hae : a = List.replicate n ' ' ++ l' := by
            have : a ++ ['\\'] = (List.replicate n ' ' ++ l') ++ ['\\'] := by rw [← ha]; simp
            exact List.append_cancel_right this
          rcases h4 rfl with rfl | h5
          · simp only [scan, Option.some.injEq] at h2
            rcases hm with rfl | ⟨_, h⟩
            · cases h2
            · cases h
          · obtain ⟨a', rfl⟩ := List.getLast?_eq_some_iff.mp h5
            apply hbs rfl
            cases hl' : l'.getLast? with
            | none =>
              rw [List.getLast?_eq_none_iff] at hl'
              subst hl'
              rw [List.append_nil] at hae
              have : '*' ∈ List.replicate n ' ' := by rw [← hae]; simp
              rw [List.mem_replicate] at this
              exact absurd this.2 (by decide)
            | some x =>
              obtain ⟨l'', rfl⟩ := List.getLast?_eq_some_iff.mp hl'
              rw [← List.append_assoc] at hae
              have := (List.append_inj' hae rfl).2
              cases this
              exact ⟨l'', by simp⟩
        · exact .inr ⟨rfl, rfl⟩
    · rw [List.append_assoc, splice_oneLine hline hb, splice_break, ← List.append_assoc, scan_append, scan_append]
      obtain ⟨m', h2, h3, _⟩ := scan_inside hmm (not_closes_pad hcl n) hstar
      rw [h2, Option.bind_some, scan_in_break h3, Option.bind_some]
      exact ih _ (.inl rfl)

theorem block_text {c : WConfig} {p o : Str} {ls : List Str} {w w' : W} {t : Str}
    (h : WOp.exec c ([.text o, .newLine] ++ ls.flatMap (fun l => [.text p, .text l, .newLine]) ++
      [.text c!" */", .newLine]) w = some (t, w')) :
    ∃ n ts k, t = List.replicate n ' ' ++ o ++ c.lineEnding.asStr ++
        (ts.flatten ++ (List.replicate k ' ' ++ c!" */" ++ c.lineEnding.asStr)) ∧
      TextsOf (LineText c p) ls ts := by
  obtain ⟨t1, w1, t2, h1, h2, rfl⟩ := exec_append_some.mp h
  obtain ⟨t3, w2, t4, h3, h4, rfl⟩ := exec_append_some.mp h1
  have nil : ∀ {s t : Str} {v v' : W}, WOp.exec c [.text s, .newLine] v = some (t, v') →
      WOp.exec c [.text [], .text s, .newLine] v = some (t, v') := by
    intro s t v v' hx
    rw [exec_cons]
    show andThen (v.put []) _ = _
    simp only [W.put, if_true, andThen_pure]
    exact hx
  obtain ⟨n, rfl⟩ := docLine_text (nil h3)
  obtain ⟨k, rfl⟩ := docLine_text (nil h2)
  obtain ⟨ts, rfl, hts⟩ := docLines_text h4
  exact ⟨n, ts, k, by simp, hts⟩

/-! ## The theorems -/

/-- The documentation is written with `//` or `///`. -/
def WritesLines (c : OutConfig) : Prop :=
  c.language ≠ .cython ∧ (c.documentationStyle = .c99 ∨ c.documentationStyle = .cxx ∨
    (c.documentationStyle = .auto ∧ c.language = .cxx))

/-- The documentation is written with `/**` and ` *`. -/
def WritesStars (c : OutConfig) : Prop :=
  c.language ≠ .cython ∧ (c.documentationStyle = .doxy ∨ (c.documentationStyle = .auto ∧ c.language = .c))

/-- The documentation is written with `/*`. -/
def WritesBlock (c : OutConfig) : Prop := c.language ≠ .cython ∧ c.documentationStyle = .c

theorem docOps_of_language {c : OutConfig} (h : c.language ≠ .cython) (doc : List Str) :
    docOps c doc = docOpsC c doc := by
  unfold docOps
  split
  · rename_i h'; exact absurd h' h
  · rfl

theorem mem_docLines {c : OutConfig} {doc : List Str} {l : Str} (h : l ∈ c.docLines doc) : l ∈ doc := by
  unfold OutConfig.docLines at h
  split at h
  · exact List.mem_of_mem_take h
  · exact h

theorem onlyComments_nil {c : WConfig} {t : Str} (h : Writes c [] t) : OnlyComments t := by
  obtain ⟨w, w', h⟩ := h
  rw [exec_nil] at h
  simp only [Option.some.injEq, Prod.mk.injEq] at h
  rw [← h.1]; rfl

/-- With `//` and `///`, documentation stays in its comments if the last line that is written does not end in
a backslash.  Lines contain no line break (see `C23_lines_loaded`).  What is missing: see
`C23_backslash_refuted`. -/
theorem C23_lines_partial (c : OutConfig) (doc : List Str) (hc : WritesLines c) (ho : ∀ l ∈ doc, OneLine l)
    (hfull : c.documentationLength = .full → ∀ l, doc.getLast? = some l → l.getLast? ≠ some '\\')
    (hshort : c.documentationLength = .short → ∀ l, doc.head? = some l → l.getLast? ≠ some '\\')
    {t : Str} (h : Writes c.writer (docOps c doc) t) : OnlyComments t := by
  rw [docOps_of_language hc.1] at h
  unfold docOpsC at h
  split at h
  · exact onlyComments_nil h
  · have hp : c.docStyle.opening = [] ∧ c.docStyle.closing = [] ∧
        (c.docStyle.linePrefix = c!"//" ∨ c.docStyle.linePrefix = c!"///") := by
      unfold OutConfig.docStyle
      rcases hc.2 with h | h | ⟨h, hx⟩
      · rw [h]; cases c.language <;> exact ⟨rfl, rfl, .inl rfl⟩
      · rw [h]; cases c.language <;> exact ⟨rfl, rfl, .inr rfl⟩
      · rw [h, hx]; exact ⟨rfl, rfl, .inr rfl⟩
    rw [hp.1, hp.2.1, List.nil_append, List.append_nil] at h
    obtain ⟨w, w', h⟩ := h
    obtain ⟨ts, rfl, hts⟩ := docLines_text h
    refine lines_scan hp.2.2 (.inl rfl) hts (fun l hl => ho l (mem_docLines hl)) ?_ (fun _ => rfl)
    intro l hl
    unfold OutConfig.docLines at hl
    split at hl
    · rename_i hlen
      cases doc with
      | nil => simp at hl
      | cons d ds => simp at hl; exact hshort hlen l (by simp [hl])
    · rename_i hlen
      exact hfull hlen l hl

/-- With `/**` and ` *`, documentation stays in its comment if no line contains `*/` or starts with `/`.
What is missing: see `C23_closing_refuted` and `C23_slash_refuted`. -/
theorem C23_stars_partial (c : OutConfig) (doc : List Str) (hc : WritesStars c) (ho : ∀ l ∈ doc, OneLine l)
    (hcl : ∀ l ∈ doc, ¬ Closes l) (hs : ∀ l ∈ doc, l.head? ≠ some '/')
    {t : Str} (h : Writes c.writer (docOps c doc) t) : OnlyComments t := by
  rw [docOps_of_language hc.1] at h
  unfold docOpsC at h
  split at h
  · exact onlyComments_nil h
  · have hp : c.docStyle = .doxy := by
      unfold OutConfig.docStyle
      rcases hc.2 with h | ⟨h, hx⟩
      · rw [h]
      · rw [h, hx]
    rw [hp] at h
    obtain ⟨w, w', h⟩ := h
    obtain ⟨n, ts, k, rfl, hts⟩ := block_text (o := c!"/**") (p := c!" *") h
    unfold OnlyComments
    rw [List.append_assoc, splice_oneLine (oneLine_append (oneLine_spaces n) (by intro c hc; revert c; decide))
      (by simp), splice_break, scan_append, scan_append, scan_spaces, Option.bind_some]
    have h1 : scan .code c!"/**" = some .star := rfl
    rw [h1, Option.bind_some, scan_append, scan_in_break (.inr rfl), Option.bind_some]
    refine block_scan (.inr rfl) (.inl rfl) hts fun l hl => ?_
    have hl := mem_docLines hl
    refine ⟨ho l hl, ?_, by intro h; cases h⟩
    rintro ⟨a, b, he⟩
    match a, he with
    | [], he => simp at he
    | [x], he =>
      simp at he
      cases l with
      | nil => simp at he
      | cons d ds => simp at he; exact hs _ hl (by rw [← he.2.1]; rfl)
    | x :: y :: a, he => simp at he; exact hcl l hl ⟨a, b, by simpa using he.2.2⟩

/-- With `/*` and the lines as they are, documentation stays in its comment if no line contains `*/` or ends
in `*\`.  What is missing: see `C23_closing_refuted` and `C23_star_backslash_refuted`. -/
theorem C23_block_partial (c : OutConfig) (doc : List Str) (hc : WritesBlock c) (ho : ∀ l ∈ doc, OneLine l)
    (hcl : ∀ l ∈ doc, ¬ Closes l) (hs : ∀ l ∈ doc, ¬ c!"*\\" <:+ l)
    {t : Str} (h : Writes c.writer (docOps c doc) t) : OnlyComments t := by
  rw [docOps_of_language hc.1] at h
  unfold docOpsC at h
  split at h
  · exact onlyComments_nil h
  · have hp : c.docStyle = .c := by
      unfold OutConfig.docStyle
      rw [hc.2]
    rw [hp] at h
    obtain ⟨w, w', h⟩ := h
    obtain ⟨n, ts, k, rfl, hts⟩ := block_text (o := c!"/*") (p := []) h
    unfold OnlyComments
    rw [List.append_assoc, splice_oneLine (oneLine_append (oneLine_spaces n) (by intro c hc; revert c; decide))
      (by simp), splice_break, scan_append, scan_append, scan_spaces, Option.bind_some]
    have h1 : scan .code c!"/*" = some .block := rfl
    rw [h1, Option.bind_some, scan_append, scan_in_break (.inl rfl), Option.bind_some]
    refine block_scan (.inl rfl) (.inl rfl) hts fun l hl => ?_
    have hl := mem_docLines hl
    exact ⟨ho l hl, hcl l hl, fun _ => hs l hl⟩

theorem pyScan_comment {s : Str} (h : OneLine s) : pyScan true s = some true := by
  induction s with
  | nil => rfl
  | cons c s ih =>
    have hc := h c (by simp)
    simp only [pyScan, pyStep, hc, Bool.not_false, Option.bind_some]
    exact ih fun d hd => h d (by simp [hd])

theorem pyScan_spaces (n : Nat) : pyScan false (List.replicate n ' ') = some false := by
  induction n with
  | zero => rfl
  | succ n ih => rw [List.replicate_succ]; exact ih

/-- In Cython, documentation never leaves its comments. -/
theorem C23_cython (c : OutConfig) (doc : List Str) (hc : c.language = .cython) (ho : ∀ l ∈ doc, OneLine l)
    {t : Str} (h : Writes c.writer (docOps c doc) t) : OnlyPyComments t := by
  have he : docOps c doc = docOpsCython c doc := by unfold docOps; rw [hc]
  rw [he] at h
  obtain ⟨w, w', h⟩ := h
  unfold docOpsCython at h
  split at h
  · rw [exec_nil] at h
    simp only [Option.some.injEq, Prod.mk.injEq] at h
    rw [← h.1]; rfl
  · have key : ∀ (ls : List Str), (∀ l ∈ ls, OneLine l) → ∀ {w w' : W} {t : Str},
        WOp.exec c.writer (ls.flatMap fun l => [.text (['#'] ++ l), .newLine]) w = some (t, w') →
        pyScan false t = some false := by
      intro ls
      induction ls with
      | nil =>
        intro _ w w' t h
        rw [List.flatMap_nil, exec_nil] at h
        simp only [Option.some.injEq, Prod.mk.injEq] at h
        rw [← h.1]; rfl
      | cons l ls ih =>
        intro hls w w' t h
        rw [List.flatMap_cons] at h
        obtain ⟨t1, w1, t2, h1, h2, rfl⟩ := exec_append_some.mp h
        have h1' : WOp.exec c.writer [.text [], .text (['#'] ++ l), .newLine] w = some (t1, w1) := by
          rw [exec_cons]
          show andThen (w.put []) _ = _
          simp only [W.put, if_true, andThen_pure]
          exact h1
        obtain ⟨n, rfl⟩ := docLine_text h1'
        rw [pyScan_append, pyScan_append, pyScan_append, pyScan_spaces, Option.bind_some]
        have h3 : pyScan false ([] ++ (['#'] ++ l)) = some true := pyScan_comment (hls l (by simp))
        rw [h3, Option.bind_some]
        have h4 : pyScan true c.writer.lineEnding.asStr = some false := by
          cases c.writer.lineEnding <;> rfl
        rw [h4, Option.bind_some]
        exact ih (fun x hx => hls x (by simp [hx])) h2
    exact key _ (fun l hl => ho l (mem_docLines hl)) h

/-- In all languages, nothing is written where there is no documentation or it is not asked for. -/
theorem C23_off (c : OutConfig) (doc : List Str) (h : doc = [] ∨ c.documentation = false) {t : Str}
    (ht : Writes c.writer (docOps c doc) t) : t = [] := by
  have hd : docOps c doc = [] := by
    unfold docOps docOpsC docOpsCython
    rcases h with rfl | h
    · split <;> simp
    · rw [h]
      split <;> simp
  rw [hd] at ht
  obtain ⟨w, w', ht⟩ := ht
  rw [exec_nil] at ht
  simp only [Option.some.injEq, Prod.mk.injEq] at ht
  exact ht.1.symm

/-- There is documentation that is not written. -/
example : Writes (OutConfig.writer { language := .cython, documentation := false })
    (docOps { language := .cython, documentation := false } [c!"text"]) [] :=
  ⟨{}, {}, rfl⟩

/-! ## The lines that are loaded -/

theorem mem_splitChar {sep x : Char} : ∀ {s p : Str}, p ∈ splitChar sep s → x ∈ p → x ∈ s ∧ x ≠ sep := by
  intro s
  generalize hn : s.length = n
  induction n using Nat.strongRecOn generalizing s with
  | ind n ih =>
    intro p hp hx
    rcases splitChar_cons_form sep s with ⟨h1, h2⟩ | ⟨u, v, h1, h2, h3⟩
    · rw [h2, List.mem_singleton] at hp
      subst hp
      exact ⟨hx, by rintro rfl; exact h1 hx⟩
    · rw [h3] at hp
      rcases List.mem_cons.mp hp with rfl | hp
      · exact ⟨by rw [h2]; simp [hx], by rintro rfl; exact h1 hx⟩
      · obtain ⟨h4, h5⟩ := ih v.length (by rw [← hn, h2]; simp; omega) rfl hp hx
        exact ⟨by rw [h2]; simp [h4], h5⟩

theorem mem_linesOf {x : Char} : ∀ {ps : List Str} {l : Str}, l ∈ Cbindgen.linesOf ps → x ∈ l → ∃ p ∈ ps, x ∈ p
  | [], l, hl, _ => by simp [Cbindgen.linesOf] at hl
  | [p], l, hl, hx => by
    unfold Cbindgen.linesOf at hl
    split at hl
    · cases hl
    · simp only [List.mem_singleton] at hl; subst hl; exact ⟨l, by simp, hx⟩
  | p :: q :: ps, l, hl, hx => by
    rw [Cbindgen.linesOf] at hl
    rcases List.mem_cons.mp hl with rfl | hl
    · refine ⟨p, by simp, ?_⟩
      unfold stripCr at hx
      split at hx
      · exact (List.dropLast_sublist p).subset hx
      · exact hx
    · obtain ⟨r, hr, h⟩ := mem_linesOf hl hx
      exact ⟨r, by simp [hr], h⟩
    · simp

theorem mem_splitDocAttr {x : Char} {v l : Str} (hl : l ∈ splitDocAttr v) (hx : x ∈ l) :
    x ≠ '\n' ∧ (x ∈ v ∨ x = ' ') := by
  unfold splitDocAttr at hl
  split at hl
  · rename_i h
    simp only [List.mem_singleton] at hl
    subst hl
    exact ⟨by rintro rfl; exact h hx, .inl hx⟩
  · simp only [dropBlankEnd, List.mem_reverse] at hl
    have hl := (List.dropWhile_sublist _).subset hl
    rw [List.mem_reverse, List.mem_map] at hl
    obtain ⟨l0, hl0, rfl⟩ := hl
    have hl0 := (List.dropWhile_sublist _).subset hl0
    split at hx
    · cases hx
    · rcases List.mem_cons.mp hx with rfl | hx
      · exact ⟨by decide, .inr rfl⟩
      · obtain ⟨p, hp, hxp⟩ := mem_linesOf hl0 (List.mem_of_mem_drop hx)
        obtain ⟨h1, h2⟩ := mem_splitChar hp hxp
        exact ⟨h2, .inl h1⟩

/-- The lines of documentation that are loaded have no line break, if there is no carriage return in the
text (rustc accepts one only when it is written `\r`). -/
theorem C23_lines_loaded (attrs : List SAttr)
    (h : ∀ a ∈ attrs, ∀ n v, a.attr = .nameValue n (some v) → '\r' ∉ v) :
    ∀ l ∈ loadDoc attrs, OneLine l := by
  intro l hl x hx
  unfold loadDoc commentLines at hl
  obtain ⟨hl, _⟩ := List.mem_filter.mp hl
  obtain ⟨a, ha, hl⟩ := List.mem_flatMap.mp hl
  split at hl
  · rename_i n v _ hav
    split at hl
    · obtain ⟨h1, h2⟩ := mem_splitDocAttr hl hx
      have h3 : x ≠ '\r' := by
        rintro rfl
        rcases h2 with h2 | h2
        · exact h a ha _ _ hav h2
        · cases h2
      simp [isBreak, h1, h3]
    · cases hl
  · cases hl

/-! ## Refutations -/

/-- `*/` in a line ends the comment. -/
theorem C23_closing_refuted : ∃ c : OutConfig, WritesStars c ∧ ∃ t,
    Writes c.writer (docOps c [c!" a */ int x; /* b"]) t ∧ ¬ OnlyComments t :=
  ⟨{ language := .c }, by simp [WritesStars], _, ⟨{}, _, rfl⟩, by unfold OnlyComments; decide +kernel⟩

/-- So does a line that starts with a slash: `#[doc = "/usr/bin"]`. -/
theorem C23_slash_refuted : ∃ c : OutConfig, WritesStars c ∧ ∃ t,
    Writes c.writer (docOps c [c!"/usr/bin"]) t ∧ ¬ OnlyComments t :=
  ⟨{ language := .c }, by simp [WritesStars], _, ⟨{}, _, rfl⟩, by unfold OnlyComments; decide +kernel⟩

/-- A backslash at the end of the last line joins the next line of the header to the comment. -/
theorem C23_backslash_refuted : ∃ c : OutConfig, WritesLines c ∧ ∃ t,
    Writes c.writer (docOps c [c!" ends in \\"]) t ∧ ¬ OnlyComments t :=
  ⟨{ language := .cxx }, by simp [WritesLines], _, ⟨{}, _, rfl⟩, by unfold OnlyComments; decide +kernel⟩

/-- Without a prefix, `*\` and a line that starts with `/` end the comment. -/
theorem C23_star_backslash_refuted : ∃ c : OutConfig, WritesBlock c ∧ ∃ t,
    Writes c.writer (docOps c [c!"*\\", c!"/ x"]) t ∧ ¬ OnlyComments t :=
  ⟨{ language := .c, documentationStyle := .c }, by simp [WritesBlock], _, ⟨{}, _, rfl⟩,
    by unfold OnlyComments; decide +kernel⟩

/-! ## Cases -/

example : Writes ({ language := .cxx } : OutConfig).writer
    (docOps { language := .cxx } [c!" joined \\", c!" */ and // harmless"])
    c!"/// joined \\\n/// */ and // harmless\n" ∧
    OnlyComments c!"/// joined \\\n/// */ and // harmless\n" :=
  ⟨⟨{}, _, rfl⟩, by unfold OnlyComments; decide +kernel⟩

end Cbindgen
