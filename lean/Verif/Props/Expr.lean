import Verif.Spec.Expr
import Verif.Spec.Constants
import Verif.Model.Emit
import Verif.Lemmas.Writer
import Verif.Props.IntLit

/-!
# C28: the structure of expressions
-/

namespace Cbindgen
open ExprSpec ConstSpec IntSpec

/-! ## The parser is a function -/

theorem parse_mono (isType : Str → Bool) : ∀ n : Nat,
    (∀ m ts r, ExprSpec.binary isType n m ts = some r → ExprSpec.binary isType (n + 1) m ts = some r) ∧
    (∀ m l ts r, operators isType n m l ts = some r → operators isType (n + 1) m l ts = some r) ∧
    (∀ ts r, ExprSpec.unary isType n ts = some r → ExprSpec.unary isType (n + 1) ts = some r) := by
  intro n
  induction n with
  | zero => simp [ExprSpec.binary, operators, ExprSpec.unary]
  | succ n ih =>
    obtain ⟨ih1, ih2, ih3⟩ := ih
    refine ⟨?_, ?_, ?_⟩
    · intro m ts r h
      unfold ExprSpec.binary at h ⊢
      cases hu : ExprSpec.unary isType n ts with
      | none => rw [hu] at h; cases h
      | some p =>
        rw [hu] at h
        rw [ih3 _ _ hu]
        exact ih2 _ _ _ _ h
    · intro m l ts r h
      match ts with
      | .punct o :: rest =>
        unfold operators at h ⊢
        cases hp : prec o with
        | none => rw [hp] at h; exact h
        | some p =>
          rw [hp] at h
          simp only at h ⊢
          split at h
          · rename_i hm
            rw [if_pos hm]
            cases hb : ExprSpec.binary isType n (p + 1) rest with
            | none => rw [hb] at h; cases h
            | some q =>
              rw [hb] at h
              rw [ih1 _ _ _ hb]
              exact ih2 _ _ _ _ h
          · rename_i hm
            rw [if_neg hm]
            exact h
      | [] => simpa [operators] using h
      | .name s :: rest => simpa [operators] using h
      | .number s :: rest => simpa [operators] using h
      | .char s :: rest => simpa [operators] using h
    · intro ts r h
      match ts with
      | .punct o :: rest =>
        unfold ExprSpec.unary at h ⊢
        split at h
        · rename_i ho
          rw [if_pos ho]
          cases hu : ExprSpec.unary isType n rest with
          | none => rw [hu] at h; cases h
          | some q => rw [hu] at h; rw [ih3 _ _ hu]; exact h
        · rename_i ho
          rw [if_neg ho]
          split at h
          · rename_i hp
            rw [if_pos hp]
            split at h
            · rename_i hc
              rw [if_pos hc]
              cases ht : typeTokens rest with
              | none => rw [ht] at h; cases h
              | some q =>
                rw [ht] at h
                simp only at h ⊢
                cases hu : ExprSpec.unary isType n q.2 with
                | none => rw [hu] at h; cases h
                | some q' => rw [hu] at h; rw [ih3 _ _ hu]; exact h
            · rename_i hc
              rw [if_neg hc]
              cases hb : ExprSpec.binary isType n 0 rest with
              | none => rw [hb] at h; cases h
              | some q => rw [hb] at h; rw [ih1 _ _ _ hb]; exact h
          · cases h
      | [] => simp [ExprSpec.unary] at h
      | .name s :: rest => simpa [ExprSpec.unary] using h
      | .number s :: rest => simpa [ExprSpec.unary] using h
      | .char s :: rest => simpa [ExprSpec.unary] using h

theorem binary_mono {isType : Str → Bool} {n k m : Nat} {ts : List Token} {r : Tree × List Token} (hk : n ≤ k)
    (h : ExprSpec.binary isType n m ts = some r) : ExprSpec.binary isType k m ts = some r := by
  induction hk with
  | refl => exact h
  | step _ ih => exact (parse_mono isType _).1 _ _ _ ih

/-- The reading of a list of tokens as an expression is unique. -/
theorem parses_unique {isType : Str → Bool} {ts : List Token} {a b : Tree} (ha : Parses isType ts a)
    (hb : Parses isType ts b) : a = b := by
  obtain ⟨n, hn⟩ := ha
  obtain ⟨k, hk⟩ := hb
  have h1 := binary_mono (Nat.le_max_left n k) hn
  have h2 := binary_mono (Nat.le_max_right n k) hk
  rw [h1] at h2
  cases h2; rfl

/-! ## Reading tokens -/

theorem run_append (r : Reading) (a b : Str) :
    run r (a ++ b) = (run r a).bind fun p => (run p.2 b).map fun q => (p.1 ++ q.1, q.2) := by
  induction a generalizing r with
  | nil => simp [run]
  | cons c a ih =>
    simp only [List.cons_append, run]
    cases step r c with
    | none => rfl
    | some p =>
      simp only [ih]
      cases run p.2 a with
      | none => rfl
      | some q =>
        simp only [Option.bind_some, Option.map_some, Option.map_map]
        cases run q.2 b <;> simp

/-- A token that ends at a parenthesis, at a space or at a star. -/
def EndsToken (r : Reading) : Prop := ∀ c, c = ')' ∨ c = ' ' ∨ c = '*' → step r c = next r c

/-- The text is read as the tokens. -/
def ReadsAs (t : Str) (T : List Token) : Prop :=
  ∃ c cs r1 ts r fin, t = c :: cs ∧ begin c = some r1 ∧ run r1 cs = some (ts, r) ∧ finish r = some fin ∧
    T = ts ++ fin ∧ EndsToken r

/-- What came before ends where the text begins. -/
def FreshAt (r : Reading) (t : Str) : Prop := ∀ c cs, t = c :: cs → step r c = next r c

theorem fresh_nothing (t : Str) : FreshAt .nothing t := fun _ _ _ => rfl

theorem reads_run {t : Str} {T : List Token} (h : ReadsAs t T) {r0 : Reading} {p : List Token} (hf : FreshAt r0 t)
    (hp : finish r0 = some p) : ∃ ts r fin, run r0 t = some (p ++ ts, r) ∧ finish r = some fin ∧ T = ts ++ fin ∧
      EndsToken r := by
  obtain ⟨c, cs, r1, ts, r, fin, rfl, hb, hr, hfin, rfl, he⟩ := h
  refine ⟨ts, r, fin, ?_, hfin, rfl, he⟩
  rw [run, hf c cs rfl]
  simp [next, hp, hb, hr]

theorem begin_close : begin ')' = some (.punct c!")") := by decide
theorem begin_space : begin ' ' = some .nothing := by decide

theorem reads_close {t : Str} {T : List Token} (h : ReadsAs t T) {r0 : Reading} {p : List Token} (hf : FreshAt r0 t)
    (hp : finish r0 = some p) (s : Str) :
    run r0 (t ++ ')' :: s) = (run (.punct c!")") s).map fun q => (p ++ T ++ q.1, q.2) := by
  obtain ⟨ts, r, fin, h1, h2, rfl, he⟩ := reads_run h hf hp
  rw [run_append, h1, Option.bind_some, run, he ')' (.inl rfl)]
  simp only [next, h2, begin_close, Option.map_map]
  cases run (.punct c!")") s <;> simp

theorem reads_space {t : Str} {T : List Token} (h : ReadsAs t T) {r0 : Reading} {p : List Token} (hf : FreshAt r0 t)
    (hp : finish r0 = some p) (s : Str) :
    run r0 (t ++ ' ' :: s) = (run .nothing s).map fun q => (p ++ T ++ q.1, q.2) := by
  obtain ⟨ts, r, fin, h1, h2, rfl, he⟩ := reads_run h hf hp
  rw [run_append, h1, Option.bind_some, run, he ' ' (.inr (.inl rfl))]
  simp only [next, h2, begin_space, Option.map_map]
  cases run .nothing s <;> simp

theorem fresh_open {t : Str} : FreshAt (.punct c!"(") t := by
  intro c cs _
  simp [step, longPuncts]

theorem fresh_closed {t : Str} : FreshAt (.punct c!")") t := by
  intro c cs _
  simp [step, longPuncts]

theorem fresh_tilde {t : Str} : FreshAt (.punct c!"~") t := by
  intro c cs _
  simp [step, longPuncts]

theorem fresh_minus {t : Str} (h : ∀ c cs, t = c :: cs → c ≠ '-' ∧ c ≠ '>' ∧ c ≠ '=') :
    FreshAt (.punct c!"-") t := by
  intro c cs hc
  obtain ⟨h1, h2, h3⟩ := h c cs hc
  simp [step, longPuncts, h1, h2, h3]

theorem ends_punct_close : EndsToken (.punct c!")") := by
  rintro c (rfl | rfl | rfl) <;> decide

theorem ends_star : EndsToken (.punct c!"*") := by
  rintro c (rfl | rfl | rfl) <;> decide

theorem ends_nothing : EndsToken .nothing := fun _ _ => rfl

theorem ends_name (s : Str) : EndsToken (.name s) := by
  have h1 : nameChar ')' = false := by decide
  have h2 : nameChar ' ' = false := by decide
  have h3 : nameChar '*' = false := by decide
  rintro c (rfl | rfl | rfl) <;> simp [step, h1, h2, h3]

theorem ends_number (s : Str) : EndsToken (.number s) := by
  have h1 : (')' : Char).isAlphanum = false := by decide
  have h2 : (' ' : Char).isAlphanum = false := by decide
  have h3 : ('*' : Char).isAlphanum = false := by decide
  rintro c (rfl | rfl | rfl) <;> simp [step, h1, h2, h3]

theorem op_run {op : BinOp} {o : Str} (h : cOperator op = some o) (s : Str) :
    run .nothing (o ++ ' ' :: s) = (run .nothing s).map fun q => (.punct o :: q.1, q.2) := by
  have key : ∀ {o : Str}, (∃ r, run .nothing o = some ([], r) ∧ finish r = some [.punct o] ∧ step r ' ' = next r ' ') →
      run .nothing (o ++ ' ' :: s) = (run .nothing s).map fun q => (.punct o :: q.1, q.2) := by
    rintro o ⟨r, h1, h2, h3⟩
    rw [run_append, h1, Option.bind_some, run, h3]
    simp only [next, h2, begin_space, Option.map_map]
    cases run .nothing s <;> simp
  apply key
  cases op <;> simp only [cOperator] at h <;> cases h <;> exact ⟨_, rfl, rfl, rfl⟩

theorem op_prec {op : BinOp} {o : Str} (h : cOperator op = some o) : ∃ p, prec o = some p := by
  cases op <;> simp only [cOperator] at h <;> cases h <;> exact ⟨_, rfl⟩

theorem op_text {op : BinOp} {o : Str} (h : cOperator op = some o) : op.text = o := by
  cases op <;> simp only [cOperator] at h <;> cases h <;> rfl

/-! ## Names and numbers -/

/-- An identifier, or a qualified name of C++. -/
def IsName (s : Str) : Prop := ∃ c cs, s = c :: cs ∧ nameStart c = true ∧ ∀ d ∈ cs, nameChar d = true

/-- A number. -/
def IsNumber (s : Str) : Prop := ∃ r, run .nothing s = some ([], r) ∧ r = .number s

theorem run_name {cs : Str} : ∀ {s : Str}, (∀ d ∈ cs, nameChar d = true) →
    run (.name s) cs = some ([], .name (s ++ cs)) := by
  induction cs with
  | nil => intro s _; simp [run]
  | cons c cs ih =>
    intro s h
    rw [run]
    simp only [step, h c (by simp), if_true]
    rw [ih fun d hd => h d (by simp [hd])]
    simp

theorem reads_name {s : Str} (h : IsName s) : ReadsAs s [.name s] := by
  obtain ⟨c, cs, rfl, h1, h2⟩ := h
  refine ⟨c, cs, .name [c], [], .name (c :: cs), [.name (c :: cs)], rfl, ?_, run_name h2, rfl, rfl, ends_name _⟩
  simp [begin, h1]

theorem run_digits {cs : Str} : ∀ {s : Str}, (∀ d ∈ cs, d.isAlphanum = true) →
    run (.number s) cs = some ([], .number (s ++ cs)) := by
  induction cs with
  | nil => intro s _; simp [run]
  | cons c cs ih =>
    intro s h
    rw [run]
    simp only [step, h c (by simp), true_or, if_true]
    rw [ih fun d hd => h d (by simp [hd])]
    simp

theorem nameStart_digit {c : Char} (h : c.isDigit = true) : nameStart c = false := by
  have h1 : c.isAlpha = false := by
    simp only [Char.isDigit, Char.isAlpha, Char.isUpper, Char.isLower, Bool.and_eq_true, decide_eq_true_eq,
      Bool.or_eq_false_iff, decide_eq_false_iff_not, ge_iff_le] at h ⊢
    have h9 : ('9' : Char).val.toNat = 57 := rfl
    have hA : ('A' : Char).val.toNat = 65 := rfl
    have ha : ('a' : Char).val.toNat = 97 := rfl
    simp only [UInt32.le_iff_toNat_le] at h ⊢
    refine ⟨by omega, ?_⟩
    simp only [Bool.and_eq_false_iff, decide_eq_false_iff_not]
    omega
  have h2 : (c == '_') = false := by
    rw [beq_eq_false_iff_ne]
    rintro rfl
    revert h; decide
  simp [nameStart, h1, h2]

theorem isNumber_digits {s : Str} (hn : ∃ c cs, s = c :: cs ∧ c.isDigit = true ∧ ∀ d ∈ cs, d.isAlphanum = true) :
    IsNumber s := by
  obtain ⟨c, cs, rfl, h1, h2⟩ := hn
  refine ⟨_, ?_, rfl⟩
  rw [run]
  simp [step, next, finish, begin, nameStart_digit h1, h1, run_digits h2]

theorem begin_start {c : Char} {r : Reading} (h : begin c = some r) :
    r = .name [c] ∨ r = .number [c] ∨ r = .char [c] false ∨ r = .nothing ∨ r = .punct [c] := by
  unfold begin at h
  repeat' split at h
  all_goals first | (cases h; done) | (cases h; simp)

theorem reads_number {s : Str} (h : IsNumber s) : ReadsAs s [.number s] := by
  obtain ⟨r, h1, rfl⟩ := h
  cases s with
  | nil => simp [run] at h1
  | cons c cs =>
    rw [run] at h1
    simp only [step, next, finish] at h1
    cases hb : begin c with
    | none => rw [hb] at h1; cases h1
    | some r1 =>
      rw [hb] at h1
      simp only at h1
      cases hr : run r1 cs with
      | none => rw [hr] at h1; cases h1
      | some q =>
        rw [hr] at h1
        simp at h1
        exact ⟨c, cs, r1, [], .number (c :: cs), [.number (c :: cs)], rfl, hb, by rw [hr, ← h1.1, ← h1.2], rfl, rfl,
          ends_number _⟩

/-! ## Parsing -/

/-- The tokens are those of an operand, whatever follows but a member. -/
def Operand (isType : Str → Bool) (T : List Token) (e : Tree) : Prop :=
  (∀ rest, isCast isType (T ++ rest) = false) ∧
  ∀ rest, (∀ r, rest ≠ .punct c!"." :: r) → ∃ N, ∀ n, N ≤ n → ExprSpec.unary isType n (T ++ rest) = some (e, rest)

theorem fields_stop {e : Tree} {rest : List Token} (h : ∀ r, rest ≠ .punct c!"." :: r) : fields e rest = (e, rest) := by
  unfold fields
  split
  · rename_i o n r
    split
    · rename_i ho; subst ho; exact absurd rfl (h _)
    · rfl
  · rfl

theorem operand_leaf {isType : Str → Bool} {t : Token} (h : ∀ s, t ≠ .punct s)
    (hn : ∀ s, t = .name s → isType s = false) : Operand isType [t] (.leaf t) := by
  constructor
  · intro rest
    cases t with
    | name s => simpa [isCast] using hn s rfl
    | _ => rfl
  · intro rest hr
    refine ⟨1, fun n hn' => ?_⟩
    obtain ⟨k, rfl⟩ : ∃ k, n = k + 1 := ⟨n - 1, by omega⟩
    cases t with
    | punct s => exact absurd rfl (h s)
    | _ => simp [ExprSpec.unary, fields_stop hr]

theorem operand_unary {isType : Str → Bool} {T : List Token} {e : Tree} {o : Str} (ho : o ∈ unaryOps)
    (h : Operand isType T e) : Operand isType (.punct o :: T) (.unary o e) := by
  constructor
  · intro rest; rfl
  · intro rest hr
    obtain ⟨N, hN⟩ := h.2 rest hr
    refine ⟨N + 1, fun n hn => ?_⟩
    obtain ⟨k, rfl⟩ : ∃ k, n = k + 1 := ⟨n - 1, by omega⟩
    simp [ExprSpec.unary, ho, hN k (by omega)]

theorem typeTokens_close {Ty rest : List Token} (h : ∀ o, .punct o ∈ Ty → o ≠ c!")" ∧ o ≠ c!"(") :
    typeTokens (Ty ++ .punct c!")" :: rest) = some (Ty, rest) := by
  induction Ty with
  | nil => simp [typeTokens]
  | cons t Ty ih =>
    have := ih fun o ho => h o (by simp [ho])
    cases t with
    | punct o =>
      obtain ⟨h1, h2⟩ := h o (by simp)
      simp [typeTokens, h1, h2, this]
    | _ => simp [typeTokens, this]

theorem operand_cast {isType : Str → Bool} {Ty T : List Token} {e : Tree}
    (h1 : ∃ n rest, Ty = .name n :: rest ∧ isType n = true)
    (h2 : ∀ o, .punct o ∈ Ty → o ≠ c!")" ∧ o ≠ c!"(") (h : Operand isType T e) :
    Operand isType (.punct c!"(" :: Ty ++ .punct c!")" :: T) (.cast Ty e) := by
  constructor
  · intro rest; rfl
  · intro rest hr
    obtain ⟨N, hN⟩ := h.2 rest hr
    refine ⟨N + 1, fun n hn => ?_⟩
    obtain ⟨k, rfl⟩ : ∃ k, n = k + 1 := ⟨n - 1, by omega⟩
    have hc : isCast isType (Ty ++ .punct c!")" :: (T ++ rest)) = true := by
      obtain ⟨m, r, rfl, hm⟩ := h1
      simpa [isCast] using hm
    have ho : c!"(" ∉ unaryOps := by decide
    have := typeTokens_close (rest := T ++ rest) h2
    simp only [List.cons_append, List.append_assoc, ExprSpec.unary, if_neg ho, if_true, hc, this, hN k (by omega),
      Option.map_some]

theorem operand_binary {isType : Str → Bool} {L R : List Token} {l r : Tree} {o : Str} {p : Nat} (hp : prec o = some p)
    (hl : Operand isType L l) (hr : Operand isType R r) (hdot : o ≠ c!".") :
    Operand isType (.punct c!"(" :: L ++ .punct o :: R ++ [.punct c!")"]) (.binary l o r) := by
  constructor
  · intro rest; rfl
  · intro rest hrest
    obtain ⟨N1, hN1⟩ := hl.2 (.punct o :: R ++ .punct c!")" :: rest) (by
      intro r h; simp at h; exact hdot h.1)
    obtain ⟨N2, hN2⟩ := hr.2 (.punct c!")" :: rest) (by intro r h; simp at h)
    refine ⟨N1 + N2 + 5, fun n hn => ?_⟩
    obtain ⟨k, rfl⟩ : ∃ k, n = k + 5 := ⟨n - 5, by omega⟩
    have ho : c!"(" ∉ unaryOps := by decide
    have hclose : prec c!")" = none := by decide
    have hc : isCast isType (L ++ .punct o :: (R ++ .punct c!")" :: rest)) = false := hl.1 _
    have e1 := hN1 (k + 3) (by omega)
    have e2 := hN2 (k + 1) (by omega)
    have b2 : ExprSpec.binary isType (k + 2) (p + 1) (R ++ .punct c!")" :: rest) = some (r, .punct c!")" :: rest) := by
      rw [ExprSpec.binary, e2]
      simp [operators, hclose]
    have o1 : operators isType (k + 3) 0 l (.punct o :: (R ++ .punct c!")" :: rest)) =
        some (.binary l o r, .punct c!")" :: rest) := by
      rw [operators, hp]
      simp only [Nat.zero_le, if_true, b2]
      simp [operators, hclose]
    have b1 : ExprSpec.binary isType (k + 4) 0 (L ++ .punct o :: (R ++ .punct c!")" :: rest)) =
        some (.binary l o r, .punct c!")" :: rest) := by
      rw [ExprSpec.binary]
      simp only [List.cons_append] at e1
      rw [e1]
      exact o1
    simp only [List.cons_append, List.append_assoc, List.nil_append, ExprSpec.unary, if_neg ho, if_true, hc,
      Bool.false_eq_true, if_false, b1, fields_stop hrest]

theorem operand_field {isType : Str → Bool} {T : List Token} {e : Tree} {n : Str} (h : Operand isType T e) :
    Operand isType (.punct c!"(" :: T ++ [.punct c!")", .punct c!".", .name n]) (.field e n) := by
  constructor
  · intro rest; rfl
  · intro rest hrest
    obtain ⟨N, hN⟩ := h.2 (.punct c!")" :: .punct c!"." :: .name n :: rest) (by intro r h; simp at h)
    refine ⟨N + 3, fun m hm => ?_⟩
    obtain ⟨k, rfl⟩ : ∃ k, m = k + 3 := ⟨m - 3, by omega⟩
    have ho : c!"(" ∉ unaryOps := by decide
    have hclose : prec c!")" = none := by decide
    have hc : isCast isType (T ++ .punct c!")" :: .punct c!"." :: .name n :: rest) = false := h.1 _
    have b1 : ExprSpec.binary isType (k + 2) 0 (T ++ .punct c!")" :: .punct c!"." :: .name n :: rest) =
        some (e, .punct c!")" :: .punct c!"." :: .name n :: rest) := by
      rw [ExprSpec.binary, hN (k + 1) (by omega)]
      simp [operators, hclose]
    have hf : fields e (.punct c!"." :: .name n :: rest) = (.field e n, rest) := by
      rw [fields]
      simp only [if_true]
      exact fields_stop hrest
    simp only [List.cons_append, List.append_assoc, List.nil_append, ExprSpec.unary, if_neg ho, if_true, hc,
      Bool.false_eq_true, if_false, b1, hf]

theorem operand_parses {isType : Str → Bool} {T : List Token} {e : Tree} (h : Operand isType T e) :
    Parses isType T e := by
  obtain ⟨N, hN⟩ := h.2 [] (by intro r h; cases h)
  refine ⟨N + 2, ?_⟩
  rw [ExprSpec.binary]
  have := hN (N + 1) (by omega)
  rw [List.append_nil] at this
  rw [this]
  rfl

/-! ## Characters -/

theorem run_char {cs : Str} : ∀ {s : Str}, (∀ d ∈ cs, d ≠ '\\' ∧ d ≠ '\'') →
    run (.char s false) cs = some ([], .char (s ++ cs) false) := by
  induction cs with
  | nil => intro s _; simp [run]
  | cons c cs ih =>
    intro s h
    obtain ⟨h1, h2⟩ := h c (by simp)
    rw [run]
    simp only [step, h1, h2, if_false]
    rw [ih fun d hd => h d (by simp [hd])]
    simp

theorem hexDigit_form {n : Nat} {d : Char} (h : d ∈ Nat.toDigits 16 n) : ∃ m, m < 16 ∧ d = Nat.digitChar m := by
  have key : ∀ fuel n (ds : List Char), (∀ d ∈ ds, ∃ m, m < 16 ∧ d = Nat.digitChar m) →
      ∀ d ∈ Nat.toDigitsCore 16 fuel n ds, ∃ m, m < 16 ∧ d = Nat.digitChar m := by
    intro fuel
    induction fuel with
    | zero => intro n ds h; simpa [Nat.toDigitsCore] using h
    | succ f ih =>
      intro n ds h
      unfold Nat.toDigitsCore
      have h' : ∀ d ∈ Nat.digitChar (n % 16) :: ds, ∃ m, m < 16 ∧ d = Nat.digitChar m := by
        intro d hd
        rcases List.mem_cons.mp hd with rfl | hd
        · exact ⟨_, Nat.mod_lt _ (by decide), rfl⟩
        · exact h d hd
      simp only
      split
      · exact h'
      · exact ih _ _ h'
  exact key _ _ _ (by simp) d h

theorem hexDigit_plain {n : Nat} {d : Char} (h : d ∈ Nat.toDigits 16 n) : d ≠ '\\' ∧ d ≠ '\'' := by
  have : ∀ m, m < 16 → Nat.digitChar m ≠ '\\' ∧ Nat.digitChar m ≠ '\'' := by decide
  obtain ⟨m, hm, rfl⟩ := hexDigit_form h
  exact this m hm

theorem hexUpper_plain {n : Nat} {d : Char} (h : d ∈ Nat.toDigits 16 n) : d.toUpper ≠ '\\' ∧ d.toUpper ≠ '\'' := by
  have : ∀ m, m < 16 → (Nat.digitChar m).toUpper ≠ '\\' ∧ (Nat.digitChar m).toUpper ≠ '\'' := by decide
  obtain ⟨m, hm, rfl⟩ := hexDigit_form h
  exact this m hm

/-- The rest of a character constant after its quote. -/
def CharRest (s : Str) : Prop := ∀ s0, ∃ r, run (.char s0 false) s = some ([], .char r false)

theorem charRest_append {a b : Str} (ha : CharRest a) (hb : CharRest b) : CharRest (a ++ b) := by
  intro s0
  obtain ⟨r, hr⟩ := ha s0
  obtain ⟨q, hq⟩ := hb r
  exact ⟨q, by rw [run_append, hr, Option.bind_some, hq]; rfl⟩

theorem charRest_plain {s : Str} (h : ∀ d ∈ s, d ≠ '\\' ∧ d ≠ '\'') : CharRest s := fun _ => ⟨_, run_char h⟩

theorem charRest_escape (c : Char) : CharRest ['\\', c] := fun s0 => ⟨s0 ++ ['\\'] ++ [c], by simp [run, step]⟩

theorem charRest_default (c : Char) : CharRest (escapeDefault c) := by
  unfold escapeDefault
  split
  · exact charRest_escape _
  split
  · exact charRest_escape _
  split
  · exact charRest_escape _
  split
  · exact charRest_escape _
  split
  · exact charRest_escape _
  split
  · exact charRest_escape _
  rename_i h1 _ h2
  split
  · exact charRest_plain (by simp [h1, h2])
  · have : c!"\\u{" ++ hexStr c.toNat ++ c!"}" = ['\\', 'u'] ++ (['{'] ++ (hexStr c.toNat ++ ['}'])) := by simp
    rw [this]
    refine charRest_append (charRest_escape _) (charRest_append (charRest_plain (by simp))
      (charRest_append (charRest_plain fun d hd => hexDigit_plain hd) (charRest_plain (by simp))))

theorem reads_char {s : Str} (h : CharRest s) : ∃ x, ReadsAs (c!"'" ++ s ++ c!"'") [.char x] := by
  obtain ⟨r, hr⟩ := h ['\'']
  refine ⟨r ++ ['\''], '\'', s ++ c!"'", .char ['\''] false, [.char (r ++ ['\''])], .nothing, [], by simp, rfl, ?_, rfl,
    rfl, ends_nothing⟩
  rw [run_append, hr, Option.bind_some]
  simp [run, step]

theorem reads_wide {s : Str} (h : CharRest s) : ∃ x, ReadsAs (c!"U'" ++ s ++ c!"'") [.char x] := by
  obtain ⟨r, hr⟩ := h c!"U'"
  refine ⟨r ++ ['\''], 'U', ['\''] ++ (s ++ c!"'"), .name ['U'], [.char (r ++ ['\''])], .nothing, [], by simp, rfl, ?_,
    rfl, rfl, ends_nothing⟩
  rw [run_append]
  have : run (.name ['U']) ['\''] = some ([], .char c!"U'" false) := by decide
  rw [this, Option.bind_some, run_append, hr, Option.bind_some]
  simp [run, step]

theorem hexStr8_plain (n : Nat) : CharRest (c!"\\U" ++ hexStr8 n) := by
  refine charRest_append (charRest_escape _) ?_
  unfold hexStr8
  refine charRest_append (charRest_plain ?_) ?_
  · intro d hd
    rw [(List.mem_replicate.mp hd).2]; decide
  · refine charRest_plain fun d hd => ?_
    obtain ⟨d', hd', rfl⟩ := List.mem_map.mp hd
    exact hexUpper_plain hd'

/-! ## Types -/

theorem reads_word {w t : Str} {T : List Token} (hw : IsName w) (h : ReadsAs t T) :
    ReadsAs (w ++ ' ' :: t) (.name w :: T) := by
  obtain ⟨c, cs, rfl, h1, h2⟩ := hw
  obtain ⟨ts, r, fin, hr, hf, rfl, he⟩ := reads_run h (fresh_nothing t) rfl
  refine ⟨c, cs ++ ' ' :: t, .name [c], .name (c :: cs) :: ts, r, fin, rfl, by simp [begin, h1], ?_, hf, rfl, he⟩
  rw [run_append, run_name h2, Option.bind_some, run, ends_name _ ' ' (.inr (.inl rfl))]
  simp [next, finish, begin_space, hr]

theorem reads_star {t : Str} {T : List Token} (h : ReadsAs t T) : ReadsAs (t ++ c!"*") (T ++ [.punct c!"*"]) := by
  obtain ⟨c, cs, r1, ts, r, fin, rfl, hb, hr, hf, rfl, he⟩ := h
  refine ⟨c, cs ++ c!"*", r1, ts ++ fin, .punct c!"*", [.punct c!"*"], rfl, hb, ?_, rfl, rfl, ends_star⟩
  rw [run_append, hr, Option.bind_some, run, he '*' (.inr (.inr rfl))]
  have : begin '*' = some (.punct c!"*") := by decide
  simp [next, hf, this, run]

theorem reads_star_const {t : Str} {T : List Token} (h : ReadsAs t T) :
    ReadsAs (t ++ c!"*const ") (T ++ [.punct c!"*", .name c!"const"]) := by
  obtain ⟨c, cs, r1, ts, r, fin, rfl, hb, hr, hf, rfl, he⟩ := h
  refine ⟨c, cs ++ c!"*const ", r1, ts ++ fin ++ [.punct c!"*", .name c!"const"], .nothing, [], rfl, hb, ?_, rfl,
    by simp, ends_nothing⟩
  rw [run_append, hr, Option.bind_some, run, he '*' (.inr (.inr rfl))]
  have h1 : begin '*' = some (.punct c!"*") := by decide
  have h2 : run (.punct c!"*") c!"const " = some ([.punct c!"*", .name c!"const"], .nothing) := by decide
  simp [next, hf, h1, h2]

/-- The words that start the name of a type. -/
def typeWords : List Str :=
  [c!"const", c!"struct", c!"enum", c!"union", c!"signed", c!"unsigned", c!"void", c!"bool", c!"char", c!"short",
   c!"int", c!"long", c!"float", c!"double", c!"ssize_t", c!"size_t", c!"ptrdiff_t", c!"intptr_t", c!"uintptr_t",
   c!"int8_t", c!"uint8_t", c!"int16_t", c!"uint16_t", c!"int32_t", c!"uint32_t", c!"int64_t", c!"uint64_t"]

/-- The tokens of a type. -/
def TypeToks (isType : Str → Bool) (T : List Token) : Prop :=
  (∃ n rest, T = .name n :: rest ∧ isType n = true) ∧ ∀ o, .punct o ∈ T → o ≠ c!")" ∧ o ≠ c!"("

/-- Primitive types, types without generic arguments, and pointers to such types. -/
inductive SimpleTy (isType : Str → Bool) : Ty → Prop
  | prim {p : Prim} : p ≠ .vaList → SimpleTy isType (.prim p)
  | path {p e : Str} {k : Option DeclKind} : IsName e → isType e = true → SimpleTy isType (.path p e [] k)
  | ptr {t : Ty} {k nl : Bool} : SimpleTy isType t → SimpleTy isType (.ptr t k nl false)

theorem prim_reads {p : Prim} (h : p ≠ .vaList) (b : Bool) : ∃ w ws, w ∈ typeWords ∧
    ReadsAs (p.toReprC b) (.name w :: ws) ∧ ∀ o, .punct o ∉ ws := by
  have key : ∀ {s w : Str} {ws : List Token}, ReadsAs s (.name w :: ws) → w ∈ typeWords → (∀ o, .punct o ∉ ws) →
      ∃ w ws, w ∈ typeWords ∧ ReadsAs s (.name w :: ws) ∧ ∀ o, .punct o ∉ ws :=
    fun h1 h2 h3 => ⟨_, _, h2, h1, h3⟩
  have one : ∀ {c : Char} {cs : Str}, nameStart c = true → (cs.all nameChar) = true → (c :: cs) ∈ typeWords →
      ∃ w ws, w ∈ typeWords ∧ ReadsAs (c :: cs) (.name w :: ws) ∧ ∀ o, .punct o ∉ ws := by
    intro c cs h1 h2 h3
    exact key (reads_name ⟨c, cs, rfl, h1, by simpa using h2⟩) h3 (by simp)
  have two : ∀ {a b : Str} {T : List Token}, IsName a → ReadsAs b T → a ∈ typeWords → (∀ o, .punct o ∉ T) →
      ∃ w ws, w ∈ typeWords ∧ ReadsAs (a ++ ' ' :: b) (.name w :: ws) ∧ ∀ o, .punct o ∉ ws :=
    fun h1 h2 h3 h4 => key (reads_word h1 h2) h3 h4
  have nm : ∀ {c : Char} {cs : Str}, nameStart c = true → (cs.all nameChar) = true → IsName (c :: cs) :=
    fun h1 h2 => ⟨_, _, rfl, h1, by simpa using h2⟩
  cases p with
  | vaList => exact absurd rfl h
  | schar => exact two (a := c!"signed") (b := c!"char") (nm rfl rfl) (reads_name (nm rfl rfl)) (by decide) (by simp)
  | uchar => exact two (a := c!"unsigned") (b := c!"char") (nm rfl rfl) (reads_name (nm rfl rfl)) (by decide) (by simp)
  | integer z s k =>
    cases s <;> cases k <;> cases b <;> first
      | exact one rfl rfl (by decide)
      | exact two (a := c!"unsigned") (b := c!"short") (nm rfl rfl) (reads_name (nm rfl rfl)) (by decide) (by simp)
      | exact two (a := c!"unsigned") (b := c!"int") (nm rfl rfl) (reads_name (nm rfl rfl)) (by decide) (by simp)
      | exact two (a := c!"unsigned") (b := c!"long") (nm rfl rfl) (reads_name (nm rfl rfl)) (by decide) (by simp)
      | exact two (a := c!"long") (b := c!"long") (nm rfl rfl) (reads_name (nm rfl rfl)) (by decide) (by simp)
      | exact two (a := c!"unsigned") (b := c!"long long") (nm rfl rfl)
          (reads_word (w := c!"long") (t := c!"long") (nm rfl rfl) (reads_name (nm rfl rfl))) (by decide) (by simp)
  | _ => exact one rfl rfl (by decide)

/-- The declaration of a simple type. -/
theorem simpleTy_decl {isType : Str → Bool} (hk : ∀ w ∈ typeWords, isType w = true) (cfg : DeclConfig) {t : Ty}
    (h : SimpleTy isType t) : ∀ q, ∃ q' k n ds W, CDecl.buildType cfg t q = .mk q' k n [] ds ∧
      (∀ d ∈ ds, ∃ a b, d = CDeclarator.ptr a b false) ∧ ReadsAs n W ∧ TypeToks isType W := by
  induction h with
  | @prim p hp =>
    intro q
    obtain ⟨w, ws, h1, h2, h3⟩ := prim_reads hp cfg.usizeIsSizeT
    refine ⟨q, none, _, [], _, by simp [CDecl.buildType], by simp, h2, ⟨w, ws, rfl, hk w h1⟩, ?_⟩
    intro o ho
    simp at ho
    exact absurd ho (h3 o)
  | @path p e k he ht =>
    intro q
    exact ⟨q, k, e, [], _, by simp [CDecl.buildType, CDecl.buildGArgs], by simp, reads_name he,
      ⟨e, [], rfl, ht⟩, by simp⟩
  | @ptr t k nl _ ih =>
    intro q
    obtain ⟨q', k', n, ds, W, h1, h2, h3, h4⟩ := ih k
    refine ⟨q', k', n, .ptr q nl false :: ds, W, by simp [CDecl.buildType, h1, CDecl.push], ?_, h3, h4⟩
    intro d hd
    rcases List.mem_cons.mp hd with rfl | hd
    · exact ⟨_, _, rfl⟩
    · exact h2 d hd

theorem left_reads {isType : Str → Bool} {c : OutConfig} (hn : c.nonNullAttr = none) (hu : c.nullableAttr = none) :
    ∀ {ds : List CDeclarator}, (∀ d ∈ ds, ∃ a b, d = CDeclarator.ptr a b false) →
    ∀ {t : Str} {T : List Token}, ReadsAs t T → TypeToks isType T →
    ∃ (ss : List Str) (T' : List Token), leftOps c ds = ss.map WOp.text ∧ ReadsAs (t ++ ss.flatten) T' ∧ TypeToks isType T'
  | [], _, t, T, h, ht => ⟨[], T, rfl, by simpa using h, ht⟩
  | d :: ds, hd, t, T, h, ht => by
    obtain ⟨a, b, rfl⟩ := hd d (by simp)
    have hattr : ptrAttrOps c b false = [] := by
      unfold ptrAttrOps
      rw [hn, hu]
      repeat' split
      all_goals rfl
    have grow : ∀ {T' : List Token}, (∀ o, .punct o ∈ T' → o ≠ c!")" ∧ o ≠ c!"(") → TypeToks isType (T ++ T') := by
      intro T' h'
      obtain ⟨⟨n, r, rfl, hn'⟩, h2⟩ := ht
      refine ⟨⟨n, r ++ T', rfl, hn'⟩, fun o ho => ?_⟩
      rcases List.mem_append.mp ho with ho | ho
      · exact h2 o ho
      · exact h' o ho
    cases a with
    | false =>
      obtain ⟨ss, T', h1, h2, h3⟩ := left_reads hn hu (ds := ds) (fun x hx => hd x (by simp [hx])) (reads_star h)
        (grow (T' := [.punct c!"*"]) (by intro o ho; simp at ho; subst ho; decide))
      exact ⟨c!"*" :: ss, T', by simp [leftOps, leftPieceOps, qualOps, hattr, h1], by simpa using h2, h3⟩
    | true =>
      obtain ⟨ss, T', h1, h2, h3⟩ := left_reads hn hu (ds := ds) (fun x hx => hd x (by simp [hx])) (reads_star_const h)
        (grow (T' := [.punct c!"*", .name c!"const"]) (by intro o ho; simp at ho; subst ho; decide))
      exact ⟨c!"*" :: c!"const " :: ss, T', by simp [leftOps, leftPieceOps, qualOps, hattr, h1], by simpa using h2, h3⟩

theorem right_ptrs {c : OutConfig} : ∀ {ds : List CDeclarator}, (∀ d ∈ ds, ∃ a b, d = CDeclarator.ptr a b false) →
    ∀ {l : Layout} {p : Bool}, CDecl.rightOps c l p ds = []
  | [], _, l, p => by simp [CDecl.rightOps]
  | d :: ds, h, l, p => by
    obtain ⟨a, b, rfl⟩ := h d (by simp)
    rw [CDecl.rightOps]
    exact right_ptrs fun x hx => h x (by simp [hx])

theorem simpleTy_reads {isType : Str → Bool} (hk : ∀ w ∈ typeWords, isType w = true) {c : OutConfig}
    (hl : c.language ≠ .cython) (hn : c.nonNullAttr = none) (hu : c.nullableAttr = none) {t : Ty}
    (h : SimpleTy isType t) : ∃ (ss : List Str) (T : List Token), typeOps c t = ss.map WOp.text ∧ ReadsAs ss.flatten T ∧ TypeToks isType T := by
  obtain ⟨q, k, n, ds, W, h1, h2, h3, h4⟩ := simpleTy_decl hk c.toDeclConfig h false
  have nm : ∀ {c : Char} {cs : Str}, nameStart c = true → (cs.all nameChar) = true → IsName (c :: cs) :=
    fun h1 h2 => ⟨_, _, rfl, h1, by simpa using h2⟩
  have more : ∀ {w t : Str} {T : List Token}, IsName w → w ∈ typeWords → ReadsAs t T → TypeToks isType T →
      ReadsAs (w ++ ' ' :: t) (.name w :: T) ∧ TypeToks isType (.name w :: T) := by
    intro w t T hw hm hr ht
    refine ⟨reads_word hw hr, ⟨w, T, rfl, hk w hm⟩, fun o ho => ht.2 o ?_⟩
    simpa using ho
  -- the keyword
  obtain ⟨ss1, T1, e1, r1, t1⟩ : ∃ (ss : List Str) (T : List Token), ctypeOps c k ++ [.text n] = ss.map WOp.text ∧ ReadsAs ss.flatten T ∧
      TypeToks isType T := by
    cases k with
    | none => exact ⟨[n], W, rfl, by simpa using h3, h4⟩
    | some k =>
      have hw : IsName k.word ∧ k.word ∈ typeWords := by
        cases k
        · exact ⟨nm rfl rfl, by decide⟩
        · exact ⟨nm rfl rfl, by decide⟩
        · exact ⟨nm rfl rfl, by decide⟩
      obtain ⟨hr, ht⟩ := more hw.1 hw.2 h3 h4
      exact ⟨[k.word ++ c!" ", n], _, by simp [ctypeOps, hl], by simpa using hr, ht⟩
  -- `const`
  obtain ⟨ss2, T2, e2, r2, t2⟩ : ∃ (ss : List Str) (T : List Token), qualOps q ++ (ctypeOps c k ++ [.text n]) = ss.map WOp.text ∧
      ReadsAs ss.flatten T ∧ TypeToks isType T := by
    cases q with
    | false => exact ⟨ss1, T1, by simpa [qualOps] using e1, r1, t1⟩
    | true =>
      obtain ⟨hr, ht⟩ := more (w := c!"const") (nm rfl rfl) (by decide) r1 t1
      exact ⟨c!"const " :: ss1, _, by simp [qualOps, e1], by simpa using hr, ht⟩
  have h2' : ∀ d ∈ ds.reverse, ∃ a b, d = CDeclarator.ptr a b false := fun d hd => h2 d (by simpa using hd)
  obtain ⟨ss3, T3, e3, r3, t3⟩ := left_reads hn hu h2' r2 t2
  refine ⟨ss2 ++ ss3, T3, ?_, by simpa using r3, t3⟩
  unfold typeOps CDecl.fromType
  rw [h1, CDecl.ops, right_ptrs h2, e3, List.map_append, ← e2]
  simp [identSpaceOps, identOps, templateOps, CGArg.opsList]

/-! ## Texts of expressions -/

theorem reads_binary {L R : Str} {TL TR : List Token} {op : BinOp} {o : Str} (h : cOperator op = some o)
    (hl : ReadsAs L TL) (hr : ReadsAs R TR) :
    ReadsAs (c!"(" ++ L ++ (c!" " ++ o ++ c!" ") ++ R ++ c!")")
      (.punct c!"(" :: TL ++ .punct o :: TR ++ [.punct c!")"]) := by
  refine ⟨'(', L ++ ' ' :: (o ++ ' ' :: (R ++ [')'])), .punct c!"(",
    .punct c!"(" :: TL ++ .punct o :: TR, .punct c!")", [.punct c!")"], by simp, by decide, ?_, rfl, by simp,
    ends_punct_close⟩
  rw [reads_space hl fresh_open (p := [.punct c!"("]) rfl, op_run h,
    reads_close hr (fresh_nothing R) (p := []) rfl]
  simp [run]

theorem reads_field {L n : Str} {TL : List Token} (hl : ReadsAs L TL) (hn : IsName n) :
    ReadsAs (c!"(" ++ L ++ (c!")." ++ n)) (.punct c!"(" :: TL ++ [.punct c!")", .punct c!".", .name n]) := by
  obtain ⟨c, cs, rfl, h1, h2⟩ := hn
  refine ⟨'(', L ++ ')' :: '.' :: c :: cs, .punct c!"(",
    .punct c!"(" :: TL ++ [.punct c!")", .punct c!"."], .name (c :: cs), [.name (c :: cs)], by simp, by decide, ?_, rfl,
    by simp, ends_name _⟩
  have hdot : step (.punct c!")") '.' = some ([.punct c!")"], .punct c!".") := by decide
  have hc : step (.punct c!".") c = some ([.punct c!"."], .name [c]) := by
    simp [step, longPuncts, next, finish, begin, h1]
  rw [reads_close hl fresh_open (p := [.punct c!"("]) rfl]
  simp [run, hdot, hc, run_name h2]

theorem reads_cast {A L : Str} {TA TL : List Token} (ha : ReadsAs A TA) (hl : ReadsAs L TL) :
    ReadsAs (c!"(" ++ A ++ c!")" ++ L) (.punct c!"(" :: TA ++ .punct c!")" :: TL) := by
  obtain ⟨ts, r, fin, h1, h2, rfl, he⟩ := reads_run hl (fresh_closed (t := L)) (p := [.punct c!")"]) rfl
  refine ⟨'(', A ++ ')' :: L, .punct c!"(",
    .punct c!"(" :: TA ++ .punct c!")" :: ts, r, fin, by simp, by decide, ?_, h2, by simp, he⟩
  rw [reads_close ha fresh_open (p := [.punct c!"("]) rfl, h1]
  simp

theorem reads_unary {o : Char} {L : Str} {TL : List Token} (ho : begin o = some (.punct [o]))
    (hf : FreshAt (.punct [o]) L) (hl : ReadsAs L TL) : ReadsAs ([o] ++ L) (.punct [o] :: TL) := by
  obtain ⟨ts, r, fin, h1, h2, rfl, he⟩ := reads_run hl hf (p := [.punct [o]]) rfl
  exact ⟨o, L, .punct [o], .punct [o] :: ts, r, fin, by simp, ho, by simpa using h1, h2, by simp, he⟩

/-- The expression is written with a minus sign in front. -/
def leadsWithNeg : SynExpr → Bool
  | .unary .neg _ => true
  | .paren e => leadsWithNeg e
  | _ => false

/-- The expressions of the theorem: every operator has a counterpart in C, no negation is the operand of a
negation, the identifiers are identifiers of C, and the casts go to simple types. -/
inductive GoodExpr (env : Env) (isType : Str → Bool) : SynExpr → Prop
  | int (n : Nat) (s : Str) : GoodExpr env isType (.lit (.int n s))
  | byte (n : Nat) : GoodExpr env isType (.lit (.byte n))
  | char (c : Char) : GoodExpr env isType (.lit (.char c))
  | bool (b : Bool) : isType (if b then c!"true" else c!"false") = false → GoodExpr env isType (.lit (.bool b))
  | float {ds : Str} : IsNumber ds → GoodExpr env isType (.lit (.float ds))
  | path {n : Str} (as : SynArgs) : IsName n → isType n = false → GoodExpr env isType (.path [] n as)
  | assoc {t n : Str} (as : SynArgs) : IsName (pathText env (some (t, t)) n) →
      isType (pathText env (some (t, t)) n) = false → GoodExpr env isType (.path [t] n as)
  | paren {e : SynExpr} : GoodExpr env isType e → GoodExpr env isType (.paren e)
  | binary {l r : SynExpr} {op : BinOp} {o : Str} : GoodExpr env isType l → cOperator op = some o → GoodExpr env isType r →
      GoodExpr env isType (.binary l op r)
  | neg {e : SynExpr} : GoodExpr env isType e → leadsWithNeg e = false → GoodExpr env isType (.unary .neg e)
  | not {e : SynExpr} : GoodExpr env isType e → GoodExpr env isType (.unary .not e)
  | field {e : SynExpr} {m : SynMember} : GoodExpr env isType e → IsName m.ident → GoodExpr env isType (.field e m)
  | cast {e : SynExpr} {ty : SynTy} {t : Ty} : GoodExpr env isType e → ty.load = .ok (some t) → SimpleTy isType t →
      GoodExpr env isType (.cast e ty)

theorem minus_not_name {c : Char} (h : nameStart c = true) : c ≠ '-' ∧ c ≠ '>' ∧ c ≠ '=' := by
  refine ⟨?_, ?_, ?_⟩ <;> (rintro rfl; revert h; decide)

theorem begin_op {o : Char} (h : o = '-' ∨ o = '>' ∨ o = '=') : begin o = some (.punct [o]) := by
  rcases h with rfl | rfl | rfl <;> decide

theorem next_nonempty {r : Reading} {c : Char} {o : Str} (h : r = .punct o) : ∀ {r'}, next r c ≠ some ([], r') := by
  subst h
  intro r' h
  simp only [next, finish] at h
  cases hb : begin c with
  | none => rw [hb] at h; cases h
  | some q => rw [hb] at h; simp at h

theorem run_punct {cs : Str} : ∀ {o : Str} {s : Str}, run (.punct o) cs ≠ some ([], .number s) := by
  induction cs with
  | nil => intro o s h; simp [run] at h
  | cons c cs ih =>
    intro o s h
    rw [run] at h
    cases hs : step (.punct o) c with
    | none => rw [hs] at h; cases h
    | some q =>
      obtain ⟨ts, r'⟩ := q
      rw [hs] at h
      cases hr : run r' cs with
      | none => simp [hr] at h
      | some q' =>
        simp [hr] at h
        obtain ⟨⟨rfl, h2⟩, h3⟩ := h
        simp only [step] at hs
        split at hs
        · simp at hs
          subst hs
          exact ih (hr.trans (by rw [← h2, ← h3]))
        · split at hs
          · cases hs
          · exact next_nonempty rfl hs

theorem minus_not_number {c : Char} {cs : Str} (h : IsNumber (c :: cs)) : c ≠ '-' ∧ c ≠ '>' ∧ c ≠ '=' := by
  obtain ⟨r, h1, rfl⟩ := h
  have key : ¬ (c = '-' ∨ c = '>' ∨ c = '=') := by
    intro hc
    rw [run] at h1
    simp only [step, next, finish, begin_op hc, List.nil_append] at h1
    cases hr : run (.punct [c]) cs with
    | none => simp [hr] at h1
    | some q =>
      simp [hr] at h1
      exact run_punct (hr.trans (by rw [← h1.1, ← h1.2]))
  exact ⟨fun h => key (.inl h), fun h => key (.inr (.inl h)), fun h => key (.inr (.inr h))⟩

theorem intSuffix_letters {n : Nat} {s : Str} : ∀ d ∈ intSuffix n s, d.isAlphanum = true := by
  have : ∀ x ∈ [c!"ull", c!"ll", c!"u", ([] : Str)], ∀ d ∈ x, d.isAlphanum = true := by decide
  apply this
  unfold intSuffix
  repeat' split
  all_goals simp

theorem natStr_number {n : Nat} {s : Str} (hs : ∀ d ∈ s, d.isAlphanum = true) : IsNumber (natStr n ++ s) := by
  apply isNumber_digits
  have hd := natStr_digits n
  cases h : natStr n with
  | nil => exact absurd h (natStr_ne_nil n)
  | cons c cs =>
    rw [h] at hd
    refine ⟨c, cs ++ s, rfl, hd c (by simp), fun d hm => ?_⟩
    rcases List.mem_append.mp hm with hm | hm
    · have := hd d (by simp [hm])
      simp [Char.isAlphanum, this]
    · exact hs d hm

/-- What is shown of the calls for an expression. -/
def LitClaim (env : Env) (isType : Str → Bool) (e : SynExpr) (l : Lit) : Prop :=
  ∃ (ss : List Str) (T : List Token) (tree : Tree), l.ops env = ss.map WOp.text ∧ ReadsAs ss.flatten T ∧
    Operand isType T tree ∧ Same e tree ∧
    (leadsWithNeg e = false → ∀ c cs, ss.flatten = c :: cs → c ≠ '-' ∧ c ≠ '>' ∧ c ≠ '=')

theorem claim_leaf {env : Env} {isType : Str → Bool} {e : SynExpr} {l : Lit} {s : Str} {t : Token}
    (h1 : l.ops env = [.text s]) (h2 : ReadsAs s [t]) (h3 : ∀ o, t ≠ .punct o)
    (h4 : ∀ n, t = .name n → isType n = false) (h5 : Same e (.leaf t))
    (h6 : ∀ c cs, s = c :: cs → c ≠ '-' ∧ c ≠ '>' ∧ c ≠ '=') : LitClaim env isType e l :=
  ⟨[s], [t], .leaf t, h1, by simpa using h2, operand_leaf h3 h4, h5, fun _ => by simpa using h6⟩

theorem claim_number {env : Env} {isType : Str → Bool} {e : SynExpr} {l : Lit} {s : Str}
    (h1 : l.ops env = [.text s]) (h2 : IsNumber s) (h5 : Same e (.leaf (.number s))) : LitClaim env isType e l :=
  claim_leaf h1 (reads_number h2) (by simp) (by simp) h5
    fun c cs h => minus_not_number (c := c) (cs := cs) (h ▸ h2)

theorem claim_name {env : Env} {isType : Str → Bool} {e : SynExpr} {l : Lit} {s : Str}
    (h1 : l.ops env = [.text s]) (h2 : IsName s) (h4 : isType s = false) (h5 : Same e (.leaf (.name s))) :
    LitClaim env isType e l := by
  refine claim_leaf h1 (reads_name h2) (by simp) (by simpa using h4) h5 ?_
  intro c cs h
  obtain ⟨c', cs', rfl, h', _⟩ := h2
  injection h with h _
  exact minus_not_name (h ▸ h')

theorem unraw_same {n : Str} : n = unraw n ∨ n = c!"r#" ++ unraw n := by
  unfold unraw
  split
  · rename_i h
    obtain ⟨t, rfl⟩ := List.isPrefixOf_iff_prefix.mp h
    exact .inr (by simp)
  · exact .inl rfl

/-- Every good expression. -/
theorem lit_claim {env : Env} {isType : Str → Bool} (hk : ∀ w ∈ typeWords, isType w = true)
    (hl : env.cfg.language ≠ .cython) (hn : env.cfg.nonNullAttr = none) (hu : env.cfg.nullableAttr = none)
    {ord : List LitField → List LitField} {e : SynExpr} (h : GoodExpr env isType e) :
    ∀ {l : Lit}, e.load ord = .ok l → LitClaim env isType e l := by
  have hx : ∀ s, exprText env.cfg.language s = s := fun s => by simp [exprText, hl]
  induction h with
  | int n s =>
    intro l h
    simp [SynExpr.load, SynLit.load, bind, Except.bind] at h
    subst h
    exact claim_number (s := natStr n ++ intSuffix n s) (by simp [Lit.ops, hx]) (natStr_number intSuffix_letters)
      (.lit (.int n s (natStr_constant n _)))
  | byte n =>
    intro l h
    simp [SynExpr.load, SynLit.load, bind, Except.bind] at h
    subst h
    refine claim_number (s := natStr n) (by simp [Lit.ops, hx]) ?_ (.lit (.byte n ?_))
    · simpa using natStr_number (n := n) (s := []) (by simp)
    · simpa using natStr_constant n []
  | char c =>
    intro l h
    simp only [SynExpr.load, SynLit.load, bind, Except.bind, Except.ok.injEq] at h
    subst h
    by_cases hc : c.toNat ≤ 255
    · obtain ⟨x, hx'⟩ := reads_char (charRest_default c)
      exact claim_leaf (s := c!"'" ++ escapeDefault c ++ c!"'") (by simp [Lit.ops, hx, hc]) hx' (by simp) (by simp)
        (.lit (.char c x)) (by intro d ds h; simp at h; rw [← h.1]; decide)
    · obtain ⟨x, hx'⟩ := reads_wide (hexStr8_plain c.toNat)
      exact claim_leaf (s := c!"U'" ++ (c!"\\U" ++ hexStr8 c.toNat) ++ c!"'") (by simp [Lit.ops, hx, hc]) hx' (by simp)
        (by simp) (.lit (.char c x)) (by intro d ds h; simp at h; rw [← h.1]; decide)
  | bool b hb =>
    intro l h
    simp only [SynExpr.load, SynLit.load, bind, Except.bind, Except.ok.injEq] at h
    subst h
    refine claim_name (by simp [Lit.ops, hx]) ?_ hb (.lit (.bool b))
    cases b
    · exact ⟨'f', c!"alse", rfl, by decide, by decide⟩
    · exact ⟨'t', c!"rue", rfl, by decide, by decide⟩
  | @float ds hd =>
    intro l h
    simp only [SynExpr.load, SynLit.load, bind, Except.bind, Except.ok.injEq] at h
    subst h
    exact claim_number (by simp [Lit.ops, hx]) hd (.lit (.float ds))
  | @path n as h1 h2 =>
    intro l h
    simp only [SynExpr.load, litPath, Except.ok.injEq] at h
    subst h
    exact claim_name (by simp [Lit.ops, pathText]) h1 h2 (.path n as)
  | @assoc t n as h1 h2 =>
    intro l h
    simp only [SynExpr.load, litPath, Except.ok.injEq] at h
    subst h
    exact claim_name (by simp [Lit.ops]) h1 h2 (.assoc t n as _)
  | paren _ ih =>
    intro l h
    rw [SynExpr.load] at h
    obtain ⟨ss, T, tree, h1, h2, h3, h4, h5⟩ := ih h
    exact ⟨ss, T, tree, h1, h2, h3, .paren h4, h5⟩
  | @binary l r op o _ ho _ ihl ihr =>
    intro x h
    rw [SynExpr.load] at h
    simp only [bind, Except.bind] at h
    cases hl' : l.load ord with
    | error e => rw [hl'] at h; cases h
    | ok a =>
      rw [hl'] at h
      cases hr' : r.load ord with
      | error e => rw [hr'] at h; cases h
      | ok b =>
        rw [hr'] at h
        simp only [Except.ok.injEq] at h
        subst h
        obtain ⟨ss, T, tree, h1, h2, h3, h4, _⟩ := ihl hl'
        obtain ⟨ss', T', tree', h1', h2', h3', h4', _⟩ := ihr hr'
        obtain ⟨p, hp⟩ := op_prec ho
        refine ⟨[c!"("] ++ ss ++ [c!" " ++ o ++ c!" "] ++ ss' ++ [c!")"], _, .binary tree o tree', ?_, ?_,
          operand_binary hp h3 h3' ?_, .binary h4 ho h4', ?_⟩
        · simp [Lit.ops, h1, h1', op_text ho]
        · simpa using reads_binary ho h2 h2'
        · rintro rfl
          have : prec c!"." = none := by decide
          rw [this] at hp; cases hp
        · intro _ c cs hcs
          simp at hcs
          rw [← hcs.1]; decide
  | @neg e _ hneg ih =>
    intro x h
    rw [SynExpr.load] at h
    simp only [bind, Except.bind, unOpText] at h
    cases hl' : e.load ord with
    | error e => rw [hl'] at h; cases h
    | ok a =>
      rw [hl'] at h
      simp only [Except.ok.injEq] at h
      subst h
      obtain ⟨ss, T, tree, h1, h2, h3, h4, h5⟩ := ih hl'
      refine ⟨c!"-" :: ss, _, .unary c!"-" tree, by simp [Lit.ops, h1], ?_, operand_unary (by decide) h3, .neg h4, ?_⟩
      · simpa using reads_unary (o := '-') (by decide) (fresh_minus (h5 hneg)) h2
      · intro hc; simp [leadsWithNeg] at hc
  | @not e _ ih =>
    intro x h
    rw [SynExpr.load] at h
    simp only [bind, Except.bind, unOpText] at h
    cases hl' : e.load ord with
    | error e => rw [hl'] at h; cases h
    | ok a =>
      rw [hl'] at h
      simp only [Except.ok.injEq] at h
      subst h
      obtain ⟨ss, T, tree, h1, h2, h3, h4, h5⟩ := ih hl'
      refine ⟨c!"~" :: ss, _, .unary c!"~" tree, by simp [Lit.ops, h1], ?_, operand_unary (by decide) h3, .not h4, ?_⟩
      · simpa using reads_unary (o := '~') (by decide) fresh_tilde h2
      · intro _ c cs hc
        simp at hc
        rw [← hc.1]; decide
  | @field e m _ hm ih =>
    intro x h
    rw [SynExpr.load] at h
    simp only [bind, Except.bind] at h
    cases hl' : e.load ord with
    | error e => rw [hl'] at h; cases h
    | ok a =>
      rw [hl'] at h
      simp only [Except.ok.injEq] at h
      subst h
      obtain ⟨ss, T, tree, h1, h2, h3, h4, h5⟩ := ih hl'
      refine ⟨[c!"("] ++ ss ++ [c!")." ++ m.ident], _, .field tree m.ident, by simp [Lit.ops, h1], ?_,
        operand_field h3, ?_, ?_⟩
      · simpa using reads_field h2 hm
      · cases m with
        | named n => exact .named h4 unraw_same
        | unnamed i => exact .unnamed h4 ⟨natStr i, rfl, by simpa using natStr_constant i []⟩
      · intro _ c cs hc
        simp at hc
        rw [← hc.1]; decide
  | @cast e ty t _ ht hs ih =>
    intro x h
    rw [SynExpr.load] at h
    simp only [bind, Except.bind] at h
    cases hl' : e.load ord with
    | error e => rw [hl'] at h; cases h
    | ok a =>
      rw [hl', ht] at h
      simp only [Except.ok.injEq] at h
      subst h
      obtain ⟨ss, T, tree, h1, h2, h3, h4, h5⟩ := ih hl'
      obtain ⟨ss', T', e1, r1, ⟨t1, t2⟩⟩ := simpleTy_reads hk hl hn hu hs
      have hcast : castOps env.cfg t = [.text c!"("] ++ typeOps env.cfg t ++ [.text c!")"] := by
        unfold castOps
        split
        · rename_i hc; exact absurd hc hl
        · rfl
      refine ⟨[c!"("] ++ ss' ++ [c!")"] ++ ss, _, .cast T' tree, by simp [Lit.ops, h1, hcast, e1], ?_,
        operand_cast t1 t2 h3, .cast h4, ?_⟩
      · simpa using reads_cast r1 h2
      · intro _ c cs hc
        simp at hc
        rw [← hc.1]; decide

/-! ## The theorem -/

theorem put_started {w w' : W} {s t : Str} (hs : w.lineStarted = true) (h : w.put s = some (t, w')) :
    t = s ∧ w'.lineStarted = true := by
  unfold W.put at h
  split at h
  · rename_i hn
    simp only [Option.some.injEq, Prod.mk.injEq] at h
    obtain ⟨rfl, rfl⟩ := h
    exact ⟨hn.symm, hs⟩
  · simp only [Option.some.injEq, Prod.mk.injEq] at h
    obtain ⟨rfl, rfl⟩ := h
    exact ⟨rfl, hs⟩

theorem exec_texts_started {c : WConfig} {ss : List Str} : ∀ {w w' : W} {t : Str}, w.lineStarted = true →
    WOp.exec c (ss.map .text) w = some (t, w') → t = ss.flatten := by
  induction ss with
  | nil =>
    intro w w' t _ h
    simp [exec_nil] at h
    simpa using h.1.symm
  | cons s ss ih =>
    intro w w' t hs h
    obtain ⟨a, w1, b, h1, h2, rfl⟩ := exec_cons_some.mp h
    obtain ⟨rfl, hw⟩ := put_started hs (by simpa [WOp.exec1] using h1)
    rw [ih hw h2]
    rfl

/-- Texts alone: at most the indentation is added. -/
theorem exec_texts {c : WConfig} {ss : List Str} : ∀ {w w' : W} {t : Str},
    WOp.exec c (ss.map .text) w = some (t, w') → ∃ n, t = List.replicate n ' ' ++ ss.flatten := by
  induction ss with
  | nil =>
    intro w w' t h
    simp [exec_nil] at h
    exact ⟨0, by simpa using h.1.symm⟩
  | cons s ss ih =>
    intro w w' t h
    obtain ⟨a, w1, b, h1, h2, rfl⟩ := exec_cons_some.mp h
    rw [WOp.exec1] at h1
    by_cases hs : w.lineStarted = true
    · obtain ⟨rfl, hw⟩ := put_started hs h1
      exact ⟨0, by rw [exec_texts_started hw h2]; simp⟩
    · unfold W.put at h1
      split at h1
      · rename_i hn
        simp only [Option.some.injEq, Prod.mk.injEq] at h1
        obtain ⟨rfl, rfl⟩ := h1
        obtain ⟨n, hn'⟩ := ih h2
        exact ⟨n, by simp [hn, hn']⟩
      · simp only [if_neg hs] at h1
        split at h1
        · cases h1
        · rename_i n _ _
          simp only [Option.some.injEq, Prod.mk.injEq] at h1
          obtain ⟨rfl, rfl⟩ := h1
          refine ⟨n, ?_⟩
          rw [exec_texts_started (by rfl) h2]
          simp

theorem run_spaces {n : Nat} {s : Str} : run .nothing (List.replicate n ' ' ++ s) = run .nothing s := by
  induction n with
  | zero => rfl
  | succ n ih =>
    rw [List.replicate_succ, List.cons_append, run]
    have : step .nothing ' ' = some ([], .nothing) := by decide
    rw [this]
    simp [ih]

theorem tokens_reads {n : Nat} {t : Str} {T : List Token} (h : ReadsAs t T) :
    tokens (List.replicate n ' ' ++ t) = some T := by
  obtain ⟨ts, r, fin, h1, h2, rfl, _⟩ := reads_run h (fresh_nothing t) (p := []) rfl
  unfold tokens
  rw [run_spaces, h1]
  simp [h2]

/-- C28.  The text that is written for an expression is a sequence of tokens of C, and the tree that the
precedence rules of C give it has the operators, members and casts of the Rust expression at the same places.
What is missing, and shown to fail below: operands of a negation that are negations themselves, and raw
identifiers.  Struct literals and arrays are not expressions with operators, but see C36; their items are
written with the same function. -/
theorem C28_structure_partial {env : Env} {isType : Str → Bool} (hk : ∀ w ∈ typeWords, isType w = true)
    (hl : env.cfg.language ≠ .cython) (hn : env.cfg.nonNullAttr = none) (hu : env.cfg.nullableAttr = none)
    {ord : List LitField → List LitField} {e : SynExpr} (h : GoodExpr env isType e) {l : Lit}
    (hload : e.load ord = .ok l) {wc : WConfig} {t : Str} (hw : Writes wc (l.ops env) t) :
    ∃ T, tokens t = some T ∧ ∃ tree, Parses isType T tree ∧ Same e tree ∧
      ∀ tree', Parses isType T tree' → tree' = tree := by
  obtain ⟨ss, T, tree, h1, h2, h3, h4, _⟩ := lit_claim hk hl hn hu h hload
  obtain ⟨w, w', hx⟩ := hw
  rw [h1] at hx
  obtain ⟨n, rfl⟩ := exec_texts hx
  have hp := operand_parses h3
  exact ⟨T, tokens_reads h2, tree, hp, h4, fun tree' h' => parses_unique h' hp⟩

/-- The loader accepts every operator that has a counterpart in C, and the writer gives every loaded good
expression a text. -/
theorem C28_written {env : Env} {isType : Str → Bool} (hk : ∀ w ∈ typeWords, isType w = true)
    (hl : env.cfg.language ≠ .cython) (hn : env.cfg.nonNullAttr = none) (hu : env.cfg.nullableAttr = none)
    (ord : List LitField → List LitField) {e : SynExpr} (h : GoodExpr env isType e) :
    ∃ l, e.load ord = .ok l ∧ ∀ wc, ∃ t, Writes wc (l.ops env) t := by
  have hload : ∃ l, e.load ord = .ok l := by
    induction h with
    | int n s => exact ⟨_, rfl⟩
    | byte n => exact ⟨_, rfl⟩
    | char c => exact ⟨_, rfl⟩
    | bool b _ => exact ⟨_, rfl⟩
    | float _ => exact ⟨_, rfl⟩
    | path as _ _ => exact ⟨_, rfl⟩
    | assoc as _ _ => exact ⟨_, rfl⟩
    | paren _ ih => simpa [SynExpr.load] using ih
    | binary _ _ _ ih1 ih2 =>
      obtain ⟨a, ha⟩ := ih1
      obtain ⟨b, hb⟩ := ih2
      exact ⟨_, by simp [SynExpr.load, ha, hb, bind, Except.bind]; rfl⟩
    | neg _ _ ih =>
      obtain ⟨a, ha⟩ := ih
      exact ⟨_, by simp [SynExpr.load, ha, bind, Except.bind, unOpText]; rfl⟩
    | not _ ih =>
      obtain ⟨a, ha⟩ := ih
      exact ⟨_, by simp [SynExpr.load, ha, bind, Except.bind, unOpText]; rfl⟩
    | field _ _ ih =>
      obtain ⟨a, ha⟩ := ih
      exact ⟨_, by simp [SynExpr.load, ha, bind, Except.bind]; rfl⟩
    | cast _ ht _ ih =>
      obtain ⟨a, ha⟩ := ih
      exact ⟨_, by simp [SynExpr.load, ha, ht, bind, Except.bind]; rfl⟩
  obtain ⟨l, hl'⟩ := hload
  refine ⟨l, hl', fun wc => ?_⟩
  obtain ⟨ss, T, tree, h1, _⟩ := lit_claim hk hl hn hu h hl'
  rw [h1]
  have : ∀ (ss : List Str) (w : W), w.spaces ≠ [] → ∃ t w', WOp.exec wc (ss.map .text) w = some (t, w') := by
    intro ss
    induction ss with
    | nil => intro w _; exact ⟨_, _, exec_nil _ _⟩
    | cons s ss ih =>
      intro w hw
      have hput : ∃ a w1, w.put s = some (a, w1) ∧ w1.spaces ≠ [] := by
        unfold W.put
        split
        · exact ⟨_, _, rfl, hw⟩
        split
        · exact ⟨_, _, rfl, hw⟩
        cases hsp : w.spaces with
        | nil => exact absurd hsp hw
        | cons n r => exact ⟨_, _, rfl, by simp [W.wrote]⟩
      obtain ⟨a, w1, e1, e2⟩ := hput
      obtain ⟨t, w', e3⟩ := ih w1 e2
      exact ⟨_, _, exec_cons_some.mpr ⟨a, w1, t, by simpa [WOp.exec1] using e1, e3, rfl⟩⟩
  obtain ⟨t, w', ht⟩ := this ss {} (by simp)
  exact ⟨t, {}, w', ht⟩

/-! ## Cases and counterexamples -/

/-- `-(A + 2) * (B as *const u32 as usize) << !c.d`. -/
def exprCase : SynExpr :=
  .binary
    (.binary (.unary .neg (.paren (.binary (.path [] c!"A" .none) .add (.lit (.int 2 c!"")))) ) .mul
      (.paren (.cast (.cast (.path [] c!"B" .none) (.ptr true (.path c!"u32" .none))) (.path c!"usize" .none))))
    .shl (.unary .not (.field (.path [] c!"c" .none) (.named c!"d")))

def exprEnv : Env := { cfg := { language := .c } }

def exprTypes (w : Str) : Bool := typeWords.contains w

theorem exprTypes_known : ∀ w ∈ typeWords, exprTypes w = true := fun w h => by simpa [exprTypes] using h

theorem exprCase_good : GoodExpr exprEnv exprTypes exprCase := by
  have nm : ∀ {c : Char} {cs : Str}, nameStart c = true → (cs.all nameChar) = true → IsName (c :: cs) :=
    fun h1 h2 => ⟨_, _, rfl, h1, by simpa using h2⟩
  refine .binary (o := c!"<<") (.binary (o := c!"*") (.neg (.paren (.binary (o := c!"+") (.path _ (nm rfl rfl) rfl) rfl
    (.int _ _))) rfl) rfl (.paren (.cast (.cast (.path _ (nm rfl rfl) rfl) rfl (.ptr (.prim (by decide)))) rfl
    (.prim (by decide))))) rfl (.not (.field (.path _ (nm rfl rfl) rfl) (nm rfl rfl)))

/-- The text of the case, and that the theorem applies to it. -/
theorem C28_structure_case : ∃ l, exprCase.load id = .ok l ∧
    Writes {} (l.ops exprEnv) c!"((-(A + 2) * (uintptr_t)(const uint32_t*)B) << ~(c).d)" ∧
    GoodExpr exprEnv exprTypes exprCase :=
  ⟨_, rfl, ⟨{}, _, rfl⟩, exprCase_good⟩

/-- Without the parentheses that the writer adds the tree is another one: `(1 + 2) * 3` as `1 + 2 * 3`. -/
theorem C28_parentheses_case : ∃ T tree, tokens c!"1 + 2 * 3" = some T ∧ Parses exprTypes T tree ∧
    ¬ Same (.binary (.paren (.binary (.lit (.int 1 [])) .add (.lit (.int 2 [])))) .mul (.lit (.int 3 []))) tree := by
  refine ⟨_, _, rfl, ⟨10, rfl⟩, ?_⟩
  intro h
  cases h with
  | binary _ ho _ => simp [cOperator] at ho

/-- C28 fails for a negation of a negation: `-(-1)` is written `--1`, a decrement in C. -/
theorem C28_negation_refuted : ∃ (e : SynExpr) (l : Lit) (t : Str) (T : List Token), e.load id = .ok l ∧
    Writes {} (l.ops exprEnv) t ∧ tokens t = some T ∧ (∃ tree, Parses exprTypes T tree) ∧
    ∀ tree, Parses exprTypes T tree → ¬ Same e tree := by
  refine ⟨.unary .neg (.paren (.unary .neg (.lit (.int 1 [])))), _, _, _, rfl, ⟨{}, _, rfl⟩, rfl, ⟨_, 10, rfl⟩, ?_⟩
  intro tree h hs
  have h' : Parses exprTypes [.punct c!"--", .number c!"1"] (.unary c!"--" (.leaf (.number c!"1"))) := ⟨10, rfl⟩
  have := parses_unique h h'
  subst this
  cases hs

/-- C28 fails for a raw identifier: `r#type` is written as it is, which is no expression of C. -/
theorem C28_raw_refuted : ∃ (e : SynExpr) (l : Lit) (t : Str), e.load id = .ok l ∧
    Writes {} (l.ops exprEnv) t ∧ ∀ T tree, tokens t = some T → ¬ Parses exprTypes T tree := by
  refine ⟨.path [] c!"r#type" .none, _, _, rfl, ⟨{}, _, rfl⟩, ?_⟩
  intro T tree hT hp
  have hT' : T = [.name c!"r", .punct c!"#", .name c!"type"] := by
    have : tokens c!"r#type" = some [.name c!"r", .punct c!"#", .name c!"type"] := rfl
    exact (Option.some.inj (this.symm.trans hT)).symm
  subst hT'
  obtain ⟨n, hn⟩ := hp
  have h2 : ExprSpec.binary exprTypes 10 0 [.name c!"r", .punct c!"#", .name c!"type"] =
    some (.leaf (.name c!"r"), [.punct c!"#", .name c!"type"]) := rfl
  have := binary_mono (Nat.le_add_right n 10) hn
  have := (binary_mono (Nat.le_add_left 10 n) h2).symm.trans this
  simp at this

end Cbindgen
