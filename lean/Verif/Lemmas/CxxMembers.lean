import Verif.Spec.CxxMembers
import Verif.Lemmas.LexDecl
import Verif.Model.EmitEnum

/-!
# The tokens of derived member functions
-/

namespace Cbindgen.CxxSpec
open LexSpec TextSpec

section
variable {wc : WConfig} {c : OutConfig} {d b e : Bool} {ls ks : List Lx}

/-! ## Texts in parts -/

abbrev Mid (b : Bool) (t : Str) (ls : List Lx) (e : Bool) : Prop := Scans (.mid false b) t ls (.mid false e)

theorem mid_text {t : Str} (h : Mid b t ls e) : Inl wc false b [.text t] ls e := tri_anyText (spaces_mid false b) h

theorem mid_app {x y : Str} {m : Bool} (h1 : Mid b x ls m) (h2 : Mid m y ks e) : Mid b (x ++ y) (ls ++ ks) e :=
  scans_append h1 h2

theorem mid_given {t : Str} (h : isText t b ls e = true) : Mid b t ls e := by
  simp only [isText, Bool.and_eq_true, Bool.or_eq_true, Bool.not_eq_true', beq_iff_eq] at h
  obtain ⟨⟨⟨h1, h2⟩, h3⟩, h4⟩ := h
  rw [← h3]
  refine scans_post (scans_simple (b := b) h1 fun hb => ?_) (mid_le fun he => ?_)
  · rcases h2 with h2 | h2
    · rw [hb] at h2; exact absurd h2 (by simp)
    · exact h2
  · rcases h4 with h4 | h4
    · rw [he] at h4; exact absurd h4 (by simp)
    · exact h4

theorem mid_word {w : Str} (h : Word w) : Mid false w [.word w] true := by
  have := scans_simple (d := false) (b := false) (simple_word h) nofun
  rw [simpleToks_word h] at this
  exact scans_post this (mid_le fun _ => rfl)

/-! ## Braces -/

theorem tri_openBrace (hl : c.language = .cxx) {b : Bool} : Tri wc (.mid false b) c.opn [.punct '{'] .at := by
  have h1 : Tri wc (.mid false true) [.text c!" {"] [.punct '{'] (.mid false false) := inl_text (by decide)
  have h2 : Tri wc (.mid false true) [.text c!"{"] [.punct '{'] (.mid false false) := inl_text (by decide)
  have h3 : Tri wc (.mid false false) [.newLine] [] .at := tri_pre tri_newLine mid_le_done
  have h4 : Tri wc (.mid false true) [.newLine] [] (.mid false true) := inl_mono inl_newLine id fun _ => rfl
  unfold OutConfig.opn
  rw [hl]
  refine tri_pre ?_ (mid_le (b' := true) fun _ => rfl)
  cases c.braces with
  | sameLine => exact tri_cons h1 (tri_cons tri_pushTab h3)
  | nextLine => exact tri_cons h4 (tri_cons h2 (tri_cons tri_pushTab h3))

theorem tri_closeBrace (hl : c.language = .cxx) : Tri wc .done (c.cls false) [.punct '}'] (.mid false false) := by
  have h : Tri wc .at [.text c!"}"] [.punct '}'] (.mid false false) :=
    tri_pre (inl_text (by decide)) (at_le_mid (b := false))
  unfold OutConfig.cls
  rw [hl]
  exact tri_cons (tri_pop (c := wc) (P := .done)) (tri_cons tri_newLine h)

theorem inl_inBraces (hl : c.language = .cxx) {body : List WOp} (h : Inl wc false false body ls e) :
    Inl wc false b (inBraces c body) ([.punct '{'] ++ ls ++ [.punct '}']) false := by
  have h1 : Tri wc .at body ls .done := tri_post (tri_pre h at_le_mid) mid_le_done
  exact tri_append (tri_append (tri_openBrace hl) h1) (tri_closeBrace hl)

/-! ## Parts of a text -/

theorem lex_of_tri {ops : List WOp} {w w' : W} {m : Str} (h : Tri wc (.mid false false) ops ls (.mid false e))
    (hw : w.lineNumber ≠ 0) (hx : WOp.exec wc ops w = some (m, w')) : lex m = some ls := by
  obtain ⟨s', x, h1, h2, h3⟩ := tri_post (tri_pre h (at_le_mid (b := false))) mid_le_done w {} m w' hw rfl hx
  obtain ⟨s2, y, h4, h5, h6⟩ : ∃ s2 y, scan s' ['\n'] = some (s2, y) ∧ s2.mode = .code ∧ y = Pos.done.owed s' := by
    have := step_break h2 (k := '\n') (by decide)
    exact ⟨_, _, scan_cons_some this (scan_nil _), rfl, by simp; rfl⟩
  have := scan_some h1 h4
  unfold lex
  rw [this]
  subst h6
  simp only [Option.bind_some, h5, if_true, h3]
  rfl

theorem has_part {a ops z : List WOp} {w w' : W} {t : Str} {k : Member}
    (h : Inl wc false false ops ls e) (hr : readMember ls = some k) (hw : w.lineNumber ≠ 0)
    (hx : WOp.exec wc (a ++ (ops ++ z)) w = some (t, w')) : Has t k := by
  obtain ⟨t1, w1, t2, e1, e2, rfl⟩ := exec_append_some.mp hx
  obtain ⟨t3, w3, t4, e3, e4, rfl⟩ := exec_append_some.mp e2
  have := PreSpec.number_exec wc a e1
  refine ⟨t1, t3, t4, rfl, ?_⟩
  rw [lex_of_tri h (by omega) e3]
  exact hr

end

/-! ## Comparisons of members -/

def Rel.text : Rel → Str
  | .eq => c!"=="
  | .ne => c!"!="
  | .lt => c!"<"
  | .le => c!"<="
  | .gt => c!">"
  | .ge => c!">="

def Rel.toks : Rel → List Lx
  | .eq => [.punct '=', .punct '=']
  | .ne => [.punct '!', .punct '=']
  | .lt => [.punct '<']
  | .le => [.punct '<', .punct '=']
  | .gt => [.punct '>']
  | .ge => [.punct '>', .punct '=']

/-- The operator between the comparisons. -/
def Rel.conj : Rel → Char
  | .ne => '|'
  | _ => '&'

def conjText (r : Rel) : Str := [r.conj, r.conj]

/-- `f == p.f`. -/
def cmpToks (r : Rel) (p f : Str) : List Lx := .word f :: (r.toks ++ [.word p, .punct '.', .word f])

def fieldCmp (r : Rel) (p f : Str) : Cmp := ⟨.name f, r, .member p f⟩

/-- `bool operator==(const S& p) const`. -/
def opHeadToks (r : Rel) (cls p : Str) : List Lx :=
  [.word c!"bool", .word c!"operator"] ++ r.toks ++
  [.punct '(', .word c!"const", .word cls, .punct '&', .word p, .punct ')', .word c!"const"]

def compareToks (r : Rel) (cls p : Str) (fs : List Str) : List Lx :=
  opHeadToks r cls p ++ ([.punct '{'] ++ ([.word c!"return"] ++
    joined [.punct r.conj, .punct r.conj] (fs.map (cmpToks r p)) ++ [.punct ';']) ++ [.punct '}'])

theorem mid_cmp {r : Rel} {p f : Str} (hp : Word p) (hf : Word f) :
    Mid false (f ++ c!" " ++ r.text ++ c!" " ++ p ++ c!"." ++ f) (cmpToks r p f) true := by
  have h1 : Mid true (c!" " ++ r.text ++ c!" ") r.toks false := by cases r <;> exact mid_given (by decide)
  have h := mid_app (mid_word hf) (mid_app h1 (mid_app (mid_word hp) (mid_app (mid_given (t := c!".") (b := true)
    (ls := [.punct '.']) (e := false) (by decide)) (mid_word hf))))
  simpa [cmpToks] using h

theorem mid_opHead {r : Rel} {cls p : Str} (hc : Word cls) (hp : Word p) :
    Mid false (c!"bool operator" ++ r.text ++ c!"(const " ++ cls ++ c!"& " ++ p ++ c!") const") (opHeadToks r cls p) true := by
  have h1 : Mid false (c!"bool operator" ++ r.text ++ c!"(const ")
      ([.word c!"bool", .word c!"operator"] ++ r.toks ++ [.punct '(', .word c!"const"]) false := by
    cases r <;> exact mid_given (by decide)
  have h := mid_app h1 (mid_app (mid_word hc) (mid_app (mid_given (t := c!"& ") (b := true)
    (ls := [.punct '&']) (e := false) (by decide)) (mid_app (mid_word hp) (mid_given (t := c!") const") (b := true)
    (ls := [.punct ')', .word c!"const"]) (e := true) (by decide)))))
  simpa [opHeadToks] using h

theorem pairs_cmp {wc : WConfig} {r : Rel} {p : Str} (hp : Word p) : ∀ {fs : List Field}, (∀ f ∈ fs, Word f.name) →
    Pairs (fun i l => Inl wc false false i l true)
      ((fs.map fun f => f.name ++ c!" " ++ r.text ++ c!" " ++ p ++ c!"." ++ f.name).map fun x => [WOp.text x])
      ((fs.map (·.name)).map (cmpToks r p))
  | [], _ => .nil
  | f :: _, h => .cons (mid_text (mid_cmp hp (h f (.head _)))) (pairs_cmp hp fun g hg => h g (.tail _ hg))

/-- The fields that are compared. -/
def comparedFields (s : StructItem) : List Field := s.fields.drop (if s.hasTagField then 1 else 0)

/-- What is after the attributes. -/
def compareRest (c : OutConfig) (s : StructItem) (r : Rel) : List WOp :=
  [.text (c!"bool operator" ++ r.text ++ c!"(const " ++ s.exportName ++ c!"& " ++ c.argName c!"other" ++ c!") const")] ++
  inBraces c
    ([.text c!"return "] ++
     verticalTexts (.join (c!" " ++ conjText r))
       ((comparedFields s).map fun f => f.name ++ c!" " ++ r.text ++ c!" " ++ c.argName c!"other" ++ c!"." ++ f.name) ++
     [.text c!";"])

theorem compareOps_eq (c : OutConfig) (s : StructItem) (n : Str) (r : Rel) : compareOps c s n r.text (conjText r) =
    ([.newLine] ++ attrOps s.annotations (n ++ c!"-attributes")) ++ compareRest c s r := by
  simp [compareOps, compareRest, comparedFields]

theorem inl_compare {wc : WConfig} {c : OutConfig} (hl : c.language = .cxx) {s : StructItem} {r : Rel}
    (hp : Word (c.argName c!"other")) (hs : Word s.exportName) (hf : ∀ f ∈ comparedFields s, Word f.name) :
    Inl wc false false (compareRest c s r)
      (compareToks r s.exportName (c.argName c!"other") ((comparedFields s).map (·.name))) false := by
  have h1 : Inl wc false true [.text (c!" " ++ conjText r)] [.punct r.conj, .punct r.conj] false := by
    cases r <;> exact inl_text (by decide)
  have h2 := inl_vertical h1 (pairs_cmp (wc := wc) (r := r) hp hf)
  have h3 : Inl wc false false [.text c!"return "] [.word c!"return"] false := inl_text (by decide)
  have h4 : Inl wc false true [.text c!";"] [.punct ';'] false := inl_text (by decide)
  exact inl_append (mid_text (mid_opHead hs hp)) (inl_inBraces hl (inl_append (inl_append h3 h2) h4))

/-! ## Reading them -/

theorem readCmp_toks (r : Rel) (p f : Str) (ls : List Lx) :
    readCmp (cmpToks r p f ++ ls) = some (fieldCmp r p f, ls) := by cases r <;> rfl

theorem readAnds_one (r : Rel) (p f : Str) {ls : List Lx} (h : after '&' ls = none) (n : Nat) :
    readAnds (n + 1) (cmpToks r p f ++ ls) = some ([fieldCmp r p f], ls) := by
  simp [readAnds, readCmp_toks, h]

theorem readAnds_many (r : Rel) (p : Str) {ls : List Lx} (h : after '&' ls = none) : ∀ (f : Str) (fs : List Str) (n : Nat),
    fs.length < n → readAnds n (joined [.punct '&', .punct '&'] ((f :: fs).map (cmpToks r p)) ++ ls) =
      some ((f :: fs).map (fieldCmp r p), ls)
  | f, [], n + 1, _ => by
    have := readAnds_one r p f h n
    simpa [joined] using this
  | f, g :: fs, n + 1, hn => by
    have ih := readAnds_many r p h g fs n (by simp at hn; omega)
    simp only [List.map_cons, joined_cons, List.append_assoc]
    simp only [List.map_cons] at ih
    simp [readAnds, readCmp_toks, after, ih]

theorem readOrs_many (r : Rel) (p : Str) {ls : List Lx} (h : after '&' ls = none) (h' : after '|' ls = none) :
    ∀ (f : Str) (fs : List Str) (n : Nat),
    fs.length < n → readOrs n (joined [.punct '|', .punct '|'] ((f :: fs).map (cmpToks r p)) ++ ls) =
      some ((f :: fs).map fun x => [fieldCmp r p x], ls)
  | f, [], n + 1, _ => by
    have := readAnds_one r p f h n
    simp [joined, readOrs, this, h']
  | f, g :: fs, n + 1, hn => by
    have ih := readOrs_many r p h h' g fs n (by simp at hn; omega)
    simp only [List.map_cons, joined_cons, List.append_assoc]
    simp only [List.map_cons] at ih
    have h1 := readAnds_one r p f (ls := [.punct '|', .punct '|'] ++ (joined [.punct '|', .punct '|']
      (cmpToks r p g :: fs.map (cmpToks r p)) ++ ls)) rfl n
    simp only [readOrs, h1, Option.bind_some]
    simp [after, ih]

theorem length_joined (r : Rel) (p : Str) (sep : List Lx) (f : Str) (fs : List Str) :
    fs.length < (joined sep ((f :: fs).map (cmpToks r p))).length := by
  have : ∀ gs : List Str, gs.length ≤ ((gs.map (cmpToks r p)).flatMap (sep ++ ·)).length := by
    intro gs
    induction gs with
    | nil => simp
    | cons g gs ih =>
      simp only [List.map_cons, List.flatMap_cons, List.length_append, List.length_cons]
      have : 0 < (cmpToks r p g).length := by simp [cmpToks]
      omega
  have h := this fs
  have : 0 < (cmpToks r p f).length := by simp [cmpToks]
  simp only [joined, List.map_cons, List.length_append]
  omega

/-- The condition of a comparison of all fields. -/
def allCmp (r : Rel) (p : Str) (fs : List Str) : Cond :=
  ⟨false, if r = .ne then fs.map fun f => [fieldCmp r p f] else [fs.map (fieldCmp r p)]⟩

theorem readCond_word (f : Str) (ls : List Lx) :
    readCond (.word f :: ls) = (readOrs (ls.length + 1) (.word f :: ls)).map fun p => (⟨false, p.1⟩, p.2) := rfl

theorem readCond_all (r : Rel) (p f : Str) (fs : List Str) {ls : List Lx} (h : after '&' ls = none)
    (h' : after '|' ls = none) :
    readCond (joined [.punct r.conj, .punct r.conj] ((f :: fs).map (cmpToks r p)) ++ ls) =
      some (allCmp r p (f :: fs), ls) := by
  have hl := length_joined r p [.punct r.conj, .punct r.conj] f fs
  have key : readOrs (joined [.punct r.conj, .punct r.conj] ((f :: fs).map (cmpToks r p)) ++ ls).length
      (joined [.punct r.conj, .punct r.conj] ((f :: fs).map (cmpToks r p)) ++ ls) = some ((allCmp r p (f :: fs)).alts, ls) := by
    have hn : fs.length < (joined [.punct r.conj, .punct r.conj] ((f :: fs).map (cmpToks r p)) ++ ls).length := by
      rw [List.length_append]; omega
    generalize (joined [.punct r.conj, .punct r.conj] ((f :: fs).map (cmpToks r p)) ++ ls).length = n at hn
    by_cases hr : r = .ne
    · subst hr
      exact readOrs_many .ne p h h' f fs n hn
    · have hc : r.conj = '&' := by cases r <;> first | rfl | exact absurd rfl hr
      rw [hc]
      obtain ⟨m, rfl⟩ : ∃ m, n = m + 1 := ⟨n - 1, by omega⟩
      simp only [readOrs, readAnds_many r p h f fs (m + 1) hn, Option.bind_some, h', allCmp, hr, if_false]
  have e : joined [.punct r.conj, .punct r.conj] ((f :: fs).map (cmpToks r p)) ++ ls =
      .word f :: ((joined [.punct r.conj, .punct r.conj] ((f :: fs).map (cmpToks r p)) ++ ls).tail) := rfl
  rw [e, readCond_word]
  rw [e, List.length_cons] at key
  rw [key]
  simp [allCmp]

theorem readRet_all (r : Rel) (p f : Str) (fs : List Str) (ls : List Lx) :
    readRet (joined [.punct r.conj, .punct r.conj] ((f :: fs).map (cmpToks r p)) ++ .punct ';' :: ls) =
      some (.ret (allCmp r p (f :: fs)), ls) := by
  have h1 : readLit (joined [.punct r.conj, .punct r.conj] ((f :: fs).map (cmpToks r p)) ++ .punct ';' :: ls) = none := by
    cases r <;> rfl
  have ha : after '&' (.punct ';' :: ls) = none := by
    cases ls with
    | nil => rfl
    | cons x xs => cases x <;> rfl
  have hb : after '|' (.punct ';' :: ls) = none := by
    cases ls with
    | nil => rfl
    | cons x xs => cases x <;> rfl
  unfold readRet
  rw [h1]
  simp only [readCond_all r p f fs ha hb, Option.bind_some]
  rfl

theorem readStmts_one {s : Stmt} {ls : List Lx} (h1 : expect '}' ls = none) (h2 : readStmt ls = some (s, [.punct '}']))
    {n : Nat} (hn : 2 ≤ n) : readStmts n ls = some ([s], []) := by
  obtain ⟨m, rfl⟩ : ∃ m, n = m + 2 := ⟨n - 2, by omega⟩
  have h3 : expect '}' [.punct '}'] = some [] := rfl
  simp [readStmts, h1, h2, h3]

theorem readHead_op (r : Rel) (cls p : Str) (ls : List Lx) :
    readHead (opHeadToks r cls p ++ (.punct '{' :: ls)) = some (.op r cls p, ls) := by
  cases r <;> rfl

theorem readMember_of {ls : List Lx} {hd : Head} {ks : List Lx} {b : List Stmt} (h1 : readHead ls = some (hd, ks))
    (h2 : readStmts ks.length ks = some (b, [])) : readMember ls = some ⟨hd, b⟩ := by
  simp [readMember, h1, h2]

theorem readMember_compare (r : Rel) (cls p f : Str) (fs : List Str) :
    readMember (compareToks r cls p (f :: fs)) = some ⟨.op r cls p, [.simple (.ret (allCmp r p (f :: fs)))]⟩ := by
  have h : readHead (compareToks r cls p (f :: fs)) = some (.op r cls p, .word c!"return" ::
      (joined [.punct r.conj, .punct r.conj] ((f :: fs).map (cmpToks r p)) ++ .punct ';' :: [.punct '}'])) := by
    rw [← readHead_op r cls p]
    simp [compareToks]
  refine readMember_of h (readStmts_one rfl ?_ (by simp))
  have h2 : readSimple (.word c!"return" :: (joined [.punct r.conj, .punct r.conj] ((f :: fs).map (cmpToks r p)) ++
      .punct ';' :: [.punct '}'])) = some (.ret (allCmp r p (f :: fs)), [.punct '}']) :=
    readRet_all r p f fs [.punct '}']
  have h3 : ∀ ks, readStmt (.word c!"return" :: .word f :: ks) =
      (readSimple (.word c!"return" :: .word f :: ks)).map fun p => (.simple p.1, p.2) := fun _ => rfl
  refine (h3 _).trans ?_
  refine (congrArg _ h2).trans rfl

/-! ## What they do -/

section
variable {V : Type} {e : Scope V}

theorem evalAnds_all {p : Str} {r : Rel} {g : Str → Bool} : ∀ {fs : List Str},
    (∀ f ∈ fs, (fieldCmp r p f).eval e = some (g f)) → evalAnds e (fs.map (fieldCmp r p)) = some (fs.all g)
  | [], _ => rfl
  | f :: fs, h => by
    simp only [List.map_cons, evalAnds, h f (.head _), Option.bind_some, List.all_cons]
    cases hg : g f with
    | true => simp [evalAnds_all fun x hx => h x (.tail _ hx)]
    | false => simp

theorem evalOrs_any {p : Str} {r : Rel} {g : Str → Bool} : ∀ {fs : List Str},
    (∀ f ∈ fs, (fieldCmp r p f).eval e = some (g f)) → evalOrs e (fs.map fun f => [fieldCmp r p f]) = some (fs.any g)
  | [], _ => rfl
  | f :: fs, h => by
    have h1 : evalAnds e [fieldCmp r p f] = some (g f) := by
      simp only [evalAnds, h f (.head _), Option.bind_some]; cases g f <;> rfl
    simp only [List.map_cons, evalOrs, h1, Option.bind_some, List.any_cons]
    cases hg : g f with
    | true => simp
    | false => simp [evalOrs_any fun x hx => h x (.tail _ hx)]

theorem allCmp_eval {p : Str} {r : Rel} {g : Str → Bool} {fs : List Str}
    (h : ∀ f ∈ fs, (fieldCmp r p f).eval e = some (g f)) :
    (allCmp r p fs).eval e = some (if r = .ne then fs.any g else fs.all g) := by
  unfold allCmp Cond.eval
  by_cases hr : r = .ne
  · simp [hr, evalOrs_any (hr ▸ h)]
  · simp only [hr, if_false, evalOrs, evalAnds_all h, Option.bind_some]
    cases fs.all g <;> simp

theorem fieldCmp_within {p f : Str} {r : Rel} {this other : Str → Option V} {w w' x y : V}
    {k : Str → Str → Option V} {cmp : Rel → V → V → Option Bool} {v : Bool} (hf : f ≠ p) (hx : this f = some x)
    (hy : other f = some y) (hv : cmp r x y = some v) :
    (fieldCmp r p f).eval (.within p this other w w' k cmp) = some v := by
  simp [fieldCmp, Cmp.eval, Atom.eval, Scope.within, hf, hx, hy, hv]

end

end Cbindgen.CxxSpec
