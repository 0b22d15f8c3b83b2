import Verif.Spec.CDecl

/-!
# Lemmas for the declaration round trip
-/

namespace Cbindgen

open CSpec

/-- What a `CDecl` declares, read directly off the data structure. -/
def denTag (cfg : DeclConfig) (k : Option DeclKind) : Option DeclKind :=
  if cfg.language = .cython then none else k

mutual
def CDecl.den (cfg : DeclConfig) : CDecl → CTy
  | .mk c k n gs ds => applySteps (CDecl.denSteps cfg ds) (.base c (denTag cfg k) n (CDecl.denG cfg gs))
def CDecl.denSteps (cfg : DeclConfig) : List CDeclarator → List Step
  | [] => []
  | .ptr c nl rf :: ds => .ptr c rf (wantedAttr cfg nl rf) :: CDecl.denSteps cfg ds
  | .array l :: ds => .arr l :: CDecl.denSteps cfg ds
  | .func as nv :: ds => .fn (CDecl.denArgs cfg as) (wantedNoReturn cfg nv) :: CDecl.denSteps cfg ds
def CDecl.denG (cfg : DeclConfig) : List CGArg → List CTyArg
  | [] => []
  | .type d :: gs => .type (CDecl.den cfg d) :: CDecl.denG cfg gs
  | .const s :: gs => .const s :: CDecl.denG cfg gs
def CDecl.denArgs (cfg : DeclConfig) : List CArg → List CParam
  | [] => []
  | .mk n d :: as => .mk n (CDecl.den cfg d) :: CDecl.denArgs cfg as
end

/-- The parameter list that C reads as "no parameters". -/
def voidParams : List CParam := [.mk none (.base false none c!"void" [])]

mutual
/-- Function declarators come right after a pointer, and no parameter list is a bare `void`. -/
def CDecl.ok (cfg : DeclConfig) : (lead : Bool) → CDecl → Prop
  | lead, .mk _ _ _ gs ds => CDecl.okG cfg gs ∧ CDecl.okDs cfg lead ds
def CDecl.okDs (cfg : DeclConfig) : (prevPtr : Bool) → List CDeclarator → Prop
  | _, [] => True
  | _, .ptr _ _ _ :: ds => CDecl.okDs cfg true ds
  | _, .array _ :: ds => CDecl.okDs cfg false ds
  | p, .func as _ :: ds =>
    p = true ∧ CDecl.denArgs cfg as ≠ voidParams ∧ CDecl.okArgs cfg as ∧ CDecl.okDs cfg false ds
def CDecl.okG (cfg : DeclConfig) : List CGArg → Prop
  | [] => True
  | .type d :: gs => CDecl.ok cfg false d ∧ CDecl.okG cfg gs
  | .const _ :: gs => CDecl.okG cfg gs
def CDecl.okArgs (cfg : DeclConfig) : List CArg → Prop
  | [] => True
  | .mk _ d :: as => CDecl.ok cfg false d ∧ CDecl.okArgs cfg as
end

/-- The declarator part of a declaration. -/
def declText (cfg : DeclConfig) (ds : List CDeclarator) (i : Option Str) : List Tok :=
  leftPart cfg ds.reverse ++ identToks i ++ CDecl.rightPart cfg false ds

def lastPtr (ds : List CDeclarator) : Bool :=
  headIsPtr false ds.reverse

def rightPiece (cfg : DeclConfig) (fl : Bool) : CDeclarator → List Tok
  | .ptr .. => []
  | .array len => closeParen fl ++ [.lbrack, .lit len, .rbrack]
  | .func args never => closeParen fl ++
      ([.lparen] ++ CDecl.writeArgList cfg args ++ [.rparen] ++ noReturnAttr cfg never)

theorem rightPart_snoc (cfg : DeclConfig) (d : CDeclarator) :
    ∀ (ds : List CDeclarator) (fl : Bool),
      CDecl.rightPart cfg fl (ds ++ [d]) =
        CDecl.rightPart cfg fl ds ++
          rightPiece cfg (headIsPtr fl ds.reverse) d
  | [], fl => by
    cases d with
    | ptr => simp [CDecl.rightPart, rightPiece]
    | array => simp [CDecl.rightPart, rightPiece, headIsPtr]
    | func as nv => simp [CDecl.rightPart, rightPiece, headIsPtr]
  | e :: ds, fl => by
    have key : headIsPtr fl (ds.reverse ++ [e]) = headIsPtr e.isPtr ds.reverse := by
      cases ds.reverse <;> simp [headIsPtr]
    cases e with
    | ptr =>
      simp [CDecl.rightPart, rightPart_snoc cfg d ds, key, CDeclarator.isPtr]
    | array =>
      simp [CDecl.rightPart, rightPart_snoc cfg d ds, key, CDeclarator.isPtr]
    | func as nv =>
      simp [CDecl.rightPart, rightPart_snoc cfg d ds, key, CDeclarator.isPtr]

theorem declText_ptr (cfg : DeclConfig) (ds i c nl rf) :
    declText cfg (ds ++ [.ptr c nl rf]) i =
      (if rf then Tok.amp else Tok.star) ::
        (constToks c ++ ptrAttr cfg nl rf ++ declText cfg ds i) := by
  simp [declText, rightPart_snoc, rightPiece, leftPart, leftPiece]

theorem declText_array (cfg : DeclConfig) (ds i l) :
    declText cfg (ds ++ [.array l]) i =
      if lastPtr ds then .lparen :: (declText cfg ds i ++ [.rparen, .lbrack, .lit l, .rbrack])
      else declText cfg ds i ++ [.lbrack, .lit l, .rbrack] := by
  unfold lastPtr
  cases h : headIsPtr false ds.reverse <;>
    simp [declText, rightPart_snoc, rightPiece, leftPart, leftPiece, h, openParen, closeParen]

theorem declText_func (cfg : DeclConfig) (ds i as nv) :
    declText cfg (ds ++ [.func as nv]) i =
      if lastPtr ds then .lparen :: (declText cfg ds i ++
          ([.rparen, .lparen] ++ CDecl.writeArgList cfg as ++ [.rparen] ++ noReturnAttr cfg nv))
      else declText cfg ds i ++ ([.lparen] ++ CDecl.writeArgList cfg as ++ [.rparen] ++ noReturnAttr cfg nv) := by
  unfold lastPtr
  cases h : headIsPtr false ds.reverse <;>
    simp [declText, rightPart_snoc, rightPiece, leftPart, leftPiece, h, openParen, closeParen]

theorem denSteps_append (cfg : DeclConfig) : ∀ (a b : List CDeclarator),
    CDecl.denSteps cfg (a ++ b) = CDecl.denSteps cfg a ++ CDecl.denSteps cfg b
  | [], b => by simp [CDecl.denSteps]
  | .ptr .. :: a, b => by simp [CDecl.denSteps, denSteps_append cfg a b]
  | .array .. :: a, b => by simp [CDecl.denSteps, denSteps_append cfg a b]
  | .func .. :: a, b => by simp [CDecl.denSteps, denSteps_append cfg a b]

/-- Tokens that may follow a declarator. -/
def RestOk (i : Option Str) : List Tok → Prop
  | [] => True
  | .rparen :: _ => True
  | .comma :: _ => True
  | .gt :: _ => True
  | .lbrack :: _ => True
  | .lparen :: _ => i.isSome
  | _ => False

/-- Tokens that end a declaration. -/
def Stop : List Tok → Prop
  | [] => True
  | .rparen :: _ => True
  | .comma :: _ => True
  | .gt :: _ => True
  | _ => False

theorem Stop.restOk {ts : List Tok} (h : Stop ts) (i) : RestOk i ts := by
  unfold Stop at h
  unfold RestOk
  split at h <;> simp_all

theorem readSuffixes_stop {ts : List Tok} (h : Stop ts) (f : Nat) (hf : 1 ≤ f) :
    readSuffixes f ts = some ([], ts) := by
  obtain ⟨f, rfl⟩ : ∃ g, f = g + 1 := ⟨f - 1, by omega⟩
  unfold Stop at h
  split at h <;> simp_all [readSuffixes]

/-- The claim about one parameter list. -/
def ParamsRead (cfg : DeclConfig) (as : List CArg) : Prop :=
  ∀ fuel rest, 2 * (CDecl.writeArgList cfg as).length + 4 ≤ fuel →
    readParams fuel (CDecl.writeArgList cfg as ++ .rparen :: rest) = some (CDecl.denArgs cfg as, rest)

theorem takeAttr_restOk {i} {ts : List Tok} (h : RestOk i ts) : takeAttr ts = (none, ts) := by
  unfold RestOk at h
  split at h <;> simp_all [takeAttr]

theorem takeAttr_noReturn (cfg : DeclConfig) (nv : Bool) {i} {ts : List Tok} (h : RestOk i ts) :
    takeAttr (noReturnAttr cfg nv ++ ts) = (wantedNoReturn cfg nv, ts) := by
  unfold noReturnAttr wantedNoReturn
  rcases hl : cfg.language with _ | _ | _ <;> cases nv <;> cases hn : cfg.noReturn <;>
    simp [takeAttr_restOk h] <;> rfl

theorem okDs_snoc (cfg : DeclConfig) (d : CDeclarator) : ∀ (ds : List CDeclarator) (p : Bool),
    CDecl.okDs cfg p (ds ++ [d]) → CDecl.okDs cfg p ds ∧
      (∀ as nv, d = .func as nv → CDecl.denArgs cfg as ≠ voidParams ∧ CDecl.okArgs cfg as ∧
        ((ds = [] ∧ p = true) ∨ ∃ ds' c n r, ds = ds' ++ [.ptr c n r]))
  | [], p => by
    cases d <;> simp [CDecl.okDs]
    intro h1 h2 h3; exact ⟨h2, h3, h1⟩
  | .ptr c n r :: ds, p => by
    intro h
    simp only [List.cons_append, CDecl.okDs] at h ⊢
    have := okDs_snoc cfg d ds true h
    refine ⟨this.1, fun as nv hd => ?_⟩
    obtain ⟨h1, h2, h3⟩ := this.2 as nv hd
    refine ⟨h1, h2, Or.inr ?_⟩
    rcases h3 with ⟨rfl, _⟩ | ⟨ds', c', n', r', rfl⟩
    · exact ⟨[], c, n, r, rfl⟩
    · exact ⟨.ptr c n r :: ds', c', n', r', rfl⟩
  | .array l :: ds, p => by
    intro h
    simp only [List.cons_append, CDecl.okDs] at h ⊢
    have := okDs_snoc cfg d ds false h
    refine ⟨this.1, fun as nv hd => ?_⟩
    obtain ⟨h1, h2, h3⟩ := this.2 as nv hd
    refine ⟨h1, h2, Or.inr ?_⟩
    rcases h3 with ⟨_, h⟩ | ⟨ds', c', n', r', rfl⟩
    · cases h
    · exact ⟨.array l :: ds', c', n', r', rfl⟩
  | .func as' nv' :: ds, p => by
    intro h
    simp only [List.cons_append, CDecl.okDs] at h ⊢
    have := okDs_snoc cfg d ds false h.2.2.2
    refine ⟨⟨h.1, h.2.1, h.2.2.1, this.1⟩, fun as nv hd => ?_⟩
    obtain ⟨h1, h2, h3⟩ := this.2 as nv hd
    refine ⟨h1, h2, Or.inr ?_⟩
    rcases h3 with ⟨_, h⟩ | ⟨ds', c', n', r', rfl⟩
    · cases h
    · exact ⟨.func as' nv' :: ds', c', n', r', rfl⟩

theorem takeConst_if (c : Bool) (ts : List Tok) (h : ∀ us, ts ≠ .kwConst :: us) :
    takeConst (constToks c ++ ts) = (c, ts) := by
  cases c
  · simp only [constToks, List.nil_append]
    unfold takeConst
    split
    · rename_i us; exact absurd rfl (h us)
    · rfl
  · rfl

/-- The first token of a declarator text. -/
theorem leftPart_head (cfg : DeclConfig) : ∀ ds, leftPart cfg ds = [] ∨
    ∃ us, leftPart cfg ds = .star :: us ∨ leftPart cfg ds = .amp :: us ∨
      leftPart cfg ds = .lparen :: us
  | [] => by simp [leftPart]
  | d :: ds => by
    have ih := leftPart_head cfg ds
    cases d with
    | ptr c n r => cases r <;> simp [leftPart, leftPiece]
    | array => cases h : headIsPtr false ds <;> simp [leftPart, leftPiece, h, openParen, ih]
    | func => cases h : headIsPtr false ds <;> simp [leftPart, leftPiece, h, openParen, ih]

theorem rightPart_head (cfg : DeclConfig) : ∀ ds fl, CDecl.rightPart cfg fl ds = [] ∨
    ∃ us, CDecl.rightPart cfg fl ds = .rparen :: us ∨ CDecl.rightPart cfg fl ds = .lbrack :: us ∨
      CDecl.rightPart cfg fl ds = .lparen :: us
  | [], fl => by simp [CDecl.rightPart]
  | .ptr .. :: ds, fl => by simpa [CDecl.rightPart] using rightPart_head cfg ds true
  | .array .. :: ds, fl => by cases fl <;> simp [CDecl.rightPart, closeParen]
  | .func .. :: ds, fl => by cases fl <;> simp [CDecl.rightPart, closeParen]

/-- A declarator text followed by `RestOk` tokens never starts with `<`, `const`, an attribute. -/
theorem declText_head (cfg : DeclConfig) (ds i) {rest : List Tok} (h : RestOk i rest) :
    (∀ us, declText cfg ds i ++ rest ≠ .lt :: us) ∧
    (∀ us, declText cfg ds i ++ rest ≠ .kwConst :: us) ∧
    (∀ a us, declText cfg ds i ++ rest ≠ .attr a :: us) := by
  unfold declText
  rcases leftPart_head cfg ds.reverse with hl | ⟨us, hl | hl | hl⟩
  · rw [hl]
    cases i with
    | some i => simp [identToks]
    | none =>
      rcases rightPart_head cfg ds false with hr | ⟨us, hr | hr | hr⟩
      · rw [hr]
        simp only [identToks, List.nil_append]
        unfold RestOk at h
        split at h <;> simp_all
      all_goals simp [hr, identToks]
  all_goals simp [hl]

theorem takeAttr_ptrAttr (cfg : DeclConfig) (nl rf : Bool) {ts : List Tok}
    (h : ∀ a us, ts ≠ .attr a :: us) :
    takeAttr (ptrAttr cfg nl rf ++ ts) = (wantedAttr cfg nl rf, ts) := by
  have h0 : takeAttr ts = (none, ts) := by
    unfold takeAttr
    split
    · rename_i a us; exact absurd rfl (h a us)
    · rfl
  unfold ptrAttr wantedAttr
  rcases hl : cfg.language with _ | _ | _ <;> cases nl <;> cases rf <;>
    cases h1 : cfg.nonNullAttr <;> cases h2 : cfg.nullableAttr <;>
    simp [h0] <;> rfl

theorem ptrAttr_ne_const (cfg : DeclConfig) (nl rf : Bool) {ts : List Tok}
    (h : ∀ us, ts ≠ .kwConst :: us) : ∀ us, ptrAttr cfg nl rf ++ ts ≠ .kwConst :: us := by
  unfold ptrAttr
  rcases hl : cfg.language with _ | _ | _ <;> cases nl <;> cases rf <;>
    cases h1 : cfg.nonNullAttr <;> cases h2 : cfg.nullableAttr <;> simp [h]

/-- The declarator text of a list that ends in a pointer-like declarator opens a parenthesised
declarator. -/
theorem opens (cfg : DeclConfig) (ds : List CDeclarator) (i) (ni : Bool) (hok : CDecl.okDs cfg ni ds)
    (hp : lastPtr ds = true) (us : List Tok) :
    opensDeclarator ni (declText cfg ds i ++ us) = true := by
  rcases List.eq_nil_or_concat ds with rfl | ⟨init, d, rfl⟩
  · simp [lastPtr, headIsPtr] at hp
  · rw [List.concat_eq_append] at *
    cases d with
    | ptr c n r => rw [declText_ptr]; cases r <;> simp [opensDeclarator]
    | array l => simp [lastPtr, headIsPtr, CDeclarator.isPtr] at hp
    | func as nv =>
      obtain ⟨_, h⟩ := okDs_snoc cfg _ _ _ hok
      obtain ⟨_, _, h | ⟨ds', c', n', r', rfl⟩⟩ := h as nv rfl
      · obtain ⟨rfl, rfl⟩ := h
        unfold opensDeclarator
        split <;> rfl
      · rw [declText_func]; simp [lastPtr, headIsPtr, CDeclarator.isPtr, opensDeclarator]

theorem readDeclarator_text (cfg : DeclConfig) (i : Option Str) (ni : Bool)
    (hi : ni = true → i.isSome) (n : Nat) : ∀ (ds : List CDeclarator), ds.length = n →
    (∀ as nv, CDeclarator.func as nv ∈ ds → ParamsRead cfg as) →
    CDecl.okDs cfg ni ds →
    ∀ (a : Nat) (rest : List Tok) (ss : List Step) (rest' : List Tok), RestOk i rest →
      ((∃ ds' c n r, ds = ds' ++ [.ptr c n r]) → ss = []) →
      (∀ f, a ≤ f → readSuffixes f rest = some (ss, rest')) →
      ∀ f, a + 2 * (declText cfg ds i).length + 2 ≤ f →
        readDeclarator f ni (declText cfg ds i ++ rest) =
          some ((i, CDecl.denSteps cfg ds ++ ss), rest') := by
  induction n with
  | zero =>
    intro ds hds _ _ a rest ss rest' hr _ hs f hf
    obtain rfl : ds = [] := by simpa using hds
    obtain ⟨f, rfl⟩ : ∃ g, f = g + 1 := ⟨f - 1, by omega⟩
    have := hs f (by omega)
    cases i with
    | some i => simp [declText, leftPart, identToks, CDecl.rightPart, CDecl.denSteps, readDeclarator, this]
    | none =>
      have hni : ni = false := by cases ni <;> simp_all
      simp only [declText, leftPart, identToks, CDecl.rightPart, CDecl.denSteps, List.reverse_nil,
        List.append_nil, List.nil_append]
      unfold RestOk at hr
      split at hr <;> simp_all [readDeclarator]
  | succ n ih =>
    intro ds hds hQ hok a rest ss rest' hr hlast hs f hf
    rcases List.eq_nil_or_concat ds with rfl | ⟨init, d, rfl⟩
    · simp at hds
    rw [List.concat_eq_append] at *
    have hlen : init.length = n := by simpa using hds
    obtain ⟨hok1, hok2⟩ := okDs_snoc cfg d init ni hok
    have hQ' : ∀ as nv, CDeclarator.func as nv ∈ init → ParamsRead cfg as :=
      fun as nv h => hQ as nv (by simp [h])
    have ha : 1 ≤ a := by
      rcases a with _ | a
      · have := hs 0 (by omega); simp [readSuffixes] at this
      · omega
    have IH := ih init hlen hQ' hok1
    obtain ⟨f, rfl⟩ : ∃ g, f = g + 1 := ⟨f - 1, by omega⟩
    cases d with
    | ptr c nl rf =>
      obtain rfl : ss = [] := hlast ⟨init, c, nl, rf, rfl⟩
      rw [declText_ptr] at hf ⊢
      have hh := declText_head cfg init i hr
      have h1 : takeConst (constToks c ++ (ptrAttr cfg nl rf ++ (declText cfg init i ++ rest)))
          = (c, ptrAttr cfg nl rf ++ (declText cfg init i ++ rest)) :=
        takeConst_if c _ (ptrAttr_ne_const cfg nl rf hh.2.1)
      have h2 := takeAttr_ptrAttr cfg nl rf hh.2.2
      have h3 := IH a rest [] rest' hr (fun _ => rfl) hs f (by
        simp only [List.length_cons, List.length_append] at hf; omega)
      cases rf
      · simp [readDeclarator, h1, h2, h3, denSteps_append, CDecl.denSteps]
      · simp [readDeclarator, h1, h2, h3, denSteps_append, CDecl.denSteps]
    | array l =>
      rw [declText_array] at hf ⊢
      have hsuf : ∀ g, a + 1 ≤ g → readSuffixes g (.lbrack :: .lit l :: .rbrack :: rest) =
          some (.arr l :: ss, rest') := by
        intro g hg
        obtain ⟨g, rfl⟩ : ∃ k, g = k + 1 := ⟨g - 1, by omega⟩
        simp [readSuffixes, hs g (by omega)]
      cases hp : lastPtr init with
      | true =>
        simp only [hp, if_true] at hf ⊢
        have hop := opens cfg init i ni hok1 hp (.rparen :: .lbrack :: .lit l :: .rbrack :: rest)
        have h1 := IH 1 (.rparen :: .lbrack :: .lit l :: .rbrack :: rest) []
          (.rparen :: .lbrack :: .lit l :: .rbrack :: rest) (by simp [RestOk]) (fun _ => rfl)
          (fun g hg => readSuffixes_stop (by simp [Stop]) g hg) f (by
            simp only [List.length_cons, List.length_append, List.length_nil] at hf; omega)
        have h2 := hsuf f (by
            simp only [List.length_cons, List.length_append, List.length_nil] at hf; omega)
        simp [readDeclarator, hop, h1, h2, denSteps_append, CDecl.denSteps]
      | false =>
        simp only [hp, Bool.false_eq_true, if_false] at hf ⊢
        have h1 := IH (a + 1) (.lbrack :: .lit l :: .rbrack :: rest) (.arr l :: ss) rest'
          (by simp [RestOk]) (by
            rintro ⟨ds', c, n, r, rfl⟩
            simp [lastPtr, headIsPtr, CDeclarator.isPtr] at hp) hsuf (f + 1) (by
            simp only [List.length_cons, List.length_append, List.length_nil] at hf; omega)
        simp [h1, denSteps_append, CDecl.denSteps]
    | func as nv =>
      obtain ⟨hv, hoka, hprev⟩ := hok2 as nv rfl
      have hQa := hQ as nv (by simp)
      rw [declText_func] at hf ⊢
      have hsuf : ∀ g, a + 2 * (CDecl.writeArgList cfg as).length + 4 ≤ g →
          readSuffixes g (.lparen :: (CDecl.writeArgList cfg as ++ .rparen :: (noReturnAttr cfg nv ++ rest))) =
          some (.fn (CDecl.denArgs cfg as) (wantedNoReturn cfg nv) :: ss, rest') := by
        intro g hg
        obtain ⟨g, rfl⟩ : ∃ k, g = k + 1 := ⟨g - 1, by omega⟩
        simp [readSuffixes, hQa g _ (by omega), takeAttr_noReturn cfg nv hr, hs g (by omega)]
      rcases hprev with ⟨rfl, rfl⟩ | ⟨ds', c', n', r', rfl⟩
      · have hi' := hi rfl
        simp only [lastPtr, headIsPtr, List.reverse_nil, Bool.false_eq_true, if_false] at hf ⊢
        have h1 := IH (a + 2 * (CDecl.writeArgList cfg as).length + 4)
          (.lparen :: (CDecl.writeArgList cfg as ++ .rparen :: (noReturnAttr cfg nv ++ rest)))
          (.fn (CDecl.denArgs cfg as) (wantedNoReturn cfg nv) :: ss) rest'
          (by simp [RestOk, hi']) (by rintro ⟨ds', c, n, r, h⟩; simp at h) hsuf (f + 1) (by
            simp only [List.length_cons, List.length_append, List.length_nil] at hf; omega)
        simpa [denSteps_append, CDecl.denSteps] using h1
      · have hp : lastPtr (ds' ++ [CDeclarator.ptr c' n' r']) = true := by
          simp [lastPtr, headIsPtr, CDeclarator.isPtr]
        simp only [hp, if_true] at hf ⊢
        generalize ds' ++ [CDeclarator.ptr c' n' r'] = init at *
        have hop := opens cfg init i ni hok1 hp
          (.rparen :: .lparen :: (CDecl.writeArgList cfg as ++ .rparen :: (noReturnAttr cfg nv ++ rest)))
        have h1 := IH 1
          (.rparen :: .lparen :: (CDecl.writeArgList cfg as ++ .rparen :: (noReturnAttr cfg nv ++ rest))) []
          (.rparen :: .lparen :: (CDecl.writeArgList cfg as ++ .rparen :: (noReturnAttr cfg nv ++ rest)))
          (by simp [RestOk]) (fun _ => rfl)
          (fun g hg => readSuffixes_stop (by simp [Stop]) g hg) f (by
            simp only [List.length_cons, List.length_append, List.length_nil] at hf; omega)
        have h2 := hsuf f (by
            simp only [List.length_cons, List.length_append, List.length_nil] at hf; omega)
        simp [readDeclarator, hop, h1, h2, denSteps_append, CDecl.denSteps]

/-- The claim about one declaration. -/
def DeclReads (cfg : DeclConfig) (ni : Bool) (d : CDecl) : Prop :=
  ∀ (i : Option Str) fuel rest, (ni = true → i.isSome) → Stop rest →
    2 * (d.write cfg i).length + 2 ≤ fuel →
    readDecl fuel ni (d.write cfg i ++ rest) = some ((i, d.den cfg), rest)

def garText (cfg : DeclConfig) : List CGArg → List Tok
  | [] => []
  | g :: gs => CDecl.writeGArg cfg g ++ CDecl.writeGArgs cfg gs

/-- The claim about template arguments. -/
def GArgsRead (cfg : DeclConfig) (gs : List CGArg) : Prop :=
  ∀ fuel rest, gs ≠ [] → 2 * (garText cfg gs).length + 3 ≤ fuel →
    readTyArgs fuel (garText cfg gs ++ .gt :: rest) = some (CDecl.denG cfg gs, rest)

def ArgListReads (cfg : DeclConfig) (as : List CArg) : Prop :=
  ∀ fuel rest, as ≠ [] → 2 * (CDecl.writeArgList cfg as).length + 3 ≤ fuel →
    readParamList fuel (CDecl.writeArgList cfg as ++ .rparen :: rest) = some (CDecl.denArgs cfg as, rest)

def tagToks : Option DeclKind → List Tok
  | some k => [Tok.kwTag k]
  | none => []

theorem write_eq (cfg : DeclConfig) (c k n gs ds i) :
    CDecl.write cfg (.mk c k n gs ds) i =
      constToks c ++ (tagToks (denTag cfg k) ++
        (.name n :: ((if gs = [] then [] else .lt :: (garText cfg gs ++ [.gt])) ++ declText cfg ds i))) := by
  unfold denTag
  rcases hl : cfg.language with _ | _ | _ <;> cases k <;> cases gs <;> cases i <;>
    simp [CDecl.write, ctypeToks, hl, declText, identToks, garText, tagToks, CDecl.writeGArgList]

theorem takeTag_opt (k : Option DeclKind) (n : Str) (ts : List Tok) :
    takeTag (tagToks k ++ .name n :: ts) = (k, .name n :: ts) := by
  cases k <;> simp [takeTag, tagToks]

theorem declReads_of (cfg : DeclConfig) (ni : Bool) (c k n gs ds) (hg : GArgsRead cfg gs)
    (hQ : ∀ as nv, CDeclarator.func as nv ∈ ds → ParamsRead cfg as)
    (hok : CDecl.okDs cfg ni ds) : DeclReads cfg ni (.mk c k n gs ds) := by
  intro i fuel rest hi hstop hf
  rw [write_eq] at hf ⊢
  obtain ⟨f, rfl⟩ : ∃ g, fuel = g + 1 := ⟨fuel - 1, by omega⟩
  simp only [List.append_assoc, List.cons_append, readDecl]
  rw [takeConst_if c _ (by intro us; cases denTag cfg k <;> simp [tagToks])]
  simp only
  rw [takeTag_opt]
  have hd := fun (g : Nat) (hg : 1 + 2 * (declText cfg ds i).length + 2 ≤ g) =>
    readDeclarator_text cfg i ni hi ds.length ds rfl hQ hok 1 rest [] rest (hstop.restOk i)
      (fun _ => rfl) (fun g hg => readSuffixes_stop hstop g hg) g hg
  by_cases hgs : gs = []
  · subst hgs
    simp only [if_true, List.nil_append] at hf ⊢
    have hh := (declText_head cfg ds i (hstop.restOk i)).1
    have h1 := hd f (by simp only [List.length_cons, List.length_append] at hf; omega)
    split
    · rename_i h; exact absurd (List.cons.inj h).2 (hh _)
    · rename_i n' us _ h
      obtain ⟨h2, rfl⟩ := List.cons.inj h
      cases h2
      simp [h1, CDecl.den, CDecl.denG]
    · rename_i h; exact absurd rfl (h _ _)
  · simp only [hgs, if_false, List.cons_append, List.append_assoc, List.nil_append,
      List.length_cons, List.length_append] at hf ⊢
    have h1 := hg f (declText cfg ds i ++ rest) hgs (by omega)
    have h2 := hd f (by omega)
    simp [h1, h2, CDecl.den]

theorem paramsRead_of (cfg : DeclConfig) (as) (hv : CDecl.denArgs cfg as ≠ voidParams)
    (h : ArgListReads cfg as)
    (h1 : ∀ n d as', as = .mk n d :: as' → DeclReads cfg false d) : ParamsRead cfg as := by
  intro fuel rest hf
  obtain ⟨f, rfl⟩ : ∃ g, fuel = g + 1 := ⟨fuel - 1, by omega⟩
  cases as with
  | nil =>
    simp only [CDecl.writeArgList, CDecl.denArgs]
    split <;> simp [readParams]
  | cons a as =>
    have h2 := h f rest (by simp) (by omega)
    rw [readParams]
    · split
      · rename_i hvoid
        exfalso
        obtain ⟨n, d⟩ := a
        have hd := h1 n d as rfl
        cases as with
        | nil =>
          simp only [CDecl.writeArgList, CDecl.writeArg, CDecl.writeArgs, List.append_nil] at hvoid hf
          have h3 := hd n (f + 1) (.rparen :: rest) (by simp) (by simp [Stop]) (by omega)
          match hw : CDecl.write cfg d n ++ .rparen :: rest, hvoid with
          | x :: y :: ts, hvoid =>
            simp at hvoid
            obtain ⟨rfl, rfl⟩ := hvoid
            obtain ⟨f, rfl⟩ : ∃ g, f = g + 1 := ⟨f - 1, by omega⟩
            obtain ⟨f, rfl⟩ : ∃ g, f = g + 1 := ⟨f - 1, by omega⟩
            rw [hw] at h3
            simp [readDecl, takeConst, takeTag, readDeclarator, readSuffixes, applySteps] at h3
            obtain ⟨⟨rfl, h4⟩, _⟩ := h3
            exact hv (by simp [CDecl.denArgs, ← h4, voidParams])
        | cons b bs =>
          simp only [CDecl.writeArgList, CDecl.writeArg, CDecl.writeArgs, List.length_append] at hvoid hf
          have h3 := hd n (f + 1) (.comma :: (CDecl.writeArg cfg b ++ CDecl.writeArgs cfg bs) ++ .rparen :: rest)
            (by simp) (by simp [Stop]) (by omega)
          rw [List.append_assoc] at hvoid
          match hw : CDecl.write cfg d n ++ (.comma :: (CDecl.writeArg cfg b ++ CDecl.writeArgs cfg bs) ++ .rparen :: rest), hvoid with
          | x :: y :: ts, hvoid =>
            simp at hvoid
            obtain ⟨rfl, rfl⟩ := hvoid
            obtain ⟨f, rfl⟩ : ∃ g, f = g + 1 := ⟨f - 1, by omega⟩
            obtain ⟨f, rfl⟩ : ∃ g, f = g + 1 := ⟨f - 1, by omega⟩
            rw [hw] at h3
            simp [readDecl, takeConst, takeTag, readDeclarator, readSuffixes, applySteps] at h3
      · exact h2
    · intro ts hts
      obtain ⟨n, d⟩ := a
      obtain ⟨c, k, nm, gs, ds⟩ := d
      simp only [CDecl.writeArgList, CDecl.writeArg, write_eq] at hts
      cases c <;> cases hk : denTag cfg k <;> simp [hk, tagToks, constToks] at hts

mutual
theorem declReads (cfg : DeclConfig) : ∀ (d : CDecl) (ni : Bool), CDecl.ok cfg ni d → DeclReads cfg ni d
  | .mk c k n gs ds, ni, h => by
    simp only [CDecl.ok] at h
    exact declReads_of cfg ni c k n gs ds (gArgsRead cfg gs h.1)
      (fun as nv hm => allParams cfg ds ni h.2 as nv hm) h.2
theorem allParams (cfg : DeclConfig) : ∀ (ds : List CDeclarator) (ni : Bool), CDecl.okDs cfg ni ds →
    ∀ as nv, CDeclarator.func as nv ∈ ds → ParamsRead cfg as
  | [], _, _, _, _, hm => by cases hm
  | .ptr _ _ _ :: ds, _, h, as, nv, hm => by
    simp only [CDecl.okDs] at h
    exact allParams cfg ds true h as nv (by simpa using hm)
  | .array _ :: ds, _, h, as, nv, hm => by
    simp only [CDecl.okDs] at h
    exact allParams cfg ds false h as nv (by simpa using hm)
  | .func as' nv' :: ds, _, h, as, nv, hm => by
    simp only [CDecl.okDs] at h
    rcases List.mem_cons.1 hm with he | hm
    · cases he
      have := argsRead cfg as' h.2.2.1
      exact paramsRead_of cfg as' h.2.1 this.1 this.2
    · exact allParams cfg ds false h.2.2.2 as nv hm
theorem gArgsRead (cfg : DeclConfig) : ∀ (gs : List CGArg), CDecl.okG cfg gs → GArgsRead cfg gs
  | [], _ => by intro _ _ h; exact absurd rfl h
  | .type d :: gs, h => by
    intro fuel rest _ hf
    simp only [CDecl.okG] at h
    have hd := declReads cfg d false h.1
    have hgs := gArgsRead cfg gs h.2
    obtain ⟨f, rfl⟩ : ∃ g, fuel = g + 1 := ⟨fuel - 1, by omega⟩
    have hne : ∀ ts s us, CDecl.write cfg d none ++ ts ≠ Tok.lit s :: us := by
      intro ts s us
      obtain ⟨c, k, nm, gs, ds⟩ := d
      rw [write_eq]
      cases c <;> cases denTag cfg k <;> simp [tagToks, constToks]
    cases gs with
    | nil =>
      simp only [garText, CDecl.writeGArg, CDecl.writeGArgs, List.append_nil] at hf ⊢
      have h1 := hd none f (.gt :: rest) (by simp) (by simp [Stop]) (by omega)
      rw [readTyArgs]
      · simp [h1, CDecl.denG]
      · intro s us h'; exact hne _ _ _ h'
      · intro s us h'; exact hne _ _ _ h'
    | cons g gs =>
      simp only [garText, CDecl.writeGArg, CDecl.writeGArgs, List.append_assoc,
        List.cons_append, List.length_append, List.length_cons] at hf ⊢
      have h1 := hd none f (.comma :: (CDecl.writeGArg cfg g ++ (CDecl.writeGArgs cfg gs ++ .gt :: rest)))
        (by simp) (by simp [Stop]) (by omega)
      have h2 := hgs f rest (by simp) (by simp only [garText, List.length_append]; omega)
      simp only [garText, List.append_assoc] at h2
      rw [readTyArgs]
      · simp [h1, h2, CDecl.denG]
      · intro s us h'; exact hne _ _ _ h'
      · intro s us h'; exact hne _ _ _ h'
  | .const s :: gs, h => by
    intro fuel rest _ hf
    simp only [CDecl.okG] at h
    have hgs := gArgsRead cfg gs h
    obtain ⟨f, rfl⟩ : ∃ g, fuel = g + 1 := ⟨fuel - 1, by omega⟩
    cases gs with
    | nil => simp [garText, CDecl.writeGArg, CDecl.writeGArgs, readTyArgs, CDecl.denG]
    | cons g gs =>
      simp only [garText, CDecl.writeGArg, CDecl.writeGArgs, List.append_assoc, List.nil_append,
        List.cons_append, List.length_append, List.length_cons] at hf ⊢
      have h2 := hgs f rest (by simp) (by simp only [garText, List.length_append]; omega)
      simp only [garText, List.append_assoc] at h2
      simp [readTyArgs, h2, CDecl.denG]
theorem argsRead (cfg : DeclConfig) : ∀ (as : List CArg), CDecl.okArgs cfg as →
    ArgListReads cfg as ∧ (∀ n d as', as = .mk n d :: as' → DeclReads cfg false d)
  | [], _ => ⟨by intro _ _ h; exact absurd rfl h, by intro _ _ _ h; cases h⟩
  | .mk n d :: as, h => by
    simp only [CDecl.okArgs] at h
    have hd := declReads cfg d false h.1
    have has := (argsRead cfg as h.2).1
    refine ⟨?_, by rintro n' d' as' ⟨⟩; exact hd⟩
    intro fuel rest _ hf
    obtain ⟨f, rfl⟩ : ∃ g, fuel = g + 1 := ⟨fuel - 1, by omega⟩
    cases as with
    | nil =>
      simp only [CDecl.writeArgList, CDecl.writeArg, CDecl.writeArgs, List.append_nil] at hf ⊢
      have h1 := hd n f (.rparen :: rest) (by simp) (by simp [Stop]) (by omega)
      simp [readParamList, h1, CDecl.denArgs]
    | cons a as =>
      simp only [CDecl.writeArgList, CDecl.writeArg, CDecl.writeArgs, List.append_assoc,
        List.cons_append, List.length_append, List.length_cons] at hf ⊢
      have h1 := hd n f (.comma :: (CDecl.writeArg cfg a ++ (CDecl.writeArgs cfg as ++ .rparen :: rest)))
        (by simp) (by simp [Stop]) (by omega)
      have h2 := has f rest (by simp) (by simp only [CDecl.writeArgList, List.length_append]; omega)
      simp only [CDecl.writeArgList, List.append_assoc] at h2
      simp [readParamList, h1, h2, CDecl.denArgs]
end

end Cbindgen
