import Verif.Lemmas.CxxMembers

/-!
# The tokens of derived member functions of enums, and what they do
-/

namespace Cbindgen.CxxSpec
open LexSpec TextSpec

/-! ## The cases of a `switch` -/

/-- The variants with data: the name, the member and the struct. -/
def bodiesOf : List EnumVariant → List (Str × Str × StructItem)
  | [] => []
  | v :: vs =>
    match v.body with
    | .empty _ => bodiesOf vs
    | .body n b _ _ => (v.exportName, n, b) :: bodiesOf vs

theorem mem_bodiesOf {vs : List EnumVariant} {z : Str × Str × StructItem} : z ∈ bodiesOf vs ↔
    ∃ v ∈ vs, ∃ i j, v.body = .body z.2.1 z.2.2 i j ∧ v.exportName = z.1 := by
  induction vs with
  | nil => simp [bodiesOf]
  | cons v vs ih =>
    unfold bodiesOf
    obtain ⟨u, n, b⟩ := z
    cases hb : v.body with
    | empty a => simp [ih, hb]
    | body n' b' i j =>
      simp only [List.mem_cons, ih, exists_eq_or_imp, hb, VBody.body.injEq, Prod.mk.injEq]
      constructor
      · rintro (⟨rfl, rfl, rfl⟩ | h)
        · exact .inl ⟨i, j, ⟨rfl, rfl, rfl, rfl⟩, rfl⟩
        · exact .inr h
      · rintro (⟨_, _, ⟨rfl, rfl, rfl, rfl⟩, rfl⟩ | h)
        · exact .inl ⟨rfl, rfl, rfl⟩
        · exact .inr h

section
variable {wc : WConfig} {c : OutConfig}

theorem inl_cases {text : Str → Str → StructItem → Str} {toks : Str × Str × StructItem → List Lx} :
    ∀ {vs : List EnumVariant}, (∀ v ∈ vs, !v.body.isEmptyBody → c.cond v.cfg = none) →
      (∀ z ∈ bodiesOf vs, Mid false (text z.1 z.2.1 z.2.2) (toks z) false) →
      Inl wc false false (vs.flatMap (switchCase c text)) ((bodiesOf vs).flatMap toks) false
  | [], _, _ => inl_nil
  | v :: vs, hc, ht => by
    have hc' : ∀ v ∈ vs, !v.body.isEmptyBody → c.cond v.cfg = none := fun u hu => hc u (.tail _ hu)
    unfold bodiesOf at ht ⊢
    simp only [List.flatMap_cons]
    have hv := hc v (.head _)
    cases hb : v.body with
    | empty a =>
      rw [hb] at ht
      rw [show switchCase c text v = [] by simp [switchCase, hb]]
      exact inl_append inl_nil (inl_cases hc' ht)
    | body n b i j =>
      rw [hb] at ht hv
      have h1 := ht _ (.head _)
      have h2 : Inl wc false false (vs.flatMap (switchCase c text)) ((bodiesOf vs).flatMap toks) false :=
        inl_cases hc' fun z hz => ht z (.tail _ hz)
      rw [show switchCase c text v = [.text (text v.exportName n b)] ++ [.newLine] by
        simp [switchCase, hb, hv rfl, condBefore, condAfter], List.flatMap_cons]
      have := inl_append (inl_append (mid_text (wc := wc) h1) inl_newLine) h2
      simpa using this

/-- The label of a case. -/
def labelToks (tag v : Str) : List Lx := [.word c!"case", .word tag, .punct ':', .punct ':', .word v, .punct ':']

theorem mid_label {tag v : Str} (ht : Word tag) (hv : Word v) :
    Mid false (c!"case " ++ tag ++ c!"::" ++ v ++ c!": ") (labelToks tag v) false := by
  have h := mid_app (mid_given (t := c!"case ") (b := false) (ls := [.word c!"case"]) (e := false) (by decide))
    (mid_app (mid_word ht) (mid_app (mid_given (t := c!"::") (b := true) (ls := [.punct ':', .punct ':']) (e := false)
      (by decide)) (mid_app (mid_word hv) (mid_given (t := c!": ") (b := true) (ls := [.punct ':']) (e := false)
      (by decide)))))
  simpa [labelToks] using h

/-- `default: break;`. -/
def defaultToks (d : Bool) : List Lx :=
  if d then [.word c!"default", .punct ':', .word c!"break", .punct ';'] else []

def switchToks (tag : Str) (zs : List (Str × Str × StructItem)) (sts : Str × Str × StructItem → List Lx) (d : Bool) :
    List Lx :=
  [.word c!"switch", .punct '(', .word c!"tag", .punct ')'] ++
  ([.punct '{'] ++ (zs.flatMap (fun z => labelToks tag z.1 ++ sts z) ++ defaultToks d) ++ [.punct '}'])

/-- Some variant has no data. -/
def hasEmpty (vs : List EnumVariant) : Bool := vs.any fun v => v.body.isEmptyBody

theorem inl_switch (hl : c.language = .cxx) {x : EnumItem} {text : Str → Str → StructItem → Str}
    {rest : Str → Str → StructItem → Str} {sts : Str × Str × StructItem → List Lx}
    (he : ∀ v n b, text v n b = (c!"case " ++ x.tagName ++ c!"::" ++ v ++ c!": ") ++ rest v n b)
    (ht : Word x.tagName) (hv : ∀ v ∈ x.variants, Word v.exportName)
    (hc : ∀ v ∈ x.variants, !v.body.isEmptyBody → c.cond v.cfg = none)
    (hs : ∀ z ∈ bodiesOf x.variants, Mid false (rest z.1 z.2.1 z.2.2) (sts z) false) :
    Inl wc false false (switchOps c x text) (switchToks x.tagName (bodiesOf x.variants) sts (hasEmpty x.variants)) false := by
  have h1 : Inl wc false false [.text c!"switch (tag)"]
      [.word c!"switch", .punct '(', .word c!"tag", .punct ')'] false := inl_text (by decide)
  have h2 : Inl wc false false (x.variants.flatMap (switchCase c text))
      ((bodiesOf x.variants).flatMap fun z => labelToks x.tagName z.1 ++ sts z) false := by
    refine inl_cases hc fun z hz => ?_
    rw [he]
    obtain ⟨v, hm, _, _, _, hn⟩ := mem_bodiesOf.mp hz
    exact mid_app (mid_label ht (hn ▸ hv v hm)) (hs z hz)
  have h3 : Inl wc false false (onlyIf (x.variants.any fun v => v.body.isEmptyBody) [.text c!"default: break;"])
      (defaultToks (hasEmpty x.variants)) false := by
    show Inl wc false false (onlyIf (hasEmpty x.variants) _) _ _
    cases hasEmpty x.variants
    · exact inl_nil
    · exact inl_text (by decide)
  exact inl_append h1 (inl_inBraces hl (inl_append h2 h3))

end

/-! ## Reading the cases -/

/-- The tokens are those of the items, whatever follows. -/
def Chunk (toks : List Lx) (items : List Item) : Prop :=
  items.length ≤ toks.length ∧
  ∀ n rest, readItems (n + items.length) (toks ++ rest) = (readItems n rest).map fun q => (items ++ q.1, q.2)

theorem chunk_nil : Chunk [] [] := ⟨Nat.le_refl _, fun n rest => by
  show readItems n rest = _
  cases readItems n rest <;> rfl⟩

theorem chunk_append {a b : List Lx} {i j : List Item} (h1 : Chunk a i) (h2 : Chunk b j) : Chunk (a ++ b) (i ++ j) := by
  refine ⟨?_, fun n rest => ?_⟩
  · have := h1.1; have := h2.1; simp only [List.length_append]; omega
  · have e : n + (i ++ j).length = (n + j.length) + i.length := by rw [List.length_append]; omega
    rw [e, List.append_assoc, h1.2, h2.2]
    cases readItems n rest <;> simp

theorem chunk_flatMap {α : Type} {f : α → List Lx} {g : α → List Item} : ∀ {xs : List α},
    (∀ x ∈ xs, Chunk (f x) (g x)) → Chunk (xs.flatMap f) (xs.flatMap g)
  | [], _ => chunk_nil
  | x :: xs, h => by
    simp only [List.flatMap_cons]
    exact chunk_append (h x (.head _)) (chunk_flatMap fun y hy => h y (.tail _ hy))

theorem chunk_one {a : List Lx} {i : Item} (h0 : a ≠ []) (h1 : ∀ rest, expect '}' (a ++ rest) = none)
    (h2 : ∀ rest, readItem (a ++ rest) = some (i, rest)) : Chunk a [i] := by
  refine ⟨?_, fun n rest => ?_⟩
  · cases a with
    | nil => exact absurd rfl h0
    | cons => simp
  · show readItems (n + 1) _ = _
    simp only [readItems, h1, h2, Option.bind_some, List.cons_append, List.nil_append]

theorem chunk_label (tag v : Str) : Chunk (labelToks tag v) [.label (some (.konst tag v))] :=
  chunk_one (by simp [labelToks]) (fun _ => rfl) (fun _ => rfl)

/-- `return n == p.n;`. -/
def retCmpToks (p n : Str) : List Lx := [.word c!"return"] ++ cmpToks .eq p n ++ [.punct ';']

theorem chunk_ret (p n : Str) : Chunk (retCmpToks p n) [.stmt (.ret ⟨false, [[fieldCmp .eq p n]]⟩)] := by
  refine chunk_one (by simp [retCmpToks]) (fun _ => rfl) (fun rest => ?_)
  have h := readRet_all .eq p n [] rest
  have : readItem (retCmpToks p n ++ rest) = (readRet (joined [.punct '&', .punct '&'] ([n].map (cmpToks .eq p)) ++
      .punct ';' :: rest)).map fun p => (.stmt p.1, p.2) := rfl
  rw [this]
  exact (congrArg _ h).trans rfl

/-- `n.~S(); break;`. -/
def destroyToks (n s : Str) : List Lx :=
  [.word n, .punct '.', .punct '~', .word s, .punct '(', .punct ')', .punct ';', .word c!"break", .punct ';']

theorem chunk_break : Chunk [.word c!"break", .punct ';'] [.stmt .brk] :=
  chunk_one (by simp) (fun _ => rfl) (fun _ => rfl)

theorem chunk_destroy {n : Str} (h1 : n ≠ c!"case") (h2 : n ≠ c!"default") (s : Str) :
    Chunk (destroyToks n s) [.stmt (.act (.destroy n s)), .stmt .brk] := by
  refine chunk_append (a := [.word n, .punct '.', .punct '~', .word s, .punct '(', .punct ')', .punct ';'])
    (i := [_]) (chunk_one (by simp) (fun _ => rfl) (fun rest => ?_)) chunk_break
  have : ∀ ls, readItem (.word n :: ls) = (readSimple (.word n :: ls)).map fun p => (.stmt p.1, p.2) := by
    intro ls; simp only [readItem, h1, h2, if_false]
  simp only [List.cons_append, this]
  rfl

/-- `::new (&n) (S)(p.n); break;`. -/
def copyToks (n s p : Str) : List Lx :=
  [.punct ':', .punct ':', .word c!"new", .punct '(', .punct '&', .word n, .punct ')', .punct '(', .word s, .punct ')',
   .punct '(', .word p, .punct '.', .word n, .punct ')', .punct ';', .word c!"break", .punct ';']

theorem chunk_copy (n s p : Str) : Chunk (copyToks n s p) [.stmt (.act (.copy n s p n)), .stmt .brk] :=
  chunk_append (a := [.punct ':', .punct ':', .word c!"new", .punct '(', .punct '&', .word n, .punct ')', .punct '(',
    .word s, .punct ')', .punct '(', .word p, .punct '.', .word n, .punct ')', .punct ';'])
    (i := [_]) (chunk_one (by simp) (fun _ => rfl) (fun _ => rfl)) chunk_break

def defaultItems (d : Bool) : List Item := if d then [.label none, .stmt .brk] else []

theorem chunk_default (d : Bool) : Chunk (defaultToks d) (defaultItems d) := by
  cases d
  · exact chunk_nil
  · exact chunk_append (a := [.word c!"default", .punct ':']) (i := [_])
      (chunk_one (by simp) (fun _ => rfl) (fun _ => rfl)) chunk_break

/-- What is in the `switch`. -/
def switchItems (tag : Str) (zs : List (Str × Str × StructItem)) (ss : Str × Str × StructItem → List Simple) (d : Bool) :
    List Item :=
  zs.flatMap (fun z => .label (some (.konst tag z.1)) :: (ss z).map .stmt) ++ defaultItems d

theorem readStmt_switch {tag : Str} {zs : List (Str × Str × StructItem)} {sts : Str × Str × StructItem → List Lx}
    {ss : Str × Str × StructItem → List Simple} (h : ∀ z ∈ zs, Chunk (sts z) ((ss z).map .stmt)) (d : Bool)
    (rest : List Lx) : readStmt (switchToks tag zs sts d ++ rest) =
      some (.switch (.name c!"tag") (switchItems tag zs ss d), rest) := by
  have hc : Chunk (zs.flatMap (fun z => labelToks tag z.1 ++ sts z) ++ defaultToks d) (switchItems tag zs ss d) :=
    chunk_append (chunk_flatMap fun z hz => chunk_append (i := [_]) (chunk_label tag z.1) (h z hz)) (chunk_default d)
  have e : switchToks tag zs sts d ++ rest = .word c!"switch" :: .punct '(' :: .word c!"tag" :: .punct ')' :: .punct '{' ::
      ((zs.flatMap (fun z => labelToks tag z.1 ++ sts z) ++ defaultToks d) ++ .punct '}' :: rest) := by simp [switchToks]
  rw [e]
  generalize zs.flatMap (fun z => labelToks tag z.1 ++ sts z) ++ defaultToks d = ls at hc
  generalize switchItems tag zs ss d = is at hc
  have h0 : ∀ ks, readStmt (.word c!"switch" :: .punct '(' :: ks) = readSwitch ks := fun _ => rfl
  rw [h0]
  have h1 : readSwitch (.word c!"tag" :: .punct ')' :: .punct '{' :: (ls ++ .punct '}' :: rest)) =
      (readItems (ls ++ .punct '}' :: rest).length (ls ++ .punct '}' :: rest)).map
        fun q => (.switch (.name c!"tag") q.1, q.2) := rfl
  rw [h1]
  obtain ⟨n, hn⟩ : ∃ n, (ls ++ .punct '}' :: rest).length = (n + 1) + is.length := by
    have := hc.1
    refine ⟨(ls ++ .punct '}' :: rest).length - is.length - 1, ?_⟩
    simp only [List.length_append, List.length_cons]
    omega
  rw [hn, hc.2]
  have : readItems (n + 1) (.punct '}' :: rest) = some ([], rest) := rfl
  simp [this]

/-! ## What the `switch` does -/

section
variable {V : Type} {e : Scope V}

theorem andThen_assoc (p q r : Option (List Act × Flow)) : andThen (andThen p q) r = andThen p (andThen q r) := by
  cases p with
  | none => rfl
  | some x =>
    obtain ⟨a, f⟩ := x
    by_cases hf : f = .next
    · cases q with
      | none => simp [andThen, hf]
      | some y =>
        obtain ⟨b, g⟩ := y
        by_cases hg : g = .next
        · cases r <;> simp [andThen, hf, hg]
        · simp [andThen, hf, hg]
    · simp [andThen, hf]

theorem runSimples_append (a b : List Simple) : runSimples e (a ++ b) = andThen (runSimples e a) (runSimples e b) := by
  induction a with
  | nil =>
    simp only [List.nil_append, runSimples, andThen]
    cases runSimples e b <;> simp
  | cons s a ih => simp only [List.cons_append, runSimples, ih, andThen_assoc]

theorem statements_append (a b : List Item) : statements (a ++ b) = statements a ++ statements b := by
  induction a with
  | nil => rfl
  | cons i a ih =>
    cases i with
    | label => simpa [statements] using ih
    | stmt => simpa [statements] using ih

theorem statements_map (ss : List Simple) : statements (ss.map .stmt) = ss := by
  induction ss with
  | nil => rfl
  | cons s ss ih => simp [statements, ih]

theorem fromLabel_stmts {v : V} {is : List Item} (ss : List Simple) :
    fromLabel e v (ss.map .stmt ++ is) = fromLabel e v is := by
  induction ss with
  | nil => rfl
  | cons s ss ih => simpa [fromLabel] using ih

theorem fromDefault_stmts {is : List Item} (ss : List Simple) : fromDefault (ss.map .stmt ++ is) = fromDefault is := by
  induction ss with
  | nil => rfl
  | cons s ss ih => simpa [fromDefault] using ih

/-- The label `u` with the first statements after it. -/
theorem fromLabel_switch {tag u : Str} {kt : Str → V} {ss : Str × Str × StructItem → List Simple} {d : Bool} :
    ∀ {zs : List (Str × Str × StructItem)},
    (∀ z ∈ zs, e.konst tag z.1 = some (kt z.1) ∧ e.cmp .eq (kt u) (kt z.1) = some (decide (u = z.1))) →
    (∃ z ∈ zs, z.1 = u ∧ ∃ more, fromLabel e (kt u) (switchItems tag zs ss d) = some (some (ss z ++ more))) ∨
    ((∀ z ∈ zs, z.1 ≠ u) ∧ fromLabel e (kt u) (switchItems tag zs ss d) = some none)
  | [], _ => by
    refine .inr ⟨nofun, ?_⟩
    cases d <;> rfl
  | z :: zs, h => by
    have ih := fromLabel_switch (ss := ss) (d := d) (zs := zs) fun y hy => h y (.tail _ hy)
    obtain ⟨h1, h2⟩ := h z (.head _)
    have hd : switchItems tag (z :: zs) ss d = .label (some (.konst tag z.1)) :: ((ss z).map .stmt ++ switchItems tag zs ss d) := by
      simp [switchItems]
    rw [hd]
    simp only [fromLabel, Atom.eval, h1, Option.bind_some, h2]
    by_cases hu : u = z.1
    · refine .inl ⟨z, .head _, hu.symm, statements (switchItems tag zs ss d), ?_⟩
      simp [hu, statements_append, statements_map]
    · simp only [hu, decide_false, Bool.false_eq_true, if_false, fromLabel_stmts]
      rcases ih with ⟨y, hy, h3⟩ | ⟨h3, h4⟩
      · exact .inl ⟨y, .tail _ hy, h3⟩
      · refine .inr ⟨?_, h4⟩
        intro y hy
        cases hy with
        | head => exact fun h => hu h.symm
        | tail _ hy => exact h3 y hy

theorem fromDefault_switch {tag : Str} {ss : Str × Str × StructItem → List Simple} {d : Bool} :
    ∀ {zs : List (Str × Str × StructItem)}, fromDefault (switchItems tag zs ss d) = if d then [.brk] else []
  | [] => by cases d <;> rfl
  | z :: zs => by
    have hd : switchItems tag (z :: zs) ss d = .label (some (.konst tag z.1)) :: ((ss z).map .stmt ++ switchItems tag zs ss d) := by
      simp [switchItems]
    rw [hd]
    simp only [fromDefault, fromDefault_stmts]
    exact fromDefault_switch

/-- The statements of the variant `u`, where it has data; nothing otherwise. -/
theorem runSwitch_eq {tag u : Str} {kt : Str → V} {ss : Str × Str × StructItem → List Simple} {d : Bool}
    {zs : List (Str × Str × StructItem)}
    (h : ∀ z ∈ zs, e.konst tag z.1 = some (kt z.1) ∧ e.cmp .eq (kt u) (kt z.1) = some (decide (u = z.1)))
    (hs : ∀ z ∈ zs, z.1 = u → ∃ as f, runSimples e (ss z) = some (as, f) ∧ f ≠ .next) :
    (∃ z ∈ zs, z.1 = u ∧ runSwitch e (kt u) (switchItems tag zs ss d) = (runSimples e (ss z)).map leave) ∨
    ((∀ z ∈ zs, z.1 ≠ u) ∧ runSwitch e (kt u) (switchItems tag zs ss d) = some ([], .next)) := by
  rcases fromLabel_switch (ss := ss) (d := d) h with ⟨z, hz, hu, more, hm⟩ | ⟨hn, hm⟩
  · refine .inl ⟨z, hz, hu, ?_⟩
    obtain ⟨as, f, h1, h2⟩ := hs z hz hu
    simp only [runSwitch, hm, Option.bind_some, Option.getD_some, runSimples_append, h1, andThen, h2, if_false]
  · refine .inr ⟨hn, ?_⟩
    simp only [runSwitch, hm, Option.bind_some, Option.getD_none, fromDefault_switch]
    cases d <;> rfl

end

end Cbindgen.CxxSpec
