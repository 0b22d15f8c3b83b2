import Verif.Model.Output
import Verif.Spec.Output

/-!
# C24, C31, C32, C37: the files written for bindings, and aliases
-/

namespace Cbindgen

open OutSpec

/-! ## C24: writing the bindings -/

/-- The content of a file after a sequence of calls: the last call for it that is not a no-op. -/
def OutSpec.contentAfter (old : Option Bytes) (calls : List WriteCall) (p : Str) : Option Bytes :=
  match (calls.filter fun c => !c.noop && decide (c.path = p)).getLast? with
  | some c => some c.content
  | none => old

theorem contentAfter_nil (old : Option Bytes) (p : Str) : contentAfter old [] p = old := rfl

theorem contentAfter_snoc (old : Option Bytes) (calls : List WriteCall) (c : WriteCall) (p : Str) :
    contentAfter old (calls ++ [c]) p =
      if c.noop = false ∧ c.path = p then some c.content else contentAfter old calls p := by
  unfold contentAfter
  by_cases h : c.noop = false ∧ c.path = p
  · simp [List.filter_append, h.1, h.2]
  · have : (!c.noop && decide (c.path = p)) = false := by
      cases hn : c.noop <;> simp_all
    simp [List.filter_append, this, h]

theorem writeToFile_file (noop : Bool) (content : Bytes) (p : Str) (d : Disk) (q : Str) :
    (writeToFile noop content p d).2.file q =
      if noop = false ∧ p = q then some content else d.file q := by
  unfold writeToFile
  cases noop with
  | true => simp
  | false =>
    cases h : d.file p with
    | none => by_cases hq : q = p <;> simp [Disk.create, hq, Ne.symm] <;> intro hh <;> simp [hh] at hq
    | some old =>
      by_cases ho : old = content
      · by_cases hq : p = q
        · subst hq; simp [ho, h]
        · simp [ho, hq]
      · by_cases hq : p = q
        · simp [ho, hq, Disk.create]
        · have : ¬q = p := fun h => hq h.symm
          simp [ho, hq, Disk.create, this]

theorem runCalls_append (d : Disk) (xs ys : List WriteCall) :
    runCalls d (xs ++ ys) =
      ((runCalls d xs).1 ++ (runCalls (runCalls d xs).2 ys).1, (runCalls (runCalls d xs).2 ys).2) := by
  induction xs generalizing d with
  | nil => simp [runCalls]
  | cons x xs ih => simp [runCalls, ih]

theorem contentAfter_cons (old : Option Bytes) (calls : List WriteCall) (c : WriteCall) (p : Str) :
    contentAfter old (c :: calls) p =
      contentAfter (if c.noop = false ∧ c.path = p then some c.content else old) calls p := by
  unfold contentAfter
  by_cases h : c.noop = false ∧ c.path = p
  · simp only [List.filter_cons, h.1, h.2, Bool.not_false, decide_true, Bool.and_self, if_true,
      List.getLast?_cons, and_self]
    cases (calls.filter fun c => !c.noop && decide (c.path = p)).getLast? <;> simp
  · have : (!c.noop && decide (c.path = p)) = false := by
      cases hn : c.noop <;> simp_all
    simp [this, h]

/-- **C24, content.**  After any sequence of calls every file holds exactly the bytes of the last call
for it, and is as before if there was none; calls for no-op bindings do not count. -/
theorem C24_content (d : Disk) (calls : List WriteCall) (p : Str) :
    (runCalls d calls).2.file p = contentAfter (d.file p) calls p := by
  induction calls generalizing d with
  | nil => rfl
  | cons c cs ih => rw [runCalls, ih, writeToFile_file, contentAfter_cons]

theorem writeToFile_report (noop : Bool) (content : Bytes) (p : Str) (d : Disk) :
    (writeToFile noop content p d).1 = true ↔ noop = false ∧ d.file p ≠ some content := by
  unfold writeToFile
  cases noop <;> cases h : d.file p <;> simp
  split <;> simp_all

/-- **C24, report.**  After any sequence of calls, a further call reports a change exactly if it is not
for no-op bindings and the file is missing or has other bytes. -/
theorem C24_report (d : Disk) (calls : List WriteCall) (c : WriteCall) :
    (runCalls d (calls ++ [c])).1.getLast? = some true ↔
      c.noop = false ∧ contentAfter (d.file c.path) calls c.path ≠ some c.content := by
  rw [runCalls_append]
  simp only [runCalls, List.getLast?_append, List.getLast?_singleton, Option.some_or,
    Option.some.injEq]
  rw [writeToFile_report, C24_content]

/-- The calls that reported a change. -/
def OutSpec.changing (calls : List WriteCall) (reports : List Bool) : List (Str × Bytes) :=
  ((calls.zip reports).filter Prod.snd).map fun cr => (cr.1.path, cr.1.content)

/-- **C24, writes.**  The files written are exactly those of the calls that report a change, each
written once with the new bytes: a call that reports no change does not touch the file. -/
theorem C24_writes (d : Disk) (calls : List WriteCall) :
    (runCalls d calls).2.log = d.log ++ changing calls (runCalls d calls).1 := by
  induction calls generalizing d with
  | nil => simp [runCalls, changing]
  | cons c cs ih =>
    rw [runCalls]
    simp only [ih, changing, List.zip_cons_cons]
    unfold writeToFile
    cases c.noop with
    | true => simp
    | false =>
      cases h : d.file c.path with
      | none => simp [Disk.create]
      | some old =>
        by_cases ho : old = c.content <;> simp [ho, Disk.create]

/-- **C24, repetition.**  Whatever was done before, repeating a call reports no change and leaves
everything, including the log of writes, as it is. -/
theorem C24_repeat (d : Disk) (c : WriteCall) (n : Nat) :
    runCalls (runCalls d [c]).2 (List.replicate n c) =
      (List.replicate n false, (runCalls d [c]).2) := by
  have key : ∀ e : Disk, (c.noop = true ∨ e.file c.path = some c.content) →
      writeToFile c.noop c.content c.path e = (false, e) := by
    intro e he
    unfold writeToFile
    cases hn : c.noop with
    | true => simp
    | false =>
      rcases he with he | he
      · simp [hn] at he
      · simp [he]
  have hd : c.noop = true ∨ (runCalls d [c]).2.file c.path = some c.content := by
    rw [C24_content]
    cases hn : c.noop with
    | true => exact .inl rfl
    | false => right; simp [contentAfter, hn]
  generalize (runCalls d [c]).2 = e at hd ⊢
  induction n with
  | zero => rfl
  | succ n ih => simp [List.replicate_succ, runCalls, key e hd, ih]

/-- **C24, no-op bindings.**  Calls for no-op bindings report no change and write nothing. -/
theorem C24_noop (d : Disk) (calls : List WriteCall) (h : ∀ c ∈ calls, c.noop = true) :
    runCalls d calls = (calls.map fun _ => false, d) := by
  induction calls generalizing d with
  | nil => rfl
  | cons c cs ih =>
    have hc := h c (by simp)
    simp [runCalls, writeToFile, hc, ih d fun x hx => h x (by simp [hx])]

/-- A missing file is written once, a file with other bytes is rewritten, a no-op call is ignored. -/
example : (runCalls ⟨fun _ => none, []⟩
      [⟨false, [1], c!"a.h"⟩, ⟨false, [1], c!"a.h"⟩, ⟨true, [7], c!"a.h"⟩,
        ⟨false, [2], c!"a.h"⟩]).1 = [true, false, false, true] := by decide

/-! ## C56, C57: no-op bindings and `--verify` in the program -/

/-- Without a symbol file a run for no-op bindings writes nothing, prints nothing and succeeds. -/
theorem C56_noop_run_partial (a : OutArgs) (content symbols : Bytes) (d : Disk)
    (h : a.symfile = none ∨ a.out = none) :
    runOutput a true content symbols d = ⟨0, d, []⟩ := by
  unfold runOutput writeToFile
  cases ho : a.out with
  | none => rfl
  | some p =>
    rcases h with h | h
    · simp [h]
    · simp [h] at ho

/-- **C56 is false as stated.**  A run for no-op bindings overwrites the symbol file. -/
theorem C56_noop_overwrites_symfile :
    ∃ (a : OutArgs) (d : Disk) (content symbols : Bytes) (p : Str),
      d.file p = some [42] ∧ (runOutput a true content symbols d).disk.file p = some symbols ∧
      symbols ≠ [42] :=
  ⟨{ out := some c!"a.h", symfile := some c!"a.sym" },
    { file := fun q => if q = c!"a.sym" then some [42] else none }, [], [123, 10, 125, 59], c!"a.sym",
    rfl, rfl, by decide⟩

/-- **C57, verdict.**  With `--verify` the program fails exactly if the file is missing or differs from
the generated bindings. -/
theorem C57_verify_verdict (p : Str) (sym : Option Str) (content symbols : Bytes) (d : Disk) :
    (runOutput ⟨some p, true, sym⟩ false content symbols d).exit = 2 ↔ d.file p ≠ some content := by
  have := writeToFile_report false content p d
  unfold runOutput
  cases h : (writeToFile false content p d).1
  · rw [h] at this
    simp only [Bool.false_eq_true, true_and, false_iff, Decidable.not_not] at this
    cases sym <;> simp [h, this]
  · rw [h] at this
    simp only [true_iff, true_and] at this
    simp [h, this]

/-- **C57 is false as stated.**  `--verify` overwrites the file, so that a second run succeeds although
nothing was fixed. -/
theorem C57_verify_overwrites (p : Str) (content old symbols : Bytes) (d : Disk)
    (hd : d.file p = some old) (hne : old ≠ content) :
    let r := runOutput ⟨some p, true, none⟩ false content symbols d
    r.exit = 2 ∧ r.disk.file p = some content ∧
      (runOutput ⟨some p, true, none⟩ false content symbols r.disk).exit = 0 := by
  have hw : writeToFile false content p d = (true, d.create p content) := by
    simp [writeToFile, hd, hne]
  have hr : runOutput ⟨some p, true, none⟩ false content symbols d = ⟨2, d.create p content, []⟩ := by
    simp [runOutput, hw]
  have hw2 : writeToFile false content p (d.create p content) = (false, d.create p content) := by
    simp [writeToFile, Disk.create]
  have hr2 : runOutput ⟨some p, true, none⟩ false content symbols (d.create p content) =
      ⟨0, d.create p content, []⟩ := by
    simp [runOutput, hw2]
  simp only [hr, hr2]
  simp [Disk.create]

/-- The case of the theorem: a header with other bytes. -/
example : ∃ (p : Str) (content old : Bytes) (d : Disk), d.file p = some old ∧ old ≠ content :=
  ⟨c!"a.h", [2], [1], { file := fun _ => some [1] }, rfl, by decide⟩

/-! ## C32: the symbol file -/

theorem symFile_entries (names : List Str)
    (h : ∀ n ∈ names, n ≠ [] ∧ '\n' ∉ n ∧ ';' ∉ n) :
    SymFile (names.flatMap (fun s => s ++ c!";\n") ++ c!"};") names := by
  induction names with
  | nil => exact .done
  | cons n ns ih =>
    have hn := h n (by simp)
    have := SymFile.entry n _ ns (ih fun m hm => h m (by simp [hm])) hn.2.1 hn.2.2 hn.1
    simpa [List.flatMap_cons, List.append_assoc] using this

/-- A name ends at the first semicolon. -/
theorem append_semicolon_inj {a b x y : Str} (ha : ';' ∉ a) (hb : ';' ∉ b)
    (h : a ++ ';' :: x = b ++ ';' :: y) : a = b ∧ x = y := by
  induction a generalizing b with
  | nil =>
    cases b with
    | nil => simpa using h
    | cons c b => simp at h; exact absurd h.1.symm (by intro hc; exact hb (by simp [hc]))
  | cons c a ih =>
    cases b with
    | nil => simp at h; exact absurd h.1 (by intro hc; exact ha (by simp [hc]))
    | cons e b =>
      simp only [List.cons_append, List.cons.injEq] at h
      have := ih (b := b) (by simp_all) (by simp_all) h.2
      exact ⟨by rw [h.1, this.1], this.2⟩

/-- A symbol file has only one reading. -/
theorem OutSpec.SymFile.unique {text : Str} {xs ys : List Str} (hx : SymFile text xs) (hy : SymFile text ys) :
    xs = ys := by
  induction hx generalizing ys with
  | done =>
    generalize ht : c!"};" = t at hy
    cases hy with
    | done => rfl
    | entry name rest names hr hn hs he =>
      exfalso
      cases name with
      | nil => exact he rfl
      | cons a n =>
        simp only [List.cons_append, List.cons.injEq] at ht
        obtain ⟨_, ht⟩ := ht
        cases n with
        | nil => simp at ht
        | cons b n => simp only [List.cons_append, List.cons.injEq] at ht; exact hs (by simp [← ht.1])
  | entry name rest names hr hn hs he ih =>
    generalize ht : name ++ ';' :: '\n' :: rest = t at hy
    cases hy with
    | done =>
      exfalso
      cases name with
      | nil => exact he rfl
      | cons a n =>
        simp only [List.cons_append, List.cons.injEq] at ht
        obtain ⟨_, ht⟩ := ht
        cases n with
        | nil => simp at ht
        | cons b n => simp only [List.cons_append, List.cons.injEq] at ht; exact hs (by simp [ht.1])
    | entry name' rest' names' hr' hn' hs' he' =>
      have h1 := append_semicolon_inj hs hs' ht
      have h2 : rest = rest' := by simpa using h1.2
      subst h2
      rw [h1.1, ih hr']

/-- **C32.**  The symbol file reads back as the exported functions followed by the exported statics, in
their order, and as nothing else. -/
theorem C32_symfile (b : Bindings)
    (hf : ∀ f ∈ b.functions, f.path ≠ [] ∧ '\n' ∉ f.path ∧ ';' ∉ f.path)
    (hg : ∀ g ∈ b.globals, g.exportName ≠ [] ∧ '\n' ∉ g.exportName ∧ ';' ∉ g.exportName)
    (names : List Str) :
    IsSymFile b.symfileText names ↔
      names = (b.functions.filter fun f => f.annotations.bool c!"no-export" ≠ some true).map
          FuncItem.path ++
        (b.globals.filter fun g => g.annotations.bool c!"no-export" ≠ some true).map
          StaticItem.exportName := by
  have he : ∀ a : Annotations, a.shouldExport = decide (a.bool c!"no-export" ≠ some true) := by
    intro a
    unfold Annotations.shouldExport
    cases a.bool c!"no-export" with
    | none => rfl
    | some b => cases b <;> rfl
  have hd : b.dynamicSymbols =
      (b.functions.filter fun f => f.annotations.bool c!"no-export" ≠ some true).map FuncItem.path ++
        (b.globals.filter fun g => g.annotations.bool c!"no-export" ≠ some true).map
          StaticItem.exportName := by
    simp only [Bindings.dynamicSymbols, he]
  have hall : ∀ n ∈ b.dynamicSymbols, n ≠ [] ∧ '\n' ∉ n ∧ ';' ∉ n := by
    intro n hn
    simp only [Bindings.dynamicSymbols, List.mem_append, List.mem_map, List.mem_filter] at hn
    rcases hn with ⟨f, hf', rfl⟩ | ⟨g, hg', rfl⟩
    · exact hf f hf'.1
    · exact hg g hg'.1
  have hs := symFile_entries b.dynamicSymbols hall
  rw [← hd]
  constructor
  · rintro ⟨rest, ht, hr⟩
    have : rest = b.dynamicSymbols.flatMap (fun s => s ++ c!";\n") ++ c!"};" := by
      simp [Bindings.symfileText] at ht
      exact ht.symm
    subst this
    exact hr.unique hs
  · rintro rfl
    exact ⟨_, by simp [Bindings.symfileText], hs⟩

/-- One exported function, one that is not exported, and a static. -/
def symBindings : Bindings :=
  { constants := [], items := [],
    globals := [{ path := c!"COUNTER", exportName := c!"COUNTER", ty := .prim .void }],
    functions := [{ path := c!"start", ret := .prim .void, args := [] },
      { path := c!"hidden", ret := .prim .void, args := [],
        annotations := { entries := [(c!"no-export", .bool true)] } }] }

example : symBindings.symfileText = c!"{\nstart;\nCOUNTER;\n};" := by decide

/-! ## C31: the dep file -/

/-- Characters that need no escape in a makefile. -/
def OutSpec.PlainPath (p : Str) : Prop :=
  p ≠ [] ∧ ∀ c ∈ p, c ∉ c!"\\\n\t#$:" ∧ isMeta c = false

theorem readRule_plain (t : Option Str) (ws : List Str) (w : Str) (c : Char) (rest : Str)
    (hc : c ∉ c!"\\\n\t#$:") (hm : isMeta c = false) (hs : c ≠ ' ') :
    readRule t ws w (c :: rest) = readRule t ws (w ++ [c]) rest := by
  simp only [List.mem_cons, List.not_mem_nil, or_false, not_or] at hc
  obtain ⟨h1, h2, h3, h4, h5, h6⟩ := hc
  conv => lhs; unfold readRule
  split <;> simp_all

theorem readRule_escape (p : Str) (h : ∀ c ∈ p, c ∉ c!"\\\n\t#$:" ∧ isMeta c = false)
    (t : Option Str) (ws : List Str) (w rest : Str) :
    readRule t ws w (escapeSpaces p ++ rest) = readRule t ws (w ++ p) rest := by
  induction p generalizing w with
  | nil => simp [escapeSpaces]
  | cons c p ih =>
    have hc := h c (by simp)
    have ih' := fun w => ih (fun x hx => h x (by simp [hx])) w
    by_cases hs : c = ' '
    · subst hs
      have : escapeSpaces (' ' :: p) = '\\' :: ' ' :: escapeSpaces p := rfl
      rw [this, List.cons_append, List.cons_append, readRule, ih']
      simp
    · have : escapeSpaces (c :: p) = c :: escapeSpaces p := by
        simp [escapeSpaces, List.flatMap_cons, hs]
      rw [this, List.cons_append, readRule_plain _ _ _ _ _ hc.1 hc.2 hs, ih']
      simp

theorem readRule_sources (t : Str) (ps : List Str) (h : ∀ p ∈ ps, PlainPath p) (ws : List Str)
    (w : Str) :
    readRule (some t) ws w (ps.flatMap (fun p => c!" \\\n    " ++ escapeSpaces p) ++ c!"\n") =
      some (t, flush w ws ++ ps) := by
  induction ps generalizing ws w with
  | nil => simp [readRule]
  | cons p ps ih =>
    have hp := h p (by simp)
    have ih' := ih fun x hx => h x (by simp [hx])
    have hfl : ∀ ws, flush [] ws = ws := fun ws => rfl
    have : readRule (some t) ws w ((p :: ps).flatMap (fun p => c!" \\\n    " ++ escapeSpaces p) ++
          c!"\n") =
        readRule (some t) (flush w ws) [] (escapeSpaces p ++
          (ps.flatMap (fun p => c!" \\\n    " ++ escapeSpaces p) ++ c!"\n")) := by
      simp [List.flatMap_cons, readRule, hfl]
    rw [this, readRule_escape p hp.2, ih']
    simp [flush, hp.1]

/-- **C31, partial.**  The dep file, read by make's rules, names the header and then every source file
and the config file, each once per time it is in the list, provided no path contains a character other
than the space that make would not take literally. -/
theorem C31_depfile_partial (canon : Str → Option Str) (le : Str → Str → Bool) (header h : Str)
    (sources ps : List Str) (config : Option Str)
    (hh : canon header = some h) (hplain : PlainPath h)
    (hps : (sources ++ config.toList).mapM canon = some ps) (hpl : ∀ p ∈ ps, PlainPath p) :
    ∃ text qs, generateDepfile canon le header sources config = some text ∧
      makeRule text = some (h, qs) ∧ qs.Perm ps := by
  refine ⟨depfileText h (ps.mergeSort le), ps.mergeSort le, ?_, ?_, List.mergeSort_perm ps le⟩
  · simp [generateDepfile, canonSources, hh, hps]
  · have hq : ∀ p ∈ ps.mergeSort le, PlainPath p := fun p hp =>
      hpl p ((List.mergeSort_perm ps le).mem_iff.1 hp)
    unfold makeRule depfileText
    rw [List.append_assoc, List.append_assoc, readRule_escape h hplain.2]
    have : ∀ rest, readRule none [] ([] ++ h) (c!":" ++ rest) = readRule (some h) [] [] rest := by
      intro rest
      simp [readRule, flush, hplain.1]
    rw [this, readRule_sources h _ hq]
    rfl

/-- A source directory with a space in its name. -/
example : makeRule (depfileText c!"/a/b.h" [c!"/a/my lib/lib.rs", c!"/a/x.rs"]) =
    some (c!"/a/b.h", [c!"/a/my lib/lib.rs", c!"/a/x.rs"]) := by rfl

/-- **C31 is false as stated.**  A `#` in the path of a source file starts a comment: the file and all
that follow are lost. -/
theorem C31_depfile_comment :
    makeRule (depfileText c!"/a/b.h" [c!"/a/c#/lib.rs", c!"/a/x.rs"]) ≠
      some (c!"/a/b.h", [c!"/a/c#/lib.rs", c!"/a/x.rs"]) := by decide

/-- A last file with such a path is read as another one. -/
theorem C31_depfile_other_file :
    makeRule (depfileText c!"/a/b.h" [c!"/a/c#/lib.rs"]) = some (c!"/a/b.h", [c!"/a/c"]) := by rfl

/-- A dollar sign is taken for a variable. -/
theorem C31_depfile_dollar : makeRule (depfileText c!"/a/b.h" [c!"/a/$x.rs"]) = none := by rfl

/-! ## C37: aliases -/

theorem aliasStep_fold (ts : List TypedefItem) (a : Option Str) :
    ts.foldl (fun found t => t.target.or found) a =
      ((ts.filterMap TypedefItem.target).getLast?).or a := by
  induction ts generalizing a with
  | nil => rfl
  | cons t ts ih =>
    rw [List.foldl_cons, ih]
    cases h : t.target with
    | none => simp [h]
    | some q =>
      simp only [List.filterMap_cons, h, List.getLast?_cons]
      cases (ts.filterMap TypedefItem.target).getLast? <;> rfl

theorem target_eq_some {t : TypedefItem} {q : Str} :
    t.target = some q ↔ ∃ e gs k, t.aliased = .path q e gs k := by
  unfold TypedefItem.target
  cases h : t.aliased <;> simp

theorem target_eq_none {t : TypedefItem} :
    t.target = none ↔ ∀ q e gs k, t.aliased ≠ .path q e gs k := by
  unfold TypedefItem.target
  cases h : t.aliased <;> simp

theorem last_target_iff (ts : List TypedefItem) (q : Str) :
    (ts.filterMap TypedefItem.target).getLast? = some q ↔
      ∃ before after t, ts = before ++ t :: after ∧ t.target = some q ∧
        ∀ u ∈ after, u.target = none := by
  induction ts with
  | nil => simp
  | cons t ts ih =>
    constructor
    · intro h
      cases hl : (ts.filterMap TypedefItem.target).getLast? with
      | some r =>
        have : some r = some q := by
          cases ht : t.target <;> simp [ht, List.getLast?_cons, hl] at h <;> simp [h]
        obtain ⟨b, a, u, hu, h1, h2⟩ := ih.1 (hl.trans this)
        exact ⟨t :: b, a, u, by simp [hu], h1, h2⟩
      | none =>
        refine ⟨[], ts, t, rfl, ?_, ?_⟩
        · cases ht : t.target <;> simp [ht, List.getLast?_cons, hl] at h <;> simp [h]
        · simpa [List.getLast?_eq_none_iff] using hl
    · rintro ⟨b, a, u, hu, h1, h2⟩
      cases b with
      | nil =>
        simp at hu
        obtain ⟨rfl, rfl⟩ := hu
        have : ts.filterMap TypedefItem.target = [] := by simpa using h2
        simp [h1, this]
      | cons x b =>
        simp only [List.cons_append, List.cons.injEq] at hu
        have := ih.2 ⟨b, a, u, hu.2, h1, h2⟩
        cases ht : t.target <;> simp [ht, List.getLast?_cons, this]

/-- One round of the loop follows the alias. -/
theorem aliasStep_iff (m : ItemMap TypedefItem) (p q : Str) : aliasStep m p = some q ↔ Alias m p q := by
  unfold aliasStep Alias
  rw [aliasStep_fold, Option.or_none, last_target_iff]
  constructor
  · rintro ⟨b, a, t, hi, ht, ha⟩
    obtain ⟨e, gs, k, h⟩ := target_eq_some.1 ht
    cases hg : m.getItems p with
    | none => simp [hg] at hi
    | some items =>
      simp only [hg, Option.getD_some] at hi
      exact ⟨items, b, a, t, e, gs, k, rfl, hi, h, fun u hu => target_eq_none.1 (ha u hu)⟩
  · rintro ⟨items, b, a, t, e, gs, k, hg, hi, ht, ha⟩
    refine ⟨b, a, t, by simp [hg, hi], target_eq_some.2 ⟨e, gs, k, ht⟩,
      fun u hu => target_eq_none.2 (ha u hu)⟩

theorem OutSpec.Follows.trans {m : ItemMap TypedefItem} {p q r : Str} (h : Follows m p q)
    (h' : Follows m q r) : Follows m p r := by
  induction h with
  | refl => exact h'
  | step ha _ ih => exact .step ha (ih h')

/-- **C37, result.**  If the lookup ends, it ends at the end of the chain of aliases. -/
theorem C37_resolved (m : ItemMap TypedefItem) (n : Nat) (p r : Str)
    (h : resolvedStructPath m n p = some r) : Follows m p r ∧ ∀ q, ¬Alias m r q := by
  induction n generalizing p with
  | zero => simp [resolvedStructPath] at h
  | succ n ih =>
    unfold resolvedStructPath at h
    cases ha : aliasStep m p with
    | none =>
      simp only [ha, Option.some.injEq] at h
      subst h
      exact ⟨.refl _, fun q hq => by rw [← aliasStep_iff, ha] at hq; cases hq⟩
    | some q =>
      simp only [ha] at h
      have := ih q h
      exact ⟨.step ((aliasStep_iff m p q).1 ha) this.1, this.2⟩

/-- More distinct names than there are keys: impossible. -/
theorem nodup_length_le {xs ys : List Str} (hx : xs.Nodup) (h : ∀ x ∈ xs, x ∈ ys) :
    xs.length ≤ ys.length := by
  induction xs generalizing ys with
  | nil => simp
  | cons x xs ih =>
    have hxy := h x (by simp)
    have hn := List.nodup_cons.1 hx
    have := ih (ys := ys.erase x) hn.2 fun y hy => by
      have : y ≠ x := fun e => hn.1 (e ▸ hy)
      exact (List.mem_erase_of_ne this).2 (h y (by simp [hy]))
    have hl := List.length_erase_of_mem hxy
    have hp := List.length_pos_of_mem hxy
    simp only [List.length_cons]
    omega

theorem OutSpec.Alias.key {m : ItemMap TypedefItem} {p q : Str} (h : Alias m p q) : p ∈ m.map Prod.fst := by
  obtain ⟨items, _, _, _, _, _, _, hg, _⟩ := h
  unfold ItemMap.getItems at hg
  cases hl : m.lookup p with
  | none => simp [hl] at hg
  | some v =>
    clear hg
    induction m with
    | nil => simp at hl
    | cons kv m ih =>
      obtain ⟨k, w⟩ := kv
      by_cases hk : p = k
      · simp [hk]
      · have : (p == k) = false := by simp [hk]
        simp only [List.lookup_cons, this] at hl
        simp [ih hl]

/-- The path of aliases followed so far, the latest first. -/
def Trail (m : ItemMap TypedefItem) : Str → List Str → Prop
  | _, [] => True
  | p, q :: qs => Alias m q p ∧ Trail m q qs

theorem Trail.follows {m : ItemMap TypedefItem} {p : Str} {qs : List Str} (h : Trail m p qs) :
    ∀ q ∈ qs, ∃ r, Alias m q r ∧ Follows m r p := by
  induction qs generalizing p with
  | nil => simp
  | cons q qs ih =>
    intro x hx
    rcases List.mem_cons.1 hx with rfl | hx
    · exact ⟨p, h.1, .refl _⟩
    · obtain ⟨r, hr, hf⟩ := ih h.2 x hx
      exact ⟨r, hr, hf.trans (.step h.1 (.refl _))⟩

theorem resolved_of_trail (m : ItemMap TypedefItem) (hac : Acyclic m) (n : Nat) :
    ∀ (p : Str) (qs : List Str), Trail m p qs → qs.Nodup → m.length < n + qs.length →
      ∃ r, resolvedStructPath m n p = some r := by
  induction n with
  | zero =>
    intro p qs ht hn hl
    exfalso
    have : qs.length ≤ (m.map Prod.fst).length := nodup_length_le hn fun q hq => by
      obtain ⟨r, hr, _⟩ := ht.follows q hq
      exact hr.key
    simp at this
    omega
  | succ n ih =>
    intro p qs ht hn hl
    unfold resolvedStructPath
    cases ha : aliasStep m p with
    | none => exact ⟨p, rfl⟩
    | some q =>
      have hq := (aliasStep_iff m p q).1 ha
      refine ih q (p :: qs) ⟨hq, ht⟩ (List.nodup_cons.2 ⟨fun hp => ?_, hn⟩) (by simp; omega)
      obtain ⟨r, hr, hf⟩ := ht.follows p hp
      exact hac p r hr hf

/-- **C37, partial: termination.**  If no alias leads back to itself, the lookup ends after at most one
round more than there are names of aliases, at the end of the chain. -/
theorem C37_terminates_partial (m : ItemMap TypedefItem) (hac : Acyclic m) (p : Str) :
    ∃ r, resolvedStructPath m (m.length + 1) p = some r ∧ Follows m p r ∧ ∀ q, ¬Alias m r q := by
  obtain ⟨r, hr⟩ := resolved_of_trail m hac (m.length + 1) p [] trivial .nil (by simp)
  exact ⟨r, hr, C37_resolved m _ p r hr⟩

/-- `type n = t;` under a condition. -/
def cfgAlias (n t cond : Str) : TypedefItem :=
  { path := n, exportName := n, aliased := .path t t [] none, cfg := some (.boolean cond) }

/-- `#[cfg(unix)] type A = B;` and `#[cfg(windows)] type B = A;`: never both in one build. -/
def cyclicAliases : ItemMap TypedefItem :=
  [(c!"A", .cfg [cfgAlias c!"A" c!"B" c!"unix"]), (c!"B", .cfg [cfgAlias c!"B" c!"A" c!"windows"])]

/-- **C37 is false as stated.**  For a pair of aliases under exclusive conditions the loop never
ends. -/
theorem C37_diverges (n : Nat) :
    resolvedStructPath cyclicAliases n c!"A" = none ∧
    resolvedStructPath cyclicAliases n c!"B" = none := by
  have ha : aliasStep cyclicAliases c!"A" = some c!"B" := by rfl
  have hb : aliasStep cyclicAliases c!"B" = some c!"A" := by rfl
  induction n with
  | zero => exact ⟨rfl, rfl⟩
  | succ n ih => exact ⟨by rw [resolvedStructPath, ha]; exact ih.2, by rw [resolvedStructPath, hb]; exact ih.1⟩

/-- `type A = B; type B = S;` -/
def chainAliases : ItemMap TypedefItem :=
  [(c!"A", .single { path := c!"A", exportName := c!"A", aliased := .path c!"B" c!"B" [] none }),
   (c!"B", .single { path := c!"B", exportName := c!"B", aliased := .path c!"S" c!"S" [] none })]

theorem chainAliases_step (p q : Str) : Alias chainAliases p q →
    (p = c!"A" ∧ q = c!"B") ∨ (p = c!"B" ∧ q = c!"S") := by
  intro h
  have hk := h.key
  simp [chainAliases] at hk
  rw [← aliasStep_iff] at h
  rcases hk with rfl | rfl
  · have : aliasStep chainAliases c!"A" = some c!"B" := by rfl
    simp [this] at h
    exact .inl ⟨rfl, h.symm⟩
  · have : aliasStep chainAliases c!"B" = some c!"S" := by rfl
    simp [this] at h
    exact .inr ⟨rfl, h.symm⟩

/-- A chain of two aliases meets the hypothesis and resolves to the struct. -/
theorem chainAliases_acyclic : Acyclic chainAliases := by
  have hS : ∀ q, Follows chainAliases c!"S" q → q = c!"S" := by
    intro q h
    cases h with
    | refl => rfl
    | step ha _ => rcases chainAliases_step _ _ ha with ⟨h, _⟩ | ⟨h, _⟩ <;> exact absurd h (by decide)
  intro p q h hf
  rcases chainAliases_step p q h with ⟨rfl, rfl⟩ | ⟨rfl, rfl⟩
  · cases hf with
    | step ha hf =>
      rcases chainAliases_step _ _ ha with ⟨h, _⟩ | ⟨_, rfl⟩
      · exact absurd h (by decide)
      · exact absurd (hS _ hf) (by decide)
  · exact absurd (hS _ hf) (by decide)

example : resolvedStructPath chainAliases 3 c!"A" = some c!"S" := by rfl

end Cbindgen
