import Verif.Spec.Main
import Verif.Props.SourceCases
import Verif.Props.Output
import Verif.Lemmas.SourceTables

/-!
# C69: the program
-/

namespace Cbindgen
open MainSpec

/-! ## Options -/

theorem lang_lookup {s : Str} {l : Language} (h : LangName s l) : languageTable.lookup s = some l := by
  cases h <;> rename_i h <;> revert s <;> decide

theorem style_lookup {s : Str} {l : Style} (h : StyleName s l) : styleTable.lookup s = some l := by
  cases h <;> rename_i h <;> revert s <;> decide

theorem profile_lookup {s : Str} {l : Profile} (h : ProfileName s l) : profileTable.lookup s = some l := by
  cases h <;> rename_i h <;> revert s <;> decide

theorem all_names {α : Type} {name : Str → α → Prop} {xs : List Str} (h : ∀ s l, name s l → s ∈ xs) {o : Option Str}
    (ho : ∀ s, o = some s → ∃ l, name s l) : o.all xs.contains = true := by
  cases o with
  | none => rfl
  | some s =>
    obtain ⟨l, hl⟩ := ho s rfl
    simpa using h s l hl

theorem accepted_of {a : Cli} (h : Valid a) : a.accepted = true := by
  have h1 : ∀ s l, LangName s l → s ∈ langValues := by
    intro s l hl
    cases hl <;> rename_i h <;> revert s <;> decide
  have h2 : ∀ s l, StyleName s l → s ∈ styleValues := by
    intro s l hl
    cases hl <;> rename_i h <;> revert s <;> decide
  have h3 : ∀ s l, ProfileName s l → s ∈ profileValues := by
    intro s l hl
    cases hl <;> rename_i h <;> revert s <;> decide
  rw [Cli.accepted, all_names h1 h.lang, all_names h2 h.style, all_names h3 h.profile]
  rfl

theorem mem_names {α : Type} {name : Str → α → Prop} {xs : List Str} (h : ∀ s ∈ xs, ∃ l, name s l) {o : Option Str}
    (ho : o.all xs.contains = true) : ∀ s, o = some s → ∃ l, name s l := by
  rintro s rfl
  exact h s (by simpa using ho)

theorem valid_of {a : Cli} (h : a.accepted = true) : Valid a := by
  simp only [Cli.accepted, Bool.and_eq_true] at h
  obtain ⟨⟨h1, h2⟩, h3⟩ := h
  refine ⟨mem_names ?_ h1, mem_names ?_ h2, mem_names ?_ h3⟩
  · intro s hs
    simp only [langValues, List.mem_cons, List.not_mem_nil, or_false] at hs
    rcases hs with rfl | rfl | rfl | rfl | rfl | rfl
    · exact ⟨_, .cxx (by simp)⟩
    · exact ⟨_, .cxx (by simp)⟩
    · exact ⟨_, .c (by simp)⟩
    · exact ⟨_, .c (by simp)⟩
    · exact ⟨_, .cython (by simp)⟩
    · exact ⟨_, .cython (by simp)⟩
  · intro s hs
    simp only [styleValues, List.mem_cons, List.not_mem_nil, or_false] at hs
    rcases hs with rfl | rfl | rfl | rfl | rfl | rfl
    · exact ⟨_, .both (by simp)⟩
    · exact ⟨_, .both (by simp)⟩
    · exact ⟨_, .tag (by simp)⟩
    · exact ⟨_, .tag (by simp)⟩
    · exact ⟨_, .type (by simp)⟩
    · exact ⟨_, .type (by simp)⟩
  · intro s hs
    simp only [profileValues, List.mem_cons, List.not_mem_nil, or_false] at hs
    rcases hs with rfl | rfl | rfl | rfl
    · exact ⟨_, .debug (by simp)⟩
    · exact ⟨_, .debug (by simp)⟩
    · exact ⟨_, .release (by simp)⟩
    · exact ⟨_, .release (by simp)⟩

theorem override_chosen {α : Type} {name : Str → α → Prop} {table : List (Str × α)}
    (hl : ∀ s l, name s l → table.lookup s = some l) {o : Option Str} (ho : ∀ s, o = some s → ∃ l, name s l) (old : α) :
    ∃ l, overrideWith table o old = some l ∧ Chosen name o old l := by
  cases o with
  | none => exact ⟨old, rfl, .inr ⟨rfl, rfl⟩⟩
  | some s =>
    obtain ⟨l, h⟩ := ho s rfl
    exact ⟨l, hl s l h, .inl ⟨s, rfl, h⟩⟩

/-- **C69.** The options of the command line never make the program panic, and they override those of the configuration. -/
theorem C69_options {a : Cli} (h : Valid a) (s : Settings) : ∃ r, a.apply s = some r ∧ Effective a s r := by
  obtain ⟨l, h1, h1'⟩ := override_chosen (fun _ _ => lang_lookup) h.lang s.out.language
  obtain ⟨st, h2, h2'⟩ := override_chosen (fun _ _ => style_lookup) h.style s.out.style
  obtain ⟨p, h3, h3'⟩ := override_chosen (fun _ _ => profile_lookup) h.profile s.profile
  refine ⟨_, by rw [Cli.apply, h1, h2, h3], h1', h2', h3', ?_, ?_, ?_, ?_, rfl⟩ <;> simp only [Switched, Bool.or_eq_true]

/-- **C69.** The program accepts exactly the command lines that it describes. -/
theorem C69_valid (a : Cli) : a.accepted = true ↔ Valid a := ⟨valid_of, accepted_of⟩

theorem langName_unique {s : Str} {l l' : Language} (h : LangName s l) (h' : LangName s l') : l = l' := by
  have := lang_lookup h
  rw [lang_lookup h'] at this
  exact (Option.some.inj this).symm

theorem chosen_unique {α : Type} {name : Str → α → Prop} {table : List (Str × α)} (hl : ∀ s l, name s l → table.lookup s = some l)
    {o : Option Str} {old x y : α} (hx : Chosen name o old x) (hy : Chosen name o old y) : x = y := by
  rcases hx with ⟨s, rfl, hx⟩ | ⟨rfl, rfl⟩
  · rcases hy with ⟨_, h, hy⟩ | ⟨h, _⟩
    · cases h
      have := hl _ _ hx
      rw [hl _ _ hy] at this
      exact (Option.some.inj this).symm
    · cases h
  · rcases hy with ⟨_, h, _⟩ | ⟨_, rfl⟩
    · cases h
    · rfl

theorem switched_unique {x y a b : Bool} (h : Switched x y a) (h' : Switched x y b) : a = b :=
  Bool.eq_iff_iff.2 (h.trans h'.symm)

theorem effective_unique {a : Cli} {s r r' : Settings} (h : Effective a s r) (h' : Effective a s r') : r = r' := by
  have e1 := chosen_unique (fun _ _ => lang_lookup) h.lang h'.lang
  have e2 := chosen_unique (fun _ _ => style_lookup) h.style h'.style
  have e3 := chosen_unique (fun _ _ => profile_lookup) h.profile h'.profile
  have e4 := switched_unique h.cppCompat h'.cppCompat
  have e5 := switched_unique h.packageVersion h'.packageVersion
  have e6 := switched_unique h.onlyTarget h'.onlyTarget
  have e7 := switched_unique h.parseDeps h'.parseDeps
  rw [h.others, h'.others, e1, e2, e3, e4, e5, e6, e7]

theorem valid_bare (a : Cli) : Valid (bare a) := ⟨nofun, nofun, nofun⟩

theorem apply_bare {a : Cli} (h : Valid a) {s r : Settings} (hr : Effective a s r) : (bare a).apply r = a.apply s := by
  obtain ⟨r', hr', he⟩ := C69_options h s
  obtain rfl := effective_unique hr he
  rw [hr']
  have hs : (a.onlyTargetDependencies || r.onlyTargetDependencies) = r.onlyTargetDependencies := by
    cases ha : a.onlyTargetDependencies
    · rfl
    · exact (hr.onlyTarget.2 (.inl ha)).symm
  show some { r with onlyTargetDependencies := a.onlyTargetDependencies || r.onlyTargetDependencies } = some r
  rw [hs]

theorem load_bare {w : World} {a : Cli} (h : Valid a) {f : Settings → Settings} (hf : ∀ s, Effective a s (f s)) :
    (configured w f).load (bare a) = w.load a := by
  have hset : ∀ o : Option Settings, (o.map f).bind (bare a).apply = o.bind a.apply := by
    intro o
    cases o with
    | none => rfl
    | some s => exact apply_bare h (hf s)
  have hfile : ∀ input, (configured w f).loadFile (bare a) input = w.loadFile a input := by
    intro input
    unfold World.loadFile
    have hc : (configured w f).fileSettings (bare a) input = (w.fileSettings a input).map f := by
      unfold World.fileSettings
      show (match a.config with
          | some p => (w.configFile p).map f
          | none => (w.parent input).bind fun d => (w.rootConfig d).map f) = _
      cases a.config with
      | some p => rfl
      | none => cases w.parent input <;> rfl
    rw [hc]
    cases w.fileSettings a input with
    | none => rfl
    | some s =>
      simp only [Option.map_some]
      rw [apply_bare h (hf s)]
      rfl
  have hcrate : ∀ input, (configured w f).loadCrate (bare a) input = w.loadCrate a input := by
    intro input
    unfold World.loadCrate
    show (match w.cargo ⟨input, a.lockfile, a.crate, true, a.clean, a.onlyTargetDependencies, a.metadata⟩ with
      | none => _
      | some c => _) = _
    cases w.cargo ⟨input, a.lockfile, a.crate, true, a.clean, a.onlyTargetDependencies, a.metadata⟩ with
    | none => rfl
    | some c =>
      simp only
      cases c.bindingCrateRef with
      | none => rfl
      | some root =>
        simp only
        have hs : (configured w f).settings (bare a) ((configured w f).crateDir c root input) =
            (w.settings a (w.crateDir c root input)).map f := by
          unfold World.settings
          show (match a.config with
              | some p => (w.configFile p).map f
              | none => (w.rootConfig (w.crateDir c root input)).map f) = _
          cases a.config <;> rfl
        rw [hs, hset]
        rfl
  unfold World.load
  rw [hfile, hcrate]
  rfl

/-- **C69.** An option on the command line has the effect of the same option in the configuration. -/
theorem C69_as_configured_partial {w : World} {a : Cli} (h : Valid a) {f : Settings → Settings} (hf : ∀ s, Effective a s (f s)) (d : Disk) :
    w.run a d = (configured w f).run (bare a) d := by
  unfold World.run
  rw [accepted_of h, accepted_of (valid_bare a), load_bare h hf]
  have ho : (bare a).out = a.out := rfl
  have hn : (configured w f).nested = w.nested := rfl
  have hc : (configured w f).crates = w.crates := rfl
  have hr : (configured w f).order = w.order := rfl
  have hu : (configured w f).fuel = w.fuel := rfl
  have hg : (configured w f).generate = w.generate := by
    funext s i v
    unfold World.generate
    rw [hc, hr, hu]
  have hfin : World.finish (configured w f) (bare a) d = World.finish w a d := by
    funext s i v
    unfold World.finish
    rw [hg, ho]
  have hne : World.finishNested (bare a) d = World.finishNested a d := by
    unfold World.finishNested
    rw [ho]
  rw [ho, hn, hfin, hne]

/-! ## The end of a run -/

theorem runOutput_file {o : OutArgs} {content symbols : Bytes} {d : Disk} {p : Str} (ho : o.out = some p)
    (hs : o.symfile ≠ some p) (h0 : (runOutput o false content symbols d).exit = 0) :
    (runOutput o false content symbols d).disk.file p = some content ∧ (runOutput o false content symbols d).stdout = [] := by
  have hw : (writeToFile false content p d).2.file p = some content := by
    unfold writeToFile
    simp only [Bool.false_eq_true, if_false]
    cases h : d.file p with
    | none => simp [Disk.create]
    | some old =>
      by_cases he : old = content
      · simp [he, h]
      · simp [he, Disk.create]
  unfold runOutput at h0 ⊢
  rw [ho] at h0 ⊢
  simp only at h0 ⊢
  split at h0
  · simp at h0
  rename_i hv
  rw [if_neg hv]
  cases hsy : o.symfile with
  | none => exact ⟨hw, rfl⟩
  | some q =>
    refine ⟨?_, rfl⟩
    have : p ≠ q := fun h => hs (by rw [hsy, h])
    simp [Disk.create, this, hw]

/-- **C69.** A run that fails with an error changes no file and prints nothing. -/
theorem C69_error {w : World} {a : Cli} {d : Disk} {r : RunResult} (h : w.run a d = .exit r) (h1 : r.exit = 1) :
    r.disk = d ∧ r.stdout = [] := by
  have hout : ∀ n c s, (runOutput a.out n c s d).exit ≠ 1 := by
    intro n c s
    unfold runOutput
    cases a.out.out with
    | none => simp
    | some p =>
      simp only
      split
      · simp
      · cases a.out.symfile <;> simp
  unfold World.run at h
  split at h
  · cases h; simp at h1
  split at h
  · cases h; simp at h1
  split at h
  · cases h
  · cases h; exact ⟨rfl, rfl⟩
  split at h
  · cases h; exact absurd h1 (hout _ _ _)
  unfold World.finish at h
  split at h
  · cases h
  · cases h; exact ⟨rfl, rfl⟩
  split at h
  · cases h
  · cases h; exact absurd h1 (hout _ _ _)

/-- **C69.** A run is refused before anything is read if its options are not as described, or if it is to verify what is
printed. -/
theorem C69_refused {w : World} {a : Cli} (d : Disk) (h : ¬ Valid a ∨ (a.out.verify = true ∧ a.out.out = none)) :
    w.run a d = .exit ⟨2, d, []⟩ := by
  unfold World.run
  by_cases hv : a.accepted = true
  · rcases h with h | ⟨h1, h2⟩
    · exact absurd (valid_of hv) h
    · simp [hv, h1, h2]
  · simp [hv]

/-- **C69.** A run inside of a run prints nothing, does not refuse what it finds, and touches no file but the symbol file. -/
theorem C69_nested {w : World} {a : Cli} {d : Disk} {r : RunResult} (h : w.run a d = .exit r) (hn : w.nested = true) :
    r.stdout = [] ∧ (∀ p, a.out.symfile ≠ some p → r.disk.file p = d.file p) ∧
      (Valid a → (a.out.verify = true → a.out.out ≠ none) → r.exit ≠ 2) := by
  have hout : ∀ s, (runOutput a.out true [] s d).stdout = [] ∧
      (∀ p, a.out.symfile ≠ some p → (runOutput a.out true [] s d).disk.file p = d.file p) ∧ (runOutput a.out true [] s d).exit ≠ 2 := by
    intro s
    unfold runOutput
    cases a.out.out with
    | none => simp
    | some q =>
      simp only [writeToFile, if_true, Bool.and_false, Bool.false_eq_true, if_false]
      cases a.out.symfile with
      | none => simp
      | some z =>
        refine ⟨rfl, fun p hp => ?_, by simp⟩
        have : p ≠ z := fun h => hp (h ▸ rfl)
        simp [Disk.create, this]
  unfold World.run at h
  split at h
  · rename_i hv
    cases h
    refine ⟨rfl, fun _ _ => rfl, fun hv' => ?_⟩
    rw [accepted_of hv'] at hv
    cases hv
  split at h
  · rename_i hv
    cases h
    refine ⟨rfl, fun _ _ => rfl, fun _ ho => ?_⟩
    simp only [Bool.and_eq_true, Option.isNone_iff_eq_none] at hv
    exact absurd hv.2 (ho hv.1)
  split at h
  · cases h
  · cases h; exact ⟨rfl, fun _ _ => rfl, fun _ _ => by simp⟩
  · cases h
    have := hout (utf8 (Bindings.symfileText ⟨[], [], [], []⟩))
    exact ⟨this.1, this.2.1, fun _ _ => this.2.2⟩

theorem known_types : knownTypes.all (fun n => stdTypes.any fun t => t.1 == n) = true := by decide

/-- **C69.** The sources of a run are those of the command line, and the types of the standard library are known whatever
the sources are. -/
theorem C69_sources {w : World} {a : Cli} {s : Settings} {i : Inputs} {v : Str} (h : w.load a = .ok (s, i, v)) :
    SourcesOf w a (a.input.getD w.cwd) i v ∧
      ∀ l, buildLibrary s.parse s.load w.crates i = .ok l → ∀ n ∈ knownTypes, ∃ x ∈ l.types, x.path = n ∧ x.type = .opaqueItems := by
  have hi : SourcesOf w a (a.input.getD w.cwd) i v ∧ i.stdTypes = true := by
    unfold World.load at h
    by_cases hd : w.isDir (a.input.getD w.cwd) = true
    · rw [if_pos hd] at h
      unfold World.loadCrate at h
      split at h
      · cases h
      next c hc =>
      split at h
      · cases h
      next root hr =>
      split at h
      · next hv =>
        cases h
        exact ⟨.crate hd hc hr hv rfl rfl, rfl⟩
      · cases h
    · rw [if_neg hd] at h
      have hd : w.isDir (a.input.getD w.cwd) = false := by simpa using hd
      unfold World.loadFile at h
      split at h
      · cases h
      split at h
      · next hn =>
        cases h
        exact ⟨.file hd hn rfl rfl, rfl⟩
      · cases h
  refine ⟨hi.1, fun l hl n hn => ?_⟩
  obtain ⟨rs, rfl, hr⟩ := build_runs hl
  have h1 := (std_step i.stdTypes).trans (extendAll_step (std_step i.stdTypes).wf hr.loaded)
  obtain ⟨t, ht, hn⟩ := List.any_eq_true.1 (List.all_eq_true.1 known_types n hn)
  obtain ⟨x, hx, h2, h3⟩ := h1.adds (.opaque (stdOpaque t)) (by
    rw [hi.2]
    exact List.mem_append_left _ (List.mem_map_of_mem ht))
  exact ⟨x, hx, h2.trans (eq_of_beq hn), h3⟩

/-- **C69.** The options of a run are those of the configuration of the given file, or else of the directory of the file or
crate, with those of the command line. -/
theorem C69_config {w : World} {a : Cli} {s : Settings} {i : Inputs} {v : Str} (hv : Valid a) (h : w.load a = .ok (s, i, v)) :
    ∃ s₀ s₁, ConfigOf w a s₀ ∧ Effective a s₀ s₁ ∧ s = { s₁ with parse := { s₁.parse with bindingCrate := s.parse.bindingCrate } } := by
  have happ : ∀ s₀ s₁, a.apply s₀ = some s₁ → Effective a s₀ s₁ := by
    intro s₀ s₁ h
    obtain ⟨r, h1, h2⟩ := C69_options hv s₀
    rw [h] at h1
    cases h1
    exact h2
  unfold World.load at h
  by_cases hd : w.isDir (a.input.getD w.cwd) = true
  · rw [if_pos hd] at h
    unfold World.loadCrate at h
    split at h
    · cases h
    next c hc =>
    split at h
    · cases h
    next root hr =>
    split at h
    · next s₁ v hs hv =>
      cases h
      rw [Option.bind_eq_some_iff] at hs
      obtain ⟨s₀, h0, h1⟩ := hs
      refine ⟨s₀, s₁, ?_, happ _ _ h1, rfl⟩
      unfold World.settings at h0
      split at h0
      · next f hf => exact .inl ⟨f, hf, h0⟩
      · next hf =>
        refine .inr ⟨hf, _, ?_, h0⟩
        unfold World.crateDir
        cases hg : (c.get root).bind fun m => w.parent m.manifestPath with
        | some dir =>
          rw [Option.bind_eq_some_iff] at hg
          obtain ⟨m, h2, h3⟩ := hg
          exact .crate hd hc hr h2 h3
        | none =>
          refine .unknown hd hc hr fun m hm => ?_
          rw [hm] at hg
          exact hg
    · cases h
  · rw [if_neg hd] at h
    have hd : w.isDir (a.input.getD w.cwd) = false := by simpa using hd
    unfold World.loadFile at h
    split at h
    · cases h
    next s₀ h0 =>
    split at h
    · next h1 _ =>
      cases h
      refine ⟨s₀, _, ?_, happ _ _ h1, rfl⟩
      unfold World.fileSettings at h0
      split at h0
      · next f hf => exact .inl ⟨f, hf, h0⟩
      · next hf =>
        rw [Option.bind_eq_some_iff] at h0
        obtain ⟨dir, h2, h3⟩ := h0
        exact .inr ⟨hf, dir, .file hd h2, h3⟩
    · cases h

/-- **C69.** Any other run has the same exit code only if it verifies, and the file is not what is generated. -/
theorem C69_verify {w : World} {a : Cli} {d : Disk} {r : RunResult} (h : w.run a d = .exit r) (hv : Valid a)
    (ho : a.out.verify = true → a.out.out ≠ none) : r.exit = 2 ↔ a.out.verify = true ∧ w.nested = false ∧
      ∃ p s i v e b t, a.out.out = some p ∧ w.load a = .ok (s, i, v) ∧ w.generate s i v = .ok (e, b) ∧ headerText e b = some t ∧
        d.file p ≠ some (utf8 t) := by
  have hr : ∀ n x y, (runOutput a.out n x y d).exit = 2 ↔ a.out.verify = true ∧ n = false ∧ ∃ p, a.out.out = some p ∧ d.file p ≠ some x := by
    intro n x y
    obtain ⟨out, ver, sym⟩ := a.out
    cases out with
    | none => simp [runOutput]
    | some p =>
      cases ver with
      | false => cases sym <;> simp [runOutput]
      | true =>
        cases n with
        | false =>
          rw [C57_verify_verdict]
          simp
        | true => cases sym <;> simp [runOutput, writeToFile]
  unfold World.run at h
  rw [accepted_of hv] at h
  simp only [Bool.not_true, Bool.false_eq_true, if_false] at h
  split at h
  · rename_i h'
    simp only [Bool.and_eq_true, Option.isNone_iff_eq_none] at h'
    exact absurd h'.2 (ho h'.1)
  split at h
  · cases h
  · rename_i hl
    cases h
    constructor
    · intro h; cases h
    · rintro ⟨_, _, _, _, _, _, _, _, _, _, h, _⟩
      rw [hl] at h
      cases h
  rename_i s i v hl
  split at h
  · rename_i hn
    cases h
    rw [hr]
    constructor
    · rintro ⟨_, h, _⟩; cases h
    · rintro ⟨_, h, _⟩
      rw [hn] at h
      cases h
  rename_i hn
  have hn : w.nested = false := by simpa using hn
  unfold World.finish at h
  split at h
  · cases h
  · rename_i hg
    cases h
    constructor
    · intro h; cases h
    · rintro ⟨_, _, _, _, _, _, _, _, _, _, h, h', _⟩
      rw [hl] at h
      cases h
      rw [hg] at h'
      cases h'
  rename_i e b hg
  split at h
  · cases h
  rename_i t ht
  cases h
  rw [hr]
  constructor
  · rintro ⟨h1, -, p, h2, h3⟩
    exact ⟨h1, hn, p, s, i, v, e, b, t, h2, hl, hg, ht, h3⟩
  · rintro ⟨h1, -, p, s', i', v', e', b', t', h2, hl', hg', ht', h3⟩
    rw [hl] at hl'
    cases hl'
    rw [hg] at hg'
    cases hg'
    rw [ht] at ht'
    cases ht'
    exact ⟨h1, rfl, p, h2, h3⟩

/-- What a run that succeeds has done. -/
theorem run_ok {w : World} {a : Cli} {d : Disk} {r : RunResult} (h : w.run a d = .exit r) (h0 : r.exit = 0) (hn : w.nested = false) :
    ∃ s i v e b t, w.load a = .ok (s, i, v) ∧ w.generate s i v = .ok (e, b) ∧ headerText e b = some t ∧
      r = runOutput a.out false (utf8 t) (utf8 b.symfileText) d := by
  unfold World.run at h
  split at h
  · cases h; simp at h0
  split at h
  · cases h; simp at h0
  split at h
  · cases h
  · cases h; simp at h0
  rename_i s i v hl
  rw [hn] at h
  simp only [Bool.false_eq_true, if_false] at h
  unfold World.finish at h
  split at h
  · cases h
  · cases h; simp at h0
  rename_i e b hg
  split at h
  · cases h
  rename_i t ht
  cases h
  exact ⟨s, i, v, e, b, t, hl, hg, ht, rfl⟩

theorem generate_stages {w : World} {s : Settings} {i : Inputs} {v : Str} {e : Env} {b : Bindings} (h : w.generate s i v = .ok (e, b)) :
    e.cfg = s.out ∧ ∃ l l₁, buildLibrary s.parse s.load w.crates i = .ok l ∧ l.generate s.lib w.order w.fuel = .ok b ∧
      (((l.transferAnnotations w.order).simplify s.lib).sortFunctions s.lib).expand s.lib w.fuel = .ok l₁ := by
  unfold World.generate at h
  split at h
  · cases h
  rename_i l hl
  split at h
  · cases h
  rename_i l' hl'
  split at h
  · cases h
  rename_i b' hb
  cases h
  refine ⟨rfl, l, ?_⟩
  have hg : l.generate s.lib w.order w.fuel = .ok b := by
    unfold Library.generate
    rw [hl']
    simp only [hb]
  unfold Library.prepare at hl'
  split at hl'
  · cases hl'
  rename_i l₁ h₁
  exact ⟨l₁, hl, hg, h₁⟩

open CSpec HeadSpec ScopeSpec LexSpec SrcSpec in
/-- **C69.** After a run for C that succeeds, the file declares the functions of the sources with their C types: those of the
file that is given, or of the crate in the directory and of its dependencies. -/
theorem C69_functions_partial {w : World} {a : Cli} {d : Disk} {r : RunResult} (h : w.run a d = .exit r) (h0 : r.exit = 0)
    (hn : w.nested = false) {p : Str} (ho : a.out.out = some p) (hs : a.out.symfile ≠ some p) {R : Dialect} {on : Str → Bool} {D : List Str} {rust : CfgSpec.Opt → Bool}
    (hgood : ∀ s i v e b, w.load a = .ok (s, i, v) → w.generate s i v = .ok (e, b) → HeaderGood R on D e b)
    (hin : ∀ s i v, w.load a = .ok (s, i, v) → InputsPlain i ∧ OnePath s.parse i ∧ s.out.export_.shouldGenerate .functions = true ∧
      (∀ g, s.out.guard = some g → on g = false) ∧ CfgSpec.Matches s.out.defines rust on) :
    ∃ s i v t o l l₁, w.load a = .ok (s, i, v) ∧ buildLibrary s.parse s.load w.crates i = .ok l ∧
      (((l.transferAnnotations w.order).simplify s.lib).sortFunctions s.lib).expand s.lib w.fuel = .ok l₁ ∧ r.disk.file p = some (utf8 t) ∧ readHeader R on t = some o ∧
      ∀ path owner ext sf cs ann rule T, SrcSpec.Given s.parse i (.fn path owner ext sf) cs → (∀ x ∈ cs, CfgSpec.Mapped s.out.defines x) →
        (∀ x ∈ cs, CfgSpec.holds rust x = true) → path ∉ s.out.export_.exclude → Annotations.load sf.attrs = .ok ann →
        ann.shouldExport = true → ann.list c!"ptrs-as-arrays" = none → ann.ruleOr s.out.function.renameArgs = some rule →
        CFn (envOf s.lib s.out (tagFor s.lib l₁) rule owner) sf.sig T →
        ∃ attrs, .object ext attrs path T.forgetFnPtr [] ∈ o.items := by
  obtain ⟨s, i, v, e, b, t, hl, hg, ht, rfl⟩ := run_ok h h0 hn
  obtain ⟨he, l, l₁, hb, hgen, hex⟩ := generate_stages hg
  obtain ⟨i1, i2, i3, i4, i5⟩ := hin s i v hl
  have hgd := hgood s i v e b hl hg
  have hlg : s.lib.language = .c := by
    show s.out.language = .c
    rw [← he]
    exact hgd.options.lang
  refine ⟨s, i, v, t, _, l, l₁, hl, hb, hex, (runOutput_file ho hs h0).1, C61_header_reads_back hgd ht, ?_⟩
  intro path owner ext sf cs ann rule T g1 g2 g3 g4 g5 g6 g7 g8 g9
  obtain ⟨o, attrs, h1, h2⟩ := C63_declared_partial hb i1 i2 hlg hgen hex i3 hgd ht (by rw [he]; exact i4) (by rw [he]; exact i5) g1
    (by rw [he]; exact g2) g3 g4 g5 g6 g7 g8 (by rw [he]; exact g9)
  rw [C61_header_reads_back hgd ht] at h1
  cases h1
  exact ⟨attrs, h2⟩

/-! ## A case -/

namespace MainCases
open SourceCases CSpec HeadSpec ScopeSpec LexSpec SrcSpec

def fns : CaseFns := ⟨id, id, id, id, id, id⟩

/-- A configuration for C++. -/
def settings : Settings := { out := { env.cfg with language := .cxx } }
/-- The same for C. -/
def effective : Settings := { out := env.cfg }

/-- The file `lib.rs` and its configuration. -/
def world : World where
  cwd := []
  isDir _ := false
  parent _ := some []
  stem _ := some c!"lib"
  configFile _ := none
  rootConfig _ := some settings
  source _ := some items
  library _ := .missing
  cargo _ := none
  nested := false
  order := id
  crates := 1
  fuel := 1

/-- `cbindgen -l C -o a.h lib.rs` -/
def cli : Cli := { input := some c!"lib.rs", lang := some c!"C", out := { out := some c!"a.h" } }

theorem loads : world.load cli = .ok (effective, inputs, []) := rfl

theorem prepared : SourceCases.lib.prepare (plainConfig .c fns) id 1 = .ok lib' := rfl

theorem collected : lib'.collect (plainConfig .c fns) = some bindings := by
  rw [DetSpec.collect_of (d := ⟨[.struct SourceCases.a], [c!"A"]⟩) rfl]
  simp only [DetSpec.bindingsOf]
  rw [sortItems_rest (by decide)]
  rfl

theorem makes : world.generate effective inputs [] = .ok (envWith lib'.structs [] [], bindings) := by
  unfold World.generate
  have h1 : buildLibrary effective.parse effective.load world.crates inputs = .ok SourceCases.lib := rfl
  have h2 : effective.lib = plainConfig .c fns := rfl
  have h3 : world.order = id := rfl
  have h4 : world.fuel = 1 := rfl
  rw [h1]
  simp only [h2, h3, h4, prepared, collected]
  rfl

/-- The configuration of the file is that of its directory. -/
example : ∃ s₀ s₁, ConfigOf world cli s₀ ∧ Effective cli s₀ s₁ := by
  obtain ⟨s₀, s₁, h1, h2, _⟩ := C69_config ((C69_valid cli).1 (by decide)) loads
  exact ⟨s₀, s₁, h1, h2⟩

/-- The run knows `Option`, which the file does not define. -/
example : SourcesOf world cli c!"lib.rs" inputs [] ∧ ∃ x ∈ SourceCases.lib.types, x.path = c!"Option" := by
  obtain ⟨h1, h2⟩ := C69_sources loads
  obtain ⟨x, hx, h, _⟩ := h2 _ rfl c!"Option" (by decide)
  exact ⟨h1, x, hx, h⟩

/-- A run inside of a run. -/
example : ∃ r, ({ world with nested := true } : World).run cli ⟨fun _ => none, []⟩ = .exit r ∧ r.stdout = [] ∧ r.disk.file c!"a.h" = none := by
  refine ⟨_, rfl, ?_⟩
  have := C69_nested (w := { world with nested := true }) (a := cli) (d := ⟨fun _ => none, []⟩) rfl rfl
  exact ⟨this.1, this.2.1 c!"a.h" nofun⟩

end MainCases

open MainCases SourceCases CSpec HeadSpec ScopeSpec LexSpec SrcSpec in
/-- A case for C69: after `cbindgen -l C -o a.h lib.rs`, the file `a.h` declares `void f(struct A *x)`, although the
configuration asks for C++. -/
example : ∃ r t o attrs, world.run cli ⟨fun _ => none, []⟩ = .exit r ∧ r.disk.file c!"a.h" = some (utf8 t) ∧
    readHeader R on t = some o ∧ .object false attrs c!"f" cty.forgetFnPtr [] ∈ o.items := by
  obtain ⟨t, ht⟩ := Option.isSome_iff_exists.1 (show (headerText (envWith lib'.structs [] []) bindings).isSome = true by decide +kernel)
  have hrun : world.run cli ⟨fun _ => none, []⟩ =
      .exit (runOutput cli.out false (utf8 t) (utf8 bindings.symfileText) ⟨fun _ => none, []⟩) := by
    unfold World.run
    rw [accepted_of ((C69_valid cli).1 (by decide)), loads]
    show world.finish cli _ effective inputs [] = _
    unfold World.finish
    rw [makes]
    simp only [ht]
  obtain ⟨s, i, v, t', o, l, l₁, hl, hb, hx, hf, hr, hd⟩ := C69_functions_partial (R := R) (on := on) (D := [c!"UNIX"]) (rust := rust) hrun rfl rfl
    (p := c!"a.h") rfl nofun
    (by
      intro s i v e b hl hg
      rw [loads] at hl
      cases hl
      rw [makes] at hg
      cases hg
      exact good_with _ _ _)
    (by
      intro s i v hl
      rw [loads] at hl
      cases hl
      exact ⟨plain, onePath, rfl, nofun, fits⟩)
  rw [loads] at hl
  cases hl
  have h1 : buildLibrary effective.parse effective.load world.crates inputs = .ok SourceCases.lib := rfl
  rw [h1] at hb
  cases hb
  have h2 : effective.lib = plainConfig .c fns := rfl
  have h3 : world.order = id := rfl
  have h4 : world.fuel = 1 := rfl
  rw [h2, h3, h4, expanded] at hx
  cases hx
  rw [h2] at hd
  obtain ⟨attrs, h⟩ := hd c!"f" none false fn [.boolean c!"unix"] {} .none cty given
    (by
      intro x hx
      obtain rfl := List.mem_singleton.1 hx
      exact ⟨(c!"unix", c!"UNIX"), by simp [effective, env], by decide, rfl⟩)
    (by
      intro x hx
      obtain rfl := List.mem_singleton.1 hx
      rfl)
    List.not_mem_nil rfl rfl rfl rfl (typed fns)
  exact ⟨_, t', o, attrs, hrun, hf, hr, h⟩

open MainCases in
/-- Cases for C69: a run that is to verify what is printed is refused, and one that is to verify a file that is missing fails. -/
example (d : Disk) : world.run { cli with out := { verify := true } } d = .exit ⟨2, d, []⟩ :=
  C69_refused d (.inr ⟨rfl, rfl⟩)

open MainCases SourceCases in
example : ∃ r, world.run { cli with out := { out := some c!"a.h", verify := true } } ⟨fun _ => none, []⟩ = .exit r ∧ r.exit = 2 := by
  obtain ⟨t, ht⟩ := Option.isSome_iff_exists.1 (show (headerText (envWith lib'.structs [] []) bindings).isSome = true by decide +kernel)
  have hl : world.load { cli with out := { out := some c!"a.h", verify := true } } = .ok (effective, inputs, []) := rfl
  have hrun : world.run { cli with out := { out := some c!"a.h", verify := true } } ⟨fun _ => none, []⟩ =
      .exit (runOutput { out := some c!"a.h", verify := true } false (utf8 t) (utf8 bindings.symfileText) ⟨fun _ => none, []⟩) := by
    unfold World.run
    rw [accepted_of ((C69_valid { cli with out := { out := some c!"a.h", verify := true } }).1 (by decide)), hl]
    show world.finish _ _ effective inputs [] = _
    unfold World.finish
    rw [makes]
    simp only [ht]
  exact ⟨_, hrun, (C69_verify hrun ((C69_valid _).1 (by decide)) nofun).2 ⟨rfl, rfl, _, _, _, _, _, _, t, rfl, hl, makes, ht, nofun⟩⟩

open MainCases in
/-- A case for C69: the option `-l C` and the configuration with C give the same run. -/
example (d : Disk) : world.run cli d = { world with rootConfig := fun _ => some effective }.run (bare cli) d := by
  refine (C69_as_configured_partial (f := fun s => (cli.apply s).getD s) ((C69_valid _).1 (by decide)) ?_ d).trans rfl
  intro s
  obtain ⟨r, h1, h2⟩ := C69_options ((C69_valid cli).1 (by decide)) s
  show Effective cli s ((cli.apply s).getD s)
  rw [h1]
  exact h2

namespace MainCases

/-- Two packages.  The second is a dependency for Windows. -/
def app : MetaPkg :=
  { ref := ⟨c!"app", some c!"1"⟩, targets := [⟨[c!"lib"], c!"/app/lib.rs"⟩],
    dependencies := [{ name := c!"wl", target := some (.cfg (some (.boolean c!"windows"))) }] }
def wl : MetaPkg := { ref := ⟨c!"wl", some c!"1"⟩, targets := [⟨[c!"lib"], c!"/wl/lib.rs"⟩] }
def crateLock : Lock := { package := some [⟨c!"app", c!"1", none, some [c!"wl"]⟩, ⟨c!"wl", c!"1", none, none⟩] }

/-- If cargo is asked for the packages of the target (not Windows), it leaves out the second. -/
def cargo (only : Bool) : Cargo where
  manifestPath := []
  bindingCrate := c!"app"
  lock := some crateLock
  packages := bif only then [app] else [app, wl]

/-- `#[no_mangle] pub extern "C" fn g() {}` -/
def g : SynFn := ⟨{ ident := c!"g", abi := .named c!"C", inputs := [] }, [{ attr := noMangle }]⟩

/-- The first crate is empty, the second has the function. -/
def crateFile (p : Str) : FSource := bif p == c!"/wl/lib.rs" then .items [.fn g] else .items []

/-- A configuration that asks for the packages of the target. -/
def targetSettings : Settings :=
  { out := { language := .c }, parse := { bindingCrate := [], parseDeps := true, extraBindings := [c!"wl"] },
    onlyTargetDependencies := true }

def crateWorld : World :=
  { world with isDir := fun _ => true, rootConfig := fun _ => some targetSettings, library := crateFile,
               cargo := fun a => some (cargo a.onlyTargetDependencies), crates := 3 }

def crateCli (only : Bool) : Cli := { onlyTargetDependencies := only }

def crateInputs (only : Bool) : Inputs := { stdTypes := true, lib := some ((cargo only).workspace crateFile, ⟨c!"app", some c!"1"⟩) }
def crateSettings : Settings :=
  { targetSettings with parse := { bindingCrate := c!"app", parseDeps := true, extraBindings := [c!"wl"] } }

theorem crate_loads (only : Bool) : crateWorld.load (crateCli only) = .ok (crateSettings, crateInputs only, c!"1") := by
  cases only <;> rfl

/-- The function as it is loaded. -/
def gFn : FuncItem :=
  { ScopeCases.takes SourceCases.i32 with path := c!"g", args := [], cfg := some (.all [.boolean c!"windows"]) }

def crateLib (only : Bool) : Library := { Library.addStdTypes {} with functions := bif only then [] else [gFn] }
def crateLib₁ (only : Bool) : Library := { crateLib only with opaqueItems := (crateLib only).opaqueItems.take 1 }
def crateBindings (only : Bool) : Bindings := ⟨[], [], [], bif only then [] else [gFn]⟩

theorem crate_makes (only : Bool) : crateWorld.generate crateSettings (crateInputs only) c!"1" =
    .ok (envOfRun crateSettings {} c!"1", crateBindings only) := by
  unfold World.generate
  have h1 : buildLibrary crateSettings.parse crateSettings.load crateWorld.crates (crateInputs only) = .ok (crateLib only) := by
    cases only <;> rfl
  have h2 : crateSettings.lib = plainConfig .c fns := rfl
  have h3 : crateWorld.order = id := rfl
  have h4 : crateWorld.fuel = 1 := rfl
  have h5 : (crateLib only).prepare (plainConfig .c fns) id 1 = .ok (crateLib₁ only) := by cases only <;> rfl
  have h6 : (crateLib₁ only).collect (plainConfig .c fns) = some (crateBindings only) := by
    rw [DetSpec.collect_of (d := ⟨[], []⟩) (by cases only <;> rfl)]
    simp only [DetSpec.bindingsOf]
    rw [sortItems_rest (by decide)]
    cases only <;> rfl
  rw [h1]
  simp only [h2, h3, h4, h5, h6]
  rfl

theorem crate_run (only : Bool) : ∃ t, headerText (envOfRun crateSettings {} c!"1") (crateBindings only) = some t ∧
    crateWorld.run (crateCli only) ⟨fun _ => none, []⟩ = .exit ⟨0, ⟨fun _ => none, []⟩, utf8 t⟩ := by
  obtain ⟨t, ht⟩ := Option.isSome_iff_exists.1
    (show (headerText (envOfRun crateSettings {} c!"1") (crateBindings only)).isSome = true by cases only <;> decide +kernel)
  refine ⟨t, ht, ?_⟩
  unfold World.run
  rw [accepted_of ((C69_valid (crateCli only)).1 (by cases only <;> decide)), crate_loads]
  have h1 : crateWorld.nested = false := rfl
  have h2 : (crateCli only).out = {} := rfl
  simp only [h1, h2]
  unfold World.finish
  rw [crate_makes]
  simp only [ht]
  rfl

end MainCases

open MainCases in
/-- **C69**, negation of: the options of the configuration have the effect of the options on the command line.  The program
runs cargo before it reads the configuration, and passes on only what is on the command line.  A configuration with
`only_target_dependencies` has no effect: the header declares a function of a dependency for another target, and the same
run with `--only-target-dependencies` does not. -/
theorem C69_target_refuted : ∃ (w : World) (a : Cli) (d : Disk) (s : Settings), MainSpec.Valid a ∧ (∀ p, w.rootConfig p = some s) ∧
    a.config = none ∧ s.onlyTargetDependencies = true ∧
    (∀ s', MainSpec.Effective a s s' ↔ MainSpec.Effective { a with onlyTargetDependencies := true } s s') ∧
    w.run a d ≠ w.run { a with onlyTargetDependencies := true } d := by
  refine ⟨crateWorld, crateCli false, ⟨fun _ => none, []⟩, targetSettings, (C69_valid _).1 (by decide), fun _ => rfl, rfl, rfl, ?_, ?_⟩
  · have h : ∀ b : Bool, MainSpec.Switched b true = MainSpec.Switched true true := by
      intro b
      funext r
      simp [MainSpec.Switched]
    exact fun s' => ⟨fun e => ⟨e.lang, e.style, e.profile, e.cppCompat, e.packageVersion, h false ▸ e.onlyTarget, e.parseDeps, e.others⟩,
      fun e => ⟨e.lang, e.style, e.profile, e.cppCompat, e.packageVersion, (h false).symm ▸ e.onlyTarget, e.parseDeps, e.others⟩⟩
  · show crateWorld.run (crateCli false) _ ≠ crateWorld.run (crateCli true) _
    obtain ⟨t, h1, h2⟩ := crate_run false
    obtain ⟨t', h3, h4⟩ := crate_run true
    rw [h2, h4]
    intro h
    simp only [Ended.exit.injEq, RunResult.mk.injEq, true_and] at h
    have : (headerText (envOfRun crateSettings {} c!"1") (crateBindings false)).map utf8 =
        (headerText (envOfRun crateSettings {} c!"1") (crateBindings true)).map utf8 := by
      rw [h1, h3]
      exact congrArg some h
    revert this
    decide +kernel

end Cbindgen
