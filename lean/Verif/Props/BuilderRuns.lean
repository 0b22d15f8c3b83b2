import Verif.Props.Builder
import Verif.Props.Runs
import Verif.Lemmas.Text

/-!
# C83: what a builder reads and writes
-/

namespace Cbindgen
open CSpec HeadSpec LexSpec MainSpec FileSpec
open SrcSpec hiding Reaches Given Plain Declares

/-! ## Macros for `cfg`s -/

theorem mem_setEntry {α : Type} {k : Str} {v : α} : ∀ {es : List (Str × α)}, (k, v) ∈ setEntry k v es
  | [] => List.mem_singleton_self _
  | e :: es => by
    unfold setEntry
    split
    · exact List.mem_cons_self
    · exact List.mem_cons_of_mem _ mem_setEntry

theorem key_means {k v : Str} (hk : '=' ∉ k) (hv : '=' ∉ v) (hk' : trim k = k) (hv' : trim v = v) :
    CfgSpec.KeyMeans (k ++ c!" = " ++ v) (.kv k v) := by
  have hb : ∀ c ∈ c!" ", isWs c = true := by decide
  refine ⟨k ++ c!" ", c!" " ++ v, by simp, ?_, ?_, ?_, ?_⟩
  · simp [hk]
  · simp [hv]
  · have := trim_append_of_ws (u := []) (s := k) (v := c!" ") (by simp) hb
    rw [List.nil_append] at this
    rw [this, hk']
  · have := trim_append_of_ws (u := c!" ") (s := v) (v := []) hb (by simp)
    rw [List.append_nil] at this
    rw [this, hv']

/-- C83: after `with_define`, `key = "value"` has the macro. -/
theorem C83_define (s : Settings) {k v : Str} (d : Str) (hk : '=' ∉ k) (hv : '=' ∉ v) (hk' : trim k = k) (hv' : trim v = v) :
    ∃ e ∈ (ConfigCall.apply s (.withDefine k v d)).out.defines, CfgSpec.KeyMeans e.1 (.kv k v) ∧ e.2 = d :=
  ⟨(k ++ c!" = " ++ v, d), mem_setEntry, key_means hk hv hk' hv', rfl⟩

/-- C83: after `with_target_os_define`, `target_os = "os"` has the macro. -/
theorem C83_target_os (s : Settings) {os : Str} (d : Str) (hv : '=' ∉ os) (hv' : trim os = os) :
    ∃ e ∈ (ConfigCall.apply s (.withTargetOsDefine os d)).out.defines, CfgSpec.KeyMeans e.1 (.kv c!"target_os" os) ∧ e.2 = d :=
  ⟨(c!"target_os = " ++ os, d), mem_setEntry, key_means (k := c!"target_os") (by decide) hv (by decide) hv', rfl⟩

/-! ## Sources -/

theorem last_cons {α : Type} (a : α) (xs : List α) (o : Option α) : (last (a :: xs)).or o = (last xs).or (some a) := by
  unfold last
  rw [List.getLast?_cons]
  cases xs.getLast? <;> rfl

theorem calls_fields {debug : Bool} : ∀ (cs : List Call) {b b' : Builder}, b.calls debug cs = some b' →
    b'.srcs = b.srcs ++ cs.filterMap sourceOf ∧ b'.stdTypes = (last (cs.filterMap stdOf)).getD b.stdTypes ∧
      b'.lib = (last (cs.filterMap crateOf)).or b.lib ∧ b'.lockfile = (last (cs.filterMap lockOf)).or b.lockfile ∧
      (cs.any isCargo = false → b'.libCargo = b.libCargo)
  | [], b, b', h => by
    cases h
    simp [last]
  | c :: cs, b, b', h => by
    obtain ⟨b₁, h1, h2⟩ := Option.bind_eq_some_iff.1 h
    obtain ⟨g1, g2, g3, g4, g5⟩ := calls_fields cs h2
    have hl : ∀ {α : Type} (a d : α) (xs : List α), (last (a :: xs)).getD d = (last xs).getD a := by
      intro α a d xs
      unfold last
      rw [List.getLast?_cons]
      cases xs.getLast? <;> rfl
    cases c <;> simp only [Builder.call] at h1
    case option c => cases h1; exact ⟨g1, g2, g3, g4, g5⟩
    case withConfig c => cases h1; exact ⟨g1, g2, g3, g4, g5⟩
    case withStdTypes t =>
      cases h1
      exact ⟨g1, by rw [g2]; simp only [List.filterMap_cons, stdOf, hl], g3, g4, g5⟩
    case withSrc p =>
      cases h1
      exact ⟨by rw [g1]; simp [sourceOf], g2, g3, g4, g5⟩
    case withCrate dir =>
      split at h1
      · cases h1
      · cases h1
        exact ⟨g1, g2, by rw [g3]; simp only [List.filterMap_cons, crateOf, last_cons], g4, g5⟩
    case withCrateAndName dir name =>
      split at h1
      · cases h1
      · cases h1
        exact ⟨g1, g2, by rw [g3]; simp only [List.filterMap_cons, crateOf, last_cons], g4, g5⟩
    case withCargo c =>
      split at h1
      · cases h1
      · cases h1
        exact ⟨g1, g2, g3, g4, fun h => by simp [isCargo] at h⟩
    case withLockfile p =>
      split at h1
      · cases h1
      · cases h1
        exact ⟨g1, g2, g3, by rw [g4]; simp only [List.filterMap_cons, lockOf, last_cons], g5⟩

theorem named_files {w : World} : ∀ {ps : List Str} {srcs : List (Str × Option (List FItem))}, ps.mapM w.named = some srcs →
    ps.map (fun p => (w.stem p, w.source p)) = srcs.map fun e => (some e.1, e.2)
  | [], srcs, h => by
    cases h
    rfl
  | p :: ps, srcs, h => by
    simp only [List.mapM_cons, bind, Option.bind_eq_some_iff, pure, Option.some.injEq] at h
    obtain ⟨e, h1, es, h2, rfl⟩ := h
    obtain ⟨n, h3, rfl⟩ := Option.map_eq_some_iff.1 h1
    simp only [List.map_cons, h3, named_files h2]

/-- C83: a builder reads the files and the crate of its calls. -/
theorem C83_sources {w : World} {x : Outside} {debug : Bool} {cs : List Call} {b : Builder} {s : Settings} {i : Inputs} {v : Str}
    (hb : (Builder.new x).calls debug cs = some b) (hc : cs.any isCargo = false) (h : b.load w = .ok (s, i, v)) :
    SourcesOfCalls w cs s i v ∧ s = { b.config with parse := { b.config.parse with bindingCrate := s.parse.bindingCrate } } := by
  obtain ⟨h1, h2, h3, h4, h5⟩ := calls_fields cs hb
  have h1 : b.srcs = cs.filterMap sourceOf := h1
  have h3 : b.lib = last (cs.filterMap crateOf) := by rw [h3]; exact Option.or_none
  have h4 : b.lockfile = last (cs.filterMap lockOf) := by rw [h4]; exact Option.or_none
  have h5 : b.libCargo = none := h5 hc
  unfold Builder.load at h
  split at h
  · cases h
  next srcs hs =>
    have hf := named_files hs
    rw [h1] at hf
    unfold Builder.cargo at h
    cases hl : b.lib with
    | none =>
      rw [hl, h5] at h
      cases h
      exact ⟨⟨hf, h2, fun _ => ⟨rfl, rfl⟩, fun dir name hd => by rw [← h3, hl] at hd; cases hd⟩, rfl⟩
    | some e =>
      obtain ⟨dir, name⟩ := e
      rw [hl] at h
      simp only at h
      cases hcg : w.cargo ⟨dir, b.lockfile, name, b.config.parse.parseDeps, b.config.clean, b.config.onlyTargetDependencies, none⟩ with
      | none => rw [hcg] at h; cases h
      | some c =>
        rw [hcg] at h
        simp only at h
        split at h
        · cases h
        next root hr =>
          split at h
          · cases h
          next v' hv =>
            cases h
            refine ⟨⟨hf, h2, fun he => ?_, fun dir' name' hd => ?_⟩, rfl⟩
            · rw [h3, he] at hl
              cases hl
            · rw [← h3, hl] at hd
              cases hd
              exact ⟨c, root, by rw [← h4]; exact hcg, hr, hv, rfl⟩

/-! ## The program -/

theorem load_program {w : World} {a : Cli} {s : Settings} {i : Inputs} {v : Str} (hv : Valid a) (h : w.load a = .ok (s, i, v))
    (x : Outside) (debug : Bool) : ∃ s₀ s₁ cs b, ConfigOf w a s₀ ∧ Effective a s₀ s₁ ∧ ProgramCalls w a s₁ cs ∧
      (Builder.new x).calls debug cs = some b ∧ b.load w = .ok (s, i, v) := by
  have happ : ∀ s₀ s₁, a.apply s₀ = some s₁ → Effective a s₀ s₁ := by
    intro s₀ s₁ h
    obtain ⟨r, h1, h2⟩ := C69_options hv s₀
    rw [h] at h1
    cases h1
    exact h2
  unfold World.load at h
  by_cases hd : w.isDir (a.input.getD w.cwd) = true
  · rw [if_pos hd] at h
    unfold World.loadCrate at h
    split at h
    · cases h
    next c hc =>
    split at h
    · cases h
    next root hr =>
    split at h
    · next s₁ v hs hv =>
      cases h
      rw [Option.bind_eq_some_iff] at hs
      obtain ⟨s₀, h0, h1⟩ := hs
      refine ⟨s₀, s₁, _, { Builder.new x with config := s₁, libCargo := some c }, ?_, happ _ _ h1, .crate hd hc, by cases debug <;> rfl, by
        simp only [Builder.load, Builder.cargo, Builder.new, List.mapM_nil, pure, hr, hv]⟩
      unfold World.settings at h0
      split at h0
      · next f hf => exact .inl ⟨f, hf, h0⟩
      · next hf =>
        refine .inr ⟨hf, _, ?_, h0⟩
        unfold World.crateDir
        cases hg : (c.get root).bind fun m => w.parent m.manifestPath with
        | some dir =>
          rw [Option.bind_eq_some_iff] at hg
          obtain ⟨m, h2, h3⟩ := hg
          exact .crate hd hc hr h2 h3
        | none =>
          refine .unknown hd hc hr fun m hm => ?_
          rw [hm] at hg
          exact hg
    · cases h
  · rw [if_neg hd] at h
    have hd : w.isDir (a.input.getD w.cwd) = false := by simpa using hd
    unfold World.loadFile at h
    split at h
    · cases h
    next s₀ h0 =>
    split at h
    · next h1 hst =>
      cases h
      refine ⟨s₀, _, _, _, ?_, happ _ _ h1, .file hd, rfl, by
        simp only [Builder.load, Builder.cargo, Builder.new, World.named, List.nil_append, List.mapM_cons, List.mapM_nil, bind, pure, hst,
          Option.map_some, Option.bind_some]⟩
      unfold World.fileSettings at h0
      split at h0
      · next f hf => exact .inl ⟨f, hf, h0⟩
      · next hf =>
        rw [Option.bind_eq_some_iff] at h0
        obtain ⟨dir, h2, h3⟩ := h0
        exact .inr ⟨hf, dir, .file hd h2, h3⟩
    · cases h

theorem write_of {e : Env} {bs : Bindings} {t : Str} (h : headerText e bs = some t) : (Generated.bindings e bs).write = some (utf8 t) := by
  show (headerText e bs).map utf8 = some (utf8 t)
  rw [h]
  rfl

theorem generate_of {w : World} {b : Builder} {s : Settings} {i : Inputs} {v : Str} {e : Env} {bs : Bindings} (hn : w.nested = false)
    (hl : b.load w = .ok (s, i, v)) (hg : w.generate s i v = .ok (e, bs)) : b.generate w = .ok (.bindings e bs) := by
  unfold Builder.generate
  rw [if_neg (by rw [hn]; decide), hl]
  simp only [hg]

/-- C83: the program writes what a builder with its configuration and its file or crate writes. -/
theorem C83_program {w : World} {a : Cli} {d : Disk} {r : RunResult} (hv : Valid a) (h : WritesTo w a d r) (x : Outside) (debug : Bool) :
    ∃ s₀ s₁ cs b g t, ConfigOf w a s₀ ∧ Effective a s₀ s₁ ∧ ProgramCalls w a s₁ cs ∧ (Builder.new x).calls debug cs = some b ∧
      b.generate w = .ok g ∧ g.write = some t ∧ a.header r = some t := by
  obtain ⟨s, i, v, e, bs, t, hl, hg, ht, rfl⟩ := run_ok h.run h.ok h.outer
  obtain ⟨s₀, s₁, cs, b, h1, h2, h3, h4, h5⟩ := load_program hv hl x debug
  exact ⟨s₀, s₁, cs, b, .bindings e bs, utf8 t, h1, h2, h3, h4, generate_of h.outer h5 hg, write_of ht, left_header h.other h.ok⟩

/-- Inside of a run of the program (for macro expansion), a builder gives nothing, whatever it is told. -/
theorem C83_nested {w : World} {b : Builder} (h : w.nested = true) : ∃ g, b.generate w = .ok g ∧ g.write = some [] :=
  ⟨.noop, by unfold Builder.generate; rw [if_pos h], rfl⟩

/-! ## What is written -/

theorem generated {w : World} {b : Builder} {g : Generated} {t : Bytes} (hn : w.nested = false) (h : b.generate w = .ok g)
    (hw : g.write = some t) : ∃ s i v e bs tx, b.load w = .ok (s, i, v) ∧ w.generate s i v = .ok (e, bs) ∧ headerText e bs = some tx ∧
      t = utf8 tx := by
  unfold Builder.generate at h
  rw [if_neg (by rw [hn]; decide)] at h
  split at h
  · cases h
  next s i v hl =>
  split at h
  · cases h
  next e bs hg =>
  cases h
  obtain ⟨tx, h1, h2⟩ := Option.map_eq_some_iff.1 hw
  exact ⟨s, i, v, e, bs, tx, hl, hg, h1, h2.symm⟩

section
variable {w : World} {b : Builder} {g : Generated} {t : Bytes} {R : Dialect} {on : Str → Bool} {D : List Str} {rust : CfgSpec.Opt → Bool}

/-- **C83.** The bytes that a builder gives are a C++ header with the declarations of the sources. -/
theorem C83_cxx_partial (hn : w.nested = false) (hg : b.generate w = .ok g) (ht : g.write = some t) (hw : w.order [] = [])
    (hgood : ∀ s i v e bs, b.load w = .ok (s, i, v) → w.generate s i v = .ok (e, bs) → CxxHeaderGood R on D e bs)
    (hin : ∀ s i v, b.load w = .ok (s, i, v) → SourcesFine s i on rust) :
    ∃ s i v tx o, b.load w = .ok (s, i, v) ∧ t = utf8 tx ∧ readHeader R on tx = some o ∧ CxxWritten s i R on rust o := by
  obtain ⟨s, i, v, e, bs, tx, hl, hgen, htx, rfl⟩ := generated hn hg ht
  obtain ⟨o, h1, h2⟩ := cxx_written hgen htx hw (hgood s i v e bs hl hgen) (hin s i v hl)
  exact ⟨s, i, v, tx, o, hl, rfl, h1, h2⟩

/-- **C83.** The same for C. -/
theorem C83_c_partial (hn : w.nested = false) (hg : b.generate w = .ok g) (ht : g.write = some t) (hw : w.order [] = [])
    (hgood : ∀ s i v e bs, b.load w = .ok (s, i, v) → w.generate s i v = .ok (e, bs) → HeaderGood R on D e bs)
    (hin : ∀ s i v, b.load w = .ok (s, i, v) → SourcesFine s i on rust) :
    ∃ s i v tx o l l₁, b.load w = .ok (s, i, v) ∧ t = utf8 tx ∧ readHeader R on tx = some o ∧
      buildLibrary s.parse s.load w.crates i = .ok l ∧
      (((l.transferAnnotations w.order).simplify s.lib).sortFunctions s.lib).expand s.lib w.fuel = .ok l₁ ∧
      CWritten s i (tagFor s.lib l₁) R on rust o := by
  obtain ⟨s, i, v, e, bs, tx, hl, hgen, htx, rfl⟩ := generated hn hg ht
  obtain ⟨o, l, l₁, h1, h2⟩ := c_written hgen htx hw (hgood s i v e bs hl hgen) (hin s i v hl)
  exact ⟨s, i, v, tx, o, l, l₁, hl, rfl, h1, h2⟩

end

end Cbindgen
