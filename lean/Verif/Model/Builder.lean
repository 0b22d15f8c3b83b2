import Verif.Model.ConfigFile

/-!
# The builder: src/bindgen/builder.rs and src/lib.rs

The methods of `Builder` are values of `ConfigCall` (those that change an option) and `Call`.
-/

namespace Cbindgen

/-- The methods of `Builder` that change one option of its configuration, src/bindgen/builder.rs:39-286 and 346-350. -/
inductive ConfigCall
  | withHeader (s : Str)
  | withNoIncludes
  | withInclude (s : Str)
  | withSysInclude (s : Str)
  | withAfterInclude (s : Str)
  | withTrailer (s : Str)
  | withIncludeGuard (s : Str)
  | withPragmaOnce (b : Bool)
  | withAutogenWarning (s : Str)
  | withIncludeVersion (b : Bool)
  | withNamespace (s : Str)
  | withNamespaces (ss : List Str)
  | withUsingNamespaces (ss : List Str)
  | withBraces (b : Braces)
  | withLineLength (n : Nat)
  | withTabWidth (n : Nat)
  | withLanguage (l : Language)
  | withCppCompat (b : Bool)
  | withStyle (st : Style)
  | includeItem (s : Str)
  | excludeItem (s : Str)
  | renameItem (old new : Str)
  | withItemPrefix (s : Str)
  | withParseDeps (b : Bool)
  | withParseInclude (ss : List Str)
  | withParseExclude (ss : List Str)
  | withParseExpand (ss : List Str)
  | withParseExpandAllFeatures (b : Bool)
  | withParseExpandDefaultFeatures (b : Bool)
  | withParseExpandFeatures (ss : List Str)
  | withParseExpandProfile (p : Profile)
  | withParseExtraBindings (ss : List Str)
  | withOnlyTargetDependencies (b : Bool)
  | withDocumentation (b : Bool)
  | withTargetOsDefine (platform define : Str)
  | withDefine (key value define : Str)
  | withLineEndings (l : LineEnding)

/-- `HashMap::insert`. -/
def setEntry {α : Type} (k : Str) (v : α) : List (Str × α) → List (Str × α)
  | [] => [(k, v)]
  | e :: es => if e.1 = k then (k, v) :: es else e :: setEntry k v es

/-- The bodies of the methods, src/bindgen/builder.rs:39-286 and 346-350. -/
def ConfigCall.apply (s : Settings) : ConfigCall → Settings
  | .withHeader x => { s with out := { s.out with header := some x } }
  | .withNoIncludes => { s with out := { s.out with noIncludes := true } }
  | .withInclude x => { s with out := { s.out with includes := s.out.includes ++ [x] } }
  | .withSysInclude x => { s with out := { s.out with sysIncludes := s.out.sysIncludes ++ [x] } }
  | .withAfterInclude x => { s with out := { s.out with afterIncludes := some x } }
  | .withTrailer x => { s with out := { s.out with trailer := some x } }
  | .withIncludeGuard x => { s with out := { s.out with includeGuard := some x } }
  | .withPragmaOnce b => { s with out := { s.out with pragmaOnce := b } }
  | .withAutogenWarning x => { s with out := { s.out with autogenWarning := some x } }
  | .withIncludeVersion b => { s with out := { s.out with includeVersion := b } }
  | .withNamespace x => { s with out := { s.out with namespace_ := some x } }
  | .withNamespaces xs => { s with out := { s.out with namespaces := some xs } }
  | .withUsingNamespaces xs => { s with out := { s.out with usingNamespaces := some xs } }
  | .withBraces b => { s with out := { s.out with braces := b } }
  | .withLineLength n => { s with out := { s.out with lineLength := n } }
  | .withTabWidth n => { s with out := { s.out with tabWidth := n } }
  | .withLanguage l => { s with out := { s.out with language := l } }
  | .withCppCompat b => { s with out := { s.out with cppCompat := b } }
  | .withStyle st => { s with out := { s.out with style := st } }
  | .includeItem x => { s with out := { s.out with export_ := { s.out.export_ with inc := s.out.export_.inc ++ [x] } } }
  | .excludeItem x => { s with out := { s.out with export_ := { s.out.export_ with exclude := s.out.export_.exclude ++ [x] } } }
  | .renameItem old new =>
    { s with out := { s.out with export_ := { s.out.export_ with rename := setEntry old new s.out.export_.rename } } }
  | .withItemPrefix x => { s with out := { s.out with export_ := { s.out.export_ with pre := some x } } }
  | .withParseDeps b => { s with parse := { s.parse with parseDeps := b } }
  | .withParseInclude xs => { s with parse := { s.parse with incl := some xs } }
  | .withParseExclude xs => { s with parse := { s.parse with exclude := xs } }
  | .withParseExpand xs => { s with parse := { s.parse with expandCrates := xs } }
  | .withParseExpandAllFeatures b => { s with allFeatures := b }
  | .withParseExpandDefaultFeatures b => { s with defaultFeatures := b }
  | .withParseExpandFeatures xs => { s with features := some xs }
  | .withParseExpandProfile p => { s with profile := p }
  | .withParseExtraBindings xs => { s with parse := { s.parse with extraBindings := xs } }
  | .withOnlyTargetDependencies b => { s with onlyTargetDependencies := b }
  | .withDocumentation b => { s with out := { s.out with documentation := b } }
  | .withTargetOsDefine p d => { s with out := { s.out with defines := setEntry (c!"target_os = " ++ p) d s.out.defines } }
  | .withDefine k v d => { s with out := { s.out with defines := setEntry (k ++ c!" = " ++ v) d s.out.defines } }
  | .withLineEndings l => { s with out := { s.out with lineEnding := l } }

/-- `Builder`, src/bindgen/builder.rs:16-23. -/
structure Builder where
  config : Settings
  srcs : List Str := []
  lib : Option (Str × Option Str) := none
  libCargo : Option Cargo := none
  stdTypes : Bool := true
  lockfile : Option Str := none

/-- The methods of `Builder`, src/bindgen/builder.rs:39-350. -/
inductive Call
  | option (c : ConfigCall)
  | withConfig (s : Settings)
  | withStdTypes (b : Bool)
  | withSrc (p : Str)
  | withCrate (dir : Str)
  | withCrateAndName (dir name : Str)
  /-- only inside of the crate -/
  | withCargo (c : Cargo)
  | withLockfile (p : Str)

/-- `Builder::new`, src/bindgen/builder.rs:27-36. -/
def Builder.new (x : Outside) : Builder := { config := defaultConfig x }

/-- A call, src/bindgen/builder.rs:39-350; `none` is the panic of a `debug_assert`, which only builds for debugging have. -/
def Builder.call (debug : Bool) (b : Builder) : Call → Option Builder
  | .option c => some { b with config := c.apply b.config }
  | .withConfig s => some { b with config := s }
  | .withStdTypes t => some { b with stdTypes := t }
  | .withSrc p => some { b with srcs := b.srcs ++ [p] }
  | .withCrate dir => if debug && (b.lib.isSome || b.libCargo.isSome) then none else some { b with lib := some (dir, none) }
  | .withCrateAndName dir name =>
    if debug && (b.lib.isSome || b.libCargo.isSome) then none else some { b with lib := some (dir, some name) }
  | .withCargo c => if debug && (b.lib.isSome || b.libCargo.isSome) then none else some { b with libCargo := some c }
  | .withLockfile p => if debug && (b.lockfile.isSome || b.libCargo.isSome) then none else some { b with lockfile := some p }

/-- Calls one after the other. -/
def Builder.calls (debug : Bool) (b : Builder) : List Call → Option Builder
  | [] => some b
  | c :: cs => (b.call debug c).bind fun b' => b'.calls debug cs

/-- The name for a single file, src/bindgen/parser.rs:31-43; `none` is a panic. -/
def World.named (w : World) (p : Str) : Option (Str × Option (List FItem)) := (w.stem p).map fun n => (n, w.source p)

/-- The crate of a builder, src/bindgen/builder.rs:384-400. -/
def Builder.cargo (w : World) (b : Builder) : Except RunFail (Option Cargo) :=
  match b.lib with
  | some (dir, name) =>
    match w.cargo ⟨dir, b.lockfile, name, b.config.parse.parseDeps, b.config.clean, b.config.onlyTargetDependencies, none⟩ with
    | none => .error .error
    | some c => .ok (some c)
  | none => .ok b.libCargo

/-- What a builder parses, src/bindgen/builder.rs:373-400.  If several of the sources have errors, the code ends with the first
of them, and the model with that of a name or of cargo. -/
def Builder.load (w : World) (b : Builder) : Except RunFail (Settings × Inputs × Str) :=
  match b.srcs.mapM w.named with
  | none => .error .panic
  | some srcs =>
    match b.cargo w with
    | .error e => .error e
    | .ok none => .ok (b.config, { stdTypes := b.stdTypes, srcs := srcs }, [])
    | .ok (some c) =>
      match c.bindingCrateRef with
      | none => .error .panic
      | some root =>
        match root.version with
        | none => .error .panic
        | some v => .ok ({ b.config with parse := { b.config.parse with bindingCrate := c.bindingCrate } },
            { stdTypes := b.stdTypes, srcs := srcs, lib := some (c.workspace w.library, root) }, v)

/-- What `Builder::generate`, src/bindgen/builder.rs:352-417, gives: bindings, or (inside of a run) bindings that write nothing. -/
inductive Generated
  | noop
  | bindings (e : Env) (b : Bindings)

/-- `Builder::generate`, src/bindgen/builder.rs:352-417. -/
def Builder.generate (w : World) (b : Builder) : Except RunFail Generated :=
  if w.nested then .ok .noop
  else
    match b.load w with
    | .error e => .error e
    | .ok (s, i, v) =>
      match w.generate s i v with
      | .error e => .error e
      | .ok (e, bs) => .ok (.bindings e bs)

/-- `Bindings::write`, src/bindgen/bindings.rs:271-295: the bytes; `none` is a panic. -/
def Generated.write : Generated → Option Bytes
  | .noop => some []
  | .bindings e b => (headerText e b).map utf8

/-- `generate_with_config`, src/lib.rs:34-46. -/
def World.generateWithConfig (w : World) (dir : Str) (s : Settings) : Except RunFail Generated :=
  ({ config := s, lib := some (dir, none) } : Builder).generate w

/-- `generate`, src/lib.rs:26-32. -/
def World.generateFor (w : World) (dir : Str) : Except RunFail Generated :=
  match w.rootConfig dir with
  | none => .error .panic
  | some s => w.generateWithConfig dir s

end Cbindgen
