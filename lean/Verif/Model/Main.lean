import Verif.Model.Cargo
import Verif.Model.Emission

/-!
# The program: src/main.rs

Options of the command line, the configuration, and a run from the input to the files.  The parts of a run that read files
and call other programs are a parameter, `World`.
-/

namespace Cbindgen

/-- `Profile`, src/bindgen/config.rs:741-746. -/
inductive Profile
  | debug
  | release
  deriving DecidableEq

/-- `Config`, src/bindgen/config.rs:907-1035, as far as the model looks at it: what the writer reads, and the rest.  The
name in `parse` is that of the crate, and is set for each run. -/
structure Settings where
  out : OutConfig := {}
  parse : ParseConfig := { bindingCrate := [] }
  profile : Profile := .debug
  onlyTargetDependencies : Bool := false
  sortBy : SortKey := .none
  functionSortBy : Option SortKey := none
  constantSortBy : Option SortKey := none
  renameFields : RenameRule := .none
  renameVariants : RenameRule := .none
  prefixWithName : Bool := false
  renameVariantNameFields : RenameRule := .snakeCase
  addSentinel : Bool := false
  /-- the iteration order of the fields of a struct literal -/
  fieldOrder : List LitField → List LitField := id
  /-- `parse.expand` without its profile and crates, and `parse.clean`: arguments for cargo, which is not modelled -/
  allFeatures : Bool := false
  defaultFeatures : Bool := true
  features : Option (List Str) := none
  clean : Bool := false

/-- What loading reads. -/
def Settings.load (s : Settings) : LoadConfig where
  language := s.out.language
  layout := s.out.layout
  renameVariantNameFields := s.renameVariantNameFields
  addSentinel := s.addSentinel
  caseFns := s.out.caseFns
  fieldOrder := s.fieldOrder

/-- What the library stage reads. -/
def Settings.lib (s : Settings) : LibConfig where
  language := s.out.language
  export_ := s.out.export_
  generateTag := s.out.style.generateTag
  sortBy := s.sortBy
  functionSortBy := s.functionSortBy
  constantSortBy := s.constantSortBy
  renameFields := s.renameFields
  renameArgs := s.out.function.renameArgs
  renameVariants := s.renameVariants
  prefixWithName := s.prefixWithName
  caseFns := s.out.caseFns

/-- The match of `Language::from_str`, src/bindgen/config.rs:31-47, as a table. -/
def languageTable : List (Str × Language) :=
  [ (c!"cxx", .cxx), (c!"Cxx", .cxx), (c!"CXX", .cxx), (c!"cpp", .cxx), (c!"Cpp", .cxx), (c!"CPP", .cxx), (c!"c++", .cxx),
    (c!"C++", .cxx), (c!"c", .c), (c!"C", .c), (c!"cython", .cython), (c!"Cython", .cython) ]

/-- The match of `Style::from_str`, src/bindgen/config.rs:248-258, as a table. -/
def styleTable : List (Str × Style) :=
  [ (c!"Both", .both), (c!"both", .both), (c!"Tag", .tag), (c!"tag", .tag), (c!"Type", .type), (c!"type", .type) ]

/-- The match of `Profile::from_str`, src/bindgen/config.rs:751-757, as a table. -/
def profileTable : List (Str × Profile) :=
  [ (c!"debug", .debug), (c!"Debug", .debug), (c!"release", .release), (c!"Release", .release) ]

/-- The command line, src/main.rs:137-336.  Verbosity only changes what is logged. -/
structure Cli where
  input : Option Str := none
  config : Option Str := none
  lang : Option Str := none
  cppCompat : Bool := false
  onlyTargetDependencies : Bool := false
  packageVersion : Bool := false
  style : Option Str := none
  profile : Option Str := none
  parseDependencies : Bool := false
  clean : Bool := false
  crate : Option Str := none
  lockfile : Option Str := none
  metadata : Option Str := none
  out : OutArgs := {}

/-- The values that `value_parser` lets through, src/main.rs:163, 192 and 302. -/
def langValues : List Str := [c!"c++", c!"C++", c!"c", c!"C", c!"cython", c!"Cython"]
def styleValues : List Str := [c!"Both", c!"both", c!"Tag", c!"tag", c!"Type", c!"type"]
def profileValues : List Str := [c!"Debug", c!"debug", c!"Release", c!"release"]

/-- `get_matches` only returns if the values are among the possible ones; else the program ends with exit code 2. -/
def Cli.accepted (a : Cli) : Bool :=
  a.lang.all langValues.contains && a.style.all styleValues.contains && a.profile.all profileValues.contains

/-- An option with a value: the value of the configuration if it is not given; `none` is the panic of `unwrap`. -/
def overrideWith {α : Type} (table : List (Str × α)) (given : Option Str) (old : α) : Option α :=
  match given with
  | none => some old
  | some s => table.lookup s

/-- `apply_config_overrides`, src/main.rs:31-79; `none` is a panic. -/
def Cli.apply (a : Cli) (s : Settings) : Option Settings :=
  match overrideWith languageTable a.lang s.out.language, overrideWith styleTable a.style s.out.style,
      overrideWith profileTable a.profile s.profile with
  | some l, some st, some p => some { s with
      out := { s.out with
        language := l
        cppCompat := a.cppCompat || s.out.cppCompat
        packageVersion := a.packageVersion || s.out.packageVersion
        style := st }
      onlyTargetDependencies := a.onlyTargetDependencies || s.onlyTargetDependencies
      profile := p
      parse := { s.parse with parseDeps := a.parseDependencies || s.parse.parseDeps } }
  | _, _, _ => none

/-- What `Cargo::load` is given, src/main.rs:104-112 and src/bindgen/builder.rs:387-395. -/
structure CargoArgs where
  dir : Str
  lockfile : Option Str
  crate : Option Str
  useLock : Bool
  clean : Bool
  onlyTargetDependencies : Bool
  metadata : Option Str

/-- What a run finds outside: files, directories, and the output of cargo. -/
structure World where
  cwd : Str
  isDir : Str → Bool
  /-- `Path::parent` and `Path::file_stem` -/
  parent : Str → Option Str
  stem : Str → Option Str
  /-- `Config::from_file` and `Config::from_root_or_default`; `none` is an error and a panic -/
  configFile : Str → Option Settings
  rootConfig : Str → Option Settings
  /-- a single source file with its modules, parsed; `none` if it cannot be read -/
  source : Str → Option (List FItem)
  /-- the file of a library with its modules -/
  library : Str → FSource
  /-- `Cargo::load`; `none` is an error -/
  cargo : CargoArgs → Option Cargo
  /-- `_CBINDGEN_IS_RUNNING` is set -/
  nested : Bool
  /-- hash orders -/
  order : List (Str × Annotations) → List (Str × Annotations)
  /-- bounds on the number of crates on a path and of steps of the library stage -/
  crates : Nat
  fuel : Nat

/-- How loading can fail: with an error, or by a panic (also: the bounds of the model are too small). -/
inductive RunFail
  | error
  | panic

/-- The tables that the writer looks at, src/bindgen/bindings.rs:47-75. -/
def envOfRun (s : Settings) (l : Library) (version : Str) : Env where
  cfg := s.out
  structs := l.structs
  enums := l.enums
  typedefs := l.typedefs
  packageVersion := version

/-- The errors of `Builder::generate`. -/
def RunErr.fail : RunErr → RunFail
  | .parse _ => .error
  | _ => .panic

/-- `Builder::generate`, src/bindgen/builder.rs:352-417, unless it runs inside of itself. -/
def World.generate (w : World) (s : Settings) (i : Inputs) (version : Str) : Except RunFail (Env × Bindings) :=
  match buildLibrary s.parse s.load w.crates i with
  | .error e => .error e.fail
  | .ok l =>
    match l.prepare s.lib w.order w.fuel with
    | .error _ => .error .panic
    | .ok l' =>
      match l'.collect s.lib with
      | none => .error .panic
      | some b => .ok (envOfRun s l' version, b)

/-- The configuration of a run, src/main.rs:115-128: the given file, or one in the directory. -/
def World.settings (w : World) (a : Cli) (dir : Str) : Option Settings :=
  match a.config with
  | some f => w.configFile f
  | none => w.rootConfig dir

/-- The directory of the crate, src/main.rs:118-126. -/
def World.crateDir (w : World) (c : Cargo) (root : Pkg) (input : Str) : Str :=
  ((c.get root).bind fun m => w.parent m.manifestPath).getD input

/-- The configuration for a single file, src/main.rs:86-93.  A file without parent directory is a panic only if its
configuration is looked for. -/
def World.fileSettings (w : World) (a : Cli) (input : Str) : Option Settings :=
  match a.config with
  | some f => w.configFile f
  | none => (w.parent input).bind w.rootConfig

/-- The bindings of a single file, src/main.rs:84-101. -/
def World.loadFile (w : World) (a : Cli) (input : Str) : Except RunFail (Settings × Inputs × Str) :=
  match w.fileSettings a input with
  | none => .error .panic
  | some s =>
    match a.apply s, w.stem input with
    | some s, some name => .ok (s, { stdTypes := true, srcs := [(name, w.source input)] }, [])
    | _, _ => .error .panic

/-- The bindings of a crate, src/main.rs:103-135. -/
def World.loadCrate (w : World) (a : Cli) (input : Str) : Except RunFail (Settings × Inputs × Str) :=
  match w.cargo ⟨input, a.lockfile, a.crate, true, a.clean, a.onlyTargetDependencies, a.metadata⟩ with
  | none => .error .error
  | some c =>
    match c.bindingCrateRef with
    | none => .error .panic
    | some root =>
      match (w.settings a (w.crateDir c root input)).bind a.apply, root.version with
      | some s, some v =>
        .ok ({ s with parse := { s.parse with bindingCrate := c.bindingCrate } }, { stdTypes := true, lib := some (c.workspace w.library, root) }, v)
      | _, _ => .error .panic

/-- What a run is about, src/main.rs:82-135. -/
def World.load (w : World) (a : Cli) : Except RunFail (Settings × Inputs × Str) :=
  if w.isDir (a.input.getD w.cwd) then w.loadCrate a (a.input.getD w.cwd) else w.loadFile a (a.input.getD w.cwd)

/-- The text as bytes. -/
def utf8 (t : Str) : Bytes := t.flatMap String.utf8EncodeChar

/-- How the program ends. -/
inductive Ended
  | panic
  | exit (r : RunResult)

/-- The end of a run inside of a run: there is nothing to write, but the symbol file is written. -/
def World.finishNested (a : Cli) (d : Disk) : Ended :=
  .exit (runOutput a.out true [] (utf8 (Bindings.symfileText ⟨[], [], [], []⟩)) d)

/-- The end of a run, src/main.rs:353-376. -/
def World.finish (w : World) (a : Cli) (d : Disk) (s : Settings) (i : Inputs) (version : Str) : Ended :=
  match w.generate s i version with
  | .error .panic => .panic
  | .error .error => .exit ⟨1, d, []⟩
  | .ok (e, b) =>
    match headerText e b with
    | none => .panic
    | some t => .exit (runOutput a.out false (utf8 t) (utf8 b.symfileText) d)

/-- `main`, src/main.rs:137-376, without the dep file. -/
def World.run (w : World) (a : Cli) (d : Disk) : Ended :=
  if !a.accepted then .exit ⟨2, d, []⟩
  else if a.out.verify && a.out.out.isNone then .exit ⟨2, d, []⟩
  else
    match w.load a with
    | .error .panic => .panic
    | .error .error => .exit ⟨1, d, []⟩
    | .ok (s, i, v) => if w.nested then World.finishNested a d else w.finish a d s i v

end Cbindgen
