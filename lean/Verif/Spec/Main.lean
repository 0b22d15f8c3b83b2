import Verif.Model.Main

/-!
# What the options of the program mean (C69)
-/

namespace Cbindgen.MainSpec

/-- The names of languages, of styles and of profiles on the command line. -/
inductive LangName : Str → Language → Prop
  | c {s} : s ∈ [c!"c", c!"C"] → LangName s .c
  | cxx {s} : s ∈ [c!"c++", c!"C++"] → LangName s .cxx
  | cython {s} : s ∈ [c!"cython", c!"Cython"] → LangName s .cython

inductive StyleName : Str → Style → Prop
  | both {s} : s ∈ [c!"both", c!"Both"] → StyleName s .both
  | tag {s} : s ∈ [c!"tag", c!"Tag"] → StyleName s .tag
  | type {s} : s ∈ [c!"type", c!"Type"] → StyleName s .type

inductive ProfileName : Str → Profile → Prop
  | debug {s} : s ∈ [c!"debug", c!"Debug"] → ProfileName s .debug
  | release {s} : s ∈ [c!"release", c!"Release"] → ProfileName s .release

/-- The command line is one that the program describes in its help. -/
structure Valid (a : Cli) : Prop where
  lang : ∀ s, a.lang = some s → ∃ l, LangName s l
  style : ∀ s, a.style = some s → ∃ l, StyleName s l
  profile : ∀ s, a.profile = some s → ∃ l, ProfileName s l

/-- An option is that of the command line if it is there, or else that of the configuration. -/
def Chosen {α : Type} (name : Str → α → Prop) (given : Option Str) (config result : α) : Prop :=
  (∃ s, given = some s ∧ name s result) ∨ (given = none ∧ result = config)

/-- A switch is on if the command line or the configuration turns it on. -/
def Switched (given config result : Bool) : Prop := result = true ↔ given = true ∨ config = true

/-- The options of a run: those that can be given on the command line, and all others as in the configuration. -/
structure Effective (a : Cli) (s r : Settings) : Prop where
  lang : Chosen LangName a.lang s.out.language r.out.language
  style : Chosen StyleName a.style s.out.style r.out.style
  profile : Chosen ProfileName a.profile s.profile r.profile
  cppCompat : Switched a.cppCompat s.out.cppCompat r.out.cppCompat
  packageVersion : Switched a.packageVersion s.out.packageVersion r.out.packageVersion
  onlyTarget : Switched a.onlyTargetDependencies s.onlyTargetDependencies r.onlyTargetDependencies
  parseDeps : Switched a.parseDependencies s.parse.parseDeps r.parse.parseDeps
  others : r = { s with
    out := { s.out with
      language := r.out.language, style := r.out.style, cppCompat := r.out.cppCompat, packageVersion := r.out.packageVersion }
    profile := r.profile
    onlyTargetDependencies := r.onlyTargetDependencies
    parse := { s.parse with parseDeps := r.parse.parseDeps } }

/-- The world in which all configurations are changed by `f`. -/
def configured (w : World) (f : Settings → Settings) : World :=
  { w with configFile := fun p => (w.configFile p).map f, rootConfig := fun p => (w.rootConfig p).map f }

/-- The same command without the options that a configuration can have, except for `--only-target-dependencies`. -/
def bare (a : Cli) : Cli :=
  { a with lang := none, style := none, profile := none, cppCompat := false, packageVersion := false, parseDependencies := false }

/-- The directory in which the configuration is looked for: that of a single file, and that of the crate for which bindings
are made. -/
inductive ConfigDir (w : World) (a : Cli) (input : Str) : Str → Prop
  | file {dir} : w.isDir input = false → w.parent input = some dir → ConfigDir w a input dir
  | crate {c root m dir} : w.isDir input = true →
      w.cargo ⟨input, a.lockfile, a.crate, true, a.clean, a.onlyTargetDependencies, a.metadata⟩ = some c → c.bindingCrateRef = some root →
      c.get root = some m → w.parent m.manifestPath = some dir → ConfigDir w a input dir
  | unknown {c root} : w.isDir input = true →
      w.cargo ⟨input, a.lockfile, a.crate, true, a.clean, a.onlyTargetDependencies, a.metadata⟩ = some c → c.bindingCrateRef = some root →
      (∀ m, c.get root = some m → w.parent m.manifestPath = none) → ConfigDir w a input input

/-- The configuration of a run: the file of the command line if there is one, and otherwise that of the directory. -/
def ConfigOf (w : World) (a : Cli) (s : Settings) : Prop :=
  (∃ f, a.config = some f ∧ w.configFile f = some s) ∨
    (a.config = none ∧ ∃ dir, ConfigDir w a (a.input.getD w.cwd) dir ∧ w.rootConfig dir = some s)

/-- The types of the standard library that every run knows, as opaque types. -/
def knownTypes : List Str :=
  [ c!"String", c!"Box", c!"RefCell", c!"Rc", c!"Arc", c!"Result", c!"Option", c!"NonNull", c!"Vec", c!"HashMap", c!"BTreeMap",
    c!"HashSet", c!"BTreeSet", c!"LinkedList", c!"VecDeque", c!"ManuallyDrop", c!"MaybeUninit" ]

/-- The sources of a run: a single file, in the name of the file without its ending, or the crate that cargo names, with its
version. -/
inductive SourcesOf (w : World) (a : Cli) (input : Str) : Inputs → Str → Prop
  | file {i name} : w.isDir input = false → w.stem input = some name → i.srcs = [(name, w.source input)] → i.lib = none →
      SourcesOf w a input i []
  | crate {i c root v} : w.isDir input = true →
      w.cargo ⟨input, a.lockfile, a.crate, true, a.clean, a.onlyTargetDependencies, a.metadata⟩ = some c → c.bindingCrateRef = some root →
      root.version = some v → i.srcs = [] → i.lib = some (c.workspace w.library, root) → SourcesOf w a input i v

end Cbindgen.MainSpec
