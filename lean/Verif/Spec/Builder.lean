import Verif.Spec.ConfigFile
import Verif.Model.Builder

/-!
# What the calls of a builder mean (C83)

Each call that sets an option has the effect of a change in a configuration file.
-/

namespace Cbindgen.FileSpec

/-- The table with the key set. -/
def putKey (k : Str) (v : Toml) : List (Str × Toml) → List (Str × Toml)
  | [] => [(k, v)]
  | e :: es => if e.1 = k then (k, v) :: es else e :: putKey k v es

/-- The file with a change at a path of keys; tables that are missing are made. -/
def changeAt (f : Option Toml → Toml) : List Str → Option Toml → Toml
  | [], o => f o
  | k :: p, some (.table es) => .table (putKey k (changeAt f p (es.lookup k)) es)
  | k :: p, _ => .table [(k, changeAt f p none)]

/-- `key = value` -/
def set (v : Toml) : Option Toml → Toml := fun _ => v
/-- One more element of an array. -/
def add (v : Toml) : Option Toml → Toml
  | some (.arr xs) => .arr (xs ++ [v])
  | _ => .arr [v]
/-- A key in a table. -/
def entry (k : Str) (v : Toml) : Option Toml → Toml
  | some (.table es) => .table (putKey k v es)
  | _ => .table [(k, v)]
/-- A key in `expand`; an array in its place stands for a table. -/
def expandEntry (k : Str) (v : Toml) : Option Toml → Toml
  | some (.arr xs) => .table (putKey k v [(c!"crates", .arr xs), (c!"all_features", .bool true)])
  | o => entry k v o

def texts (ss : List Str) : Toml := .arr (ss.map .str)

def languageWord : Language → Str
  | .c => c!"C"
  | .cxx => c!"C++"
  | .cython => c!"Cython"
def styleWord : Style → Str
  | .both => c!"both"
  | .tag => c!"tag"
  | .type => c!"type"
def bracesWord : Braces → Str
  | .sameLine => c!"SameLine"
  | .nextLine => c!"NextLine"
def profileWord : Profile → Str
  | .debug => c!"debug"
  | .release => c!"release"
def lineEndingWord : LineEnding → Str
  | .lf => c!"LF"
  | .cr => c!"CR"
  | .crlf => c!"CRLF"
  | .native => c!"Native"

/-- The change of the file that a call stands for: where, and what. -/
def changeOf : ConfigCall → List Str × (Option Toml → Toml)
  | .withHeader s => ([c!"header"], set (.str s))
  | .withNoIncludes => ([c!"no_includes"], set (.bool true))
  | .withInclude s => ([c!"includes"], add (.str s))
  | .withSysInclude s => ([c!"sys_includes"], add (.str s))
  | .withAfterInclude s => ([c!"after_includes"], set (.str s))
  | .withTrailer s => ([c!"trailer"], set (.str s))
  | .withIncludeGuard s => ([c!"include_guard"], set (.str s))
  | .withPragmaOnce b => ([c!"pragma_once"], set (.bool b))
  | .withAutogenWarning s => ([c!"autogen_warning"], set (.str s))
  | .withIncludeVersion b => ([c!"include_version"], set (.bool b))
  | .withNamespace s => ([c!"namespace"], set (.str s))
  | .withNamespaces ss => ([c!"namespaces"], set (texts ss))
  | .withUsingNamespaces ss => ([c!"using_namespaces"], set (texts ss))
  | .withBraces b => ([c!"braces"], set (.str (bracesWord b)))
  | .withLineLength n => ([c!"line_length"], set (.int n))
  | .withTabWidth n => ([c!"tab_width"], set (.int n))
  | .withLanguage l => ([c!"language"], set (.str (languageWord l)))
  | .withCppCompat b => ([c!"cpp_compat"], set (.bool b))
  | .withStyle s => ([c!"style"], set (.str (styleWord s)))
  | .includeItem s => ([c!"export", c!"include"], add (.str s))
  | .excludeItem s => ([c!"export", c!"exclude"], add (.str s))
  | .renameItem old new => ([c!"export", c!"rename"], entry old (.str new))
  | .withItemPrefix s => ([c!"export", c!"prefix"], set (.str s))
  | .withParseDeps b => ([c!"parse", c!"parse_deps"], set (.bool b))
  | .withParseInclude ss => ([c!"parse", c!"include"], set (texts ss))
  | .withParseExclude ss => ([c!"parse", c!"exclude"], set (texts ss))
  | .withParseExpand ss => ([c!"parse", c!"expand"], expandEntry c!"crates" (texts ss))
  | .withParseExpandAllFeatures b => ([c!"parse", c!"expand"], expandEntry c!"all_features" (.bool b))
  | .withParseExpandDefaultFeatures b => ([c!"parse", c!"expand"], expandEntry c!"default_features" (.bool b))
  | .withParseExpandFeatures ss => ([c!"parse", c!"expand"], expandEntry c!"features" (texts ss))
  | .withParseExpandProfile p => ([c!"parse", c!"expand"], expandEntry c!"profile" (.str (profileWord p)))
  | .withParseExtraBindings ss => ([c!"parse", c!"extra_bindings"], set (texts ss))
  | .withOnlyTargetDependencies b => ([c!"only_target_dependencies"], set (.bool b))
  | .withDocumentation b => ([c!"documentation"], set (.bool b))
  | .withTargetOsDefine os d => ([c!"defines"], entry (c!"target_os = " ++ os) (.str d))
  | .withDefine k v d => ([c!"defines"], entry (k ++ c!" = " ++ v) (.str d))
  | .withLineEndings l => ([c!"line_endings"], set (.str (lineEndingWord l)))

/-- The file after the change. -/
def change (c : ConfigCall) (t : Toml) : Toml := changeAt (changeOf c).2 (changeOf c).1 (some t)

/-! ## Sources -/

/-- The file of a call. -/
def sourceOf : Call → Option Str
  | .withSrc p => some p
  | _ => none
def stdOf : Call → Option Bool
  | .withStdTypes b => some b
  | _ => none
/-- The directory of a crate, and its name if it is given. -/
def crateOf : Call → Option (Str × Option Str)
  | .withCrate dir => some (dir, none)
  | .withCrateAndName dir name => some (dir, some name)
  | _ => none
def lockOf : Call → Option Str
  | .withLockfile p => some p
  | _ => none
def isCargo : Call → Bool
  | .withCargo _ => true
  | _ => false
/-- The last one. -/
def last {α : Type} (xs : List α) : Option α := xs.getLast?

/-- What is read for the calls: all the files in their order, and the crate of the last call that has one, with the version of
the crate. -/
structure SourcesOfCalls (w : World) (cs : List Call) (s : Settings) (i : Inputs) (v : Str) : Prop where
  files : (cs.filterMap sourceOf).map (fun p => (w.stem p, w.source p)) = i.srcs.map fun e => (some e.1, e.2)
  std : i.stdTypes = (last (cs.filterMap stdOf)).getD true
  none_ : cs.filterMap crateOf = [] → i.lib = none ∧ v = []
  crate : ∀ dir name, last (cs.filterMap crateOf) = some (dir, name) → ∃ c root,
    w.cargo ⟨dir, last (cs.filterMap lockOf), name, s.parse.parseDeps, s.clean, s.onlyTargetDependencies, none⟩ = some c ∧
    c.bindingCrateRef = some root ∧ root.version = some v ∧ i.lib = some (c.workspace w.library, root)

/-- The calls that the program makes for its arguments and its configuration. -/
inductive ProgramCalls (w : World) (a : Cli) (s : Settings) : List Call → Prop
  | file : w.isDir (a.input.getD w.cwd) = false → ProgramCalls w a s [.withConfig s, .withSrc (a.input.getD w.cwd)]
  | crate {c} : w.isDir (a.input.getD w.cwd) = true →
      w.cargo ⟨a.input.getD w.cwd, a.lockfile, a.crate, true, a.clean, a.onlyTargetDependencies, a.metadata⟩ = some c →
      ProgramCalls w a s [.withConfig s, .withCargo c]

end Cbindgen.FileSpec
