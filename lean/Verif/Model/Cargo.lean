import Verif.Model.Front

/-!
# Packages and their dependencies: src/bindgen/cargo/cargo.rs, cargo_metadata.rs, cargo_lock.rs

The files are given as parsed (`toml`, `serde_json`).  Running `cargo metadata`, `rustc` and `cargo expand` is left out.
-/

namespace Cbindgen

/-- The target of a dependency as `syn::parse_str::<syn::Meta>` reads it: `cfg(...)` with its predicate if that parses; a
list with another name; a name or `name = value`; or a text that is none of these, such as `x86_64-pc-windows-msvc`. -/
inductive DepTarget
  | cfg (c : Option Cfg)
  | list
  | ident (name : Str)
  | text (name : Str)

/-- `Dependency`, src/bindgen/cargo/cargo_metadata.rs:57-70.  `kind` is not read by the code. -/
structure Dependency where
  name : Str
  kind : Option Str := none
  target : Option DepTarget := none

/-- `Target`, src/bindgen/cargo/cargo_metadata.rs:72-85. -/
structure CrateTarget where
  kind : List Str
  srcPath : Str

/-- `Package`, src/bindgen/cargo/cargo_metadata.rs:41-55.  The set of dependencies is the list in the file: of those with
one name, the set keeps the first.  `source` is not read by the code. -/
structure MetaPkg where
  ref : Pkg
  dependencies : List Dependency := []
  targets : List CrateTarget := []
  manifestPath : Str := []
  source : Option Str := none

/-- `Package`, src/bindgen/cargo/cargo_lock.rs:37-43.  `source` is in the file, but not read by the code. -/
structure LockPkg where
  name : Str
  version : Str
  source : Option Str := none
  dependencies : Option (List Str) := none
  deriving DecidableEq

/-- `Lock`, src/bindgen/cargo/cargo_lock.rs:31-35. -/
structure Lock where
  root : Option LockPkg := none
  package : Option (List LockPkg) := none

/-- `Cargo`, src/bindgen/cargo/cargo.rs:24-31.  The set of packages is the list in the file; `iter` is the order in which
the set gives its elements. -/
structure Cargo where
  manifestPath : Str
  bindingCrate : Str
  lock : Option Lock
  packages : List MetaPkg
  iter : List MetaPkg → List MetaPkg := id

/-- The elements that a set keeps: of equal ones the first. -/
def keepFirst : List MetaPkg → List MetaPkg
  | [] => []
  | p :: ps => p :: (keepFirst ps).filter fun q => q.ref ≠ p.ref

/-- The packages as they are iterated over. -/
def Cargo.all (c : Cargo) : List MetaPkg := c.iter (keepFirst c.packages)

/-- `metadata.packages.get`. -/
def Cargo.get (c : Cargo) (p : Pkg) : Option MetaPkg := c.packages.find? fun m => m.ref = p

/-- `str::split_whitespace`: the words of the text, with the letters read so far in front. -/
def splitWsAux (word : Str) : Str → List Str
  | [] => if word = [] then [] else [word.reverse]
  | c :: cs =>
    if isWs c then (if word = [] then splitWsAux [] cs else word.reverse :: splitWsAux [] cs)
    else splitWsAux (c :: word) cs

/-- `parse_dep_string`, src/bindgen/cargo/cargo.rs:17-21; `none` is a panic. -/
def parseDepString (s : Str) : Option (Str × Option Str) :=
  match splitWsAux [] s with
  | [] => none
  | n :: ws => some (n, ws.head?)

/-- `Cfg::load_metadata`, src/bindgen/ir/cfg.rs:172-192. -/
def DepTarget.loadCfg : Option DepTarget → Option Cfg
  | none => none
  | some (.cfg c) => c
  | some .list => none
  | some (.ident _) => none
  | some (.text n) => some (.boolean n)

/-- A package of the lock file is the one asked for, src/bindgen/cargo/cargo.rs:111-116 and 123-128. -/
def LockPkg.isFor (q : LockPkg) (p : Pkg) : Bool :=
  q.name = p.name && p.version.all fun v => v = q.version

/-- The listing of the root, src/bindgen/cargo/cargo.rs:108-119. -/
def Lock.rootDeps (l : Lock) (p : Pkg) : Option (List Str) :=
  match l.root with
  | some r => if r.isFor p then r.dependencies else none
  | none => none

/-- The listing of a package, src/bindgen/cargo/cargo.rs:120-134. -/
def Lock.packageDeps (l : Lock) (p : Pkg) : Option (List Str) :=
  match l.package with
  | some qs => (qs.find? fun q => q.isFor p).bind (·.dependencies)
  | none => none

/-- The only version of a package, src/bindgen/cargo/cargo.rs:147-164. -/
def Cargo.onlyVersion (c : Cargo) (name : Str) : Option Str :=
  match (c.all.filter fun m => m.ref.name = name).filterMap (·.ref.version) with
  | [v] => some v
  | _ => none

/-- One dependency, src/bindgen/cargo/cargo.rs:142-180; `none` is a panic. -/
def Cargo.dependency (c : Cargo) (p : Pkg) (dep : Str) : Option (Pkg × Option Cfg) :=
  match parseDepString dep with
  | none => none
  | some (name, version) =>
    some (⟨name, version.or (c.onlyVersion name)⟩,
      ((c.get p).bind fun m => m.dependencies.find? fun d => d.name = name).bind fun d => DepTarget.loadCfg d.target)

/-- `Cargo::dependencies`, src/bindgen/cargo/cargo.rs:99-183; `none` is a panic. -/
def Cargo.dependencies (c : Cargo) (p : Pkg) : Option (List (Pkg × Option Cfg)) :=
  match c.lock with
  | none => some []
  | some l =>
    match (l.rootDeps p).or (l.packageDeps p) with
    | none => some []
    | some ds => ds.mapM (c.dependency p)

/-- `find_pkg_to_generate_bindings_ref`, src/bindgen/cargo/cargo.rs:185-207. -/
def Cargo.bindingCrateRef (c : Cargo) : Option Pkg :=
  let named := c.all.filter fun m => m.ref.name = c.bindingCrate
  ((named.find? fun m => m.manifestPath = c.manifestPath).or named.head?).map (·.ref)

/-- The test of a target in `find_crate_src`, src/bindgen/cargo/cargo.rs:234-239. -/
def CrateTarget.isLib (t : CrateTarget) : Bool :=
  t.kind.contains c!"lib" || t.kind.contains c!"staticlib" || t.kind.contains c!"rlib" || t.kind.contains c!"cdylib" ||
    t.kind.contains c!"dylib"

/-- `find_crate_src`, src/bindgen/cargo/cargo.rs:222-246. -/
def Cargo.crateSrc (c : Cargo) (p : Pkg) : Option Str :=
  (c.get p).bind fun m => (m.targets.find? CrateTarget.isLib).map (·.srcPath)

/-- What the parser is given, src/bindgen/parser.rs:149-194; `read` reads a file and the files of its modules. -/
def Cargo.workspace (c : Cargo) (read : Str → FSource) : FWorkspace where
  source p :=
    match c.crateSrc p with
    | some f => read f
    | none => .missing
  deps p := (c.dependencies p).getD []

end Cbindgen
