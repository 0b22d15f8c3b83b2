import Verif.Model.Cargo
import Verif.Spec.Source

/-!
# What the files of cargo say

Cargo.lock names a dependency by its name, by name and version if there are several versions, and with the source in
parentheses if there are several sources (the Cargo book, and cargo's `EncodablePackageId`).  `cargo metadata` gives the
declarations of Cargo.toml.
-/

namespace Cbindgen.CargoSpec
open CfgSpec

/-- A word: not empty, without white space. -/
def Word (s : Str) : Prop := s ≠ [] ∧ ∀ c ∈ s, isWs c = false

/-- The packages of a lock file. -/
def locked (l : Lock) : List LockPkg := l.root.toList ++ l.package.getD []

/-- The dependencies of a package as they are written. -/
def written (q : LockPkg) : List Str := q.dependencies.getD []

/-- A package as cbindgen refers to it. -/
def refOf (q : LockPkg) : Pkg := ⟨q.name, some q.version⟩

/-- `Names qs d q`: the text `d` stands for the package `q` of `qs`. -/
inductive Names (qs : List LockPkg) : Str → LockPkg → Prop
  | name {q} : q ∈ qs → (∀ q' ∈ qs, q'.name = q.name → q' = q) → Names qs q.name q
  | version {q} : q ∈ qs → (∀ q' ∈ qs, q'.name = q.name → q'.version = q.version → q' = q) →
      Names qs (q.name ++ ' ' :: q.version) q
  | source {q s} : q ∈ qs → q.source = some s →
      (∀ q' ∈ qs, q'.name = q.name → q'.version = q.version → q'.source = q.source → q' = q) →
      Names qs (q.name ++ ' ' :: (q.version ++ ' ' :: '(' :: (s ++ [')']))) q

/-- What cargo guarantees, and: no two packages have one name and version, and the metadata describes every package of the
lock file. -/
structure Fine (l : Lock) (ms : List MetaPkg) : Prop where
  words : ∀ q ∈ locked l, Word q.name ∧ Word q.version
  one : ∀ q ∈ locked l, ∀ q' ∈ locked l, q.name = q'.name → q.version = q'.version → q = q'
  strings : ∀ q ∈ locked l, ∀ d ∈ written q, ∃ q', Names (locked l) d q'
  described : ∀ q ∈ locked l, ∃ m ∈ ms, m.ref = refOf q
  known : ∀ m ∈ ms, ∃ q ∈ locked l, m.ref = refOf q
  once : ∀ m ∈ ms, ∀ m' ∈ ms, m.ref = m'.ref → m = m'

/-- The target of a declaration is the one that code is compiled for.  A target that is given by its name is an option of
that name. -/
def targetHolds (on : Opt → Bool) : Option DepTarget → Prop
  | none => True
  | some (.cfg c) => ∃ x, c = some x ∧ holds on x = true
  | some .list => False
  | some (.ident n) => on (.flag n) = true
  | some (.text n) => on (.flag n) = true

/-- The manifest `m` declares the package `n` as a dependency of the library, for the target at hand. -/
def Uses (on : Opt → Bool) (m : MetaPkg) (n : Str) : Prop :=
  ∃ d ∈ m.dependencies, d.name = n ∧ d.kind = none ∧ targetHolds on d.target

/-- The manifest declares the package once, for the library, and for a target that cbindgen can tell. -/
def DeclaredOnce (m : MetaPkg) (n : Str) : Prop :=
  (∃ d ∈ m.dependencies, d.name = n) ∧
  ∀ d ∈ m.dependencies, d.name = n → d.kind = none ∧ (∀ c, d.target = some (.cfg c) → c ≠ none) ∧ d.target ≠ some .list ∧
    (∀ n, d.target ≠ some (.ident n)) ∧ ∀ d' ∈ m.dependencies, d'.name = n → d' = d

/-- The predicate of a declaration. -/
inductive DeclaredUnder (m : MetaPkg) (n : Str) : Option Cfg → Prop
  | always {d} : d ∈ m.dependencies → d.name = n → d.target = none → DeclaredUnder m n none
  | cfg {d c} : d ∈ m.dependencies → d.name = n → d.target = some (.cfg (some c)) → DeclaredUnder m n (some c)
  | target {d t} : d ∈ m.dependencies → d.name = n → d.target = some (.text t) → DeclaredUnder m n (some (.boolean t))

/-- `Chain pc l ms r q cs`: the package `q` is reached from `r` through dependencies that the configuration allows; `cs`
collects the predicates of the declarations. -/
inductive Chain (pc : ParseConfig) (l : Lock) (ms : List MetaPkg) (r : LockPkg) : LockPkg → List Cfg → Prop
  | root : Chain pc l ms r r []
  | dep {q cs d q' m c} : Chain pc l ms r q cs → d ∈ written q → Names (locked l) d q' → m ∈ ms → m.ref = refOf q →
      DeclaredUnder m q'.name c → ParserSpec.Allowed pc q'.name → Chain pc l ms r q' (cs ++ c.toList)

/-- The library target of a package: cargo allows one. -/
def IsLibrary (t : CrateTarget) : Prop := ∃ k ∈ [c!"lib", c!"rlib", c!"dylib", c!"cdylib", c!"staticlib"], k ∈ t.kind

end Cbindgen.CargoSpec
