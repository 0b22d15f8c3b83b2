import Verif.Model.Library

/-!
# Files written for a set of bindings: src/bindgen/bindings.rs and the end of src/main.rs
-/

namespace Cbindgen

/-! ## Files -/

/-- The bytes of a file. -/
abbrev Bytes := List UInt8

/-- The regular files of a file system, with the log of all `File::create` + write.  Directories,
permissions and links are not modelled. -/
structure Disk where
  file : Str → Option Bytes
  log : List (Str × Bytes) := []

/-- `File::create` followed by writing all of `bs`. -/
def Disk.create (d : Disk) (p : Str) (bs : Bytes) : Disk :=
  { file := fun q => if q = p then some bs else d.file q, log := d.log ++ [(p, bs)] }

/-- `Bindings::write_to_file`, src/bindgen/bindings.rs:239-269.  `content` is what `Bindings::write`
produces; the creation of parent directories is left out. -/
def writeToFile (noop : Bool) (content : Bytes) (p : Str) (d : Disk) : Bool × Disk :=
  if noop then (false, d)
  else
    match d.file p with
    | none => (true, d.create p content)
    | some old => if old ≠ content then (true, d.create p content) else (false, d)

/-- One call of `write_to_file`. -/
structure WriteCall where
  noop : Bool
  content : Bytes
  path : Str

/-- A sequence of calls, with their reports. -/
def runCalls : Disk → List WriteCall → List Bool × Disk
  | d, [] => ([], d)
  | d, c :: cs =>
    let r := writeToFile c.noop c.content c.path d
    let rest := runCalls r.2 cs
    (r.1 :: rest.1, rest.2)

/-! ## The symbol file -/

/-- `Bindings::dynamic_symbols_names`, src/bindgen/bindings.rs:170-184. -/
def Bindings.dynamicSymbols (b : Bindings) : List Str :=
  (b.functions.filter fun f => f.annotations.shouldExport).map FuncItem.path ++
    (b.globals.filter fun g => g.annotations.shouldExport).map StaticItem.exportName

/-- The text written by `Bindings::generate_symfile`, src/bindgen/bindings.rs:186-196. -/
def Bindings.symfileText (b : Bindings) : Str :=
  c!"{\n" ++ b.dynamicSymbols.flatMap (fun s => s ++ c!";\n") ++ c!"};"

/-! ## The dep file -/

/-- `replace(' ', "\\ ")`, src/bindgen/bindings.rs:222 and 230. -/
def escapeSpaces (p : Str) : Str := p.flatMap fun c => if c = ' ' then c!"\\ " else [c]

/-- The text written by `Bindings::generate_depfile`, src/bindgen/bindings.rs:217-236, for the
canonical path of the header and the sorted canonical paths of the sources. -/
def depfileText (header : Str) (sources : List Str) : Str :=
  escapeSpaces header ++ c!":" ++ sources.flatMap (fun p => c!" \\\n    " ++ escapeSpaces p) ++ c!"\n"

/-- `canon_source_files`, src/bindgen/bindings.rs:205-212: the source files and the config file, made
canonical and sorted.  `canon` is `Path::canonicalize` (`none` is the panic of its `unwrap`) and `le`
the order of paths. -/
def canonSources (canon : Str → Option Str) (le : Str → Str → Bool) (sources : List Str)
    (config : Option Str) : Option (List Str) :=
  ((sources ++ config.toList).mapM canon).map fun ps => ps.mergeSort le

/-- `Bindings::generate_depfile`, src/bindgen/bindings.rs:198-237: the text of the file. -/
def generateDepfile (canon : Str → Option Str) (le : Str → Str → Bool) (header : Str)
    (sources : List Str) (config : Option Str) : Option Str :=
  match canon header, canonSources canon le sources config with
  | some h, some ps => some (depfileText h ps)
  | _, _ => none

/-! ## The end of `main` -/

/-- The command line options looked at when writing, src/main.rs:339-366. -/
structure OutArgs where
  out : Option Str := none
  verify : Bool := false
  symfile : Option Str := none

/-- How the program ends. -/
structure RunResult where
  exit : Nat
  disk : Disk
  stdout : Bytes

/-- The end of `main`, src/main.rs:345-366, without the dep file.  `content` and `symbols` are the
generated header and symbol file. -/
def runOutput (a : OutArgs) (noop : Bool) (content symbols : Bytes) (d : Disk) : RunResult :=
  match a.out with
  | none => ⟨0, d, if noop then [] else content⟩
  | some p =>
    let r := writeToFile noop content p d
    if a.verify && r.1 then ⟨2, r.2, []⟩
    else
      match a.symfile with
      | some s => ⟨0, r.2.create s symbols, []⟩
      | none => ⟨0, r.2, []⟩

/-! ## Structs behind aliases -/

/-- `Type::Path(ref p) => Some(p.path())`, src/bindgen/bindings.rs:90-92. -/
def TypedefItem.target (t : TypedefItem) : Option Str :=
  match t.aliased with
  | .path n _ _ _ => some n
  | _ => none

/-- One round of the loop of `resolved_struct_path`, src/bindgen/bindings.rs:88-93: the closure keeps
the last path found. -/
def aliasStep (m : ItemMap TypedefItem) (p : Str) : Option Str :=
  ((m.getItems p).getD []).foldl (fun found t => t.target.or found) none

/-- `Bindings::resolved_struct_path`, src/bindgen/bindings.rs:85-100; `none` means that the loop is
still running after `fuel` rounds. -/
def resolvedStructPath (m : ItemMap TypedefItem) : Nat → Str → Option Str
  | 0, _ => none
  | fuel + 1, p =>
    match aliasStep m p with
    | some q => resolvedStructPath m fuel q
    | none => some p

/-- `Bindings::struct_exists`, src/bindgen/bindings.rs:102-107. -/
def structExists (sm : ItemMap StructItem) (tm : ItemMap TypedefItem) (fuel : Nat) (p : Str) :
    Option Bool :=
  (resolvedStructPath tm fuel p).map fun q => !((sm.getItems q).getD []).isEmpty

/-- `Bindings::struct_is_transparent`, src/bindgen/bindings.rs:77-81. -/
def structIsTransparent (sm : ItemMap StructItem) (p : Str) : Bool :=
  ((sm.getItems p).getD []).any StructItem.isTransparent

/-- The body of the loop over fields in `struct_field_names`, src/bindgen/bindings.rs:152-159. -/
def placeField (st : List Str × Nat) (n : Str) : List Str × Nat :=
  if n ∈ st.1 then (st.1, st.1.idxOf n + 1) else (st.1.insertIdx st.2 n, st.2 + 1)

/-- One struct of `struct_field_names`, src/bindgen/bindings.rs:150-160. -/
def mergeFields (names : List Str) (fields : List Str) : List Str :=
  (fields.foldl placeField (names, 0)).1

/-- The fields collected by `struct_field_names` for the structs at a resolved path,
src/bindgen/bindings.rs:148-161. -/
def fieldNamesAt (sm : ItemMap StructItem) (p : Str) : List Str :=
  ((sm.getItems p).getD []).foldl (fun names s => mergeFields names (s.fields.map Field.name)) []

/-- `Bindings::struct_field_names`, src/bindgen/bindings.rs:140-168, with its table of earlier
answers; `none` means that the alias loop is still running. -/
def lookupFieldNames (sm : ItemMap StructItem) (tm : ItemMap TypedefItem) (fuel : Nat)
    (memo : List (Str × List Str)) (p : Str) : Option (List Str × List (Str × List Str)) :=
  match memo.lookup p with
  | some fs => some (fs, memo)
  | none =>
    match resolvedStructPath tm fuel p with
    | none => none
    | some q =>
      let fs := fieldNamesAt sm q
      -- the resolved path is only recorded when an alias was followed
      some (fs, if q = p then (p, fs) :: memo else (q, fs) :: (p, fs) :: memo)

end Cbindgen
