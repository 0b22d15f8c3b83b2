import Verif.Model.LoadItems

/-!
# From source trees to the bindings: src/bindgen/parser.rs, src/bindgen/bitflags.rs, src/bindgen/builder.rs

`Verif.Model.Parser` says which items are taken, `Verif.Model.LoadItems` how one item is loaded.  Here both are put
together on trees that carry whole items.  A run of the parser is the list of the items that it takes, in order
(`Taken`); the tables are the result of loading them one after the other, which is what the code does at once.
-/

namespace Cbindgen

/-- `syn::ItemFn`, `syn::ImplItemFn` and `syn::ForeignItemFn`. -/
structure SynFn where
  sig : SynSig
  attrs : List SAttr := []

/-- The attributes without their style. -/
def plainAttrs (as : List SAttr) : List Attr := as.map (·.attr)

/-! ## `bitflags!`: src/bindgen/bitflags.rs -/

/-- `Flag`, src/bindgen/bitflags.rs:140-151. -/
structure SynFlag where
  name : Str
  value : SynExpr
  attrs : List SAttr := []

/-- `Bitflags`, src/bindgen/bitflags.rs:20-54: `struct Name: T { .. }` with its attributes, or
`impl Name: T { .. }`. -/
structure SynBitflags where
  struct : Option (List SAttr)
  name : Str
  repr : SynTy
  flags : List SynFlag

/-- `Flags::parse`, src/bindgen/bitflags.rs:287-302: flags without a name are dropped. -/
def SynBitflags.named (b : SynBitflags) : List SynFlag := b.flags.filter fun f => f.name != c!"_"

/-- `FlagValueFold`, src/bindgen/bitflags.rs:153-158. -/
structure FlagFold where
  structName : Str
  flagNames : List Str
  outOfLine : Bool
  transparent : Bool

/-- The guard of the match in `fold_expr` with its replacement, src/bindgen/bitflags.rs:196-230. -/
def FlagFold.bits (k : FlagFold) (receiver : SynExpr) (method : Str) (args : List SynExpr) : Option SynExpr :=
  match receiver, args with
  | .path [t] last gs, [] =>
    if method = c!"bits" ∧ (t = k.structName ∨ t = c!"Self") ∧ last ∈ k.flagNames then
      some (if k.transparent then .path [t] last gs
        else .field (.path [t] last gs) (if k.outOfLine then .unnamed 0 else .named method))
    else none
  | _, _ => none

mutual
/-- `FlagValueFold::fold_expr`, src/bindgen/bitflags.rs:166-235.  Simplified: expressions inside of types are left
as they are. -/
def SynExpr.foldFlag (k : FlagFold) : SynExpr → SynExpr
  | .binary l op r => .binary (l.foldFlag k) op (r.foldFlag k)
  | .lit l => .lit l
  | .field b m => .field (b.foldFlag k) m
  | .call f as => .call (f.foldFlag k) (SynExpr.foldFlagList k as)
  | .struct n fs => .struct n (SynFieldValue.foldFlagList k fs)
  | .unary op e => .unary op (e.foldFlag k)
  | .path init last gs => .path init last gs
  | .paren e => .paren (e.foldFlag k)
  | .cast e t => .cast (e.foldFlag k) t
  | .array es => .array (SynExpr.foldFlagList k es)
  | .methodCall r m as => (k.bits r m as).getD (.methodCall (r.foldFlag k) m (SynExpr.foldFlagList k as))
  | .other => .other
def SynExpr.foldFlagList (k : FlagFold) : List SynExpr → List SynExpr
  | [] => []
  | e :: es => e.foldFlag k :: SynExpr.foldFlagList k es
def SynFieldValue.foldFlagList (k : FlagFold) : List SynFieldValue → List SynFieldValue
  | [] => []
  | .mk m e as :: fs => .mk m (e.foldFlag k) as :: SynFieldValue.foldFlagList k fs
end

/-- The value of a constant for a flag, src/bindgen/bitflags.rs:259-267. -/
def FlagFold.value (k : FlagFold) (repr : SynTy) (v : SynExpr) : SynExpr :=
  if k.outOfLine || k.transparent then .call (.path [] k.structName .none) [.cast (.paren (v.foldFlag k)) repr]
  else .struct k.structName [.mk (.named c!"bits") (.cast (.paren (v.foldFlag k)) repr) []]

/-- `Flag::expand`, src/bindgen/bitflags.rs:237-269. -/
def FlagFold.const (k : FlagFold) (repr : SynTy) (f : SynFlag) : SynConst :=
  { ident := f.name, ty := .path k.structName .none, expr := k.value repr f.value, isPub := true, attrs := f.attrs }

/-- `is_transparent`, src/bindgen/bitflags.rs:84-88 and 102. -/
def SynBitflags.transparent (b : SynBitflags) (outOfLine : Bool) : Bool :=
  match b.struct with
  | some as =>
    match Repr.load as with
    | .ok r => r.style == .transparent
    | .error _ => false
  | none => outOfLine

/-- The struct of `Bitflags::expand`, src/bindgen/bitflags.rs:77-82. -/
def SynBitflags.structItem (b : SynBitflags) : Option SynStruct :=
  b.struct.map fun as => { ident := b.name, fields := .named [{ ident := some c!"bits", ty := b.repr }], attrs := as }

/-- The constants of `Bitflags::expand`, src/bindgen/bitflags.rs:90-95 and 102-107, with `Flags::expand` 304-323. -/
def SynBitflags.consts (b : SynBitflags) (outOfLineTransparent : Bool) : List SynConst :=
  b.named.map (FlagFold.const
    { structName := b.name, flagNames := b.named.map (·.name), outOfLine := b.struct.isNone,
      transparent := b.transparent outOfLineTransparent } b.repr)

/-! ## Items -/

/-- `syn::Item`. -/
inductive FItem
  | fn (f : SynFn)
  | const (c : SynConst)
  | static (s : SynStatic)
  | struct (s : SynStruct)
  | union (u : SynUnion)
  | enum (e : SynEnum)
  | alias (t : SynAlias)
  /-- `impl`; `plain`: its type is a path of one segment -/
  | impl (attrs : List SAttr) (plain : Bool) (selfTy : SynTy) (methods : List SynFn) (consts : List SynConst)
  | foreign (attrs : List SAttr) (abi : Abi) (fns : List SynFn)
  /-- a `bitflags!` invocation that parses -/
  | bitflags (attrs : List SAttr) (b : SynBitflags)
  | mod (attrs : List SAttr) (state : FileState) (items : List FItem)
  | other (attrs : List SAttr)

/-- The attributes of an item, src/bindgen/utilities.rs:323-353. -/
def FItem.attrs : FItem → List SAttr
  | .fn f => f.attrs
  | .const c => c.attrs
  | .static s => s.attrs
  | .struct s => s.attrs
  | .union u => u.attrs
  | .enum e => e.attrs
  | .alias t => t.attrs
  | .impl as _ _ _ _ => as
  | .foreign as _ _ => as
  | .bitflags as _ => as
  | .mod as _ _ => as
  | .other as => as

/-- The name of the type of an `impl` whose methods are loaded, src/bindgen/parser.rs:546-547. -/
def implSelf (plain : Bool) : SynTy → Option Str
  | .path n .none => if plain then some (unraw n) else none
  | _ => none

/-- The path that associated constants are attached to, src/bindgen/parser.rs:771-792. -/
def implRoot (t : SynTy) : Option Str :=
  match t.load with
  | .ok (some t) => t.rootPath
  | _ => none

/-- An item that is taken: a call of one of the `load` functions. -/
inductive Taken
  | fn (path : Str) (owner : Option Str) (externDecl : Bool) (f : SynFn)
  | const (c : SynConst)
  | static (path : Str) (s : SynStatic)
  | struct (s : SynStruct)
  | union (u : SynUnion)
  | enum (e : SynEnum)
  | alias (t : SynAlias)
  | bitflags (b : SynBitflags)
  | assoc (root : Str) (c : SynConst)

/-- `load_fn_declaration`, src/bindgen/parser.rs:699-758, up to the call of `Function::load`. -/
def takeFn (cfg : ParseConfig) (crate : Str) (owner : Option Str) (f : SynFn) : List Taken :=
  if cfg.topLevel crate = false then []
  else
    match f.sig.abi.isOmitted || f.sig.abi.isC || f.sig.abi.isCmse,
        fnExportedName (plainAttrs f.attrs) (unraw f.sig.ident) with
    | true, some name => [.fn name owner false f]
    | _, _ => []

/-- The loop of `load_syn_foreign_mod`, src/bindgen/parser.rs:618-652. -/
def takeForeign (cfg : ParseConfig) (crate : Str) (fs : List SynFn) : List Taken :=
  if cfg.topLevel crate = false then []
  else fs.map fun f => .fn (unraw f.sig.ident) none true f

/-- The associated constants that are loaded, src/bindgen/parser.rs:588-595 and 794-801: the loop ends at a constant
that is not `pub`. -/
def takenConsts : List SynConst → List SynConst
  | [] => []
  | c :: cs =>
    if shouldSkip (plainAttrs c.attrs) then takenConsts cs
    else if c.isPub = false then []
    else c :: takenConsts cs

/-- `load_syn_assoc_consts_from_impl`, src/bindgen/parser.rs:582-602 and 761-828. -/
def takeAssocs (t : SynTy) (cs : List SynConst) : List Taken :=
  match implRoot t with
  | none => []
  | some r => (takenConsts cs).map (.assoc r)

/-- The methods of an `impl`, src/bindgen/parser.rs:545-566. -/
def takeMethods (cfg : ParseConfig) (crate : Str) (self : Option Str) (ms : List SynFn) : List Taken :=
  match self with
  | none => []
  | some s => (ms.filter fun m => shouldSkip (plainAttrs m.attrs) = false).flatMap fun m => takeFn cfg crate (some s) m

/-- A static, src/bindgen/parser.rs:873-906. -/
def takeStatic (cfg : ParseConfig) (crate : Str) (s : SynStatic) : List Taken :=
  if cfg.topLevel crate = false then []
  else
    match staticExportedName (plainAttrs s.attrs) (unraw s.ident) with
    | some name => [.static name s]
    | none => []

/-- The `match item` of `load_syn_crate_mod`, src/bindgen/parser.rs:501-574, for an item that is not skipped, with
the condition of the module that is passed on. -/
def takeItem (cfg : ParseConfig) (crate : Str) (modCfg : Option Cfg) : FItem → List (Taken × Option Cfg)
  | .foreign attrs abi fns =>
    if abi.isC = false ∧ abi.isOmitted = false then []
    else (takeForeign cfg crate fns).map fun t => (t, Cfg.append modCfg (loadCfg attrs))
  | .fn f => (takeFn cfg crate none f).map fun t => (t, modCfg)
  | .const c => if cfg.topLevel crate = false then [] else if c.isPub = false then [] else [(.const c, modCfg)]
  | .static s => (takeStatic cfg crate s).map fun t => (t, modCfg)
  | .struct s => [(.struct s, modCfg)]
  | .union u => [(.union u, modCfg)]
  | .enum e => [(.enum e, modCfg)]
  | .alias t => [(.alias t, modCfg)]
  | .impl _ plain selfTy methods _ => (takeMethods cfg crate (implSelf plain selfTy) methods).map fun t => (t, modCfg)
  | .bitflags _ b => if cfg.expandBitflags = false then [] else [(.bitflags b, modCfg)]
  | .mod _ _ _ => []
  | .other _ => []

/-- The second loop of `load_syn_crate_mod`, src/bindgen/parser.rs:576-578, for one item. -/
def takeLate (modCfg : Option Cfg) : FItem → List (Taken × Option Cfg)
  | .impl _ _ selfTy _ consts => (takeAssocs selfTy consts).map fun t => (t, modCfg)
  | _ => []

/-- Items that are not skipped, src/bindgen/parser.rs:498-500. -/
def keptItems (items : List FItem) : List FItem := items.filter fun i => shouldSkip (plainAttrs i.attrs) = false

/-- `load_syn_crate_mod`, src/bindgen/parser.rs:489-579 (without the returned nested modules). -/
def takeMod (cfg : ParseConfig) (crate : Str) (modCfg : Option Cfg) (items : List FItem) : List (Taken × Option Cfg) :=
  (keptItems items).flatMap (takeItem cfg crate modCfg) ++ (keptItems items).flatMap (takeLate modCfg)

/-! ## Modules and crates -/

/-- The parser's state, src/bindgen/parser.rs:93-108. -/
structure FState where
  parsed : List Str := []
  stack : List Cfg := []
  out : List (Taken × Option Cfg) := []

/-- Push the cfg of a module or dependency, src/bindgen/parser.rs:182-184 and 316-319. -/
def FState.push (st : FState) (c : Option Cfg) : FState :=
  match c with
  | some c => { st with stack := st.stack ++ [c] }
  | none => st

/-- Pop it again, src/bindgen/parser.rs:188-190 and 402-404. -/
def FState.pop (st : FState) (c : Option Cfg) : FState :=
  match c with
  | some _ => { st with stack := st.stack.dropLast }
  | none => st

/-- The first half of `process_mod`, src/bindgen/parser.rs:304-312. -/
def walkEnter (cfg : ParseConfig) (crate : Str) (st : FState) (items : List FItem) : FState :=
  { st with out := st.out ++ takeMod cfg crate (Cfg.join st.stack) items }

mutual
/-- The loop over the nested modules of `process_mod`, src/bindgen/parser.rs:314-405. -/
def walkNested (cfg : ParseConfig) (crate : Str) (st : FState) : List FItem → Except PErr FState
  | [] => .ok st
  | item :: rest =>
    match walkOne cfg crate st item with
    | .ok st => walkNested cfg crate st rest
    | .error e => .error e
/-- One nested module, src/bindgen/parser.rs:315-404, and `parse_mod` 233-286 (reading the file is abstracted into the
tree). -/
def walkOne (cfg : ParseConfig) (crate : Str) (st : FState) : FItem → Except PErr FState
  | .mod attrs .found sub =>
    if shouldSkip (plainAttrs attrs) then .ok st
    else
      match walkNested cfg crate (walkEnter cfg crate (st.push (loadCfg attrs)) sub) sub with
      | .ok st' => .ok (st'.pop (loadCfg attrs))
      | .error e => .error e
  | .mod attrs .broken _ => if shouldSkip (plainAttrs attrs) then .ok st else .error .io
  | _ => .ok st
end

/-- `process_mod`, src/bindgen/parser.rs:294-408. -/
def walkMod (cfg : ParseConfig) (crate : Str) (st : FState) (items : List FItem) : Except PErr FState :=
  walkNested cfg crate (walkEnter cfg crate st items) items

/-- A package's source: no library target found, unreadable, or its items. -/
inductive FSource
  | missing
  | broken
  | items (is : List FItem)

/-- The `cargo` side, src/bindgen/cargo/cargo.rs. -/
structure FWorkspace where
  source : Pkg → FSource
  deps : Pkg → List (Pkg × Option Cfg)

/-- `should_parse_dependency`, src/bindgen/parser.rs:110-147. -/
def walkDependency (cfg : ParseConfig) (st : FState) (name : Str) : Bool :=
  shouldParseDependency cfg { parsed := st.parsed } name

/-- The source part of `parse_crate`, src/bindgen/parser.rs:152-175. -/
def walkSource (cfg : ParseConfig) (ws : FWorkspace) (p : Pkg) (st : FState) : Except PErr FState :=
  match ws.source p with
  | .missing => .ok st
  | .broken => .error .io
  | .items is => walkMod cfg p.name st is

/-- One iteration of the loop over the dependencies, src/bindgen/parser.rs:177-191. -/
def walkDep (cfg : ParseConfig) (parse : Pkg → FState → Except PErr FState) (st : FState) (d : Pkg × Option Cfg) :
    Except PErr FState :=
  if walkDependency cfg st d.1.name then
    match parse d.1 (st.push d.2) with
    | .ok st' => .ok (st'.pop d.2)
    | .error e => .error e
  else .ok st

/-- The loop over the dependencies, src/bindgen/parser.rs:177-191. -/
def walkDeps (cfg : ParseConfig) (parse : Pkg → FState → Except PErr FState) :
    FState → List (Pkg × Option Cfg) → Except PErr FState
  | st, [] => .ok st
  | st, d :: ds =>
    match walkDep cfg parse st d with
    | .ok st => walkDeps cfg parse st ds
    | .error e => .error e

/-- `parse_crate`, src/bindgen/parser.rs:149-194.  The fuel bounds the recursion depth. -/
def walkCrate (cfg : ParseConfig) (ws : FWorkspace) : Nat → Pkg → FState → Except PErr FState
  | 0, _, _ => .error .fuel
  | n + 1, p, st =>
    match walkSource cfg ws p { st with parsed := p.name :: st.parsed } with
    | .ok st => walkDeps cfg (walkCrate cfg ws n) st (ws.deps p)
    | .error e => .error e

/-! ## The tables -/

/-- `Function::load` and the push, src/bindgen/parser.rs:629-650 and 736-746. -/
def Library.loadFn (modCfg : Option Cfg) (l : Library) (path : Str) (owner : Option Str) (externDecl : Bool) (f : SynFn) :
    Option Library :=
  match f.sig.load path owner externDecl f.attrs modCfg with
  | .ok x => some { l with functions := l.functions ++ [x] }
  | .error .err => some l
  | .error .panic => none

/-- A loop that loads items. -/
def loadAll {α : Type} (f : Library → α → Option Library) : Library → List α → Option Library
  | l, [] => some l
  | l, x :: xs =>
    match f l x with
    | some l => loadAll f l xs
    | none => none

/-- `out_of_line_transparent`, src/bindgen/parser.rs:1019-1026. -/
def Library.hasTransparent (l : Library) (p : Str) : Bool :=
  ((l.structs.getItems p).getD []).any (·.isTransparent)

/-- The struct of `bitflags!`, src/bindgen/parser.rs:1029-1031. -/
def Library.loadFlagsStruct (c : LoadConfig) (modCfg : Option Cfg) (l : Library) : Option SynStruct → Option Library
  | some s => l.loadStruct c modCfg s
  | none => some l

/-- Mark the structs of a path, src/bindgen/parser.rs:1032-1040. -/
def Library.markFlags (l : Library) (p : Str) : Library :=
  { l with structs := l.structs.mapItemsAt p fun s =>
      { s with annotations := s.annotations.addDefault c!"internal-derive-bitflags" (.bool true) } }

/-- The associated constants of an `impl`, src/bindgen/parser.rs:761-828. -/
def Library.loadAssocs (c : LoadConfig) (modCfg : Option Cfg) (l : Library) (t : SynTy) (cs : List SynConst) :
    Option Library :=
  match implRoot t with
  | none => some l
  | some r => loadAll (fun l k => l.loadAssocConst c modCfg r k) l (takenConsts cs)

/-- `load_builtin_macro`, src/bindgen/parser.rs:996-1043, for an invocation of `bitflags!` that is expanded. -/
def Library.loadBitflags (c : LoadConfig) (modCfg : Option Cfg) (l : Library) (b : SynBitflags) : Option Library :=
  match l.loadFlagsStruct c modCfg b.structItem with
  | none => none
  | some l' =>
    (l'.markFlags (unraw b.name)).loadAssocs c modCfg (.path b.name .none) (b.consts (l.hasTransparent (unraw b.name)))

/-- The `load` functions. -/
def Taken.load (c : LoadConfig) (l : Library) : Taken × Option Cfg → Option Library
  | (.fn path owner ext f, m) => l.loadFn m path owner ext f
  | (.const k, m) => l.loadConst c m k
  | (.static path s, m) => l.loadStatic m path s
  | (.struct s, m) => l.loadStruct c m s
  | (.union u, m) => l.loadUnion c m u
  | (.enum e, m) => l.loadEnum c m e
  | (.alias t, m) => l.loadAlias m t
  | (.bitflags b, m) => l.loadBitflags c m b
  | (.assoc r k, m) => l.loadAssocConst c m r k

/-- Load everything that was taken; `none` is a panic. -/
def loadTaken (c : LoadConfig) (l : Library) (ts : List (Taken × Option Cfg)) : Option Library :=
  loadAll (fun l t => Taken.load c l t) l ts

/-- The opaque types of the standard library, src/bindgen/parser.rs:440-473, with their parameters. -/
def stdTypes : List (Str × List Str) :=
  [ (c!"String", []), (c!"Box", [c!"T"]), (c!"RefCell", [c!"T"]), (c!"Rc", [c!"T"]), (c!"Arc", [c!"T"]),
    (c!"Result", [c!"T", c!"E"]), (c!"Option", [c!"T"]), (c!"NonNull", [c!"T"]), (c!"Vec", [c!"T"]),
    (c!"HashMap", [c!"K", c!"V", c!"Hasher"]), (c!"BTreeMap", [c!"K", c!"V"]), (c!"HashSet", [c!"T"]),
    (c!"BTreeSet", [c!"T"]), (c!"LinkedList", [c!"T"]), (c!"VecDeque", [c!"T"]), (c!"ManuallyDrop", [c!"T"]),
    (c!"MaybeUninit", [c!"T"]) ]

/-- `Parse::add_std_types`, src/bindgen/parser.rs:440-473. -/
def Library.addStdTypes (l : Library) : Library :=
  { l with opaqueItems := l.opaqueItems.insertAll (stdTypes.map fun t =>
      { path := t.1, exportName := t.1, genericParams := t.2.map fun p => { name := p } }) }

/-- `Parse::extend_with`, src/bindgen/parser.rs:475-486. -/
def Library.extendWith (l other : Library) : Library :=
  { constants := l.constants.extendWith other.constants
    globals := l.globals.extendWith other.globals
    enums := l.enums.extendWith other.enums
    structs := l.structs.extendWith other.structs
    unions := l.unions.extendWith other.unions
    opaqueItems := l.opaqueItems.extendWith other.opaqueItems
    typedefs := l.typedefs.extendWith other.typedefs
    functions := l.functions ++ other.functions }

/-! ## The builder: src/bindgen/builder.rs -/

/-- Errors of a whole run: of the parser, or a panic while items are loaded, or in the library stage. -/
inductive RunErr
  | parse (e : PErr)
  | panic
  | library (e : MonoErr)

/-- Load what a run of the parser took into new tables. -/
def loadRun (c : LoadConfig) : Except PErr FState → Except RunErr Library
  | .error e => .error (.parse e)
  | .ok st =>
    match loadTaken c {} st.out with
    | some l => .ok l
    | none => .error .panic

/-- `parse_src`, src/bindgen/parser.rs:36-62; `name` is the name of the file without extension, and a file that cannot
be read is `none`. -/
def parseSrc (pc : ParseConfig) (c : LoadConfig) (name : Str) (file : Option (List FItem)) : Except RunErr Library :=
  match file with
  | none => .error (.parse .io)
  | some is =>
    loadRun c (walkMod { bindingCrate := name, parseDeps := true, expandBitflags := pc.expandBitflags } name {} is)

/-- `parse_lib`, src/bindgen/parser.rs:69-91, into tables. -/
def parseWorkspace (pc : ParseConfig) (c : LoadConfig) (ws : FWorkspace) (fuel : Nat) (root : Pkg) :
    Except RunErr Library :=
  loadRun c (walkCrate pc ws fuel root {})

/-- What a builder is given: src/bindgen/builder.rs:17-24. -/
structure Inputs where
  stdTypes : Bool := false
  /-- single files, `with_src` -/
  srcs : List (Str × Option (List FItem)) := []
  /-- a crate, `with_crate` -/
  lib : Option (FWorkspace × Pkg) := none

/-- The loop over the files, src/bindgen/builder.rs:380-382. -/
def extendSrcs (pc : ParseConfig) (c : LoadConfig) : Library → List (Str × Option (List FItem)) → Except RunErr Library
  | l, [] => .ok l
  | l, x :: xs =>
    match parseSrc pc c x.1 x.2 with
    | .ok o => extendSrcs pc c (l.extendWith o) xs
    | .error e => .error e

/-- The crate, src/bindgen/builder.rs:384-401. -/
def extendLib (pc : ParseConfig) (c : LoadConfig) (fuel : Nat) (l : Library) :
    Option (FWorkspace × Pkg) → Except RunErr Library
  | none => .ok l
  | some (ws, root) =>
    match parseWorkspace pc c ws fuel root with
    | .ok o => .ok (l.extendWith o)
    | .error e => .error e

/-- The tables that `Builder::generate` makes, src/bindgen/builder.rs:374-401. -/
def buildLibrary (pc : ParseConfig) (c : LoadConfig) (fuel : Nat) (i : Inputs) : Except RunErr Library :=
  match extendSrcs pc c (if i.stdTypes then Library.addStdTypes {} else {}) i.srcs with
  | .ok l => extendLib pc c fuel l i.lib
  | .error e => .error e

/-- `Builder::generate`, src/bindgen/builder.rs:352-417, unless it runs inside of itself. -/
def buildBindings (pc : ParseConfig) (lc : LoadConfig) (c : LibConfig)
    (order : List (Str × Annotations) → List (Str × Annotations)) (crates fuel : Nat) (i : Inputs) :
    Except RunErr Bindings :=
  match buildLibrary pc lc crates i with
  | .error e => .error e
  | .ok l =>
    match l.generate c order fuel with
    | .ok b => .ok b
    | .error e => .error (.library e)

end Cbindgen
