import Verif.Model.Cfg

/-!
# Walking crates and modules: src/bindgen/parser.rs, src/bindgen/utilities.rs

What is abstracted: the parsed source (`syn`) is given as a tree; whether a body can be turned into
an IR item (`Function::load`, `Constant::load`, `Static::load`) is a flag of the item; the result is
the list of items in the order in which they are taken, before the item tables (src/bindgen/ir/item.rs)
drop conflicting names.
-/

namespace Cbindgen

/-- An argument of `#[unsafe(...)]`. -/
inductive UnsafeArg
  | word (name : Str)
  /-- `name = "value"`; `none` if the value is not a string literal -/
  | nameValue (name : Str) (value : Option Str)
  deriving DecidableEq

/-- The argument of `align(...)` or `packed(...)` in a `repr` attribute: nothing, an integer literal as it
is written, or something else. -/
inductive ReprArg
  | empty
  | int (text : Str)
  | bad
  deriving DecidableEq

/-- An entry of a `repr` attribute (`syn::Meta`): a path, with its name if it is a single identifier; a
list `name(arg)`; anything else. -/
inductive ReprMeta
  | path (ident : Option Str)
  | list (name : Str) (arg : ReprArg)
  | other
  deriving DecidableEq

/-- An attribute (`syn::Meta`), as far as the parser looks at it.  `cfg` carries the parsed predicate,
`none` if it does not parse; `repr` its entries; `deprecated` the `name = value` arguments of
`#[deprecated(...)]`, each with its value if it is a string. -/
inductive Attr
  | word (name : Str)
  | nameValue (name : Str) (value : Option Str)
  | cfg (c : Option Cfg)
  | unsafeList (args : List UnsafeArg)
  | repr (metas : Option (List ReprMeta))
  | deprecated (args : Option (List (Str × Option Str)))
  | other

/-- `Cfg::load` collects the parsed predicates, src/bindgen/ir/cfg.rs:148-170. -/
def parsedCfgs : List Attr → List Cfg
  | [] => []
  | .cfg (some c) :: as => c :: parsedCfgs as
  | _ :: as => parsedCfgs as

/-- `Cfg::load`, src/bindgen/ir/cfg.rs:148-170. -/
def Cfg.load (attrs : List Attr) : Option Cfg := Cfg.ofAttrs (parsedCfgs attrs)

/-- `is_skip_item_attr`, src/bindgen/utilities.rs:81-133.  Simplified: a `cfg` attribute has one
argument, as Rust requires. -/
def isSkipAttr : Attr → Bool
  | .word n => n == c!"test"
  | .cfg (some (.boolean n)) => n == c!"test"
  | .nameValue n (some v) => n == c!"doc" && trim v == c!"cbindgen:ignore"
  | _ => false

/-- `should_skip_parsing`, src/bindgen/utilities.rs:238-246. -/
def shouldSkip (attrs : List Attr) : Bool := attrs.any isSkipAttr

/-- `has_attr_word`, src/bindgen/utilities.rs:142-150. -/
def hasAttrWord (name : Str) (attrs : List Attr) : Bool :=
  attrs.any fun a => match a with
    | .word n => n == name
    | _ => false

/-- All arguments of `#[unsafe(...)]` as paths, or `none` (the parser fails). -/
def unsafeWords : List UnsafeArg → Option (List Str)
  | [] => some []
  | .word n :: as => (unsafeWords as).map (n :: ·)
  | .nameValue _ _ :: _ => none

/-- All arguments of `#[unsafe(...)]` as `name = value`, or `none` (the parser fails). -/
def unsafePairs : List UnsafeArg → Option (List (Str × Option Str))
  | [] => some []
  | .word _ :: _ => none
  | .nameValue n v :: as => (unsafePairs as).map ((n, v) :: ·)

/-- `has_unsafe_attr_word`, src/bindgen/utilities.rs:168-187. -/
def hasUnsafeAttrWord (name : Str) (attrs : List Attr) : Bool :=
  attrs.any fun a => match a with
    | .unsafeList args => match unsafeWords args with
      | some ws => ws.contains name
      | none => false
    | _ => false

/-- `is_no_mangle`, src/bindgen/utilities.rs:233-235. -/
def isNoMangle (attrs : List Attr) : Bool :=
  hasAttrWord c!"no_mangle" attrs || hasUnsafeAttrWord c!"no_mangle" attrs

/-- `attr_name_value_lookup`, src/bindgen/utilities.rs:248-268. -/
def attrLookup (name : Str) (attrs : List Attr) : Option Str :=
  attrs.findSome? fun a => match a with
    | .nameValue n (some v) => if n = name then some v else none
    | _ => none

/-- The loop over the arguments, src/bindgen/utilities.rs:280-290. -/
def pairLookup (name : Str) : List (Str × Option Str) → Option Str
  | [] => none
  | (n, some v) :: ps => if n = name then some v else pairLookup name ps
  | (_, none) :: ps => pairLookup name ps

/-- `unsafe_attr_name_value_lookup`, src/bindgen/utilities.rs:270-295. -/
def unsafeAttrLookup (name : Str) (attrs : List Attr) : Option Str :=
  attrs.findSome? fun a => match a with
    | .unsafeList args => (unsafePairs args).bind (pairLookup name)
    | _ => none

/-- `exported_name` of a function or method, src/bindgen/utilities.rs:37-62. -/
def fnExportedName (attrs : List Attr) (ident : Str) : Option Str :=
  (attrLookup c!"export_name" attrs).or <|
    (unsafeAttrLookup c!"export_name" attrs).or <|
      if isNoMangle attrs then some ident else none

/-- `exported_name` of a static, src/bindgen/utilities.rs:64-76. -/
def staticExportedName (attrs : List Attr) (ident : Str) : Option Str :=
  (attrLookup c!"export_name" attrs).or <| if isNoMangle attrs then some ident else none

/-- `Option<syn::Abi>`: no `extern`, `extern` without a name, `extern "name"`. -/
inductive Abi
  | rust
  | omitted
  | named (s : Str)
  deriving DecidableEq

/-- `is_c`, src/bindgen/utilities.rs:397-403. -/
def Abi.isC : Abi → Bool
  | .named s => s == c!"C" || s == c!"C-unwind"
  | _ => false

/-- `is_cmse`, src/bindgen/utilities.rs:404-413. -/
def Abi.isCmse : Abi → Bool
  | .named s => s == c!"cmse-nonsecure-entry" || s == c!"cmse-nonsecure-call"
  | _ => false

/-- `is_omitted`, src/bindgen/utilities.rs:389-391 and 414-416. -/
def Abi.isOmitted : Abi → Bool
  | .omitted => true
  | _ => false

/-- A function or method.  `loads`: `Function::load` succeeds on it. -/
structure FnItem where
  ident : Str
  attrs : List Attr
  abi : Abi
  loads : Bool

/-- A constant or static.  `loads`: `Constant::load` or `Static::load` succeeds on it. -/
structure ConstSrc where
  ident : Str
  attrs : List Attr
  isPub : Bool
  loads : Bool

/-- How a module's file was found: inline or readable; not found; cannot be read or parsed. -/
inductive FileState
  | found
  | missing
  | broken
  deriving DecidableEq

/-- An item of a module (`syn::Item`). -/
inductive RItem
  | fn (f : FnItem)
  | const (c : ConstSrc)
  | static (c : ConstSrc)
  /-- a struct, union, enum or type alias; it is always taken, possibly as an opaque item -/
  | type (ident : Str) (attrs : List Attr)
  /-- an `impl`; `selfIdent`: its type if it is a plain identifier (src/bindgen/parser.rs:546-547);
  `rootName`: the path that associated constants are attached to, if the type has one
  (src/bindgen/parser.rs:771-792) -/
  | impl (attrs : List Attr) (selfIdent rootName : Option Str) (methods : List FnItem)
      (consts : List ConstSrc)
  | foreign (attrs : List Attr) (abi : Abi) (fns : List FnItem)
  /-- a `bitflags!` invocation that parses: the struct it declares, if any, and the constants of its
  `impl` -/
  | bitflags (attrs : List Attr) (struct : Option (Str × List Attr)) (rootName : Option Str)
      (consts : List ConstSrc)
  | mod (attrs : List Attr) (state : FileState) (items : List RItem)
  | other (attrs : List Attr)

/-- The attributes of an item, src/bindgen/utilities.rs:326-353. -/
def RItem.attrs : RItem → List Attr
  | .fn f => f.attrs
  | .const c => c.attrs
  | .static c => c.attrs
  | .type _ as => as
  | .impl as _ _ _ _ => as
  | .foreign as _ _ => as
  | .bitflags as _ _ _ => as
  | .mod as _ _ => as
  | .other as => as

/-- What is taken. -/
inductive EntryKind
  | function
  | constant
  | static
  | type
  | assocConst
  deriving DecidableEq

/-- A taken item; `owner` is the type of a method or associated constant. -/
structure Entry where
  kind : EntryKind
  owner : Option Str
  name : Str
  deriving DecidableEq

/-- The options read by the parser: src/bindgen/config.rs, `ParseConfig`, `ParseExpandConfig`,
`MacroExpansionConfig`. -/
structure ParseConfig where
  bindingCrate : Str
  parseDeps : Bool := false
  incl : Option (List Str) := none
  exclude : List Str := []
  expandCrates : List Str := []
  extraBindings : List Str := []
  expandBitflags : Bool := false

/-- `should_generate_top_level_item`, src/bindgen/config.rs:863-874. -/
def ParseConfig.topLevel (cfg : ParseConfig) (crate : Str) : Bool :=
  crate == cfg.bindingCrate || cfg.extraBindings.contains crate

/-- The entry with its guard, `Cfg::append(mod_cfg, Cfg::load(attrs))` in `Function::load`,
`Constant::load`, `Static::load`, `Struct::load`, `Union::load`, `Enum::load`, `Typedef::load` and
`OpaqueItem::load`. -/
def guarded (modCfg : Option Cfg) (attrs : List Attr) (e : Entry) : Entry × Option Cfg :=
  (e, Cfg.append modCfg (Cfg.load attrs))

/-- `load_fn_declaration`, src/bindgen/parser.rs:699-758. -/
def loadFn (cfg : ParseConfig) (crate : Str) (modCfg : Option Cfg) (owner : Option Str)
    (f : FnItem) : List (Entry × Option Cfg) :=
  if cfg.topLevel crate = false then []
  else
    let isExternC := f.abi.isOmitted || f.abi.isC || f.abi.isCmse
    match isExternC, fnExportedName f.attrs f.ident with
    | true, some name => if f.loads then [guarded modCfg f.attrs ⟨.function, owner, name⟩] else []
    | _, _ => []

/-- The loop of `load_syn_foreign_mod`, src/bindgen/parser.rs:618-652. -/
def loadForeignFns (cfg : ParseConfig) (crate : Str) (modCfg : Option Cfg) :
    List FnItem → List (Entry × Option Cfg)
  | [] => []
  | f :: fs =>
    if cfg.topLevel crate = false then []
    else (if f.loads then [guarded modCfg f.attrs ⟨.function, none, f.ident⟩] else []) ++
      loadForeignFns cfg crate modCfg fs

/-- `load_syn_assoc_consts_from_impl`, `load_syn_assoc_consts`, src/bindgen/parser.rs:582-602 and
761-828.  A constant that is not `pub` ends the loop. -/
def loadAssocConsts (modCfg : Option Cfg) (root : Str) : List ConstSrc → List (Entry × Option Cfg)
  | [] => []
  | c :: cs =>
    if shouldSkip c.attrs then loadAssocConsts modCfg root cs
    else if c.isPub = false then []
    else (if c.loads then [guarded modCfg c.attrs ⟨.assocConst, some root, c.ident⟩] else []) ++
      loadAssocConsts modCfg root cs

/-- The associated constants of an `impl`, if its type has a path. -/
def loadImplConsts (modCfg : Option Cfg) (root : Option Str) (cs : List ConstSrc) :
    List (Entry × Option Cfg) :=
  match root with
  | none => []
  | some r => loadAssocConsts modCfg r cs

/-- The methods of an `impl`, src/bindgen/parser.rs:545-566. -/
def loadMethods (cfg : ParseConfig) (crate : Str) (modCfg : Option Cfg) (self : Option Str)
    (ms : List FnItem) : List (Entry × Option Cfg) :=
  match self with
  | none => []
  | some s => (ms.filter fun m => shouldSkip m.attrs = false).flatMap
      fun m => loadFn cfg crate modCfg (some s) m

/-- The `match item` of `load_syn_crate_mod`, src/bindgen/parser.rs:501-574, for an item that is not
skipped; `load_syn_const` 831-870, `load_syn_static` 873-906, `load_syn_struct` etc. 909-994,
`load_builtin_macro` 996-1043. -/
def loadItem (cfg : ParseConfig) (crate : Str) (modCfg : Option Cfg) :
    RItem → List (Entry × Option Cfg)
  | .foreign attrs abi fns =>
    if abi.isC = false ∧ abi.isOmitted = false then []
    else loadForeignFns cfg crate (Cfg.append modCfg (Cfg.load attrs)) fns
  | .fn f => loadFn cfg crate modCfg none f
  | .const c =>
    if cfg.topLevel crate = false then []
    else if c.isPub = false then []
    else if c.loads then [guarded modCfg c.attrs ⟨.constant, none, c.ident⟩] else []
  | .static c =>
    if cfg.topLevel crate = false then []
    else
      match staticExportedName c.attrs c.ident with
      | some name => if c.loads then [guarded modCfg c.attrs ⟨.static, none, name⟩] else []
      | none => []
  | .type ident attrs => [guarded modCfg attrs ⟨.type, none, ident⟩]
  | .impl _ self _ methods _ => loadMethods cfg crate modCfg self methods
  | .bitflags _ struct root consts =>
    if cfg.expandBitflags = false then []
    else
      (match struct with
       | some (ident, attrs) => [guarded modCfg attrs ⟨.type, none, ident⟩]
       | none => []) ++ loadImplConsts modCfg root consts
  | .mod _ _ _ => []
  | .other _ => []

/-- The second loop of `load_syn_crate_mod`, src/bindgen/parser.rs:576-578, for one item. -/
def loadLate (modCfg : Option Cfg) : RItem → List (Entry × Option Cfg)
  | .impl _ _ root _ consts => loadImplConsts modCfg root consts
  | _ => []

/-- Items that are not skipped, src/bindgen/parser.rs:498-500. -/
def notSkipped (items : List RItem) : List RItem := items.filter fun i => shouldSkip i.attrs = false

/-- `load_syn_crate_mod`, src/bindgen/parser.rs:489-579 (without the returned nested modules). -/
def loadMod (cfg : ParseConfig) (crate : Str) (modCfg : Option Cfg) (items : List RItem) :
    List (Entry × Option Cfg) :=
  (notSkipped items).flatMap (loadItem cfg crate modCfg) ++
    (notSkipped items).flatMap (loadLate modCfg)

/-- A package, src/bindgen/cargo/cargo_metadata.rs `PackageRef`. -/
structure Pkg where
  name : Str
  version : Option Str
  deriving DecidableEq

/-- The parser's state, src/bindgen/parser.rs:93-108.  `log` is a ghost field: the packages parsed so
far with the cfg stack at that point. -/
structure PState where
  parsed : List Str := []
  stack : List Cfg := []
  out : List (Entry × Option Cfg) := []
  log : List (Pkg × List Cfg) := []

/-- Errors of the parser; `fuel` is not an error of the code, see `C33_terminates`. -/
inductive PErr
  | io
  | fuel
  deriving DecidableEq

/-- Push the cfg of a module or dependency, src/bindgen/parser.rs:182-184 and 316-319. -/
def PState.push (st : PState) (c : Option Cfg) : PState :=
  match c with
  | some c => { st with stack := st.stack ++ [c] }
  | none => st

/-- Pop it again, src/bindgen/parser.rs:188-190 and 402-404. -/
def PState.pop (st : PState) (c : Option Cfg) : PState :=
  match c with
  | some _ => { st with stack := st.stack.dropLast }
  | none => st

/-- The first half of `process_mod`: load the items of a module, src/bindgen/parser.rs:304-312. -/
def enterMod (cfg : ParseConfig) (crate : Str) (st : PState) (items : List RItem) : PState :=
  { st with out := st.out ++ loadMod cfg crate (Cfg.join st.stack) items }

mutual
/-- The second half of `process_mod`: the loop over the nested modules,
src/bindgen/parser.rs:314-405.  It runs over all items here; those that are no modules or are
skipped are passed over. -/
def processNested (cfg : ParseConfig) (crate : Str) (st : PState) :
    List RItem → Except PErr PState
  | [] => .ok st
  | item :: rest =>
    match processOne cfg crate st item with
    | .ok st => processNested cfg crate st rest
    | .error e => .error e
/-- One nested module, src/bindgen/parser.rs:315-404, and `parse_mod` 233-286 (reading the file is
abstracted into the tree). -/
def processOne (cfg : ParseConfig) (crate : Str) (st : PState) : RItem → Except PErr PState
  | .mod attrs .found sub =>
    if shouldSkip attrs then .ok st
    else
      match processNested cfg crate (enterMod cfg crate (st.push (Cfg.load attrs)) sub) sub with
      | .ok st' => .ok (st'.pop (Cfg.load attrs))
      | .error e => .error e
  | .mod attrs .broken _ => if shouldSkip attrs then .ok st else .error .io
  | _ => .ok st
end

/-- `process_mod`, src/bindgen/parser.rs:294-408. -/
def processMod (cfg : ParseConfig) (crate : Str) (st : PState) (items : List RItem) :
    Except PErr PState :=
  processNested cfg crate (enterMod cfg crate st items) items

/-- A package's source: no library target found, unreadable, or its items. -/
inductive Source
  | missing
  | broken
  | items (is : List RItem)

/-- The `cargo` side, src/bindgen/cargo/cargo.rs: `find_crate_src` (or the output of `cargo expand`) and
`dependencies`. -/
structure Workspace where
  source : Pkg → Source
  deps : Pkg → List (Pkg × Option Cfg)

/-- `STD_CRATES`, src/bindgen/parser.rs:24-31. -/
def stdCrates : List Str :=
  [c!"std", c!"std_unicode", c!"alloc", c!"collections", c!"core", c!"proc_macro"]

/-- `should_parse_dependency`, src/bindgen/parser.rs:110-147. -/
def shouldParseDependency (cfg : ParseConfig) (st : PState) (name : Str) : Bool :=
  if st.parsed.contains name then false
  else if cfg.parseDeps = false then false
  else if cfg.expandCrates.contains name then true
  else
    match cfg.incl with
    | some incl =>
      if incl.contains name = false then false
      else !stdCrates.contains name && !cfg.exclude.contains name
    | none => !stdCrates.contains name && !cfg.exclude.contains name

/-- The source part of `parse_crate`, src/bindgen/parser.rs:152-175. -/
def parseSource (cfg : ParseConfig) (ws : Workspace) (p : Pkg) (st : PState) :
    Except PErr PState :=
  match ws.source p with
  | .missing => .ok st
  | .broken => .error .io
  | .items is => processMod cfg p.name st is

/-- One iteration of the loop over the dependencies, src/bindgen/parser.rs:177-191. -/
def stepDep (cfg : ParseConfig) (parse : Pkg → PState → Except PErr PState) (st : PState)
    (d : Pkg × Option Cfg) : Except PErr PState :=
  if shouldParseDependency cfg st d.1.name then
    match parse d.1 (st.push d.2) with
    | .ok st' => .ok (st'.pop d.2)
    | .error e => .error e
  else .ok st

/-- The loop over the dependencies, src/bindgen/parser.rs:177-191. -/
def loopDeps (cfg : ParseConfig) (parse : Pkg → PState → Except PErr PState) :
    PState → List (Pkg × Option Cfg) → Except PErr PState
  | st, [] => .ok st
  | st, d :: ds =>
    match stepDep cfg parse st d with
    | .ok st => loopDeps cfg parse st ds
    | .error e => .error e

/-- `parse_crate`, src/bindgen/parser.rs:149-194.  The fuel bounds the recursion depth. -/
def parseCrate (cfg : ParseConfig) (ws : Workspace) : Nat → Pkg → PState → Except PErr PState
  | 0, _, _ => .error .fuel
  | n + 1, p, st =>
    match parseSource cfg ws p
      { st with parsed := p.name :: st.parsed, log := st.log ++ [(p, st.stack)] } with
    | .ok st => loopDeps cfg (parseCrate cfg ws n) st (ws.deps p)
    | .error e => .error e

/-- `parse_lib`, src/bindgen/parser.rs:71-91. -/
def parseLib (cfg : ParseConfig) (ws : Workspace) (fuel : Nat) (root : Pkg) : Except PErr PState :=
  parseCrate cfg ws fuel root {}

end Cbindgen
