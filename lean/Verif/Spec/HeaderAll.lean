import Verif.Spec.HeaderItems

/-!
# What a whole C header is to declare (C61), and a C++ header (C74)
-/

namespace Cbindgen.HeadSpec
open LexSpec CSpec PreSpec TextSpec

/-- The headers of the standard library. -/
def standardNames (c : OutConfig) : List Str :=
  if c.language = .cxx then
    [c!"cstdarg"] ++ (if c.usizeIsSizeT then [c!"cstddef"] else []) ++ [c!"cstdint", c!"cstdlib", c!"ostream", c!"new"] ++
    (if c.enumeration.castAssertName.isNone && (c.enumeration.deriveMutCasts || c.enumeration.deriveConstCasts) then [c!"cassert"]
     else [])
  else
  [c!"stdarg.h", c!"stdbool.h"] ++ (if c.usizeIsSizeT then [c!"stddef.h"] else []) ++ [c!"stdint.h", c!"stdlib.h"]

/-- The headers that are included: those in angle brackets, and those in quotes. -/
def includesOf (c : OutConfig) : List (List Lx) :=
  ((if c.noIncludes then [] else standardNames c) ++ c.allSysIncludes).map (fun i => [.punct '<'] ++ toks i ++ [.punct '>']) ++
  c.allIncludes.map fun i => [.quoted '"' i]

/-- What an item declares.  A transparent struct is an alias of the type of its field; its constants are not under the
condition of the struct. -/
def containerOut (R : Dialect) (e : Env) (on : Str → Bool) : Container → Out
  | .enum x => enumOut R e on x
  | .struct x =>
    match x.asTypedef with
    | some t => typedefOut e.cfg on t ++ assocOut e on x
    | none => structOut R e on x
  | .union x => unionOut R e.cfg on x
  | .opaque x => opaqueOut e.cfg on x
  | .typedef x => typedefOut e.cfg on x

def ContainerGood (R : Dialect) (on : Str → Bool) (D : List Str) (e : Env) : Container → Prop
  | .enum x => EnumGood R on D e x
  | .struct x =>
    match x.asTypedef with
    | some t => TypedefGood R e.cfg t ∧ ∀ k ∈ x.assocConsts, ConstGood R D e (some x) k
    | none => StructGood R on D e x
  | .union x => UnionGood R on D e.cfg x
  | .opaque x => OpaqueGood R e.cfg x
  | .typedef x => TypedefGood R e.cfg x

/-- The constants: those of primitive types come before the types, the others after. -/
def constantsOut (e : Env) (on : Str → Bool) (primitive : Bool) (ks : List ConstItem) : Out :=
  outs ((ks.filter fun k => k.onlyPrimitive == primitive).map (constOut e on none))

/-- The declarations between the guards. -/
def bindingsOut (R : Dialect) (e : Env) (on : Str → Bool) (b : Bindings) : Out :=
  constantsOut e on true b.constants ++
  outs ((b.items.filter fun i => i.annotations.shouldExport).map (containerOut R e on)) ++
  constantsOut e on false b.constants ++
  outs ((b.globals.filter fun g => g.annotations.shouldExport).map (staticOut e.cfg on)) ++
  outs ((b.functions.filter fun f => f.annotations.shouldExport).map (funcOut e.cfg on))

/-- The macro of the guard. -/
def guardOut (g : Option Str) : Out := ⟨[], g.toList.map fun g => (g, []), []⟩

/-- Everything between the guards. -/
def guardedOut (R : Dialect) (e : Env) (on : Str → Bool) (b : Bindings) : Out :=
  guardOut e.cfg.guard ++ blockOut R on e.cfg.autogenWarning ++ ⟨[], [], includesOf e.cfg⟩ ++
  blockOut R on e.cfg.afterIncludes ++ bindingsOut R e on b

/-- The whole header: the block that users give for the start, everything else if the macro of the guard is not
defined yet, and the block for the end. -/
def headerOut (R : Dialect) (e : Env) (on : Str → Bool) (b : Bindings) : Out :=
  blockOut R on e.cfg.header ++ whenOut (e.cfg.guard.all fun g => !on g) (guardedOut R e on b) ++ blockOut R on e.cfg.trailer

/-- No character that could end a comment. -/
def CommentSafe (s : Str) : Prop := ∀ k ∈ s, k ≠ '*' ∧ k ≠ '\\'

def QuoteSafe (s : Str) : Prop := ∀ k ∈ s, k ≠ '"' ∧ k ≠ '\\' ∧ isBreak k = false

structure HeaderGood (R : Dialect) (on : Str → Bool) (D : List Str) (e : Env) (b : Bindings) : Prop where
  options : OptsFine e.cfg R D
  /-- the header is read as C -/
  cpp : e.cfg.cppCompatibleC = true → on cplusplus = false ∧ cplusplus ∈ D
  spaces : ∀ n ∈ e.cfg.spaces, Word n
  version : CommentSafe e.packageVersion ∧ CommentSafe e.cfg.version
  /-- the macro of the guard is not one of those that conditions ask for -/
  guard : ∀ g, e.cfg.guard = some g → Word g ∧ g ∉ D
  header : ∀ s, e.cfg.header = some s → BlockText R on (e.cfg.guard.toList ++ D) s
  autogen : ∀ s, e.cfg.autogenWarning = some s → BlockText R on D s
  after : ∀ s, e.cfg.afterIncludes = some s → BlockText R on D s
  trailer : ∀ s, e.cfg.trailer = some s → BlockText R on D s
  sys : ∀ i ∈ e.cfg.allSysIncludes, ExprText i
  quoted : ∀ i ∈ e.cfg.allIncludes, QuoteSafe i
  constants : ∀ k ∈ b.constants, ConstGood R D e none k
  items : ∀ i ∈ b.items, i.annotations.shouldExport = true → ContainerGood R on D e i
  globals : ∀ g ∈ b.globals, g.annotations.shouldExport = true → StaticGood R e.cfg g
  functions : ∀ f ∈ b.functions, f.annotations.shouldExport = true → FuncGood R e.cfg f

/-! ## C++ -/

/-- A declaration around everything. -/
def aroundOut (f : List CItem → CItem) (o : Out) : Out := { o with items := [f o.items] }

/-- The declarations in the namespaces, the first one outermost. -/
def spacesOut (ns : List Str) (o : Out) : Out := ns.foldr (fun n o => aroundOut (.space n) o) o

/-- The functions and statics of C++: in a block `extern "C"`, after the directives for namespaces. -/
def cxxLinkageOut (e : Env) (on : Str → Bool) (b : Bindings) : Out :=
  if b.functions = [] ∧ b.globals = [] then {} else
    decls ((e.cfg.usingNamespaces.getD []).map .usingSpace) ++
    aroundOut (.linkage c!"C")
      (outs ((b.globals.filter fun g => g.annotations.shouldExport).map (staticOut e.cfg on)) ++
       outs ((b.functions.filter fun f => f.annotations.shouldExport).map (funcOut e.cfg on)))

def cxxBindingsOut (R : Dialect) (e : Env) (on : Str → Bool) (b : Bindings) : Out :=
  spacesOut (e.cfg.namespace_.toList ++ e.cfg.namespaces.getD [])
    (constantsOut e on true b.constants ++
     outs ((b.items.filter fun i => i.annotations.shouldExport).map (containerOut R e on)) ++
     constantsOut e on false b.constants ++ cxxLinkageOut e on b)

/-- The whole header, like `headerOut`. -/
def cxxHeaderOut (R : Dialect) (e : Env) (on : Str → Bool) (b : Bindings) : Out :=
  blockOut R on e.cfg.header ++
  whenOut (e.cfg.guard.all fun g => !on g)
    (guardOut e.cfg.guard ++ blockOut R on e.cfg.autogenWarning ++ ⟨[], [], includesOf e.cfg⟩ ++
     blockOut R on e.cfg.afterIncludes ++ cxxBindingsOut R e on b) ++
  blockOut R on e.cfg.trailer

structure CxxHeaderGood (R : Dialect) (on : Str → Bool) (D : List Str) (e : Env) (b : Bindings) : Prop where
  options : ReadFine e.cfg R D
  lang : e.cfg.language = .cxx
  spaces : ∀ n ∈ e.cfg.namespace_.toList ++ e.cfg.namespaces.getD [], Word n
  uses : ∀ n ∈ e.cfg.usingNamespaces.getD [], Word n
  version : CommentSafe e.packageVersion ∧ CommentSafe e.cfg.version
  guard : ∀ g, e.cfg.guard = some g → Word g ∧ g ∉ D
  header : ∀ s, e.cfg.header = some s → BlockText R on (e.cfg.guard.toList ++ D) s
  autogen : ∀ s, e.cfg.autogenWarning = some s → BlockText R on D s
  after : ∀ s, e.cfg.afterIncludes = some s → BlockText R on D s
  trailer : ∀ s, e.cfg.trailer = some s → BlockText R on D s
  sys : ∀ i ∈ e.cfg.allSysIncludes, ExprText i
  quoted : ∀ i ∈ e.cfg.allIncludes, QuoteSafe i
  constants : ∀ k ∈ b.constants, ConstGood R D e none k
  items : ∀ i ∈ b.items, i.annotations.shouldExport = true → ContainerGood R on D e i
  globals : ∀ g ∈ b.globals, g.annotations.shouldExport = true → StaticGood R e.cfg g
  functions : ∀ f ∈ b.functions, f.annotations.shouldExport = true → FuncGood R e.cfg f

end Cbindgen.HeadSpec
