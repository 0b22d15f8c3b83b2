import Verif.Model.Parser
import Verif.Spec.Cfg

/-!
# Which items a crate graph contributes, and under which condition
-/

namespace Cbindgen.ParserSpec

open Cbindgen CfgSpec

/-- The `cfg` predicates among attributes. -/
def cfgs (attrs : List Attr) : List Cfg :=
  attrs.filterMap fun a => match a with
    | .cfg c => c
    | _ => none

/-- The item is marked `#[test]`, `#[cfg(test)]` or `/// cbindgen:ignore`. -/
def Ignored (attrs : List Attr) : Prop :=
  .word c!"test" ∈ attrs ∨ .cfg (some (.boolean c!"test")) ∈ attrs ∨
    ∃ v, .nameValue c!"doc" (some v) ∈ attrs ∧ trim v = c!"cbindgen:ignore"

/-- `extern`, `extern "C"`, `extern "C-unwind"` or one of the CMSE calling conventions. -/
def CCompatible (a : Abi) : Prop :=
  a = .omitted ∨ a = .named c!"C" ∨ a = .named c!"C-unwind" ∨
    a = .named c!"cmse-nonsecure-entry" ∨ a = .named c!"cmse-nonsecure-call"

/-- The value of `#[export_name = "..."]`. -/
def plainExportName : Attr → Option Str
  | .nameValue n v => if n = c!"export_name" then v else none
  | _ => none

/-- The value of `#[unsafe(export_name = "...")]`. -/
def unsafeExportName : Attr → Option Str
  | .unsafeList [.nameValue n v] => if n = c!"export_name" then v else none
  | _ => none

/-- All export names, those of plain attributes first. -/
def exportNames (attrs : List Attr) : List Str :=
  attrs.filterMap plainExportName ++ attrs.filterMap unsafeExportName

/-- `#[no_mangle]` or `#[unsafe(no_mangle)]`. -/
def NoMangle (attrs : List Attr) : Prop :=
  .word c!"no_mangle" ∈ attrs ∨ .unsafeList [.word c!"no_mangle"] ∈ attrs

/-- The linker symbol of an item: its export name, or its identifier if it is not mangled. -/
def Exported (attrs : List Attr) (ident name : Str) : Prop :=
  (exportNames attrs).head? = some name ∨
    (exportNames attrs = [] ∧ NoMangle attrs ∧ name = ident)

/-- The crate's functions, constants and statics are wanted. -/
def Wanted (cfg : ParseConfig) (crate : Str) : Prop :=
  crate = cfg.bindingCrate ∨ crate ∈ cfg.extraBindings

/-- `Declares cfg crate i e cs`: item `i` of `crate` contributes `e` to the bindings, under the
conjunction of the predicates `cs` that are attached to it inside `i`. -/
inductive Declares (cfg : ParseConfig) (crate : Str) : RItem → Entry → List Cfg → Prop
  | fn {f name} : Wanted cfg crate → CCompatible f.abi → f.loads = true →
      Exported f.attrs f.ident name → Declares cfg crate (.fn f) ⟨.function, none, name⟩ (cfgs f.attrs)
  | const {c} : Wanted cfg crate → c.isPub = true → c.loads = true →
      Declares cfg crate (.const c) ⟨.constant, none, c.ident⟩ (cfgs c.attrs)
  | static {c name} : Wanted cfg crate → c.loads = true → Exported c.attrs c.ident name →
      Declares cfg crate (.static c) ⟨.static, none, name⟩ (cfgs c.attrs)
  | type {ident attrs} : Declares cfg crate (.type ident attrs) ⟨.type, none, ident⟩ (cfgs attrs)
  | method {attrs self root methods consts m name} : m ∈ methods → ¬ Ignored m.attrs →
      Wanted cfg crate → CCompatible m.abi → m.loads = true → Exported m.attrs m.ident name →
      Declares cfg crate (.impl attrs (some self) root methods consts)
        ⟨.function, some self, name⟩ (cfgs attrs ++ cfgs m.attrs)
  | assocConst {attrs self root methods consts c} : c ∈ consts → ¬ Ignored c.attrs →
      c.isPub = true → c.loads = true →
      Declares cfg crate (.impl attrs self (some root) methods consts)
        ⟨.assocConst, some root, c.ident⟩ (cfgs attrs ++ cfgs c.attrs)
  | foreign {attrs abi fns f} : abi = .omitted ∨ abi = .named c!"C" ∨ abi = .named c!"C-unwind" →
      f ∈ fns → ¬ Ignored f.attrs → Wanted cfg crate → f.loads = true →
      Declares cfg crate (.foreign attrs abi fns) ⟨.function, none, f.ident⟩
        (cfgs attrs ++ cfgs f.attrs)
  | flagsStruct {attrs ident sattrs root consts} : cfg.expandBitflags = true →
      Declares cfg crate (.bitflags attrs (some (ident, sattrs)) root consts) ⟨.type, none, ident⟩
        (cfgs attrs ++ cfgs sattrs)
  | flagsConst {attrs struct root consts c} : cfg.expandBitflags = true → c ∈ consts →
      ¬ Ignored c.attrs → c.isPub = true → c.loads = true →
      Declares cfg crate (.bitflags attrs struct (some root) consts)
        ⟨.assocConst, some root, c.ident⟩ (cfgs attrs ++ cfgs c.attrs)

/-- `InMod cfg crate items e cs`: the items, or the modules among them at any depth, contribute `e`
under the conjunction of `cs`, which collects the predicates on the way. -/
inductive InMod (cfg : ParseConfig) (crate : Str) : List RItem → Entry → List Cfg → Prop
  | here {items i e cs} : i ∈ items → ¬ Ignored i.attrs → Declares cfg crate i e cs →
      InMod cfg crate items e cs
  | nested {items attrs sub e cs} : .mod attrs .found sub ∈ items → ¬ Ignored attrs →
      InMod cfg crate sub e cs → InMod cfg crate items e (cfgs attrs ++ cs)

/-- `i` is among the items or in a module among them, at any depth, and neither it nor a module on
the way is ignored. -/
inductive Contains (i : RItem) : List RItem → Prop
  | here {items} : i ∈ items → ¬ Ignored i.attrs → Contains i items
  | nested {items attrs sub} : .mod attrs .found sub ∈ items → ¬ Ignored attrs → Contains i sub →
      Contains i items

/-- The item binds a function under `name`; `owner` is the type of a method. -/
inductive BindsFn : RItem → Option Str → Str → Prop
  | fn {f name} : CCompatible f.abi → f.loads = true → Exported f.attrs f.ident name →
      BindsFn (.fn f) none name
  | method {attrs self root methods consts m name} : m ∈ methods → ¬ Ignored m.attrs →
      CCompatible m.abi → m.loads = true → Exported m.attrs m.ident name →
      BindsFn (.impl attrs (some self) root methods consts) (some self) name
  | foreign {attrs abi fns f} : abi = .omitted ∨ abi = .named c!"C" ∨ abi = .named c!"C-unwind" →
      f ∈ fns → f.loads = true → BindsFn (.foreign attrs abi fns) none f.ident

/-- A dependency may be parsed. -/
def Allowed (cfg : ParseConfig) (name : Str) : Prop :=
  cfg.parseDeps = true ∧
    (name ∈ cfg.expandCrates ∨
      ((∀ incl, cfg.incl = some incl → name ∈ incl) ∧ name ∉ stdCrates ∧ name ∉ cfg.exclude))

/-- `CratePath cfg ws root p cs`: `p` is reached from `root` through allowed dependencies; `cs`
collects the predicates of the dependency edges. -/
inductive CratePath (cfg : ParseConfig) (ws : Workspace) (root : Pkg) : Pkg → List Cfg → Prop
  | root : CratePath cfg ws root root []
  | dep {p cs d c} : CratePath cfg ws root p cs → (d, c) ∈ ws.deps p → Allowed cfg d.name →
      CratePath cfg ws root d (cs ++ c.toList)

/-- `g` is equivalent to the conjunction of `cs`, and asks for nothing that they do not ask for: if all options in
`cs` have macros, those in `g` have. -/
def GuardIs (g : Option Cfg) (cs : List Cfg) : Prop :=
  (∀ on, holdsOpt on g = cs.all (holds on)) ∧
    ∀ defines, (∀ c ∈ cs, Mapped defines c) → ∀ c, g = some c → Mapped defines c

/-! ### Situations in which the code deviates from the above -/

mutual
/-- The crate avoids the situations in which the code is known to deviate (see the refutations in
`Verif/Props/Parser.lean`): a `cfg` on an `impl` or on a `bitflags!` invocation; an associated
constant that is not `pub` before one that is; an ignored function in an extern block; an
`#[unsafe(export_name)]` on a static. -/
def Regular : RItem → Prop
  | .impl attrs _ _ _ consts => cfgs attrs = [] ∧ ∀ c ∈ consts, c.isPub = true
  | .bitflags attrs _ _ consts => cfgs attrs = [] ∧ ∀ c ∈ consts, c.isPub = true
  | .foreign _ _ fns => ∀ f ∈ fns, ¬ Ignored f.attrs
  | .static c => ∀ args, .unsafeList args ∈ c.attrs → ∀ n v, .nameValue n v ∉ args
  | .mod _ _ sub => RegularAll sub
  | _ => True
def RegularAll : List RItem → Prop
  | [] => True
  | i :: is => Regular i ∧ RegularAll is
end

/-- `#[unsafe(...)]` attributes have exactly one argument, as Rust requires. -/
def UnsafeOne (attrs : List Attr) : Prop := ∀ args, .unsafeList args ∈ attrs → args.length = 1

mutual
/-- Every `#[unsafe(...)]` has one argument. -/
def WfUnsafe : RItem → Prop
  | .fn f => UnsafeOne f.attrs
  | .static c => UnsafeOne c.attrs
  | .impl _ _ _ methods _ => ∀ m ∈ methods, UnsafeOne m.attrs
  | .mod _ _ sub => WfUnsafeAll sub
  | _ => True
def WfUnsafeAll : List RItem → Prop
  | [] => True
  | i :: is => WfUnsafe i ∧ WfUnsafeAll is
end

end Cbindgen.ParserSpec
