import Verif.Model.Front
import Verif.Spec.Parser

/-!
# What is declared in source files, and under which condition (C63)
-/

namespace Cbindgen.SrcSpec

open CfgSpec
open ParserSpec hiding Declares

/-- The `cfg` predicates among attributes. -/
def conds (as : List SAttr) : List Cfg := cfgs (as.map (·.attr))

/-- Marked `#[test]`, `#[cfg(test)]` or `/// cbindgen:ignore`. -/
def Hidden (as : List SAttr) : Prop := Ignored (as.map (·.attr))

/-- The linker symbol of an item. -/
def Symbol (as : List SAttr) (ident name : Str) : Prop := Exported (as.map (·.attr)) (unraw ident) name

/-- `Declares cfg crate i t cs`: the item `i` of a crate declares `t`, under the conjunction of the predicates `cs`
that are written inside of `i`. -/
inductive Declares (cfg : ParseConfig) (crate : Str) : FItem → Taken → List Cfg → Prop
  | fn {f name} : Wanted cfg crate → CCompatible f.sig.abi → Symbol f.attrs f.sig.ident name →
      Declares cfg crate (.fn f) (.fn name none false f) (conds f.attrs)
  | method {attrs self methods consts m name} : m ∈ methods → ¬ Hidden m.attrs → Wanted cfg crate →
      CCompatible m.sig.abi → Symbol m.attrs m.sig.ident name →
      Declares cfg crate (.impl attrs true (.path self .none) methods consts) (.fn name (some (unraw self)) false m)
        (conds attrs ++ conds m.attrs)
  | foreign {attrs abi fns f} : abi = .omitted ∨ abi = .named c!"C" ∨ abi = .named c!"C-unwind" → f ∈ fns →
      ¬ Hidden f.attrs → Wanted cfg crate →
      Declares cfg crate (.foreign attrs abi fns) (.fn (unraw f.sig.ident) none true f) (conds attrs ++ conds f.attrs)
  | const {k} : Wanted cfg crate → k.isPub = true → Declares cfg crate (.const k) (.const k) (conds k.attrs)
  | static {s name} : Wanted cfg crate → Symbol s.attrs s.ident name →
      Declares cfg crate (.static s) (.static name s) (conds s.attrs)
  | struct {s} : Declares cfg crate (.struct s) (.struct s) (conds s.attrs)
  | union {u} : Declares cfg crate (.union u) (.union u) (conds u.attrs)
  | enum {e} : Declares cfg crate (.enum e) (.enum e) (conds e.attrs)
  | alias {t} : Declares cfg crate (.alias t) (.alias t) (conds t.attrs)
  | assoc {attrs plain ty methods consts k root} : implRoot ty = some root → k ∈ consts → ¬ Hidden k.attrs →
      k.isPub = true →
      Declares cfg crate (.impl attrs plain ty methods consts) (.assoc root k) (conds attrs ++ conds k.attrs)
  | flags {attrs b} : cfg.expandBitflags = true →
      Declares cfg crate (.bitflags attrs b) (.bitflags b) (conds attrs ++ conds (b.struct.getD []))

/-- `Occurs cfg crate items t cs`: `t` is declared by one of the items or in a module among them, at any depth; `cs`
collects the predicates on the way. -/
inductive Occurs (cfg : ParseConfig) (crate : Str) : List FItem → Taken → List Cfg → Prop
  | here {items i t cs} : i ∈ items → ¬ Hidden i.attrs → Declares cfg crate i t cs → Occurs cfg crate items t cs
  | nested {items attrs sub t cs} : .mod attrs .found sub ∈ items → ¬ Hidden attrs → Occurs cfg crate sub t cs →
      Occurs cfg crate items t (conds attrs ++ cs)

/-- `Reaches cfg ws root p cs`: `p` is reached from `root` through allowed dependencies; `cs` collects the predicates
of the dependency edges. -/
inductive Reaches (cfg : ParseConfig) (ws : FWorkspace) (root : Pkg) : Pkg → List Cfg → Prop
  | root : Reaches cfg ws root root []
  | dep {p cs d c} : Reaches cfg ws root p cs → (d, c) ∈ ws.deps p → Allowed cfg d.name →
      Reaches cfg ws root d (cs ++ c.toList)

/-- The options for a single file: its own name is that of the crate. -/
def fileConfig (pc : ParseConfig) (name : Str) : ParseConfig :=
  { bindingCrate := name, parseDeps := true, expandBitflags := pc.expandBitflags }

/-- `t` is declared in one of the given files or crates, under the conjunction of `cs`. -/
inductive Given (pc : ParseConfig) (i : Inputs) : Taken → List Cfg → Prop
  | src {name is t cs} : (name, some is) ∈ i.srcs → Occurs (fileConfig pc name) name is t cs → Given pc i t cs
  | lib {ws root p edges is t cs} : i.lib = some (ws, root) → Reaches pc ws root p edges → ws.source p = .items is →
      Occurs pc p.name is t cs → Given pc i t (edges ++ cs)

/-! ### Situations in which the code deviates -/

mutual
/-- As `ParserSpec.Regular`: no `cfg` on an `impl` or on a `bitflags!` invocation, no associated constant that is not
`pub`, no hidden function in an extern block, no `#[unsafe(export_name)]` on a static. -/
def Plain : FItem → Prop
  | .impl attrs _ _ _ consts => conds attrs = [] ∧ ∀ c ∈ consts, c.isPub = true
  | .bitflags attrs _ => conds attrs = []
  | .foreign _ _ fns => ∀ f ∈ fns, ¬ Hidden f.attrs
  | .static s => ∀ args, .unsafeList args ∈ s.attrs.map (·.attr) → ∀ n v, .nameValue n v ∉ args
  | .mod _ _ sub => PlainAll sub
  | _ => True
def PlainAll : List FItem → Prop
  | [] => True
  | i :: is => Plain i ∧ PlainAll is
end

mutual
/-- Every `#[unsafe(...)]` has one argument, as Rust requires. -/
def UnsafeFine : FItem → Prop
  | .fn f => UnsafeOne (f.attrs.map (·.attr))
  | .static s => UnsafeOne (s.attrs.map (·.attr))
  | .impl _ _ _ methods _ => ∀ m ∈ methods, UnsafeOne (m.attrs.map (·.attr))
  | .mod _ _ sub => UnsafeFineAll sub
  | _ => True
def UnsafeFineAll : List FItem → Prop
  | [] => True
  | i :: is => UnsafeFine i ∧ UnsafeFineAll is
end

/-- All files are plain. -/
structure InputsPlain (i : Inputs) : Prop where
  srcs : ∀ name is, (name, some is) ∈ i.srcs → PlainAll is ∧ UnsafeFineAll is
  lib : ∀ ws root p is, i.lib = some (ws, root) → ws.source p = .items is → PlainAll is ∧ UnsafeFineAll is

/-- No two crates that are reached have the same name, and all paths to a crate have the same predicates. -/
structure OnePath (pc : ParseConfig) (i : Inputs) : Prop where
  names : ∀ ws root p q cs cs', i.lib = some (ws, root) → Reaches pc ws root p cs → Reaches pc ws root q cs' →
    p.name = q.name → p = q
  paths : ∀ ws root p cs cs', i.lib = some (ws, root) → Reaches pc ws root p cs → Reaches pc ws root p cs' → cs = cs'

end Cbindgen.SrcSpec
