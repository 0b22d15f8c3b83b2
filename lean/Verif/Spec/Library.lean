import Verif.Model.Ir

/-!
# What an item table and a list of definitions should be
-/

namespace Cbindgen.LibSpec

/-- The different elements of a list, in the order of their first occurrences. -/
def firsts : List Str → List Str
  | [] => []
  | p :: ps => p :: (firsts ps).filter fun q => q ≠ p

/-- The definitions that a table should hold for a name: if the first definition of that name has no
condition, it alone; otherwise all definitions of that name that have a condition. -/
def kept {α : Type} [Item α] (xs : List α) (p : Str) : List α :=
  match xs.filter fun x => Item.path x = p with
  | [] => []
  | y :: ys =>
    if (Item.cfg y).isSome then y :: ys.filter fun z => (Item.cfg z).isSome
    else [y]

/-! ## References -/

/-- The type is built from the named type: the name occurs in it, at any depth, also as or inside a
generic argument. -/
inductive TyUses : Ty → Str → Prop
  | here (n e : Str) (gs : List GArg) (k : Option DeclKind) : TyUses (.path n e gs k) n
  | generic {m e : Str} {gs : List GArg} {k : Option DeclKind} {t : Ty} {n : Str} :
    GArg.type t ∈ gs → TyUses t n → TyUses (.path m e gs k) n
  | ptr {t : Ty} {c nl r : Bool} {n : Str} : TyUses t n → TyUses (.ptr t c nl r) n
  | array {t : Ty} {l : CExpr} {n : Str} : TyUses t n → TyUses (.array t l) n
  | ret {t : Ty} {as : List FArg} {nl nr : Bool} {n : Str} : TyUses t n → TyUses (.fnptr t as nl nr) n
  | arg {r t : Ty} {as : List FArg} {nl nr : Bool} {a : Option Str} {n : Str} :
    FArg.mk a t ∈ as → TyUses t n → TyUses (.fnptr r as nl nr) n

/-- The literal contains a struct literal of the named type or a path through the named type.  Types
that occur only in casts are not counted. -/
inductive LitUses : Lit → Str → Prop
  | assoc (p e n : Str) : LitUses (.path (some (p, e)) n) p
  | struct (p e : Str) (fs : List LitField) : LitUses (.struct p e fs) p
  | field {p e : Str} {fs : List LitField} {f : Str} {v : Lit} {c : Option Cfg} {n : Str} :
    LitField.mk f v c ∈ fs → LitUses v n → LitUses (.struct p e fs) n
  | unary {op : Str} {v : Lit} {n : Str} : LitUses v n → LitUses (.unary op v) n
  | left {op : Str} {l r : Lit} {n : Str} : LitUses l n → LitUses (.binop l op r) n
  | right {op : Str} {l r : Lit} {n : Str} : LitUses r n → LitUses (.binop l op r) n
  | base {b : Lit} {f n : Str} : LitUses b n → LitUses (.field b f) n
  | cast {t : Ty} {v : Lit} {n : Str} : LitUses v n → LitUses (.cast t v) n
  | item {is : List Lit} {i : Lit} {n : Str} : i ∈ is → LitUses i n → LitUses (.array is) n

/-- The named parameter belongs to the item. -/
def IsParam (params : List GParam) (n : Str) : Prop := ∃ p ∈ params, p.name = n

/-- The references of a constant. -/
def ConstUses (x : ConstItem) (n : Str) : Prop := TyUses x.ty n ∨ LitUses x.value n

/-- The references of a struct.  The tag of an enum is defined together with the enum. -/
def StructUses (x : StructItem) (n : Str) : Prop :=
  (∃ f ∈ x.fields.drop (if x.hasTagField then 1 else 0),
      TyUses f.ty n ∧ ¬ IsParam x.genericParams n) ∨
    ∃ k ∈ x.assocConsts, ConstUses k n

/-- The references of an item. -/
def ItemUses : Container → Str → Prop
  | .struct x, n => StructUses x n
  | .union x, n => ∃ f ∈ x.fields, TyUses f.ty n ∧ ¬ IsParam x.genericParams n
  | .enum x, n =>
    ∃ v ∈ x.variants,
      (∃ m b i ic, v.body = .body m b i ic ∧ StructUses b n) ∨ ∃ d, v.disc = some d ∧ LitUses d n
  | .typedef x, n => TyUses x.aliased n ∧ ¬ IsParam x.genericParams n
  | .opaque _, _ => False

/-- The references of a function. -/
def FuncUses (x : FuncItem) (n : Str) : Prop := TyUses x.ret n ∨ ∃ a ∈ x.args, TyUses a.ty n

/-- From one known name to another by following references; `get` gives the definitions of a name. -/
inductive Reaches (get : Str → Option (List Container)) : Str → Str → Prop
  | refl (p : Str) : Reaches get p p
  | step {p q r : Str} {items : List Container} {x : Container} : Reaches get p q →
    get q = some items → x ∈ items → ItemUses x r → (get r).isSome → Reaches get p r

/-! ## Orders -/

/-- `r` is `xs` in the order of the names; elements of the same name keep their order. -/
def StableByName {α : Type} (name : α → Str) (xs r : List α) : Prop :=
  r.Pairwise (fun a b => name a ≤ name b) ∧
    ∀ n, r.filter (fun x => name x = n) = xs.filter (fun x => name x = n)

/-- An enum without data. -/
def isPlainEnum : Container → Bool
  | .enum x => x.tag.isNone
  | _ => false

/-- An opaque type. -/
def isOpaque : Container → Bool
  | .opaque _ => true
  | _ => false

/-- The order of the items of a header: enums without data, then opaque types by name, then the
rest, as they were found. -/
def Layered (xs r : List Container) : Prop :=
  ∃ os, StableByName Container.path (xs.filter isOpaque) os ∧
    r = xs.filter isPlainEnum ++ os ++ xs.filter (fun x => !isPlainEnum x && !isOpaque x)

end Cbindgen.LibSpec
