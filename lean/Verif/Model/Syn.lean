import Verif.Model.Parser

/-!
# The syntax tree that is loaded

The parts of the `syn` crate's syntax tree that the `load` functions look at.  Identifiers are given as
they are written, so a raw identifier starts with `r#`.
-/

namespace Cbindgen

/-- `syn::ext::IdentExt::unraw`. -/
def unraw (s : Str) : Str := if c!"r#".isPrefixOf s then s.drop 2 else s

/-- An attribute with its style: `outer` is `#[...]`, otherwise `#![...]`. -/
structure SAttr where
  outer : Bool := true
  attr : Attr

/-- `syn::BinOp`. -/
inductive BinOp
  | add | sub | mul | div | rem | and | or | bitXor | bitAnd | bitOr | shl | shr
  | eq | lt | le | ne | ge | gt
  | addAssign | subAssign | mulAssign | divAssign | remAssign | bitXorAssign | bitAndAssign
  | bitOrAssign | shlAssign | shrAssign
  deriving DecidableEq

/-- `syn::UnOp`. -/
inductive UnOp
  | deref | not | neg
  deriving DecidableEq

/-- `syn::Lit`.  Of an integer the tree keeps the value (whose decimal digits are `base10_digits`) and the
suffix, of a float the digits. -/
inductive SynLit
  | byte (n : Nat)
  | char (c : Char)
  | int (value : Nat) (suffix : Str)
  | float (digits : Str)
  | bool (b : Bool)
  | other

/-- `syn::Member`. -/
inductive SynMember
  | named (ident : Str)
  | unnamed (index : Nat)

mutual
/-- `syn::Type`.  Of a path only the last segment is looked at. -/
inductive SynTy
  | reference (mutable : Bool) (elem : SynTy)
  | ptr (isConst : Bool) (elem : SynTy)
  | path (last : Str) (args : SynArgs)
  | array (elem : SynTy) (len : SynExpr)
  | fnptr (inputs : List SynFnArg) (variadic : Bool) (output : SynRet)
  | tuple (elems : List SynTy)
  | never
  /-- `...`, which `syn` gives as verbatim tokens -/
  | dots
  | other
/-- `syn::PathArguments`. -/
inductive SynArgs
  | none
  | angle (args : List SynGArg)
  | paren
/-- `syn::GenericArgument`. -/
inductive SynGArg
  | type (t : SynTy)
  | lifetime
  | const (e : SynExpr)
  | other
/-- A parameter of a function pointer. -/
inductive SynFnArg
  | mk (name : Option Str) (ty : SynTy)
/-- `syn::ReturnType`. -/
inductive SynRet
  | default
  | type (t : SynTy)
/-- `syn::Expr`. -/
inductive SynExpr
  | binary (left : SynExpr) (op : BinOp) (right : SynExpr)
  | lit (l : SynLit)
  | field (base : SynExpr) (member : SynMember)
  | call (func : SynExpr) (args : List SynExpr)
  | struct (name : Str) (fields : List SynFieldValue)
  | unary (op : UnOp) (expr : SynExpr)
  | path (init : List Str) (last : Str) (args : SynArgs)
  | paren (expr : SynExpr)
  | cast (expr : SynExpr) (ty : SynTy)
  | array (elems : List SynExpr)
  | methodCall (receiver : SynExpr) (method : Str) (args : List SynExpr)
  | other
/-- `syn::FieldValue`. -/
inductive SynFieldValue
  | mk (member : SynMember) (expr : SynExpr) (attrs : List SAttr)
end

/-- `syn::GenericParam`. -/
inductive SynGenericParam
  | type (ident : Str) (default : Option SynTy)
  | lifetime
  | const (ident : Str) (ty : SynTy) (default : Option SynExpr)

/-- `syn::Field`. -/
structure SynField where
  ident : Option Str
  ty : SynTy
  attrs : List SAttr := []

/-- `syn::Fields`. -/
inductive SynFields
  | unit
  | named (fields : List SynField)
  | unnamed (fields : List SynField)

/-- `syn::ItemStruct`. -/
structure SynStruct where
  ident : Str
  generics : List SynGenericParam := []
  fields : SynFields
  attrs : List SAttr := []

/-- `syn::ItemUnion`. -/
structure SynUnion where
  ident : Str
  generics : List SynGenericParam := []
  fields : List SynField
  attrs : List SAttr := []

/-- `syn::Variant`. -/
structure SynVariant where
  ident : Str
  fields : SynFields
  disc : Option SynExpr := none
  attrs : List SAttr := []

/-- `syn::ItemEnum`. -/
structure SynEnum where
  ident : Str
  generics : List SynGenericParam := []
  variants : List SynVariant
  attrs : List SAttr := []

/-- `syn::ItemType`. -/
structure SynAlias where
  ident : Str
  generics : List SynGenericParam := []
  ty : SynTy
  attrs : List SAttr := []

/-- `syn::ItemConst` and `syn::ImplItemConst`. -/
structure SynConst where
  ident : Str
  ty : SynTy
  expr : SynExpr
  isPub : Bool := true
  attrs : List SAttr := []

/-- `syn::ItemStatic`. -/
structure SynStatic where
  ident : Str
  ty : SynTy
  mutable : Bool := false
  attrs : List SAttr := []

/-- `syn::Receiver`: `self`, `&self`, `self: T` or something else. -/
inductive SynReceiver
  | value
  | reference (mutable : Bool)
  | typed (ty : SynTy)
  | other

/-- A parameter of a function: the receiver, or a pattern with a type. -/
inductive SynParam
  | receiver (r : SynReceiver)
  /-- a parameter `_` -/
  | wild (ty : SynTy)
  | ident (name : Str) (ty : SynTy)
  /-- a parameter with another pattern -/
  | pattern (ty : SynTy)

/-- `syn::Signature`. -/
structure SynSig where
  ident : Str
  abi : Abi
  inputs : List SynParam
  variadic : Bool := false
  output : SynRet := .default

end Cbindgen
