import Verif.Model.Names

/-!
# The intermediate representation

The items of src/bindgen/ir, with the traversals that only depend on the item itself.
Documentation is kept as a list of lines.
-/

namespace Cbindgen

/-! ## Annotations -/

/-- `AnnotationValue`, src/bindgen/ir/annotation.rs:28-32. -/
inductive AnnValue
  | list (xs : List Str)
  | atom (x : Option Str)
  | bool (b : Bool)
  deriving DecidableEq

/-- `AnnotationSet`, src/bindgen/ir/annotation.rs:36-40.  The hash map is an association list; only
lookups are ever made. -/
structure Annotations where
  entries : List (Str × AnnValue) := []
  mustUse : Bool := false
  deprecated : Option Str := none
  deriving DecidableEq

/-- `AnnotationSet::is_empty`, src/bindgen/ir/annotation.rs:58-60. -/
def Annotations.isEmpty (a : Annotations) : Bool := a.entries.isEmpty && !a.mustUse

/-- `AnnotationSet::list`, src/bindgen/ir/annotation.rs:178-183. -/
def Annotations.list (a : Annotations) (name : Str) : Option (List Str) :=
  match a.entries.lookup name with
  | some (.list x) => some x
  | _ => none

/-- `AnnotationSet::atom`, src/bindgen/ir/annotation.rs:184-189. -/
def Annotations.atom (a : Annotations) (name : Str) : Option (Option Str) :=
  match a.entries.lookup name with
  | some (.atom x) => some x
  | _ => none

/-- `AnnotationSet::bool`, src/bindgen/ir/annotation.rs:190-195. -/
def Annotations.bool (a : Annotations) (name : Str) : Option Bool :=
  match a.entries.lookup name with
  | some (.bool x) => some x
  | _ => none

/-- `AnnotationSet::should_export`, src/bindgen/ir/annotation.rs:66-68. -/
def Annotations.shouldExport (a : Annotations) : Bool := !((a.bool c!"no-export").getD false)

/-! ## Generic parameters -/

/-- `GenericParam`, src/bindgen/ir/generic_path.rs:14-25; `constTy` is the type of a const
parameter. -/
structure GParam where
  name : Str
  constTy : Option Ty := none
  default : Option GArg := none

/-- `generic_params.iter().any(|param| param.name() == path)`, src/bindgen/ir/generic_path.rs:299 and
src/bindgen/ir/ty.rs:699. -/
def hasParam (params : List GParam) (n : Str) : Bool := params.any fun p => p.name == n

/-! ## Literals -/

mutual
/-- `Literal`, src/bindgen/ir/constant.rs:88-120.  The hash map of fields is listed in its iteration
order. -/
inductive Lit
  | expr (s : Str)
  | path (assoc : Option (Str × Str)) (name : Str)
  | unary (op : Str) (value : Lit)
  | binop (left : Lit) (op : Str) (right : Lit)
  | field (base : Lit) (name : Str)
  | struct (path exportName : Str) (fields : List LitField)
  | cast (ty : Ty) (value : Lit)
  | array (items : List Lit)
/-- An entry of the hash map of `LiteralStructField`s, src/bindgen/ir/constant.rs:82-86. -/
inductive LitField
  | mk (name : Str) (value : Lit) (cfg : Option Cfg)
end

/-! ## Items -/

/-- `Field`, src/bindgen/ir/field.rs:7-13. -/
structure Field where
  name : Str
  ty : Ty
  cfg : Option Cfg := none
  annotations : Annotations := {}
  doc : List Str := []

/-- `ReprAlign`, src/bindgen/ir/repr.rs:31-35. -/
inductive ReprAlign
  | packed
  | align (n : Nat)
  deriving DecidableEq

/-- `ReprStyle`, src/bindgen/ir/repr.rs:7-13. -/
inductive ReprStyle
  | rust
  | c
  | transparent
  deriving DecidableEq

/-- `Repr`, src/bindgen/ir/repr.rs:37-42 with `ReprType` (15-19). -/
structure Repr where
  style : ReprStyle := .rust
  ty : Option (IntKind × Bool) := none
  align : Option ReprAlign := none
  deriving DecidableEq

/-- `Constant`, src/bindgen/ir/constant.rs:545-554. -/
structure ConstItem where
  path : Str
  exportName : Str
  ty : Ty
  value : Lit
  cfg : Option Cfg := none
  annotations : Annotations := {}
  doc : List Str := []
  associatedTo : Option Str := none

/-- `Static`, src/bindgen/ir/global.rs:14-22. -/
structure StaticItem where
  path : Str
  exportName : Str
  ty : Ty
  mutable : Bool := false
  cfg : Option Cfg := none
  annotations : Annotations := {}
  doc : List Str := []

/-- `Struct`, src/bindgen/ir/structure.rs:25-41. -/
structure StructItem where
  path : Str
  exportName : Str
  genericParams : List GParam := []
  fields : List Field
  hasTagField : Bool := false
  isEnumVariantBody : Bool := false
  alignment : Option ReprAlign := none
  isTransparent : Bool := false
  cfg : Option Cfg := none
  annotations : Annotations := {}
  doc : List Str := []
  assocConsts : List ConstItem := []

/-- `Struct::new`, src/bindgen/ir/structure.rs:118-161. -/
def StructItem.new (path : Str) (genericParams : List GParam) (fields : List Field)
    (hasTagField isEnumVariantBody : Bool) (alignment : Option ReprAlign) (isTransparent : Bool)
    (cfg : Option Cfg) (annotations : Annotations) (doc : List Str) : StructItem :=
  { path, exportName := path, genericParams, fields, hasTagField, isEnumVariantBody, alignment,
    isTransparent := if fields.isEmpty then false else isTransparent, cfg, annotations, doc }

/-- `Union`, src/bindgen/ir/union.rs:21-31. -/
structure UnionItem where
  path : Str
  exportName : Str
  genericParams : List GParam := []
  fields : List Field
  tupleUnion : Bool := false
  alignment : Option ReprAlign := none
  cfg : Option Cfg := none
  annotations : Annotations := {}
  doc : List Str := []

/-- `VariantBody`, src/bindgen/ir/enumeration.rs:27-43. -/
inductive VBody
  | empty (annotations : Annotations)
  | body (name : Str) (body : StructItem) (inl inlineCasts : Bool)

/-- `EnumVariant`, src/bindgen/ir/enumeration.rs:88-95. -/
structure EnumVariant where
  name : Str
  exportName : Str
  disc : Option Lit := none
  body : VBody := .empty {}
  cfg : Option Cfg := none
  doc : List Str := []

/-- `EnumVariant::new`, src/bindgen/ir/enumeration.rs:237-253. -/
def EnumVariant.new (name : Str) (disc : Option Lit) (body : VBody) (cfg : Option Cfg)
    (doc : List Str) : EnumVariant :=
  { name, exportName := name, disc, body, cfg, doc }

/-- `Enum`, src/bindgen/ir/enumeration.rs:305-315. -/
structure EnumItem where
  path : Str
  exportName : Str
  genericParams : List GParam := []
  repr : Repr := {}
  variants : List EnumVariant
  tag : Option Str := none
  cfg : Option Cfg := none
  annotations : Annotations := {}
  doc : List Str := []

/-- `Typedef`, src/bindgen/ir/typedef.rs:22-30. -/
structure TypedefItem where
  path : Str
  exportName : Str
  genericParams : List GParam := []
  aliased : Ty
  cfg : Option Cfg := none
  annotations : Annotations := {}
  doc : List Str := []

/-- `OpaqueItem`, src/bindgen/ir/opaque.rs:16-23. -/
structure OpaqueItem where
  path : Str
  exportName : Str
  genericParams : List GParam := []
  cfg : Option Cfg := none
  annotations : Annotations := {}
  doc : List Str := []

/-- `Function`, src/bindgen/ir/function.rs:27-39. -/
structure FuncItem where
  path : Str
  selfTypePath : Option Str := none
  ret : Ty
  args : List FnArg
  externDecl : Bool := false
  cfg : Option Cfg := none
  annotations : Annotations := {}
  doc : List Str := []
  neverReturn : Bool := false

/-- `ItemContainer`, src/bindgen/ir/item.rs:59-67, for the kinds of items that can be in the list of
dependencies (`Library::get_items` never returns constants or statics). -/
inductive Container
  | enum (x : EnumItem)
  | struct (x : StructItem)
  | union (x : UnionItem)
  | opaque (x : OpaqueItem)
  | typedef (x : TypedefItem)

/-- `Item::path` of a container. -/
def Container.path : Container → Str
  | .enum x => x.path
  | .struct x => x.path
  | .union x => x.path
  | .opaque x => x.path
  | .typedef x => x.path

/-- `Item::export_name` of a container. -/
def Container.exportName : Container → Str
  | .enum x => x.exportName
  | .struct x => x.exportName
  | .union x => x.exportName
  | .opaque x => x.exportName
  | .typedef x => x.exportName

/-- What item tables look at: `Item::path` and `Item::cfg`, src/bindgen/ir/item.rs:19-27. -/
class Item (α : Type) where
  path : α → Str
  cfg : α → Option Cfg

instance : Item ConstItem := ⟨(·.path), (·.cfg)⟩
instance : Item StaticItem := ⟨(·.path), (·.cfg)⟩
instance : Item StructItem := ⟨(·.path), (·.cfg)⟩
instance : Item UnionItem := ⟨(·.path), (·.cfg)⟩
instance : Item EnumItem := ⟨(·.path), (·.cfg)⟩
instance : Item TypedefItem := ⟨(·.path), (·.cfg)⟩
instance : Item OpaqueItem := ⟨(·.path), (·.cfg)⟩

end Cbindgen
