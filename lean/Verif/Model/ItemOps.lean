import Verif.Model.LibConfig

/-!
# What the library stage does to one item

src/bindgen/ir/{structure,union,enumeration,typedef,opaque,global,constant,function}.rs
-/

namespace Cbindgen

/-- Apply a function to the type of a field. -/
def Field.mapTy (g : Ty → Ty) (x : Field) : Field := { x with ty := g x.ty }

/-- Apply a function to the type of an argument. -/
def FnArg.mapTy (g : Ty → Ty) (x : FnArg) : FnArg := { x with ty := g x.ty }

/-! ## One function on every type: simplification, declaration keywords, mangled paths -/

/-- `Struct::{simplify_standard_types, resolve_declaration_types, mangle_paths}`,
src/bindgen/ir/structure.rs:163-167, 305-309, 189-193. -/
def StructItem.mapTys (g : Ty → Ty) (x : StructItem) : StructItem :=
  { x with fields := x.fields.map (Field.mapTy g) }

/-- `Union::{simplify_standard_types, resolve_declaration_types, mangle_paths}`,
src/bindgen/ir/union.rs:97-101, 155-159, 115-119. -/
def UnionItem.mapTys (g : Ty → Ty) (x : UnionItem) : UnionItem :=
  { x with fields := x.fields.map (Field.mapTy g) }

def VBody.mapTys (g : Ty → Ty) : VBody → VBody
  | .empty a => .empty a
  | .body n b i ic => .body n (b.mapTys g) i ic

/-- `EnumVariant::{simplify_standard_types, resolve_declaration_types, mangle_paths}`,
src/bindgen/ir/enumeration.rs:255-259, 270-274, 297-301. -/
def EnumVariant.mapTys (g : Ty → Ty) (v : EnumVariant) : EnumVariant :=
  { v with body := v.body.mapTys g }

/-- `Enum::{simplify_standard_types, resolve_declaration_types, mangle_paths}`,
src/bindgen/ir/enumeration.rs:1534-1538, 501-505, 349-353. -/
def EnumItem.mapTys (g : Ty → Ty) (x : EnumItem) : EnumItem :=
  { x with variants := x.variants.map (EnumVariant.mapTys g) }

/-- `Typedef::{simplify_standard_types, resolve_declaration_types, mangle_paths}`,
src/bindgen/ir/typedef.rs:69-71, 151-153, 113-115. -/
def TypedefItem.mapTys (g : Ty → Ty) (x : TypedefItem) : TypedefItem :=
  { x with aliased := g x.aliased }

/-- `Static::{simplify_standard_types, resolve_declaration_types}`, src/bindgen/ir/global.rs:66-68,
104-106. -/
def StaticItem.mapTys (g : Ty → Ty) (x : StaticItem) : StaticItem := { x with ty := g x.ty }

/-- `Function::{simplify_standard_types, resolve_declaration_types, mangle_paths}`,
src/bindgen/ir/function.rs:118-123, 146-151, 139-144. -/
def FuncItem.mapTys (g : Ty → Ty) (x : FuncItem) : FuncItem :=
  { x with ret := g x.ret, args := x.args.map (FnArg.mapTy g) }

/-! ## Dependencies -/

/-- `Constant::add_dependencies`, src/bindgen/ir/constant.rs:631-634. -/
def ConstItem.depPaths (x : ConstItem) : List Str := x.ty.depPaths [] ++ x.value.depPaths

/-- `Static::add_dependencies`, src/bindgen/ir/global.rs:112-114. -/
def StaticItem.depPaths (x : StaticItem) : List Str := x.ty.depPaths []

/-- `Function::add_dependencies`, src/bindgen/ir/function.rs:125-130. -/
def FuncItem.depPaths (x : FuncItem) : List Str :=
  x.ret.depPaths [] ++ x.args.flatMap fun a => a.ty.depPaths []

/-- `self.fields.iter()` without the tag field, src/bindgen/ir/structure.rs:376-381. -/
def StructItem.ownFields (x : StructItem) : List Field :=
  if x.hasTagField then x.fields.drop 1 else x.fields

/-- `Struct::add_dependencies`, src/bindgen/ir/structure.rs:375-392. -/
def StructItem.depPaths (x : StructItem) : List Str :=
  (x.ownFields.flatMap fun f => f.ty.depPaths x.genericParams) ++
    x.assocConsts.flatMap ConstItem.depPaths

/-- `Union::add_dependencies`, src/bindgen/ir/union.rs:215-221. -/
def UnionItem.depPaths (x : UnionItem) : List Str :=
  x.fields.flatMap fun f => f.ty.depPaths x.genericParams

def VBody.depPaths : VBody → List Str
  | .empty _ => []
  | .body _ b _ _ => b.depPaths

def optLitDepPaths : Option Lit → List Str
  | none => []
  | some l => l.depPaths

/-- `EnumVariant::add_dependencies`, src/bindgen/ir/enumeration.rs:261-268. -/
def EnumVariant.depPaths (v : EnumVariant) : List Str := v.body.depPaths ++ optLitDepPaths v.disc

/-- `Enum::add_dependencies`, src/bindgen/ir/enumeration.rs:644-648. -/
def EnumItem.depPaths (x : EnumItem) : List Str := x.variants.flatMap EnumVariant.depPaths

/-- `Typedef::add_dependencies`, src/bindgen/ir/typedef.rs:164-167. -/
def TypedefItem.depPaths (x : TypedefItem) : List Str := x.aliased.depPaths x.genericParams

/-- `Item::add_dependencies` of a container; opaque items have none, src/bindgen/ir/opaque.rs:101. -/
def Container.depPaths : Container → List Str
  | .enum x => x.depPaths
  | .struct x => x.depPaths
  | .union x => x.depPaths
  | .opaque _ => []
  | .typedef x => x.depPaths

/-! ## Renaming -/

/-- `Constant::rename_for_config`, src/bindgen/ir/constant.rs:660-666. -/
def ConstItem.renameFor (c : LibConfig) (x : ConstItem) : ConstItem :=
  { x with
    exportName := if x.associatedTo.isNone then c.ren x.exportName else x.exportName
    value := x.value.rename c.ren
    ty := x.ty.rename c.ren [] }

/-- `Static::rename_for_config`, src/bindgen/ir/global.rs:100-102. -/
def StaticItem.renameFor (c : LibConfig) (x : StaticItem) : StaticItem :=
  { x with ty := x.ty.rename c.ren [] }

/-- The types of the fields but not of the tag field, src/bindgen/ir/structure.rs:321-327. -/
def renameFieldTys (c : LibConfig) (params : List GParam) : Bool → List Field → List Field
  | true, f :: fs => f :: fs.map (Field.mapTy (Ty.rename c.ren params))
  | _, fs => fs.map (Field.mapTy (Ty.rename c.ren params))

/-- Put names into fields. -/
def setFieldNames : List Field → List Str → List Field
  | f :: fs, n :: ns => { f with name := n } :: setFieldNames fs ns
  | fs, _ => fs

/-- `Struct::rename_for_config`, src/bindgen/ir/structure.rs:315-373; `none` is a panic. -/
def StructItem.renameFor (c : LibConfig) (x : StructItem) : Option StructItem :=
  (x.annotations.ruleOr c.renameFields).map fun rule =>
    { x with
      exportName := if x.hasTagField ∧ c.language = .cxx then x.exportName else c.ren x.exportName
      fields := setFieldNames (renameFieldTys c x.genericParams x.hasTagField x.fields)
        (structFieldNames c.caseFns (x.annotations.list c!"field-names") rule
          (x.fields.map Field.name))
      assocConsts := x.assocConsts.map (ConstItem.renameFor c) }

/-- `Union::rename_for_config`, src/bindgen/ir/union.rs:165-213; `none` is a panic. -/
def UnionItem.renameFor (c : LibConfig) (x : UnionItem) : Option UnionItem :=
  (x.annotations.ruleOr c.renameFields).map fun rule =>
    { x with
      exportName := c.ren x.exportName
      fields := setFieldNames (x.fields.map (Field.mapTy (Ty.rename c.ren x.genericParams)))
        (unionFieldNames c.caseFns (x.annotations.list c!"field-names") rule x.tupleUnion
          (x.fields.map Field.name)) }

/-- `Typedef::rename_for_config`, src/bindgen/ir/typedef.rs:159-162. -/
def TypedefItem.renameFor (c : LibConfig) (x : TypedefItem) : TypedefItem :=
  { x with exportName := c.ren x.exportName, aliased := x.aliased.rename c.ren x.genericParams }

/-- `OpaqueItem::rename_for_config`, src/bindgen/ir/opaque.rs:97-99. -/
def OpaqueItem.renameFor (c : LibConfig) (x : OpaqueItem) : OpaqueItem :=
  { x with exportName := c.ren x.exportName }

/-- `body.fields[0].ty = ...`, src/bindgen/ir/enumeration.rs:523-525; `none` is a panic: no field. -/
def setFirstTy (t : Ty) : List Field → Option (List Field)
  | [] => none
  | f :: fs => some ({ f with ty := t } :: fs)

/-- The tag type in a variant, src/bindgen/ir/enumeration.rs:518-527. -/
def EnumVariant.setTag (newTag : Str) (v : EnumVariant) : Option EnumVariant :=
  match v.body with
  | .empty _ => some v
  | .body n b i ic =>
    (setFirstTy (Ty.newPath newTag []) b.fields).map fun fs =>
      { v with body := .body n { b with fields := fs } i ic }

/-- The tag, src/bindgen/ir/enumeration.rs:514-529; `none` is a panic.  `x` already has its new
exported name. -/
def EnumItem.renameTag (c : LibConfig) (x : EnumItem) : Option EnumItem :=
  if c.language ≠ .cxx ∧ x.tag.isSome then
    let newTag := x.exportName ++ c!"_Tag"
    if x.repr.style = .rust then
      (x.variants.mapM (EnumVariant.setTag newTag)).map fun vs =>
        { x with variants := vs, tag := some newTag }
    else some { x with tag := some newTag }
  else some x

/-- One variant in src/bindgen/ir/enumeration.rs:531-545; `none` is a panic. -/
def EnumVariant.renameBody (c : LibConfig) (v : EnumVariant) : Option EnumVariant :=
  match v.body with
  | .empty a =>
    some { v with exportName := escape v.exportName, disc := v.disc.map (Lit.rename c.ren),
                  body := .empty a }
  | .body n b i ic =>
    (b.renameFor c).map fun b =>
      { v with exportName := escape v.exportName, disc := v.disc.map (Lit.rename c.ren),
               body := .body (escape n) b i ic }

/-- The separator of `prefix-with-name`, src/bindgen/ir/enumeration.rs:552-556. -/
def LibConfig.variantSep (c : LibConfig) : Str :=
  if c.export_.mangle.removeUnderscores then [] else c!"_"

/-- `prefix-with-name` in one variant, src/bindgen/ir/enumeration.rs:558-565. -/
def EnumVariant.prefixName (p : Str) (v : EnumVariant) : EnumVariant :=
  { v with
    exportName := p ++ v.exportName
    body := match v.body with
      | .empty a => .empty a
      | .body n b i ic => .body n { b with exportName := p ++ b.exportName } i ic }

/-- The rename rule in one variant, src/bindgen/ir/enumeration.rs:577-602. -/
def EnumVariant.applyRule (f : CaseFns) (enumName : Str) (r : RenameRule) (v : EnumVariant) :
    EnumVariant :=
  EnumVariant.new (r.apply f v.exportName (.enumVariant enumName)) v.disc
    (match v.body with
      | .empty a => .empty a
      | .body n b i ic => .body (r.apply f n .structMember) b i ic)
    v.cfg v.doc

/-- `Enum::rename_for_config`, src/bindgen/ir/enumeration.rs:511-605; `none` is a panic. -/
def EnumItem.renameFor (c : LibConfig) (x : EnumItem) : Option EnumItem := do
  let x ← EnumItem.renameTag c { x with exportName := c.ren x.exportName }
  let vs ← x.variants.mapM (EnumVariant.renameBody c)
  let vs :=
    if (x.annotations.bool c!"prefix-with-name").getD c.prefixWithName then
      vs.map (EnumVariant.prefixName (x.exportName ++ c.variantSep))
    else vs
  let rule ← x.annotations.ruleOr c.renameVariants
  let vs :=
    match rule.notNone with
    | some r => vs.map (EnumVariant.applyRule c.caseFns x.exportName r)
    | none => vs
  pure { x with variants := vs }

/-- `Function::rename_for_config`, src/bindgen/ir/function.rs:153-219; `none` is a panic. -/
def FuncItem.renameFor (c : LibConfig) (x : FuncItem) : Option FuncItem := do
  let rule ← x.annotations.ruleOr c.renameArgs
  let args ← Cbindgen.renameArgs c.caseFns (Ty.rename c.ren []) rule
    (x.annotations.list c!"ptrs-as-arrays") x.args
  pure { x with ret := x.ret.rename c.ren [], args := args }

/-! ## Specialisation -/

/-- `Struct::specialize`, src/bindgen/ir/structure.rs:195-223. -/
def StructItem.specialize (c : LibConfig) (values : List GArg) (m : List (Str × GArg))
    (x : StructItem) : StructItem :=
  StructItem.new (c.manglePath x.path values) [] (x.fields.map (Field.mapTy (Ty.specialize m)))
    x.hasTagField x.isEnumVariantBody x.alignment x.isTransparent x.cfg x.annotations x.doc

/-- The monomorph of `Union::instantiate_monomorph`, src/bindgen/ir/union.rs:230-254. -/
def UnionItem.specialize (c : LibConfig) (values : List GArg) (m : List (Str × GArg))
    (x : UnionItem) : UnionItem :=
  { x with
    path := c.manglePath x.path values
    exportName := c.manglePath x.path values
    genericParams := []
    fields := x.fields.map (Field.mapTy (Ty.specialize m)) }

/-- `VariantBody::specialize`, src/bindgen/ir/enumeration.rs:64-84. -/
def VBody.specialize (c : LibConfig) (values : List GArg) (m : List (Str × GArg)) : VBody → VBody
  | .empty a => .empty a
  | .body n b i ic => .body n (b.specialize c values m) i ic

/-- `EnumVariant::specialize`, src/bindgen/ir/enumeration.rs:276-289. -/
def EnumVariant.specialize (c : LibConfig) (values : List GArg) (m : List (Str × GArg))
    (v : EnumVariant) : EnumVariant :=
  EnumVariant.new (c.manglePath v.name values) v.disc (v.body.specialize c values m) v.cfg v.doc

/-- The monomorph of `Enum::instantiate_monomorph`, src/bindgen/ir/enumeration.rs:621-639. -/
def EnumItem.specialize (c : LibConfig) (values : List GArg) (m : List (Str × GArg))
    (x : EnumItem) : EnumItem :=
  { x with
    path := c.manglePath x.path values
    exportName := c.manglePath x.path values
    genericParams := []
    variants := x.variants.map (EnumVariant.specialize c values m) }

/-- The monomorph of `Typedef::instantiate_monomorph`, src/bindgen/ir/typedef.rs:177-190. -/
def TypedefItem.specialize (c : LibConfig) (values : List GArg) (m : List (Str × GArg))
    (x : TypedefItem) : TypedefItem :=
  { x with
    path := c.manglePath x.path values
    exportName := c.manglePath x.path values
    genericParams := []
    aliased := x.aliased.specialize m }

/-- The monomorph of `OpaqueItem::instantiate_monomorph`, src/bindgen/ir/opaque.rs:122-134. -/
def OpaqueItem.specialize (c : LibConfig) (values : List GArg) (x : OpaqueItem) : OpaqueItem :=
  { x with
    path := c.manglePath x.path values
    exportName := c.manglePath x.path values
    genericParams := [] }

end Cbindgen
