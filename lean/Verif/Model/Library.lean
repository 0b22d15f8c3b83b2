import Verif.Model.ItemOps
import Verif.Model.ItemMap

/-!
# The library stage: src/bindgen/{library,dependencies,monomorph,declarationtyperesolver}.rs
-/

namespace Cbindgen

/-! ## The order of definitions: src/bindgen/dependencies.rs -/

/-- `Dependencies`, src/bindgen/dependencies.rs:15-18; the hash set is a list. -/
structure Deps where
  order : List Container := []
  items : List Str := []

/-- `Dependencies::add`, src/bindgen/dependencies.rs:28-45; `get` is `Library::get_items`.  The fuel
bounds the depth of the recursion; `none` means that it did not suffice. -/
def Deps.add (get : Str → Option (List Container)) : Nat → Str → Deps → Option Deps
  | 0, _, _ => none
  | n + 1, p, d =>
    match get p with
    | none => some d
    | some items =>
      if p ∈ d.items then some d
      else
        ((items.flatMap Container.depPaths).foldlM (fun d q => Deps.add get n q d)
          { d with items := p :: d.items }).map
          fun d => { d with order := d.order ++ items }

/-- A sequence of calls of `Dependencies::add`. -/
def Deps.addAll (get : Str → Option (List Container)) (fuel : Nat) (ps : List Str) (d : Deps) :
    Option Deps :=
  ps.foldlM (fun d q => Deps.add get fuel q d) d

/-- The layer of an item in `Dependencies::sort`, src/bindgen/dependencies.rs:48-64. -/
inductive Layer
  | plainEnum
  | opaque (path : Str)
  | other

def Container.layer : Container → Layer
  | .enum x => if x.tag.isNone then .plainEnum else .other
  | .opaque x => .opaque x.path
  | _ => .other

/-- `ordering(a, b) != Ordering::Greater`, src/bindgen/dependencies.rs:50-64. -/
def Layer.le : Layer → Layer → Bool
  | .plainEnum, .plainEnum => true
  | .plainEnum, _ => true
  | _, .plainEnum => false
  | .opaque x, .opaque y => !strLt y x
  | .opaque _, _ => true
  | _, .opaque _ => false
  | .other, .other => true

/-- `Dependencies::sort`, src/bindgen/dependencies.rs:47-67.  `slice::sort_by` is a stable sort. -/
def sortItems (xs : List Container) : List Container :=
  xs.mergeSort fun a b => a.layer.le b.layer

/-! ## The library -/

/-- `Library`, src/bindgen/library.rs:19-31. -/
structure Library where
  constants : ItemMap ConstItem := []
  globals : ItemMap StaticItem := []
  enums : ItemMap EnumItem := []
  structs : ItemMap StructItem := []
  unions : ItemMap UnionItem := []
  opaqueItems : ItemMap OpaqueItem := []
  typedefs : ItemMap TypedefItem := []
  functions : List FuncItem := []

/-- One `find!` of `Library::get_items`, src/bindgen/library.rs:153-161. -/
def findItems {α : Type} (c : LibConfig) (t : ItemType) (mk : α → Container) (m : ItemMap α)
    (p : Str) : Option (List Container) :=
  if c.export_.shouldGenerate t then (m.getItems p).map (List.map mk) else none

/-- `Library::get_items`, src/bindgen/library.rs:152-170. -/
def Library.getItems (c : LibConfig) (l : Library) (p : Str) : Option (List Container) :=
  (findItems c .enums .enum l.enums p) <|>
  (findItems c .structs .struct l.structs p) <|>
  (findItems c .unions .union l.unions p) <|>
  (findItems c .opaqueItems .opaque l.opaqueItems p) <|>
  (findItems c .typedefs .typedef l.typedefs p)

/-- `Library::remove_excluded`, src/bindgen/library.rs:176-195. -/
def Library.removeExcluded (c : LibConfig) (l : Library) : Library :=
  { functions := l.functions.filter fun x => !c.export_.exclude.contains x.path
    enums := l.enums.filter fun x => c.export_.exclude.contains x.path
    structs := l.structs.filter fun x => c.export_.exclude.contains x.path
    unions := l.unions.filter fun x => c.export_.exclude.contains x.path
    opaqueItems := l.opaqueItems.filter fun x => c.export_.exclude.contains x.path
    typedefs := l.typedefs.filter fun x => c.export_.exclude.contains x.path
    globals := l.globals.filter fun x => c.export_.exclude.contains x.path
    constants := l.constants.filter fun x => c.export_.exclude.contains x.path }

/-- `Library::simplify_standard_types`, src/bindgen/library.rs:366-387.  Constants and opaque items
are not visited. -/
def Library.simplify (c : LibConfig) (l : Library) : Library :=
  { l with
    structs := l.structs.mapItems (StructItem.mapTys (Ty.simplify c.language))
    enums := l.enums.mapItems (EnumItem.mapTys (Ty.simplify c.language))
    unions := l.unions.mapItems (UnionItem.mapTys (Ty.simplify c.language))
    globals := l.globals.mapItems (StaticItem.mapTys (Ty.simplify c.language))
    typedefs := l.typedefs.mapItems (TypedefItem.mapTys (Ty.simplify c.language))
    functions := l.functions.map (FuncItem.mapTys (Ty.simplify c.language)) }

/-! ## Annotations of typedefs -/

/-- The access to annotations that `Library::transfer_annotations` needs. -/
class Annotated (α : Type) where
  get : α → Annotations
  set : α → Annotations → α

instance : Annotated StructItem := ⟨(·.annotations), fun x a => { x with annotations := a }⟩
instance : Annotated UnionItem := ⟨(·.annotations), fun x a => { x with annotations := a }⟩
instance : Annotated EnumItem := ⟨(·.annotations), fun x a => { x with annotations := a }⟩
instance : Annotated TypedefItem := ⟨(·.annotations), fun x a => { x with annotations := a }⟩
instance : Annotated OpaqueItem := ⟨(·.annotations), fun x a => { x with annotations := a }⟩

/-- `Typedef::transfer_annotations`, src/bindgen/ir/typedef.rs:86-103. -/
def TypedefItem.takeAnnotations (out : List (Str × Annotations)) (x : TypedefItem) :
    List (Str × Annotations) × TypedefItem :=
  if x.annotations.isEmpty then (out, x)
  else
    match x.aliased.rootPath with
    | none => (out, x)
    | some p =>
      if (out.lookup p).isSome then (out, x)
      else (out ++ [(p, x.annotations)], { x with annotations := {} })

/-- A loop over a list that changes its elements and a state. -/
def mapAccum {α σ : Type} (f : σ → α → σ × α) : σ → List α → σ × List α
  | s, [] => (s, [])
  | s, x :: xs =>
    let (s', x') := f s x
    let (s'', xs') := mapAccum f s' xs
    (s'', x' :: xs')

/-- `ItemMap::for_all_items_mut` with a callback that has a state. -/
def ItemMap.mapAccum {α σ : Type} (f : σ → α → σ × α) : σ → ItemMap α → σ × ItemMap α
  | s, [] => (s, [])
  | s, (k, .cfg xs) :: rest =>
    let (s', xs') := Cbindgen.mapAccum f s xs
    let (s'', rest') := ItemMap.mapAccum f s' rest
    (s'', (k, .cfg xs') :: rest')
  | s, (k, .single x) :: rest =>
    let (s', x') := f s x
    let (s'', rest') := ItemMap.mapAccum f s' rest
    (s'', (k, .single x') :: rest')

/-- The callback of `for_items_mut`, src/bindgen/library.rs:208-218. -/
def giveAnnotations {α : Type} [Annotated α] (a : Annotations) (x : α) : α :=
  if (Annotated.get x).isEmpty then Annotated.set x a else x

/-- Was anything transferred in a table?  src/bindgen/library.rs:206-221. -/
def transferred {α : Type} [Annotated α] (p : Str) (m : ItemMap α) : Bool :=
  match m.getItems p with
  | some xs => xs.any fun x => (Annotated.get x).isEmpty
  | none => false

/-- One round of the loop, src/bindgen/library.rs:204-278. -/
def Library.giveOne (l : Library) (pa : Str × Annotations) : Library :=
  let enums := l.enums.mapItemsAt pa.1 (giveAnnotations pa.2)
  if transferred pa.1 l.enums then { l with enums } else
  let structs := l.structs.mapItemsAt pa.1 (giveAnnotations pa.2)
  if transferred pa.1 l.structs then { l with structs } else
  let unions := l.unions.mapItemsAt pa.1 (giveAnnotations pa.2)
  if transferred pa.1 l.unions then { l with unions } else
  let opaqueItems := l.opaqueItems.mapItemsAt pa.1 (giveAnnotations pa.2)
  if transferred pa.1 l.opaqueItems then { l with opaqueItems } else
  let typedefs := l.typedefs.mapItemsAt pa.1 (giveAnnotations pa.2)
  { l with typedefs }

/-- `Library::transfer_annotations`, src/bindgen/library.rs:197-279, for an order in which the hash
map is iterated: `order` is any function that permutes a list. -/
def Library.transferAnnotations (order : List (Str × Annotations) → List (Str × Annotations))
    (l : Library) : Library :=
  let r := l.typedefs.mapAccum TypedefItem.takeAnnotations []
  (order r.1).foldl Library.giveOne { l with typedefs := r.2 }

/-! ## Monomorphs: src/bindgen/monomorph.rs -/

/-- A failed instantiation: a panic, or not enough fuel. -/
inductive MonoErr
  | panic
  | fuel
  deriving DecidableEq

/-- A path with generic arguments, as it is used. -/
abbrev GUse := Str × Str × List GArg × Option DeclKind

/-- The use as a type. -/
def GUse.ty (u : GUse) : Ty := .path u.1 u.2.1 u.2.2.1 u.2.2.2

/-- `Monomorphs`, src/bindgen/monomorph.rs:13-21.  The hash map is an association list, the latest
insertion first. -/
structure Monos where
  repl : List (Ty × Str) := []
  opaques : List OpaqueItem := []
  structs : List StructItem := []
  unions : List UnionItem := []
  typedefs : List TypedefItem := []
  enums : List EnumItem := []

/-- `Monomorphs::mangle_path`, src/bindgen/monomorph.rs:124-126. -/
def Monos.find (m : Monos) (t : Ty) : Option Str := m.repl.lookup t

/-- The types whose generic uses `add_monomorphs` follows, for a struct that is not generic;
src/bindgen/ir/structure.rs:177-187. -/
def StructItem.monoUses (x : StructItem) : List GUse :=
  if x.genericParams.isEmpty then x.fields.flatMap fun f => f.ty.genericUses else []

/-- `Union::add_monomorphs`, src/bindgen/ir/union.rs:103-113. -/
def UnionItem.monoUses (x : UnionItem) : List GUse :=
  if x.genericParams.isEmpty then x.fields.flatMap fun f => f.ty.genericUses else []

/-- `EnumVariant::add_monomorphs`, src/bindgen/ir/enumeration.rs:291-295. -/
def EnumVariant.monoUses (v : EnumVariant) : List GUse :=
  match v.body with
  | .empty _ => []
  | .body _ b _ _ => b.monoUses

/-- `Enum::add_monomorphs`, src/bindgen/ir/enumeration.rs:328-336. -/
def EnumItem.monoUses (x : EnumItem) : List GUse :=
  if x.genericParams.isEmpty then x.variants.flatMap EnumVariant.monoUses else []

/-- `Typedef::add_monomorphs`, src/bindgen/ir/typedef.rs:105-111. -/
def TypedefItem.monoUses (x : TypedefItem) : List GUse :=
  if x.genericParams.isEmpty then x.aliased.genericUses else []

/-- `Function::add_monomorphs`, src/bindgen/ir/function.rs:132-137. -/
def FuncItem.monoUses (x : FuncItem) : List GUse :=
  x.ret.genericUses ++ x.args.flatMap fun a => a.ty.genericUses

/-- A computation on the monomorphs found so far. -/
abbrev MonoM := Except MonoErr

/-- Follow all the uses. -/
def followAll (follow : GUse → Monos → MonoM Monos) (us : List GUse) (st : Monos) : MonoM Monos :=
  us.foldlM (fun st u => follow u st) st

/-- `self.replacements.insert(...)`. -/
def Monos.insertRepl (st : Monos) (path : Str) (values : List GArg) (mono : Str) : Monos :=
  { st with repl := (Ty.newPath path values, mono) :: st.repl }

/-- `GenericParams::call`, with its panic. -/
def callOrPanic (params : List GParam) (values : List GArg) : MonoM (List (Str × GArg)) :=
  match callParams params values with
  | some m => .ok m
  | none => .error .panic

/-- `Struct::instantiate_monomorph` (src/bindgen/ir/structure.rs:394-403) with
`Monomorphs::insert_struct` (src/bindgen/monomorph.rs:28-46). -/
def StructItem.instantiate (c : LibConfig) (follow : GUse → Monos → MonoM Monos)
    (values : List GArg) (st : Monos) (x : StructItem) : MonoM Monos := do
  let m ← callOrPanic x.genericParams values
  let mono := x.specialize c values m
  let st ← followAll follow mono.monoUses (st.insertRepl x.path values mono.path)
  pure { st with structs := st.structs ++ [mono] }

/-- `Union::instantiate_monomorph` (src/bindgen/ir/union.rs:223-258) with `Monomorphs::insert_union`
(src/bindgen/monomorph.rs:68-86). -/
def UnionItem.instantiate (c : LibConfig) (follow : GUse → Monos → MonoM Monos)
    (values : List GArg) (st : Monos) (x : UnionItem) : MonoM Monos := do
  let m ← callOrPanic x.genericParams values
  let mono := x.specialize c values m
  let st ← followAll follow mono.monoUses (st.insertRepl x.path values mono.path)
  pure { st with unions := st.unions ++ [mono] }

/-- The bodies of the variants. -/
def EnumItem.bodies (x : EnumItem) : List StructItem :=
  x.variants.filterMap fun v =>
    match v.body with
    | .empty _ => none
    | .body _ b _ _ => some b

/-- `Enum::instantiate_monomorph` (src/bindgen/ir/enumeration.rs:607-642) with
`Monomorphs::insert_enum` (src/bindgen/monomorph.rs:48-66). -/
def EnumItem.instantiate (c : LibConfig) (follow : GUse → Monos → MonoM Monos)
    (values : List GArg) (st : Monos) (x : EnumItem) : MonoM Monos := do
  let m ← callOrPanic x.genericParams values
  let st ← x.bodies.foldlM (StructItem.instantiate c follow values) st
  let mono := x.specialize c values m
  let st ← followAll follow mono.monoUses (st.insertRepl x.path values mono.path)
  pure { st with enums := st.enums ++ [mono] }

/-- `Typedef::instantiate_monomorph` (src/bindgen/ir/typedef.rs:169-193) with
`Monomorphs::insert_typedef` (src/bindgen/monomorph.rs:104-122). -/
def TypedefItem.instantiate (c : LibConfig) (follow : GUse → Monos → MonoM Monos)
    (values : List GArg) (st : Monos) (x : TypedefItem) : MonoM Monos := do
  let m ← callOrPanic x.genericParams values
  let mono := x.specialize c values m
  let st ← followAll follow mono.monoUses (st.insertRepl x.path values mono.path)
  pure { st with typedefs := st.typedefs ++ [mono] }

/-- `OpaqueItem::instantiate_monomorph` (src/bindgen/ir/opaque.rs:103-137) with
`Monomorphs::insert_opaque` (src/bindgen/monomorph.rs:88-102). -/
def OpaqueItem.instantiate (c : LibConfig) (values : List GArg) (st : Monos) (x : OpaqueItem) :
    MonoM Monos :=
  if x.genericParams.isEmpty ∨ x.genericParams.length < values.length then .error .panic
  else
    let mono := x.specialize c values
    let st := st.insertRepl x.path values mono.path
    .ok { st with opaques := st.opaques ++ [mono] }

/-- `Item::instantiate_monomorph` of a container. -/
def Container.instantiate (c : LibConfig) (follow : GUse → Monos → MonoM Monos)
    (values : List GArg) (st : Monos) : Container → MonoM Monos
  | .enum x => x.instantiate c follow values st
  | .struct x => x.instantiate c follow values st
  | .union x => x.instantiate c follow values st
  | .opaque x => x.instantiate c values st
  | .typedef x => x.instantiate c follow values st

/-- `Type::add_monomorphs` on a path with generic arguments, src/bindgen/ir/ty.rs:727-738.  The fuel
bounds the depth of the recursion. -/
def follow (c : LibConfig) (get : Str → Option (List Container)) : Nat → GUse → Monos → MonoM Monos
  | 0, _, _ => .error .fuel
  | n + 1, u, st =>
    if (st.find u.ty).isSome then .ok st
    else
      match get u.1 with
      | none => .ok st
      | some items => items.foldlM (Container.instantiate c (follow c get n) u.2.2.1) st

/-- The generic uses with which `Library::instantiate_monomorphs` starts,
src/bindgen/library.rs:393-407.  Statics are not looked at. -/
def Library.monoUses (l : Library) : List GUse :=
  l.structs.toVec.flatMap StructItem.monoUses ++ l.unions.toVec.flatMap UnionItem.monoUses ++
    l.enums.toVec.flatMap EnumItem.monoUses ++ l.typedefs.toVec.flatMap TypedefItem.monoUses ++
    l.functions.flatMap FuncItem.monoUses

/-- The monomorphs into the tables, and the generic items out of them, src/bindgen/library.rs:409-431. -/
def Library.insertMonos (l : Library) (m : Monos) : Library :=
  { l with
    structs := (l.structs.insertAll m.structs).filter fun x => !x.genericParams.isEmpty
    unions := (l.unions.insertAll m.unions).filter fun x => !x.genericParams.isEmpty
    opaqueItems := (l.opaqueItems.insertAll m.opaques).filter fun x => !x.genericParams.isEmpty
    typedefs := (l.typedefs.insertAll m.typedefs).filter fun x => !x.genericParams.isEmpty
    enums := (l.enums.insertAll m.enums).filter fun x => !x.genericParams.isEmpty }

/-- Mangle the paths that remain, src/bindgen/library.rs:433-444. -/
def Library.manglePaths (find : Ty → Option Str) (l : Library) : Library :=
  { l with
    unions := l.unions.mapItems (UnionItem.mapTys (Ty.manglePaths find))
    structs := l.structs.mapItems (StructItem.mapTys (Ty.manglePaths find))
    enums := l.enums.mapItems (EnumItem.mapTys (Ty.manglePaths find))
    typedefs := l.typedefs.mapItems (TypedefItem.mapTys (Ty.manglePaths find))
    functions := l.functions.map (FuncItem.mapTys (Ty.manglePaths find)) }

/-- `Library::instantiate_monomorphs`, src/bindgen/library.rs:389-445. -/
def Library.instantiateMonomorphs (c : LibConfig) (fuel : Nat) (l : Library) : MonoM Library := do
  let m ← followAll (follow c (l.getItems c) fuel) l.monoUses {}
  pure ((l.insertMonos m).manglePaths m.find)

/-! ## Declaration keywords -/

/-- The table of `DeclarationTypeResolver`, src/bindgen/declarationtyperesolver.rs:26-29, in order of
insertion; an entry for a path that already has one is ignored (32-36), so the first one counts. -/
abbrev Resolver := List (Str × Option DeclKind)

/-- `Struct::collect_declaration_types`, src/bindgen/ir/structure.rs:297-303. -/
def StructItem.declType (x : StructItem) : Str × Option DeclKind :=
  (x.path, if x.isTransparent then none else some .struct)

/-- `Enum::collect_declaration_types`, src/bindgen/ir/enumeration.rs:486-499. -/
def EnumItem.declType (x : EnumItem) : Str × Option DeclKind :=
  (x.path,
    if x.tag.isSome then
      if x.repr.style = .c then some .struct else some .union
    else if x.repr.style = .c then some .enum
    else none)

/-- `Union::collect_declaration_types`, src/bindgen/ir/union.rs:151-153. -/
def UnionItem.declType (x : UnionItem) : Str × Option DeclKind := (x.path, some .union)

/-- `Typedef::collect_declaration_types`, src/bindgen/ir/typedef.rs:147-149. -/
def TypedefItem.declType (x : TypedefItem) : Str × Option DeclKind := (x.path, none)

/-- `OpaqueItem::collect_declaration_types`, src/bindgen/ir/opaque.rs:89-91. -/
def OpaqueItem.declType (x : OpaqueItem) : Str × Option DeclKind := (x.path, some .struct)

/-- The entries, src/bindgen/library.rs:322-344. -/
def Library.resolver (l : Library) : Resolver :=
  l.structs.toVec.map StructItem.declType ++ l.enums.toVec.map EnumItem.declType ++
    l.unions.toVec.map UnionItem.declType ++ l.typedefs.toVec.map TypedefItem.declType ++
    l.opaqueItems.toVec.map OpaqueItem.declType

/-- `DeclarationTypeResolver::type_for`, src/bindgen/declarationtyperesolver.rs:54-56. -/
def Resolver.typeFor (r : Resolver) (p : Str) : Option DeclKind := (r.lookup p).join

/-- `Library::resolve_declaration_types`, src/bindgen/library.rs:317-364.  Constants are not
visited. -/
def Library.resolveDeclTypes (c : LibConfig) (l : Library) : Library :=
  if c.generateTag then
    let find := Resolver.typeFor l.resolver
    { l with
      enums := l.enums.mapItems (EnumItem.mapTys (Ty.resolve find))
      structs := l.structs.mapItems (StructItem.mapTys (Ty.resolve find))
      unions := l.unions.mapItems (UnionItem.mapTys (Ty.resolve find))
      typedefs := l.typedefs.mapItems (TypedefItem.mapTys (Ty.resolve find))
      globals := l.globals.mapItems (StaticItem.mapTys (Ty.resolve find))
      functions := l.functions.map (FuncItem.mapTys (Ty.resolve find)) }
  else l

/-! ## Renaming -/

/-- One value of `for_all_items_mut` with a callback that may panic. -/
def ItemMap.mapValueM {α : Type} (f : α → Option α) : ItemValue α → Option (ItemValue α)
  | .cfg xs => (xs.mapM f).map .cfg
  | .single x => (f x).map .single

/-- `for_all_items_mut` with a callback that may panic. -/
def ItemMap.mapItemsM {α : Type} (f : α → Option α) (m : ItemMap α) : Option (ItemMap α) :=
  m.mapM fun kv => (mapValueM f kv.2).map fun v => (kv.1, v)

/-- `Library::rename_items`, src/bindgen/library.rs:281-315; `none` is a panic. -/
def Library.renameItems (c : LibConfig) (l : Library) : Option Library := do
  let structs ← l.structs.mapItemsM (StructItem.renameFor c)
  let unions ← l.unions.mapItemsM (UnionItem.renameFor c)
  let enums ← l.enums.mapItemsM (EnumItem.renameFor c)
  let functions ← l.functions.mapM (FuncItem.renameFor c)
  pure
    { globals := (l.globals.mapItems (StaticItem.renameFor c)).rebuild
      constants := (l.constants.mapItems (ConstItem.renameFor c)).rebuild
      structs := structs.rebuild
      unions := unions.rebuild
      enums := enums.rebuild
      opaqueItems := (l.opaqueItems.mapItems (OpaqueItem.renameFor c)).rebuild
      typedefs := (l.typedefs.mapItems (TypedefItem.renameFor c)).rebuild
      functions := functions }

/-! ## Generation -/

/-- The paths on which `Dependencies::add` is called, in order, src/bindgen/library.rs:84-110.  For
an included name the code of lines 97-110 does what `Dependencies::add` does. -/
def Library.rootPaths (c : LibConfig) (l : Library) : List Str :=
  l.functions.flatMap FuncItem.depPaths ++ l.globals.toVec.flatMap StaticItem.depPaths ++
    l.constants.toVec.flatMap ConstItem.depPaths ++ c.export_.inc

/-- The number of known paths, which bounds the depth of `Dependencies::add`. -/
def Library.depth (l : Library) : Nat :=
  l.enums.length + l.structs.length + l.unions.length + l.opaqueItems.length + l.typedefs.length

/-- A stable sort by name, `sort_by(|x, y| x.path.cmp(&y.path))`. -/
def sortByPath {α : Type} (path : α → Str) (xs : List α) : List α :=
  xs.mergeSort fun a b => !strLt (path b) (path a)

/-- `match sort_by { SortKey::Name => ..., SortKey::None => ... }`. -/
def sortIf {α : Type} (k : SortKey) (path : α → Str) (xs : List α) : List α :=
  match k with
  | .name => sortByPath path xs
  | .none => xs

/-- What `Library::generate` hands to the writers: `Bindings`, src/bindgen/bindings.rs:25-45, without
the tables that are only looked at for constants. -/
structure Bindings where
  constants : List ConstItem
  globals : List StaticItem
  items : List Container
  functions : List FuncItem

/-- The order of functions, src/bindgen/library.rs:67-70. -/
def Library.sortFunctions (c : LibConfig) (l : Library) : Library :=
  { l with functions := sortIf (c.functionSortBy.getD c.sortBy) FuncItem.path l.functions }

/-- Monomorphs for languages without templates, src/bindgen/library.rs:72-74. -/
def Library.expand (c : LibConfig) (fuel : Nat) (l : Library) : MonoM Library :=
  if c.language = .cxx then .ok l else l.instantiateMonomorphs c fuel

/-- Exclusion, declaration keywords and names, src/bindgen/library.rs:75-80; `none` is a panic. -/
def Library.finish (c : LibConfig) (l : Library) : Option Library :=
  let l := l.removeExcluded c
  Library.renameItems c (if c.language = .c then l.resolveDeclTypes c else l)

/-- The first half of `Library::generate`, src/bindgen/library.rs:63-80: everything up to the
collection of dependencies. -/
def Library.prepare (c : LibConfig)
    (order : List (Str × Annotations) → List (Str × Annotations)) (fuel : Nat) (l : Library) :
    MonoM Library :=
  match (((l.transferAnnotations order).simplify c).sortFunctions c).expand c fuel with
  | .error e => .error e
  | .ok l =>
    match l.finish c with
    | some l => .ok l
    | none => .error .panic

/-- The second half of `Library::generate`, src/bindgen/library.rs:82-136. -/
def Library.collect (c : LibConfig) (l : Library) : Option Bindings :=
  (Deps.addAll (l.getItems c) (l.depth + 1) (l.rootPaths c) {}).map fun d =>
    { constants := if c.export_.shouldGenerate .constants then
        sortIf (c.constantSortBy.getD c.sortBy) ConstItem.path l.constants.toVec else []
      globals := if c.export_.shouldGenerate .globals then
        sortIf (c.constantSortBy.getD c.sortBy) StaticItem.path l.globals.toVec else []
      items := sortItems d.order
      functions := if c.export_.shouldGenerate .functions then l.functions else [] }

/-- `Library::generate`, src/bindgen/library.rs:63-150. -/
def Library.generate (c : LibConfig)
    (order : List (Str × Annotations) → List (Str × Annotations)) (fuel : Nat) (l : Library) :
    MonoM Bindings :=
  match l.prepare c order fuel with
  | .error e => .error e
  | .ok l =>
    match l.collect c with
    | some b => .ok b
    | none => .error .fuel

end Cbindgen
