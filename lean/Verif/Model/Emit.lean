import Verif.Model.OutConfig

/-!
# The backends: literals, constants, structs, unions, aliases, statics and functions

src/bindgen/language_backend/clike.rs and cython.rs, with the writing functions of
src/bindgen/ir.  Every function gives the list of calls that it makes on the writer.  `emitX` is the
method `write_x` of the backend for the configured language.
-/

namespace Cbindgen

/-- What the backends look at besides the item: the configuration and the tables of `Bindings`
(src/bindgen/bindings.rs:25-45). -/
structure Env where
  cfg : OutConfig := {}
  structs : ItemMap StructItem := []
  enums : ItemMap EnumItem := []
  typedefs : ItemMap TypedefItem := []
  packageVersion : Str := []

/-- `open_brace`. -/
def OutConfig.opn (c : OutConfig) : List WOp := openBrace c.language c.braces

/-- `close_brace`. -/
def OutConfig.cls (c : OutConfig) (semicolon : Bool) : List WOp := closeBrace c.language semicolon

/-! ## Lookups: src/bindgen/bindings.rs -/

/-- `Bindings::resolved_struct_path`, src/bindgen/bindings.rs:85-100.  If the aliases go around in a
circle the loop never ends (see `C37_diverges`); the model then gives the path itself. -/
def Env.resolve (e : Env) (p : Str) : Str :=
  (resolvedStructPath e.typedefs (e.typedefs.length + 1) p).getD p

/-- `Bindings::struct_exists`, src/bindgen/bindings.rs:102-107. -/
def Env.structExists (e : Env) (p : Str) : Bool := !((e.structs.getItems (e.resolve p)).getD []).isEmpty

/-- `Bindings::enum_exists`, src/bindgen/bindings.rs:109-113. -/
def Env.enumExists (e : Env) (p : Str) : Bool := !((e.enums.getItems p).getD []).isEmpty

/-- `Bindings::struct_is_transparent`, src/bindgen/bindings.rs:77-81. -/
def Env.transparent (e : Env) (p : Str) : Bool := structIsTransparent e.structs p

/-- `Bindings::struct_field_names`, src/bindgen/bindings.rs:140-168 (without the table of earlier
answers, see `lookupFieldNames`). -/
def Env.fieldNames (e : Env) (p : Str) : List Str := fieldNamesAt e.structs (e.resolve p)

/-- `enum_class`, src/bindgen/config.rs:690-695. -/
def OutConfig.enumClass (c : OutConfig) (a : Annotations) : Bool :=
  a.boolOr c!"enum-class" c.enumeration.enumClass

/-- One enum of `enum_variant_reference`, src/bindgen/bindings.rs:126-136. -/
def EnumItem.variantReference (c : OutConfig) (name : Str) (x : EnumItem) : Option Str :=
  (x.variants.find? fun v => v.name == name).map fun v =>
    if c.language == .cxx && c.enumClass x.annotations then x.exportName ++ c!"::" ++ v.exportName
    else v.exportName

/-- `Bindings::enum_variant_reference`, src/bindgen/bindings.rs:119-138. -/
def Env.variantReference (e : Env) (p name : Str) : Option Str :=
  ((e.enums.getItems p).getD []).findSome? (EnumItem.variantReference e.cfg name)

/-! ## Literals: src/bindgen/ir/constant.rs -/

/-- The prefix of a limit, src/bindgen/ir/constant.rs:41-77. -/
def limitPrefix : Prim → Option Str
  | .integer _ true .b8 => some c!"INT8"
  | .integer _ false .b8 => some c!"UINT8"
  | .integer _ true .b16 => some c!"INT16"
  | .integer _ false .b16 => some c!"UINT16"
  | .integer _ true .b32 => some c!"INT32"
  | .integer _ false .b32 => some c!"UINT32"
  | .integer _ true .b64 => some c!"INT64"
  | .integer _ false .b64 => some c!"UINT64"
  | _ => none

/-- `to_known_assoc_constant`, src/bindgen/ir/constant.rs:33-80. -/
def knownAssoc (path name : Str) : Option Str :=
  if name ≠ c!"MAX" ∧ name ≠ c!"MIN" then none
  else ((Prim.maybe path).bind limitPrefix).map fun p => p ++ c!"_" ++ name

/-- `Type::is_ptr`, src/bindgen/ir/ty.rs:464-466. -/
def Ty.isPtr : Ty → Bool
  | .ptr .. => true
  | .fnptr .. => true
  | _ => false

/-- `Type::is_primitive_or_ptr_primitive`, src/bindgen/ir/ty.rs:468-474. -/
def Ty.isPrimOrPtrPrim : Ty → Bool
  | .prim _ => true
  | .ptr (.prim _) _ _ _ => true
  | _ => false

mutual
/-- `Literal::is_valid`, src/bindgen/ir/constant.rs:197-222. -/
def Lit.isValid (e : Env) : Lit → Bool
  | .expr _ => true
  | .path none _ => true
  | .path (some (p, _)) n => e.structExists p || e.enumExists p || (knownAssoc p n).isSome
  | .unary _ v => v.isValid e
  | .binop l _ r => l.isValid e && r.isValid e
  | .field b _ => b.isValid e
  | .struct p _ _ => e.structExists p
  | .cast _ v => v.isValid e
  | .array items => Lit.allValid e items
def Lit.allValid (e : Env) : List Lit → Bool
  | [] => true
  | v :: vs => v.isValid e && Lit.allValid e vs
end

mutual
/-- `Literal::visit`, src/bindgen/ir/constant.rs:228-259, with a visitor that asks whether a part has a
property and stops at the first one that does: is there a part with the property? -/
def Lit.any (f : Lit → Bool) : Lit → Bool
  | .expr s => f (.expr s)
  | .path a n => f (.path a n)
  | .unary o v => f (.unary o v) || v.any f
  | .binop l o r => f (.binop l o r) || l.any f || r.any f
  | .field b n => f (.field b n) || b.any f
  | .struct p x fs => f (.struct p x fs) || LitField.anyList f fs
  | .cast t v => f (.cast t v) || v.any f
  | .array items => f (.array items) || Lit.anyList f items
def LitField.anyList (f : Lit → Bool) : List LitField → Bool
  | [] => false
  | .mk _ v _ :: fs => v.any f || LitField.anyList f fs
def Lit.anyList (f : Lit → Bool) : List Lit → Bool
  | [] => false
  | v :: vs => v.any f || Lit.anyList f vs
end

/-- A cast to a pointer, src/bindgen/ir/constant.rs:264-266. -/
def Lit.isPtrCast : Lit → Bool
  | .cast t _ => t.isPtr
  | _ => false

/-- `Literal::can_be_constexpr`, src/bindgen/ir/constant.rs:224-226 and 261-270. -/
def Lit.canBeConstexpr (l : Lit) : Bool := !l.any Lit.isPtrCast

/-- A part that needs a type, src/bindgen/ir/constant.rs:277-281. -/
def Lit.needsType : Lit → Bool
  | .struct .. => true
  | .cast t _ => !t.isPrimOrPtrPrim
  | _ => false

/-- `Literal::uses_only_primitive_types`, src/bindgen/ir/constant.rs:272-285. -/
def Lit.onlyPrimitive (l : Lit) : Bool := !l.any Lit.needsType

/-- `Constant::uses_only_primitive_types`, src/bindgen/ir/constant.rs:621-623. -/
def ConstItem.onlyPrimitive (k : ConstItem) : Bool := k.value.onlyPrimitive && k.ty.isPrimOrPtrPrim

/-- The name before an associated constant that is not known otherwise,
src/bindgen/language_backend/clike.rs:862-869 and cython.rs:357. -/
def assocPrefix (c : OutConfig) (exportName : Str) : Str :=
  match c.language with
  | .cxx => exportName ++ (if c.structure_.associatedConstantsInBody then c!"::" else c!"_")
  | _ => exportName ++ c!"_"

/-- `Literal::Path`, src/bindgen/language_backend/clike.rs:851-872 and cython.rs:343-360. -/
def pathText (e : Env) : Option (Str × Str) → Str → Str
  | none, n => n
  | some (p, x), n =>
    match knownAssoc p n with
    | some k => k
    | none =>
      match e.variantReference p n with
      | some v => v
      | none => assocPrefix e.cfg x ++ n

/-- `Literal::Expr`, src/bindgen/language_backend/clike.rs:842 and cython.rs:338-342. -/
def exprText (lang : Language) (s : Str) : Str :=
  if lang = .cython then
    if s = c!"true" then c!"True" else if s = c!"false" then c!"False" else s
  else s

/-- An initialiser of a struct literal: the calls for its value, and its condition. -/
abbrev Init := List WOp × Option Cfg

/-- Whether a struct literal is laid out over several lines,
src/bindgen/language_backend/clike.rs:907-909. -/
def multiLine (c : OutConfig) (canBeConstexpr : Bool) : Bool :=
  c.language == .cxx && (c.allowStaticConst || (c.allowConstexpr && canBeConstexpr))

/-- One field over several lines, src/bindgen/language_backend/clike.rs:928-938. -/
def initMulti (c : OutConfig) (last : Bool) (key : Str) : Option Init → List WOp
  | none => []
  | some (ops, cfg) =>
    [.newLine] ++ condBefore c (c.cond cfg) ++ [.text (c!"/* ." ++ key ++ c!" = */ ")] ++ ops ++
      onlyIf (!last) [.text c!","] ++ condAfter c (c.cond cfg)

/-- The fields over several lines, src/bindgen/language_backend/clike.rs:924-954. -/
def initsMulti (c : OutConfig) (fields : List (Str × Init)) : List Str → List WOp
  | [] => []
  | key :: keys => initMulti c keys.isEmpty key (fields.lookup key) ++ initsMulti c fields keys

/-- The text before a value on one line, src/bindgen/language_backend/clike.rs:944-950. -/
def initLabel (lang : Language) (key : Str) : Str :=
  match lang with
  | .cxx => c!"/* ." ++ key ++ c!" = */ "
  | _ => c!"." ++ key ++ c!" = "

/-- One field on one line, src/bindgen/language_backend/clike.rs:940-951. -/
def initSingle (c : OutConfig) (first : Bool) (key : Str) : Option Init → List WOp
  | none => []
  | some (ops, _) => onlyIf (!first) [.text c!", "] ++ [.text (initLabel c.language key)] ++ ops

/-- The fields on one line, src/bindgen/language_backend/clike.rs:924-954. -/
def initsSingle (c : OutConfig) (fields : List (Str × Init)) (first : Bool) : List Str → List WOp
  | [] => []
  | key :: keys => initSingle c first key (fields.lookup key) ++ initsSingle c fields false keys

/-- The fields in Cython, src/bindgen/language_backend/cython.rs:405-414. -/
def initsCython (fields : List (Str × Init)) (first : Bool) : List Str → List WOp
  | [] => []
  | key :: keys =>
    match fields.lookup key with
    | none => initsCython fields first keys
    | some (ops, _) => onlyIf (!first) [.text c!", "] ++ ops ++ initsCython fields false keys

/-- `Literal::Struct`, src/bindgen/language_backend/clike.rs:902-962 and cython.rs:394-417. -/
def structLitOps (e : Env) (canBeConstexpr : Bool) (path exportName : Str)
    (fields : List (Str × Init)) : List WOp :=
  match e.cfg.language with
  | .cython =>
    [.text (c!"<" ++ exportName ++ c!">"), .text c!"{ "] ++ initsCython fields true (e.fieldNames path) ++
      [.text c!" }"]
  | lang =>
    [.text (if lang = .c then c!"(" ++ exportName ++ c!")" else exportName), .text c!"{"] ++
    (if multiLine e.cfg canBeConstexpr then
      [.pushTab] ++ initsMulti e.cfg fields (e.fieldNames path) ++ [.pop, .newLine]
    else
      [.text c!" "] ++ initsSingle e.cfg fields true (e.fieldNames path) ++ [.text c!" "]) ++
    [.text c!"}"]

/-- The brackets of a cast, src/bindgen/language_backend/clike.rs:897-900 and cython.rs:382-385. -/
def castOps (c : OutConfig) (t : Ty) : List WOp :=
  match c.language with
  | .cython => [.text c!"<"] ++ typeOps c t ++ [.text c!">"]
  | _ => [.text c!"("] ++ typeOps c t ++ [.text c!")"]

/-- The brackets of an array, src/bindgen/language_backend/clike.rs:843-850 and cython.rs:387-393. -/
def arrayOpen : Language → Str
  | .cython => c!"[ "
  | _ => c!"{ "
def arrayClose : Language → Str
  | .cython => c!"]"
  | _ => c!"}"

mutual
/-- `write_literal`, src/bindgen/language_backend/clike.rs:840-964 and cython.rs:336-419. -/
def Lit.ops (e : Env) : Lit → List WOp
  | .expr s => [.text (exprText e.cfg.language s)]
  | .path a n => [.text (pathText e a n)]
  | .field b n => [.text c!"("] ++ b.ops e ++ [.text (c!")." ++ n)]
  | .unary o v => [.text o] ++ v.ops e
  | .binop l o r => [.text c!"("] ++ l.ops e ++ [.text (c!" " ++ o ++ c!" ")] ++ r.ops e ++ [.text c!")"]
  | .cast t v => castOps e.cfg t ++ v.ops e
  | .array items =>
    [.text (arrayOpen e.cfg.language)] ++ Lit.opsItems e items ++ [.text (arrayClose e.cfg.language)]
  | .struct p x fs =>
    structLitOps e (Lit.canBeConstexpr (.struct p x fs)) p x (LitField.opsList e fs)
/-- The loop over the items of an array. -/
def Lit.opsItems (e : Env) : List Lit → List WOp
  | [] => []
  | v :: vs => v.ops e ++ [.text c!", "] ++ Lit.opsItems e vs
/-- The calls for the fields of a struct literal. -/
def LitField.opsList (e : Env) : List LitField → List (Str × Init)
  | [] => []
  | .mk n v cfg :: fs => (n, v.ops e, cfg) :: LitField.opsList e fs
end

mutual
/-- The loop that looks through transparent structs, src/bindgen/ir/constant.rs:764-770; `none` is the
panic for a literal without fields. -/
def Lit.peel (transparent : Str → Bool) : Lit → Option Lit
  | .struct p x fs =>
    match transparent p with
    | true => LitField.peelHead transparent fs
    | false => some (.struct p x fs)
  | .expr s => some (.expr s)
  | .path a n => some (.path a n)
  | .unary o v => some (.unary o v)
  | .binop l o r => some (.binop l o r)
  | .field b n => some (.field b n)
  | .cast t v => some (.cast t v)
  | .array items => some (.array items)
def LitField.peelHead (transparent : Str → Bool) : List LitField → Option Lit
  | [] => none
  | .mk _ v _ :: _ => v.peel transparent
end

/-! ## Constants: src/bindgen/ir/constant.rs -/

/-- `if let Type::Ptr { is_const: true, .. }`, src/bindgen/ir/constant.rs:693 and 784. -/
def Ty.isConstPtr : Ty → Bool
  | .ptr _ true _ _ => true
  | _ => false

/-- `Constant::write_declaration`, src/bindgen/ir/constant.rs:678-707. -/
def ConstItem.declarationOps (c : OutConfig) (k : ConstItem) : List WOp :=
  condBefore c (c.cond k.cfg) ++
  [.text (if k.ty.isConstPtr then c!"static " else c!"static const ")] ++
  declOps c k.ty k.exportName ++ [.text c!";"] ++ condAfter c (c.cond k.cfg)

/-- `in_body`, src/bindgen/ir/constant.rs:728-732. -/
def inBody (c : OutConfig) : Option StructItem → Bool
  | none => false
  | some s => c.language == .cxx && c.structure_.associatedConstantsInBody && c.allowStaticConst &&
      !s.isTransparent

/-- The name of the type in front of an associated constant, src/bindgen/ir/constant.rs:745-765;
`none` is the panic of an annotation that is not a rule. -/
def associatedName (c : OutConfig) (assoc : Str) : Option StructItem → Option Str
  | some s =>
    match s.annotations.ruleFor c!"rename-associated-constant" c.structure_.renameAssociatedConstant with
    | .ok .none => some s.exportName
    | .ok r => some (r.apply c.caseFns s.exportName .type)
    | .error _ => none
  | none => some (c.export_.renameName assoc)

/-- The name of a constant, src/bindgen/ir/constant.rs:737-768. -/
def ConstItem.writtenName (c : OutConfig) (k : ConstItem) (s : Option StructItem) : Option Str :=
  match inBody c s, s, k.associatedTo with
  | true, some s, _ => some (s.exportName ++ c!"::" ++ k.exportName)
  | _, _, none => some k.exportName
  | _, s, some a => (associatedName c a s).map fun n => n ++ c!"_" ++ k.exportName

/-- The declaration of a constant, src/bindgen/ir/constant.rs:778-814. -/
def ConstItem.bodyOps (e : Env) (k : ConstItem) (inBody : Bool) (name : Str) (value : Lit) : List WOp :=
  let allow := e.cfg.allowConstexpr && k.value.canBeConstexpr
  match e.cfg.language with
  | .cython => [.text c!"const "] ++ declOps e.cfg k.ty name ++ [.text c!" # = "] ++ value.ops e
  | .c => [.text (c!"#define " ++ name ++ c!" ")] ++ value.ops e
  | .cxx =>
    if e.cfg.allowStaticConst || allow then
      onlyIf allow [.text c!"constexpr "] ++
      onlyIf e.cfg.allowStaticConst [.text (if inBody then c!"inline " else c!"static ")] ++
      onlyIf (!k.ty.isConstPtr) [.text c!"const "] ++
      declOps e.cfg k.ty name ++ [.text c!" = "] ++ value.ops e ++ [.text c!";"]
    else [.text (c!"#define " ++ name ++ c!" ")] ++ value.ops e

/-- `Constant::write`, src/bindgen/ir/constant.rs:709-818. -/
def ConstItem.ops (e : Env) (k : ConstItem) (s : Option StructItem) : List WOp :=
  if (s.any fun s => !s.genericParams.isEmpty) || !k.value.isValid e then []
  else
    match k.writtenName e.cfg s, k.value.peel e.transparent with
    | some name, some value =>
      condBefore e.cfg (e.cfg.cond k.cfg) ++ docOps e.cfg k.doc ++
      k.bodyOps e (inBody e.cfg s) name value ++ condAfter e.cfg (e.cfg.cond k.cfg)
    | _, _ => condBefore e.cfg (e.cfg.cond k.cfg) ++ [.panic]

/-! ## Fields and generic parameters -/

/-- `write_field` of the backend, src/bindgen/language_backend/clike.rs:45-63 and cython.rs:32-41. -/
def Field.ops (c : OutConfig) (f : Field) : List WOp :=
  match c.language with
  | .cython => docOps c f.doc ++ declOps c f.ty f.name
  | _ =>
    condBefore c (c.cond f.cfg) ++ docOps c f.doc ++ declOps c f.ty f.name ++
    optText ((f.annotations.atom c!"bitfield").map fun b => b.getD []) (c!": " ++ ·) ++
    condAfter c (c.cond f.cfg) ++ onlyIf (c.cond f.cfg).isSome [.newLine]

/-- The default of a parameter, src/bindgen/ir/generic_path.rs:156-172. -/
def GParam.ops (c : OutConfig) (withDefault : Bool) (p : GParam) : List WOp :=
  match p.constTy with
  | none =>
    [.text (c!"typename " ++ p.name)] ++
    (match p.default with
     | some (.type t) => [.text c!" = "] ++ typeOps c t
     | _ => onlyIf withDefault [.text c!" = void"])
  | some t =>
    declOps c t p.name ++
    (match p.default with
     | some (.const x) => [.text (c!" = " ++ x.asStr)]
     | _ => onlyIf withDefault [.text c!" = 0"])

/-- `GenericParams::write_internal`, src/bindgen/ir/generic_path.rs:141-177. -/
def paramsOps (c : OutConfig) (withDefault : Bool) (ps : List GParam) : List WOp :=
  if !ps.isEmpty && c.language == .cxx then
    [.text c!"template<"] ++ horizontalList (.join c!", ") (ps.map (GParam.ops c withDefault)) ++
    [.text c!">", .newLine]
  else []

/-! ## Structs -/

/-- `Type::can_cmp_order`, src/bindgen/ir/ty.rs:841-850 with 225-227. -/
def Ty.canCmpOrder : Ty → Bool
  | .ptr _ _ _ rf => !rf
  | .path .. => true
  | .prim p => p != .bool
  | .array .. => false
  | .fnptr .. => false

/-- `Type::can_cmp_eq`, src/bindgen/ir/ty.rs:852-860 with 229-231. -/
def Ty.canCmpEq : Ty → Bool
  | .ptr t _ _ rf => !rf || t.canCmpEq
  | .path .. => true
  | .prim _ => true
  | .array .. => false
  | .fnptr .. => true

/-- `Struct::can_derive_eq`, src/bindgen/ir/structure.rs:45-47. -/
def StructItem.canDeriveEq (s : StructItem) : Bool :=
  !s.fields.isEmpty && s.fields.all fun f => f.ty.canCmpEq

/-- `Field::from_name_and_type`, src/bindgen/ir/field.rs:16-24. -/
def Field.of (name : Str) (ty : Ty) : Field := { name, ty }

/-- Texts one below the other: `write_vertical_source_list` with `|_, out, s| write!(out, "{s}")`. -/
def verticalTexts (t : ListType) (xs : List Str) : List WOp :=
  verticalList t (xs.map fun x => [WOp.text x])

/-- `if let Some(Some(attrs)) = annotations.atom(name) { write!(out, "{} ", attrs) }`. -/
def attrOps (a : Annotations) (name : Str) : List WOp := optText (a.atom name).join (· ++ c!" ")

/-- The constructor, src/bindgen/language_backend/clike.rs:122-170. -/
def constructorOps (c : OutConfig) (s : StructItem) : List WOp :=
  [.newLine, .text (s.exportName ++ c!"(")] ++
  verticalList (.join c!",")
    (s.fields.map fun f => (Field.of (c!"const& " ++ c.argName f.name) f.ty).ops c) ++
  [.text c!")", .newLine, .text c!"  : "] ++
  verticalTexts (.join c!",") (s.fields.map fun f => f.name ++ c!"(" ++ c.argName f.name ++ c!")") ++
  [.newLine, .text c!"{}", .newLine]

/-- A C++ function body, `open_brace .. close_brace(false)`. -/
def inBraces (c : OutConfig) (body : List WOp) : List WOp := c.opn ++ body ++ c.cls false

/-- `Struct::emit_bitflags_binop`, src/bindgen/ir/structure.rs:225-265. -/
def bitflagsBinop (c : OutConfig) (name bits pre op other : Str) : List WOp :=
  [.newLine, .text (pre ++ name ++ c!" operator" ++ op ++ c!"(const " ++ name ++ c!"& " ++ other ++
    c!") const")] ++
  inBraces c [.text (c!"return " ++ name ++ c!" { static_cast<decltype(" ++ bits ++ c!")>(this->" ++
    bits ++ c!" " ++ op ++ c!" " ++ other ++ c!"." ++ bits ++ c!") };")] ++
  [.newLine, .text (name ++ c!"& operator" ++ op ++ c!"=(const " ++ name ++ c!"& " ++ other ++ c!")")] ++
  inBraces c [.text (c!"*this = (*this " ++ op ++ c!" " ++ other ++ c!");"), .newLine,
    .text c!"return *this;"]

/-- The operators of bit flags, src/bindgen/language_backend/clike.rs:178-217. -/
def bitflagsOps (c : OutConfig) (s : StructItem) : List WOp :=
  match s.fields with
  | [f] =>
    let pre := if c.allowConstexpr then c!"constexpr " else []
    let other := c.argName c!"other"
    [.newLine, .text (pre ++ c!"explicit operator bool() const")] ++
    inBraces c [.text (c!"return !!" ++ f.name ++ c!";")] ++
    [.newLine, .text (pre ++ s.exportName ++ c!" operator~() const")] ++
    inBraces c [.text (c!"return " ++ s.exportName ++ c!" { static_cast<decltype(" ++ f.name ++
      c!")>(~" ++ f.name ++ c!") };")] ++
    bitflagsBinop c s.exportName f.name pre c!"|" other ++
    bitflagsBinop c s.exportName f.name pre c!"&" other ++
    bitflagsBinop c s.exportName f.name pre c!"^" other
  | _ => [.panic]

/-- The stream operator, src/bindgen/language_backend/clike.rs:223-262. -/
def ostreamOps (c : OutConfig) (s : StructItem) : List WOp :=
  let stream := c.argName c!"stream"
  let instance_ := c.argName c!"instance"
  [.newLine, .text (c!"friend std::ostream& operator<<(std::ostream& " ++ stream ++ c!", const " ++
    s.exportName ++ c!"& " ++ instance_ ++ c!")")] ++
  inBraces c
    ([.text (c!"return " ++ stream ++ c!" << \"{ \"")] ++
     verticalTexts (.join c!" << \", \"")
       (s.fields.map fun f => c!" << \"" ++ f.name ++ c!"=\" << " ++ instance_ ++ c!"." ++ f.name) ++
     [.text c!" << \" }\";"])

/-- `emit_op!`, src/bindgen/language_backend/clike.rs:266-306. -/
def compareOps (c : OutConfig) (s : StructItem) (opName op conj : Str) : List WOp :=
  let other := c.argName c!"other"
  [.newLine] ++ attrOps s.annotations (opName ++ c!"-attributes") ++
  [.text (c!"bool operator" ++ op ++ c!"(const " ++ s.exportName ++ c!"& " ++ other ++ c!") const")] ++
  inBraces c
    ([.text c!"return "] ++
     verticalTexts (.join (c!" " ++ conj))
       ((s.fields.drop (if s.hasTagField then 1 else 0)).map fun f =>
         f.name ++ c!" " ++ op ++ c!" " ++ other ++ c!"." ++ f.name) ++
     [.text c!";"])

/-- The comparison of order, src/bindgen/language_backend/clike.rs:314-337. -/
def StructItem.canOrder (s : StructItem) : Bool :=
  match s.fields with
  | [f] => f.ty.canCmpOrder
  | _ => false

/-- A block that is only there under a condition. -/
def blockIf (b : Bool) (ops : List WOp) : List (List WOp) := if b then [ops] else []

/-- The blocks of `write_derived_cpp_ops`. -/
def derivedBlocks (c : OutConfig) (s : StructItem) : List (List WOp) :=
  let a := s.annotations
  let o := c.structure_
  blockIf (a.boolOr c!"derive-constructor" o.deriveConstructor && !s.fields.isEmpty)
    (constructorOps c s) ++
  blockIf (a.boolOr c!"internal-derive-bitflags" false) (bitflagsOps c s) ++
  blockIf (a.boolOr c!"derive-ostream" o.deriveOstream) (ostreamOps c s) ++
  blockIf (a.boolOr c!"derive-eq" o.deriveEq && s.canDeriveEq) (compareOps c s c!"eq" c!"==" c!"&&") ++
  blockIf (a.boolOr c!"derive-neq" o.deriveNeq && s.canDeriveEq)
    (compareOps c s c!"neq" c!"!=" c!"||") ++
  blockIf (a.boolOr c!"derive-lt" o.deriveLt && s.canOrder) (compareOps c s c!"lt" c!"<" c!"&&") ++
  blockIf (a.boolOr c!"derive-lte" o.deriveLte && s.canOrder) (compareOps c s c!"lte" c!"<=" c!"&&") ++
  blockIf (a.boolOr c!"derive-gt" o.deriveGt && s.canOrder) (compareOps c s c!"gt" c!">" c!"&&") ++
  blockIf (a.boolOr c!"derive-gte" o.deriveGte && s.canOrder) (compareOps c s c!"gte" c!">=" c!"&&")

/-- `write_derived_cpp_ops`, src/bindgen/language_backend/clike.rs:119-338: the first block that is
written is preceded by one more line end (`wrote_start_newline`). -/
def derivedOps (c : OutConfig) (s : StructItem) : List WOp :=
  match derivedBlocks c s with
  | [] => []
  | b :: bs => [.newLine] ++ b ++ bs.flatten

/-- `generate_typedef`, src/bindgen/language_backend/clike.rs:115-117. -/
def OutConfig.genTypedef (c : OutConfig) : Bool := c.language == .c && c.style.generateTypedef

/-- The alignment, src/bindgen/language_backend/clike.rs:565-578 and 663-676. -/
def alignOps (c : OutConfig) : Option ReprAlign → List WOp
  | none => []
  | some .packed => optText c.layout.packed (c!" " ++ ·)
  | some (.align n) => optText c.layout.alignedN fun a => c!" " ++ a ++ c!"(" ++ natStr n ++ c!")"

/-- The `must_use` text, src/bindgen/language_backend/clike.rs:580-584. -/
def mustUseOps (c : OutConfig) (a : Annotations) (text : Option Str) : List WOp :=
  onlyIf (a.mustUseIn c) (optText text (c!" " ++ ·))

/-- The name of a tagged type, src/bindgen/language_backend/clike.rs:593-595 and 678-680. -/
def tagNameOps (c : OutConfig) (name : Str) : List WOp :=
  onlyIf (c.language != .c || c.style.generateTag) [.text (c!" " ++ name)]

/-- The `pre_body` text, src/bindgen/language_backend/clike.rs:600-603. -/
def preBodyOps (c : OutConfig) (path : Str) : List WOp :=
  match c.preBodyOf path with
  | some b => [.raw b, .newLine]
  | none => []

/-- The `body` text, src/bindgen/language_backend/clike.rs:612-615. -/
def postBodyOps (c : OutConfig) (path : Str) : List WOp :=
  match c.postBodyOf path with
  | some b => [.newLine, .raw b]
  | none => []

/-- The end of a definition, src/bindgen/language_backend/clike.rs:627-632. -/
def closeDef (c : OutConfig) (name : Str) : List WOp :=
  if c.genTypedef then c.cls false ++ [.text (c!" " ++ name ++ c!";")] else c.cls true

/-- The declarations of associated constants, src/bindgen/language_backend/clike.rs:617-625. -/
def assocDeclOps (c : OutConfig) (s : StructItem) : List WOp :=
  onlyIf (c.language == .cxx && c.structure_.associatedConstantsInBody && c.allowStaticConst)
    (s.assocConsts.flatMap fun k => [.newLine] ++ k.declarationOps c)

/-- The associated constants, src/bindgen/language_backend/clike.rs:634-637 and mod.rs:151-154. -/
def assocOps (e : Env) (s : StructItem) : List WOp :=
  s.assocConsts.flatMap fun k => [.newLine] ++ k.ops e (some s)

/-- What is between the braces of a struct, src/bindgen/language_backend/clike.rs:599-625. -/
def structBodyC (e : Env) (s : StructItem) : List WOp :=
  preBodyOps e.cfg s.path ++ verticalList (.cap c!";") (s.fields.map (Field.ops e.cfg)) ++
  onlyIf (e.cfg.language == .cxx) (derivedOps e.cfg s) ++ postBodyOps e.cfg s.path ++
  assocDeclOps e.cfg s

/-- `write_struct`, src/bindgen/language_backend/clike.rs:542-640. -/
def structOpsC (e : Env) (s : StructItem) : List WOp :=
  let c := e.cfg
  condBefore c (c.cond s.cfg) ++
  (docOps c s.doc ++ onlyIf (!s.isEnumVariantBody) (paramsOps c false s.genericParams) ++
   onlyIf c.genTypedef [.text c!"typedef "] ++ [.text c!"struct"] ++ alignOps c s.alignment ++
   mustUseOps c s.annotations c.structure_.mustUse ++
   optText (s.annotations.deprecatedNote c .struct) (c!" " ++ ·) ++ tagNameOps c s.exportName ++
   (c.opn ++ structBodyC e s ++ closeDef c s.exportName) ++ assocOps e s) ++
  condAfter c (c.cond s.cfg)

/-- What is between the braces in Cython, src/bindgen/language_backend/cython.rs:199-213. -/
def memberBodyCython (c : OutConfig) (path : Str) (fields : List Field) : List WOp :=
  preBodyOps c path ++ verticalList (.cap c!";") (fields.map (Field.ops c)) ++
  onlyIf fields.isEmpty [.text c!"pass"] ++ postBodyOps c path

/-- The word `packed`, src/bindgen/language_backend/cython.rs:172-177. -/
def packedWord : Option ReprAlign → List WOp
  | some .packed => [.text c!"packed "]
  | _ => []

/-- `write_struct`, src/bindgen/language_backend/cython.rs:161-222. -/
def structOpsCython (e : Env) (s : StructItem) : List WOp :=
  let c := e.cfg
  condBefore c (c.cond s.cfg) ++
  (docOps c s.doc ++ [.text c.style.cythonDef] ++ packedWord s.alignment ++ [.text c!"struct"] ++
   mustUseOps c s.annotations c.structure_.mustUse ++
   optText (s.annotations.deprecatedNote c .struct) (c!" " ++ ·) ++ [.text (c!" " ++ s.exportName)] ++
   (c.opn ++ memberBodyCython c s.path s.fields ++ c.cls true) ++ assocOps e s) ++
  condAfter c (c.cond s.cfg)

/-- `write_struct` of the backend. -/
def emitStruct (e : Env) (s : StructItem) : List WOp :=
  match e.cfg.language with
  | .cython => structOpsCython e s
  | _ => structOpsC e s

/-! ## Unions, opaque items, aliases and statics -/

/-- `write_union`, src/bindgen/language_backend/clike.rs:642-706. -/
def unionOpsC (c : OutConfig) (u : UnionItem) : List WOp :=
  condBefore c (c.cond u.cfg) ++
  (docOps c u.doc ++ paramsOps c false u.genericParams ++ onlyIf c.genTypedef [.text c!"typedef "] ++
   [.text c!"union"] ++ alignOps c u.alignment ++ tagNameOps c u.exportName ++
   (c.opn ++ (preBodyOps c u.path ++ verticalList (.cap c!";") (u.fields.map (Field.ops c)) ++
     postBodyOps c u.path) ++ closeDef c u.exportName)) ++
  condAfter c (c.cond u.cfg)

/-- `write_union`, src/bindgen/language_backend/cython.rs:224-258. -/
def unionOpsCython (c : OutConfig) (u : UnionItem) : List WOp :=
  condBefore c (c.cond u.cfg) ++
  (docOps c u.doc ++ [.text c.style.cythonDef, .text c!"union", .text (c!" " ++ u.exportName)] ++
   (c.opn ++ memberBodyCython c u.path u.fields ++ c.cls true)) ++
  condAfter c (c.cond u.cfg)

/-- `write_union` of the backend. -/
def emitUnion (c : OutConfig) (u : UnionItem) : List WOp :=
  match c.language with
  | .cython => unionOpsCython c u
  | _ => unionOpsC c u

/-- `write_opaque_item`, src/bindgen/language_backend/clike.rs:708-728 and cython.rs:260-279. -/
def emitOpaque (c : OutConfig) (o : OpaqueItem) : List WOp :=
  condBefore c (c.cond o.cfg) ++
  (docOps c o.doc ++ paramsOps c true o.genericParams ++
   (match c.language with
    | .cython =>
      [.text (c.style.cythonDef ++ c!"struct " ++ o.exportName)] ++ c.opn ++ [.text c!"pass"] ++
        c.cls false
    | _ =>
      if c.genTypedef then [.text (c!"typedef struct " ++ o.exportName ++ c!" " ++ o.exportName ++ c!";")]
      else [.text (c!"struct " ++ o.exportName ++ c!";")])) ++
  condAfter c (c.cond o.cfg)

/-- `write_type_def`, src/bindgen/language_backend/clike.rs:730-752 and cython.rs:281-297. -/
def emitTypedef (c : OutConfig) (t : TypedefItem) : List WOp :=
  condBefore c (c.cond t.cfg) ++
  (docOps c t.doc ++
   (match c.language with
    | .cython =>
      [.text (c.language.typedefText ++ c!" ")] ++ (Field.of t.exportName t.aliased).ops c
    | .c =>
      paramsOps c false t.genericParams ++ [.text (c.language.typedefText ++ c!" ")] ++
        (Field.of t.exportName t.aliased).ops c
    | .cxx =>
      paramsOps c false t.genericParams ++ [.text (c!"using " ++ t.exportName ++ c!" = ")] ++
        typeOps c t.aliased) ++
   [.text c!";"]) ++
  condAfter c (c.cond t.cfg)

/-- `write_static`, src/bindgen/language_backend/clike.rs:754-768 and cython.rs:299-313. -/
def emitStatic (c : OutConfig) (s : StaticItem) : List WOp :=
  condBefore c (c.cond s.cfg) ++
  (docOps c s.doc ++ [.text c!"extern "] ++ onlyIf (!s.ty.isConstPtr && !s.mutable) [.text c!"const "] ++
   declOps c s.ty s.exportName ++ [.text c!";"]) ++
  condAfter c (c.cond s.cfg)

/-! ## Functions: src/bindgen/language_backend/mod.rs -/

/-- `trim_start_matches(prefix)` for a text. -/
def trimPrefixAux (p : Str) : Nat → Str → Str
  | 0, s => s
  | n + 1, s => if p ≠ [] ∧ p.isPrefixOf s then trimPrefixAux p n (s.drop p.length) else s

/-- `name:` for every argument, src/bindgen/ir/function.rs:104-110; `none` if one has no name. -/
def swiftArgs : List FnArg → Option Str
  | [] => some []
  | a :: as =>
    match a.name, swiftArgs as with
    | some n, some s => some (n ++ c!":" ++ s)
    | _, _ => none

/-- `Function::swift_name`, src/bindgen/ir/function.rs:81-112. -/
def FuncItem.swiftName (c : OutConfig) (f : FuncItem) : Option Str :=
  if c.language = .cython then none
  else
    match f.selfTypePath with
    | some t =>
      if t.isPrefixOf f.path then
        (swiftArgs f.args).map fun as => t ++ c!"." ++
          ((trimPrefixAux t f.path.length f.path).dropWhile (· == '_')) ++ c!"(" ++ as ++ c!")"
      else some f.path
    | none => (swiftArgs f.args).map fun as => f.path.dropWhile (· == '_') ++ c!"(" ++ as ++ c!")"

/-- `write_space`, src/bindgen/language_backend/mod.rs:67-73. -/
def spaceOps : Layout → List WOp
  | .vertical => [.newLine]
  | _ => [.text c!" "]

/-- A text followed by a space, src/bindgen/language_backend/mod.rs:77-93. -/
def leadOps (layout : Layout) : Option Str → List WOp
  | some s => [.text s] ++ spaceOps layout
  | none => []

/-- `FunctionConfig::prefix` and `postfix`, src/bindgen/config.rs:452-466. -/
def Annotations.atomOr (a : Annotations) (name : Str) (dflt : Option Str) : Option Str :=
  (a.atom name).getD dflt

/-- What is written before the declaration, src/bindgen/language_backend/mod.rs:74-94. -/
def funcLead (c : OutConfig) (f : FuncItem) (layout : Layout) : List WOp :=
  if f.externDecl then [.text c!"extern "]
  else
    leadOps layout (f.annotations.atomOr c!"prefix" c.function.pre) ++
    leadOps layout (if f.annotations.mustUseIn c then c.function.mustUse else none) ++
    leadOps layout (f.annotations.deprecatedNote c .function)

/-- What is written after the declaration, src/bindgen/language_backend/mod.rs:97-109. -/
def funcTrail (c : OutConfig) (f : FuncItem) (layout : Layout) : List WOp :=
  (if f.externDecl then []
   else
    match f.annotations.atomOr c!"postfix" c.function.post with
    | some s => spaceOps layout ++ [.text s]
    | none => []) ++
  (match c.function.swiftNameMacro, f.swiftName c with
   | some m, some n => [.text (c!" " ++ m ++ c!"(" ++ n ++ c!")")]
   | _, _ => [])

/-- `write_function_with_layout`, src/bindgen/language_backend/mod.rs:52-113. -/
def funcOps (c : OutConfig) (f : FuncItem) (layout : Layout) : List WOp :=
  condBefore c (c.cond f.cfg) ++
  (docOps c f.doc ++ funcLead c f layout ++ funcDeclOps c f layout ++ funcTrail c f layout ++
   [.text c!";"]) ++
  condAfter c (c.cond f.cfg)

/-- `write_function`, src/bindgen/language_backend/mod.rs:29-50. -/
def emitFunc (c : OutConfig) (f : FuncItem) : List WOp :=
  match c.function.args with
  | .horizontal => funcOps c f .horizontal
  | .vertical => funcOps c f .vertical
  | .auto => [.tryElse c.lineLength (funcOps c f .horizontal) (funcOps c f .vertical)]

end Cbindgen
