import Verif.Model.Emit

/-!
# The backends: enums

src/bindgen/ir/enumeration.rs:653-1532 and `write_enum` of both backends.
-/

namespace Cbindgen

/-- `VariantBody::annotations`, src/bindgen/ir/enumeration.rs:51-56. -/
def VBody.annotations : VBody → Annotations
  | .empty a => a
  | .body _ b _ _ => b.annotations

/-- `Enum::tag_name`, src/bindgen/ir/enumeration.rs:319-321. -/
def EnumItem.tagName (e : EnumItem) : Str := e.tag.getD e.exportName

/-- `Enum::inline_tag_field`, src/bindgen/ir/enumeration.rs:324-326. -/
def EnumItem.inlineTag (e : EnumItem) : Bool := e.repr.style != .c

/-- The integer type of the tag, src/bindgen/language_backend/clike.rs:469 with
src/bindgen/ir/repr.rs:21-29. -/
def EnumItem.size (c : OutConfig) (e : EnumItem) : Option Str :=
  e.repr.ty.map fun t => (Prim.integer true t.2 t.1).toReprC c.usizeIsSizeT

/-- A variant in `Enum::can_derive_eq`, src/bindgen/ir/enumeration.rs:343-346. -/
def VBody.canDeriveEq : VBody → Bool
  | .empty _ => true
  | .body _ b _ _ => b.canDeriveEq

/-- `Enum::can_derive_eq`, src/bindgen/ir/enumeration.rs:338-347. -/
def EnumItem.canDeriveEq (e : EnumItem) : Bool :=
  e.tag.isSome && e.variants.all fun v => v.body.canDeriveEq

/-- The discriminant of a variant. -/
def discOps (e : Env) (eq : Str) : Option Lit → List WOp
  | some d => [.text eq] ++ d.ops e
  | none => []

/-- `write_enum_variant`, src/bindgen/language_backend/clike.rs:22-43 and cython.rs:20-30. -/
def EnumVariant.ops (e : Env) (v : EnumVariant) : List WOp :=
  let c := e.cfg
  match c.language with
  | .cython => docOps c v.doc ++ [.text v.exportName] ++ discOps e c!" # = " v.disc ++ [.text c!","]
  | _ =>
    condBefore c (c.cond v.cfg) ++
    (docOps c v.doc ++ [.text v.exportName] ++
     optText (v.body.annotations.deprecatedNote c .enumVariant) (c!" " ++ ·) ++
     discOps e c!" = " v.disc ++ [.text c!","]) ++
    condAfter c (c.cond v.cfg)

/-- The condition under which C and C++ compilers take an enum with a type,
src/bindgen/ir/enumeration.rs:684-689. -/
def typedEnumCond (c : OutConfig) : Str :=
  if c.cppCompatibleC then c!"defined(__cplusplus) || __STDC_VERSION__ >= 202311L"
  else c!"__STDC_VERSION__ >= 202311L"

/-- The start of the tag enum, src/bindgen/ir/enumeration.rs:669-747. -/
def tagEnumHead (c : OutConfig) (x : EnumItem) : List WOp :=
  match c.language, x.size c with
  | .c, some prim =>
    [.text c!"enum"] ++ optText (x.annotations.deprecatedNote c .enum) (c!" " ++ ·) ++
    [.text (c!" " ++ x.tagName), .newLine, .text (c!"#if " ++ typedEnumCond c), .newLine,
     .text (c!"  : " ++ prim), .newLine, .text (c!"#endif // " ++ typedEnumCond c), .newLine]
  | .c, none =>
    onlyIf c.style.generateTypedef [.text c!"typedef "] ++ [.text c!"enum"] ++
    optText (x.annotations.deprecatedNote c .enum) (c!" " ++ ·) ++
    onlyIf c.style.generateTag [.text (c!" " ++ x.tagName)]
  | .cxx, size =>
    [.text (if c.enumClass x.annotations then c!"enum class" else c!"enum")] ++
    mustUseOps c x.annotations c.enumeration.mustUse ++
    optText (x.annotations.deprecatedNote c .enum) (c!" " ++ ·) ++
    [.text (c!" " ++ x.tagName)] ++ optText size (c!" : " ++ ·)
  | .cython, some _ => [.text c!"cdef enum"]
  | .cython, none => [.text (c.style.cythonDef ++ c!"enum " ++ x.tagName)]

/-- The enumerators, src/bindgen/ir/enumeration.rs:750-755. -/
def enumeratorsOps (e : Env) : List EnumVariant → List WOp
  | [] => []
  | v :: vs => v.ops e ++ vs.flatMap fun v => [.newLine] ++ v.ops e

/-- The end of the tag enum, src/bindgen/ir/enumeration.rs:758-763. -/
def tagEnumClose (c : OutConfig) (x : EnumItem) : List WOp :=
  if c.language == .c && (x.size c).isNone && c.style.generateTypedef then
    c.cls false ++ [.text (c!" " ++ x.tagName ++ c!";")]
  else c.cls true

/-- The alias that gives the tag its size, src/bindgen/ir/enumeration.rs:768-806. -/
def tagSizeOps (c : OutConfig) (x : EnumItem) : Option Str → List WOp
  | none => []
  | some prim =>
    onlyIf c.cppCompatibleC [.newLineIfNotStart, .text c!"#ifndef __cplusplus"] ++
    onlyIf (c.language != .cxx)
      (onlyIf (c.language == .c)
        [.newLine, .text c!"#if __STDC_VERSION__ >= 202311L", .newLine,
         .text (c.language.typedefText ++ c!" enum " ++ x.tagName ++ c!" " ++ x.tagName ++ c!";"),
         .newLine, .text c!"#else"] ++
       [.newLine, .text (c.language.typedefText ++ c!" " ++ prim ++ c!" " ++ x.tagName ++ c!";")] ++
       onlyIf (c.language == .c) [.newLine, .text c!"#endif // __STDC_VERSION__ >= 202311L"]) ++
    onlyIf c.cppCompatibleC [.newLineIfNotStart, .text c!"#endif // __cplusplus"]

/-- The head of the stream operators, src/bindgen/ir/enumeration.rs:1019-1026 and 1072-1078. -/
def streamHead (c : OutConfig) (word name : Str) : List WOp :=
  [.newLine, .newLine, .text (word ++ c!" std::ostream& operator<<(std::ostream& " ++
    c.argName c!"stream" ++ c!", const " ++ name ++ c!"& " ++ c.argName c!"instance" ++ c!")")]

/-- The `using` line in the stream operators, src/bindgen/ir/enumeration.rs:1029-1038 and 1083-1090. -/
def streamUsing (x : EnumItem) : List WOp :=
  [.text (c!"using " ++ x.tagName ++ c!" = " ++ x.exportName ++ c!"::" ++ x.tagName ++ c!";"), .newLine]

/-- The `switch` of the stream operators with what follows, src/bindgen/ir/enumeration.rs:1040-1063 and
1092-1128. -/
def streamSwitch (c : OutConfig) (on : Str) (cases : List Str) : List WOp :=
  [.text (c!"switch (" ++ on ++ c!")")] ++ inBraces c (verticalTexts (.join []) cases) ++
  [.newLine, .text (c!"return " ++ c.argName c!"stream" ++ c!";")]

/-- A case for the tag, src/bindgen/ir/enumeration.rs:1046-1049. -/
def tagCase (c : OutConfig) (x : EnumItem) (v : EnumVariant) : Str :=
  c!"case " ++ x.tagName ++ c!"::" ++ v.exportName ++ c!": " ++ c.argName c!"stream" ++ c!" << \"" ++
    v.exportName ++ c!"\"; break;"

/-- A case for the data, src/bindgen/ir/enumeration.rs:1097-1119. -/
def dataCase (c : OutConfig) (x : EnumItem) (v : EnumVariant) : Str :=
  match v.body with
  | .body name b _ _ =>
    c!"case " ++ x.tagName ++ c!"::" ++ v.exportName ++ c!": " ++ c.argName c!"stream" ++ c!" << " ++
      (if b.hasTagField then [] else c!"\"" ++ v.exportName ++ c!"\" << ") ++
      c.argName c!"instance" ++ c!"." ++ name ++ c!"; break;"
  | .empty _ =>
    c!"case " ++ x.tagName ++ c!"::" ++ v.exportName ++ c!": " ++ c.argName c!"stream" ++ c!" << \"" ++
      v.exportName ++ c!"\"; break;"

/-- `write_derived_functions_enum`, src/bindgen/ir/enumeration.rs:978-1131. -/
def enumStreamOps (c : OutConfig) (x : EnumItem) : List WOp :=
  onlyIf (c.language == .cxx && x.annotations.boolOr c!"derive-ostream" c.enumeration.deriveOstream)
    (streamHead c (if x.tag.isSome then c!"friend" else c!"inline") x.tagName ++
     inBraces c (onlyIf x.tag.isSome (streamUsing x) ++
       streamSwitch c (c.argName c!"instance") (x.variants.map (tagCase c x))) ++
     onlyIf x.tag.isSome
       (streamHead c c!"friend" x.exportName ++
        inBraces c (streamUsing x ++
          streamSwitch c (c.argName c!"instance" ++ c!".tag") (x.variants.map (dataCase c x)))))

/-- `write_tag_enum`, src/bindgen/ir/enumeration.rs:655-810. -/
def tagEnumOps (e : Env) (x : EnumItem) : List WOp :=
  tagEnumHead e.cfg x ++ (e.cfg.opn ++ enumeratorsOps e x.variants ++ tagEnumClose e.cfg x) ++
  tagSizeOps e.cfg x (x.size e.cfg) ++ enumStreamOps e.cfg x

/-- The words before the struct or union, src/bindgen/ir/enumeration.rs:819-823. -/
def dataWord (c : OutConfig) : List WOp :=
  match c.language with
  | .c => onlyIf c.style.generateTypedef [.text c!"typedef "]
  | .cxx => []
  | .cython => [.text c.style.cythonDef]

/-- `open_struct_or_union`, src/bindgen/ir/enumeration.rs:813-851, up to the opening brace. -/
def openDataHead (c : OutConfig) (x : EnumItem) : List WOp :=
  dataWord c ++ [.text (if x.inlineTag then c!"union" else c!"struct")] ++
  mustUseOps c x.annotations c.structure_.mustUse ++
  optText (x.annotations.deprecatedNote c .struct) (fun n => c!" " ++ n ++ c!" ") ++
  tagNameOps c x.exportName

/-- A body only where Cython is not written: `if config.language != Language::Cython`. -/
def notCython (c : OutConfig) (ops : List WOp) : List WOp := onlyIf (c.language != .cython) ops

/-- One variant of `write_variant_defs`, src/bindgen/ir/enumeration.rs:861-878. -/
def variantDef (e : Env) (v : EnumVariant) : List WOp :=
  match v.body with
  | .body _ b false _ =>
    [.newLine, .newLine] ++ notCython e.cfg (condBefore e.cfg (e.cfg.cond v.cfg)) ++ emitStruct e b ++
    notCython e.cfg (condAfter e.cfg (e.cfg.cond v.cfg))
  | _ => []

/-- `write_tag_field`, src/bindgen/ir/enumeration.rs:886-912. -/
def tagFieldOps (c : OutConfig) (x : EnumItem) : List WOp :=
  let field : List WOp :=
    onlyIf (c.language == .c && (x.size c).isNone && !c.style.generateTypedef) [.text c!"enum "] ++
    [.text (x.tagName ++ c!" tag;")]
  if x.inlineTag && c.language == .cxx then [.text c!"struct"] ++ (c.opn ++ field ++ c.cls true)
  else field

/-- The fields of an inlined variant, src/bindgen/ir/enumeration.rs:943-961. -/
def inlineFields (c : OutConfig) (x : EnumItem) (fields : List Field) : List WOp :=
  match c.language with
  | .cython =>
    if x.inlineTag && fields.isEmpty then [.panic]
    else verticalList (.cap c!";") ((fields.drop (if x.inlineTag then 1 else 0)).map (Field.ops c))
  | _ =>
    [.text c!"struct"] ++ (c.opn ++ verticalList (.cap c!";") (fields.map (Field.ops c)) ++ c.cls true)

/-- One variant of `write_variant_fields`, src/bindgen/ir/enumeration.rs:927-973, without the line end
before it. -/
def variantField (c : OutConfig) (x : EnumItem) (v : EnumVariant) : Option (List WOp) :=
  match v.body with
  | .empty _ => none
  | .body name b inl _ => some
    (notCython c (condBefore c (c.cond v.cfg)) ++
     (if inl then inlineFields c x b.fields
      else if c.style.generateTypedef || c.language == .cython then
        [.text (b.exportName ++ c!" " ++ name ++ c!";")]
      else [.text (c!"struct " ++ b.exportName ++ c!" " ++ name ++ c!";")]) ++
     notCython c (condAfter c (c.cond v.cfg)))

/-- Blocks with a line end between them: the variable `first` of src/bindgen/ir/enumeration.rs:926-937. -/
def spacedBlocks : List (List WOp) → List WOp
  | [] => []
  | b :: bs => b ++ bs.flatMap fun b => [.newLine] ++ b

/-- `write_variant_fields`, src/bindgen/ir/enumeration.rs:915-975. -/
def variantFieldsOps (c : OutConfig) (x : EnumItem) : List WOp :=
  spacedBlocks (x.variants.filterMap (variantField c x))

/-! ## Derived functions: src/bindgen/ir/enumeration.rs:1134-1532 -/

/-- The arguments of a constructor, src/bindgen/ir/enumeration.rs:1182-1202. -/
def helperArgs (c : OutConfig) : VBody → List WOp
  | .empty _ => []
  | .body _ b _ _ =>
    verticalList (.join c!",")
      ((b.fields.drop (if b.hasTagField then 1 else 0)).map fun f =>
        (Field.of (c.argName f.name) (.ptr f.ty true false true)).ops c)

/-- The initialisation of a field, src/bindgen/ir/enumeration.rs:1217-1237. -/
def helperInit (c : OutConfig) (name : Str) (f : Field) : List WOp :=
  [.newLine] ++
  match f.ty with
  | .array t len =>
    [.text (c!"for (int i = 0; i < " ++ len.asStr ++ c!"; i++)")] ++
    inBraces c
      ([.text (c!"::new (&result." ++ name ++ c!"." ++ f.name ++ c!"[i]) (")] ++ typeOps c t ++
       [.text (c!")(" ++ c.argName f.name ++ c!"[i]);")])
  | t =>
    [.text (c!"::new (&result." ++ name ++ c!"." ++ f.name ++ c!") (")] ++ typeOps c t ++
    [.text (c!")(" ++ c.argName f.name ++ c!");")]

/-- The initialisations, src/bindgen/ir/enumeration.rs:1209-1239. -/
def helperInits (c : OutConfig) : VBody → List WOp
  | .empty _ => []
  | .body name b _ _ =>
    (b.fields.drop (if b.hasTagField then 1 else 0)).flatMap (helperInit c name)

/-- The constructor of a variant, src/bindgen/ir/enumeration.rs:1179-1245. -/
def helperConstructor (c : OutConfig) (x : EnumItem) (v : EnumVariant) : List WOp :=
  attrOps v.body.annotations c!"variant-constructor-attributes" ++
  [.text (c!"static " ++ x.exportName ++ c!" " ++ v.exportName ++ c!"(")] ++ helperArgs c v.body ++
  [.text c!")"] ++
  inBraces c
    ([.text (x.exportName ++ c!" result;")] ++ helperInits c v.body ++
     [.newLine, .text (c!"result.tag = " ++ x.tagName ++ c!"::" ++ v.exportName ++ c!";"), .newLine,
      .text c!"return result;"])

/-- The test for a variant, src/bindgen/ir/enumeration.rs:1247-1255. -/
def helperIs (c : OutConfig) (x : EnumItem) (v : EnumVariant) : List WOp :=
  [.newLine, .newLine] ++ attrOps v.body.annotations c!"variant-is-attributes" ++
  [.text (c!"bool Is" ++ v.exportName ++ c!"() const")] ++
  inBraces c [.text (c!"return tag == " ++ x.tagName ++ c!"::" ++ v.exportName ++ c!";")]

/-- The result of a cast, src/bindgen/ir/enumeration.rs:1288-1302. -/
def castResult (c : OutConfig) (isConst inlineCasts : Bool) (b : StructItem) : List WOp :=
  if inlineCasts then
    match b.fields.getLast? with
    | some f => typeOps c (.ptr f.ty isConst false true)
    | none => [.panic]
  else [.text ((if isConst then c!"const " else []) ++ b.exportName ++ c!"&")]

/-- `derive_casts`, src/bindgen/ir/enumeration.rs:1262-1318.  A body that has a tag field always has
that field, so the subtraction of line 1274 cannot overflow; the model writes nothing in that case. -/
def helperCast (c : OutConfig) (v : EnumVariant) (isConst : Bool) : List WOp :=
  match v.body with
  | .empty _ => []
  | .body name b _ inlineCasts =>
    if b.fields.length ≤ (if b.hasTagField then 1 else 0) then []
    else
      [.newLine, .newLine] ++
      attrOps v.body.annotations
        (if isConst then c!"variant-const-cast-attributes" else c!"variant-mut-cast-attributes") ++
      castResult c isConst inlineCasts b ++
      [.text (c!" As" ++ v.exportName ++ c!"()")] ++ onlyIf isConst [.text c!" const"] ++
      inBraces c
        [.text (c.enumeration.castAssertName.getD c!"assert" ++ c!"(Is" ++ v.exportName ++ c!"());"),
         .newLine, .text (c!"return " ++ name), .text (if inlineCasts then c!"._0;" else c!";")]

/-- The helper methods of a variant, src/bindgen/ir/enumeration.rs:1151-1330. -/
def helperOps (c : OutConfig) (x : EnumItem) (v : EnumVariant) : List WOp :=
  [.newLine, .newLine] ++ condBefore c (c.cond v.cfg) ++
  (helperConstructor c x v ++ helperIs c x v ++
   onlyIf (x.annotations.boolOr c!"derive-const-casts" c.enumeration.deriveConstCasts)
     (helperCast c v true) ++
   onlyIf (x.annotations.boolOr c!"derive-mut-casts" c.enumeration.deriveMutCasts)
     (helperCast c v false)) ++
  condAfter c (c.cond v.cfg)

/-- A case of the `switch (tag)` in the derived functions, src/bindgen/ir/enumeration.rs:1366-1383,
1424-1442 and 1477-1497; `text` gets the name of the variant, its member and its body. -/
def switchCase (c : OutConfig) (text : Str → Str → StructItem → Str) (v : EnumVariant) : List WOp :=
  match v.body with
  | .empty _ => []
  | .body name b _ _ =>
    condBefore c (c.cond v.cfg) ++ [.text (text v.exportName name b)] ++ condAfter c (c.cond v.cfg) ++
    [.newLine]

/-- Whether a variant has no data. -/
def VBody.isEmptyBody : VBody → Bool
  | .empty _ => true
  | .body .. => false

/-- The `switch (tag)` in the derived functions, src/bindgen/ir/enumeration.rs:1361-1391, 1419-1449 and
1472-1503.  `self.tag.as_ref().unwrap()` never panics: the functions are only used for enums with
data. -/
def switchOps (c : OutConfig) (x : EnumItem) (text : Str → Str → StructItem → Str) : List WOp :=
  [.text c!"switch (tag)"] ++
  inBraces c (x.variants.flatMap (switchCase c text) ++
    onlyIf (x.variants.any fun v => v.body.isEmptyBody) [.text c!"default: break;"])

/-- The comparison, src/bindgen/ir/enumeration.rs:1346-1412. -/
def enumEqOps (c : OutConfig) (x : EnumItem) : List WOp :=
  let other := c.argName c!"other"
  [.newLine, .newLine] ++ attrOps x.annotations c!"eq-attributes" ++
  [.text (c!"bool operator==(const " ++ x.exportName ++ c!"& " ++ other ++ c!") const")] ++
  inBraces c
    ([.text (c!"if (tag != " ++ other ++ c!".tag)")] ++ inBraces c [.text c!"return false;"] ++
     [.newLine] ++
     switchOps c x (fun v n _ => c!"case " ++ x.tagName ++ c!"::" ++ v ++ c!": return " ++ n ++
       c!" == " ++ other ++ c!"." ++ n ++ c!";") ++
     [.newLine, .text c!"return true;"]) ++
  onlyIf (x.annotations.boolOr c!"derive-neq" c.structure_.deriveNeq)
    ([.newLine, .newLine] ++ attrOps x.annotations c!"neq-attributes" ++
     [.text (c!"bool operator!=(const " ++ x.exportName ++ c!"& " ++ other ++ c!") const")] ++
     inBraces c [.text (c!"return !(*this == " ++ other ++ c!");")])

/-- The private constructor, src/bindgen/ir/enumeration.rs:1414-1429. -/
def enumPrivateOps (c : OutConfig) (x : EnumItem) : List WOp :=
  [.newLine, .newLine, .text c!"private:", .newLine, .text (x.exportName ++ c!"()")] ++ inBraces c [] ++
  [.newLine, .text c!"public:", .newLine]

/-- The destructor, src/bindgen/ir/enumeration.rs:1431-1467. -/
def enumDestructorOps (c : OutConfig) (x : EnumItem) : List WOp :=
  [.newLine, .newLine] ++ attrOps x.annotations c!"destructor-attributes" ++
  [.text (c!"~" ++ x.exportName ++ c!"()")] ++
  inBraces c (switchOps c x fun v n b => c!"case " ++ x.tagName ++ c!"::" ++ v ++ c!": " ++ n ++
    c!".~" ++ b.exportName ++ c!"(); break;")

/-- The copy constructor and the assignment, src/bindgen/ir/enumeration.rs:1469-1531. -/
def enumCopyOps (c : OutConfig) (x : EnumItem) : List WOp :=
  let other := c.argName c!"other"
  [.newLine, .newLine] ++ attrOps x.annotations c!"copy-constructor-attributes" ++
  [.text (x.exportName ++ c!"(const " ++ x.exportName ++ c!"& " ++ other ++ c!")"), .newLine,
   .text (c!" : tag(" ++ other ++ c!".tag)")] ++
  inBraces c (switchOps c x fun v n b => c!"case " ++ x.tagName ++ c!"::" ++ v ++ c!": ::new (&" ++ n ++
    c!") (" ++ b.exportName ++ c!")(" ++ other ++ c!"." ++ n ++ c!"); break;") ++
  onlyIf (x.annotations.boolOr c!"derive-tagged-enum-copy-assignment"
      c.enumeration.deriveTaggedEnumCopyAssignment)
    ([.newLine] ++ attrOps x.annotations c!"copy-assignment-attributes" ++
     [.text (x.exportName ++ c!"& operator=(const " ++ x.exportName ++ c!"& " ++ other ++ c!")")] ++
     inBraces c
       ([.text (c!"if (this != &" ++ other ++ c!")")] ++
        inBraces c [.text (c!"this->~" ++ x.exportName ++ c!"();"), .newLine,
          .text (c!"new (this) " ++ x.exportName ++ c!"(" ++ other ++ c!");")] ++
        [.newLine, .text c!"return *this;"]))

/-- `write_derived_functions_data`, src/bindgen/ir/enumeration.rs:1134-1532. -/
def enumDataFunctions (c : OutConfig) (x : EnumItem) : List WOp :=
  let a := x.annotations
  let o := c.enumeration
  onlyIf (c.language == .cxx)
    (onlyIf (a.boolOr c!"derive-helper-methods" o.deriveHelperMethods) (x.variants.flatMap (helperOps c x)) ++
     onlyIf (x.canDeriveEq && a.boolOr c!"derive-eq" c.structure_.deriveEq) (enumEqOps c x) ++
     onlyIf (a.boolOr c!"private-default-tagged-enum-constructor" o.privateDefaultTaggedEnumConstructor)
       (enumPrivateOps c x) ++
     onlyIf (a.boolOr c!"derive-tagged-enum-destructor" o.deriveTaggedEnumDestructor)
       (enumDestructorOps c x) ++
     onlyIf (a.boolOr c!"derive-tagged-enum-copy-constructor" o.deriveTaggedEnumCopyConstructor)
       (enumCopyOps c x))

/-! ## `write_enum` -/

/-- The union of the variants, src/bindgen/language_backend/clike.rs:507-519; Cython has the fields
directly (cython.rs:149). -/
def variantUnion (c : OutConfig) (x : EnumItem) : List WOp :=
  if x.inlineTag || c.language == .cython then variantFieldsOps c x
  else [.text c!"union"] ++ (c.opn ++ variantFieldsOps c x ++ c.cls true)

/-- What is inside the struct or union for the data after the definitions,
src/bindgen/language_backend/clike.rs:503-528 and cython.rs:145-155. -/
def dataBody (c : OutConfig) (x : EnumItem) : List WOp :=
  tagFieldOps c x ++ [.newLine] ++ variantUnion c x ++ enumDataFunctions c x ++ postBodyOps c x.path

/-- `write_enum`, src/bindgen/language_backend/clike.rs:468-540 and cython.rs:120-159.  In C++ the struct
or union is opened before the tag enum. -/
def emitEnum (e : Env) (x : EnumItem) : List WOp :=
  let c := e.cfg
  condBefore c (c.cond x.cfg) ++
  (docOps c x.doc ++ paramsOps c false x.genericParams ++
   (match x.tag, c.language with
    | none, _ => tagEnumOps e x
    | some _, .cxx =>
      openDataHead c x ++
      (c.opn ++ (preBodyOps c x.path ++ tagEnumOps e x ++ x.variants.flatMap (variantDef e) ++
        [.newLine, .newLine] ++ dataBody c x) ++ closeDef c x.exportName)
    | some _, _ =>
      tagEnumOps e x ++ x.variants.flatMap (variantDef e) ++ [.newLine, .newLine] ++
      openDataHead c x ++
      (c.opn ++ (preBodyOps c x.path ++ dataBody c x) ++ closeDef c x.exportName))) ++
  condAfter c (c.cond x.cfg)

end Cbindgen
