import Verif.Model.Output
import Verif.Model.Load
import Verif.Model.Writer

/-!
# The options read while writing, and small helpers of the writing functions
-/

namespace Cbindgen

/-- `Layout`, src/bindgen/config.rs:138-142. -/
inductive Layout
  | horizontal
  | vertical
  | auto
  deriving DecidableEq

/-- `Style`, src/bindgen/config.rs:213-219. -/
inductive Style
  | both
  | tag
  | type
  deriving DecidableEq

/-- `Style::generate_tag`, src/bindgen/config.rs:222-227. -/
def Style.generateTag : Style → Bool
  | .type => false
  | _ => true

/-- `Style::generate_typedef`, src/bindgen/config.rs:229-234. -/
def Style.generateTypedef : Style → Bool
  | .tag => false
  | _ => true

/-- `Style::cython_def`, src/bindgen/config.rs:237-243. -/
def Style.cythonDef (s : Style) : Str := if s.generateTag then c!"cdef " else c!"ctypedef "

/-- `DocumentationStyle`, src/bindgen/config.rs:164-170. -/
inductive DocStyle
  | c
  | c99
  | doxy
  | cxx
  | auto
  deriving DecidableEq

/-- `DocumentationLength`, src/bindgen/config.rs:192-195. -/
inductive DocLength
  | short
  | full
  deriving DecidableEq

/-- `FunctionConfig`, src/bindgen/config.rs:412-434, without `no_return` (part of `DeclConfig`) and the
sort key. -/
structure FunctionConfig where
  pre : Option Str := none
  post : Option Str := none
  mustUse : Option Str := none
  deprecated : Option Str := none
  deprecatedWithNote : Option Str := none
  args : Layout := .auto
  renameArgs : RenameRule := .none
  swiftNameMacro : Option Str := none

/-- `StructConfig`, src/bindgen/config.rs:473-506. -/
structure StructConfig where
  deriveConstructor : Bool := false
  deriveEq : Bool := false
  deriveNeq : Bool := false
  deriveLt : Bool := false
  deriveLte : Bool := false
  deriveGt : Bool := false
  deriveGte : Bool := false
  deriveOstream : Bool := false
  associatedConstantsInBody : Bool := false
  renameAssociatedConstant : RenameRule := .none
  mustUse : Option Str := none
  deprecated : Option Str := none
  deprecatedWithNote : Option Str := none

/-- `EnumConfig`, src/bindgen/config.rs:563-617. -/
structure EnumConfig where
  deriveHelperMethods : Bool := false
  deriveConstCasts : Bool := false
  deriveMutCasts : Bool := false
  castAssertName : Option Str := none
  mustUse : Option Str := none
  deprecated : Option Str := none
  deprecatedWithNote : Option Str := none
  deprecatedVariant : Option Str := none
  deprecatedVariantWithNote : Option Str := none
  deriveTaggedEnumDestructor : Bool := false
  deriveTaggedEnumCopyConstructor : Bool := false
  deriveTaggedEnumCopyAssignment : Bool := false
  deriveOstream : Bool := false
  enumClass : Bool := true
  privateDefaultTaggedEnumConstructor : Bool := false

/-- The part of `Config` (src/bindgen/config.rs:907-1035) that is read while writing.  The hash maps
`defines`, `pre_body` and `body` are association lists; `cimports` is listed in the order of its
`BTreeMap`.  `version` is `config::VERSION`, `strDebug` the formatting `{:?}` of a string. -/
structure OutConfig extends DeclConfig where
  header : Option Str := none
  includes : List Str := []
  sysIncludes : List Str := []
  afterIncludes : Option Str := none
  trailer : Option Str := none
  includeGuard : Option Str := none
  pragmaOnce : Bool := false
  noIncludes : Bool := false
  packageVersion : Bool := false
  autogenWarning : Option Str := none
  includeVersion : Bool := false
  namespace_ : Option Str := none
  namespaces : Option (List Str) := none
  usingNamespaces : Option (List Str) := none
  braces : Braces := .sameLine
  lineLength : Nat := 100
  tabWidth : Nat := 2
  lineEnding : LineEnding := .lf
  cppCompat : Bool := false
  style : Style := .both
  preBody : List (Str × Str) := []
  body : List (Str × Str) := []
  export_ : ExportConfig := {}
  layout : LayoutConfig := {}
  function : FunctionConfig := {}
  structure_ : StructConfig := {}
  enumeration : EnumConfig := {}
  allowStaticConst : Bool := true
  allowConstexpr : Bool := true
  defines : List (Str × Str) := []
  documentation : Bool := true
  documentationStyle : DocStyle := .auto
  documentationLength : DocLength := .full
  cythonHeader : Option Str := none
  cythonCimports : List (Str × List Str) := []
  version : Str := []
  strDebug : Str → Str := fun s => ['"'] ++ s ++ ['"']
  caseFns : CaseFns := ⟨id, id, id, id, id, id⟩

/-- What the writer reads of the options. -/
def OutConfig.writer (c : OutConfig) : WConfig :=
  { tabWidth := c.tabWidth, lineEnding := c.lineEnding }

/-- `Config::cpp_compatible_c`, src/bindgen/config.rs:1084-1086. -/
def OutConfig.cppCompatibleC (c : OutConfig) : Bool := c.language == .c && c.cppCompat

/-- `Config::include_guard`, src/bindgen/config.rs:1088-1094. -/
def OutConfig.guard (c : OutConfig) : Option Str :=
  if c.language = .cython then none else c.includeGuard

/-- `Config::includes`, src/bindgen/config.rs:1096-1102. -/
def OutConfig.allIncludes (c : OutConfig) : List Str :=
  if c.language = .cython then [] else c.includes

/-- `Config::sys_includes`, src/bindgen/config.rs:1104-1110. -/
def OutConfig.allSysIncludes (c : OutConfig) : List Str :=
  if c.language = .cython then [] else c.sysIncludes

/-- `Language::typedef`, src/bindgen/config.rs:52-58. -/
def Language.typedefText : Language → Str
  | .cython => c!"ctypedef"
  | _ => c!"typedef"

/-- `trim_matches('\n')`, src/bindgen/config.rs:364 and 368. -/
def trimNewlines (s : Str) : Str :=
  ((s.dropWhile (· == '\n')).reverse.dropWhile (· == '\n')).reverse

/-- `ExportConfig::pre_body`, src/bindgen/config.rs:363-365. -/
def OutConfig.preBodyOf (c : OutConfig) (p : Str) : Option Str := (c.preBody.lookup p).map trimNewlines

/-- `ExportConfig::post_body`, src/bindgen/config.rs:367-369. -/
def OutConfig.postBodyOf (c : OutConfig) (p : Str) : Option Str := (c.body.lookup p).map trimNewlines

/-- The pattern `if let Some(x) = annotations.bool(name) { return x; } self.option` of
src/bindgen/config.rs:508-556 and 632-705. -/
def Annotations.boolOr (a : Annotations) (name : Str) (dflt : Bool) : Bool := (a.bool name).getD dflt

/-- `function.rename_args.apply(name, FunctionArg)`. -/
def OutConfig.argName (c : OutConfig) (n : Str) : Str :=
  c.function.renameArgs.apply c.caseFns n .functionArg

/-- `AnnotationSet::must_use`, src/bindgen/ir/annotation.rs:62-64. -/
def Annotations.mustUseIn (a : Annotations) (c : OutConfig) : Bool := a.mustUse && c.language != .cython

/-- `str::replace("{}", by)`. -/
def replaceHole (by_ : Str) : Str → Str
  | [] => []
  | ['{'] => ['{']
  | '{' :: '}' :: s => by_ ++ replaceHole by_ s
  | c :: s => c :: replaceHole by_ s

/-- `DeprecatedNoteKind`, src/bindgen/ir/annotation.rs:19-26. -/
inductive NoteKind
  | function
  | struct
  | enum
  | enumVariant

/-- The option for a note without a text, src/bindgen/ir/annotation.rs:81-88. -/
def NoteKind.plain (c : OutConfig) : NoteKind → Option Str
  | .enum => c.enumeration.deprecated
  | .enumVariant => c.enumeration.deprecatedVariant
  | .function => c.function.deprecated
  | .struct => c.structure_.deprecated

/-- The option for a note with a text, src/bindgen/ir/annotation.rs:91-97. -/
def NoteKind.withNote (c : OutConfig) : NoteKind → Option Str
  | .enum => c.enumeration.deprecatedWithNote
  | .enumVariant => c.enumeration.deprecatedVariantWithNote
  | .function => c.function.deprecatedWithNote
  | .struct => c.structure_.deprecatedWithNote

/-- `AnnotationSet::deprecated_note`, src/bindgen/ir/annotation.rs:70-100. -/
def Annotations.deprecatedNote (a : Annotations) (c : OutConfig) (k : NoteKind) : Option Str :=
  match a.deprecated with
  | none => none
  | some note =>
    if c.language = .cython then none
    else if note = [] then k.plain c
    else (k.withNote c).map (replaceHole (c.strDebug note))

/-- `format!`ed text of an optional value, or nothing: `if let Some(x) = o { write!(out, ..) }`. -/
def optText (o : Option Str) (f : Str → Str) : List WOp :=
  match o with
  | some x => [.text (f x)]
  | none => []

/-- The calls of an `if` without `else`. -/
def onlyIf (b : Bool) (ops : List WOp) : List WOp := if b then ops else []

/-! ## Conditions: src/bindgen/ir/cfg.rs -/

/-- `to_condition(config)`. -/
def OutConfig.cond (c : OutConfig) (g : Option Cfg) : Option Condition := optToCondition c.defines g

/-- `ConditionWrite::write_before`, src/bindgen/ir/cfg.rs:326-340. -/
def condBefore (c : OutConfig) : Option Condition → List WOp
  | none => []
  | some d =>
    match c.language with
    | .cython => [.text c!"IF ", .text (d.text c.language)] ++ openBrace c.language c.braces
    | _ => [.pushSpaces 0, .text c!"#if ", .text (d.text c.language), .pop, .newLine]

/-- `ConditionWrite::write_after`, src/bindgen/ir/cfg.rs:342-353. -/
def condAfter (c : OutConfig) : Option Condition → List WOp
  | none => []
  | some _ =>
    match c.language with
    | .cython => closeBrace c.language false
    | _ => [.newLine, .pushSpaces 0, .text c!"#endif", .pop]

/-! ## Documentation -/

/-- The style that is used, src/bindgen/language_backend/clike.rs:784-793. -/
def OutConfig.docStyle (c : OutConfig) : DocStyle :=
  match c.documentationStyle, c.language with
  | .auto, .c => .doxy
  | .auto, .cxx => .cxx
  | .auto, _ => .c
  | s, _ => s

/-- The lines that are written, src/bindgen/language_backend/clike.rs:779-782 and 812. -/
def OutConfig.docLines (c : OutConfig) (doc : List Str) : List Str :=
  match c.documentationLength with
  | .short => doc.take 1
  | .full => doc

/-- The text before a line, src/bindgen/language_backend/clike.rs:813-819; `auto` is the `unreachable!`
(it is never the result of `docStyle`). -/
def DocStyle.linePrefix : DocStyle → Str
  | .c => []
  | .doxy => c!" *"
  | .c99 => c!"//"
  | .cxx => c!"///"
  | .auto => []

/-- The start of the comment, src/bindgen/language_backend/clike.rs:798-810. -/
def DocStyle.opening : DocStyle → List WOp
  | .c => [.text c!"/*", .newLine]
  | .doxy => [.text c!"/**", .newLine]
  | _ => []

/-- The end of the comment, src/bindgen/language_backend/clike.rs:825-837. -/
def DocStyle.closing : DocStyle → List WOp
  | .c => [.text c!" */", .newLine]
  | .doxy => [.text c!" */", .newLine]
  | _ => []

/-- `write_documentation`, src/bindgen/language_backend/clike.rs:774-838. -/
def docOpsC (c : OutConfig) (doc : List Str) : List WOp :=
  if doc.isEmpty || !c.documentation then []
  else
    c.docStyle.opening ++
    (c.docLines doc).flatMap (fun l => [.text c.docStyle.linePrefix, .text l, .newLine]) ++
    c.docStyle.closing

/-- `write_documentation`, src/bindgen/language_backend/cython.rs:319-334. -/
def docOpsCython (c : OutConfig) (doc : List Str) : List WOp :=
  if doc.isEmpty || !c.documentation then []
  else (c.docLines doc).flatMap fun l => [.text (['#'] ++ l), .newLine]

/-- `write_documentation` of the backend in use. -/
def docOps (c : OutConfig) (doc : List Str) : List WOp :=
  match c.language with
  | .cython => docOpsCython c doc
  | _ => docOpsC c doc

/-! ## Declarations: src/bindgen/cdecl.rs -/

/-- `const` before the type, src/bindgen/cdecl.rs:198-200. -/
def qualOps : Bool → List WOp
  | true => [.text c!"const "]
  | false => []

/-- `DeclarationType::to_str`, src/bindgen/declarationtyperesolver.rs:26-34. -/
def DeclKind.word : DeclKind → Str
  | .struct => c!"struct"
  | .enum => c!"enum"
  | .union => c!"union"

/-- The optional keyword, src/bindgen/cdecl.rs:202-206. -/
def ctypeOps (c : OutConfig) : Option DeclKind → List WOp
  | none => []
  | some k => if c.language = .cython then [] else [.text (k.word ++ c!" ")]

/-- The optional attribute of a pointer, src/bindgen/cdecl.rs:245-255. -/
def ptrAttrOps (c : OutConfig) (isNullable isRef : Bool) : List WOp :=
  if c.language = .cython then []
  else if isNullable = false ∧ isRef = false then optText c.nonNullAttr (· ++ c!" ")
  else if isNullable then optText c.nullableAttr (· ++ c!" ")
  else []

/-- A parenthesis if asked for, src/bindgen/cdecl.rs:258-265, 286-288 and 298-300. -/
def parenOps (s : Str) : Bool → List WOp
  | true => [.text s]
  | false => []

/-- One iteration for the left part, src/bindgen/cdecl.rs:233-268. -/
def leftPieceOps (c : OutConfig) (nextIsPointer : Bool) : CDeclarator → List WOp
  | .ptr k nl rf =>
    [.text (if rf then c!"&" else c!"*")] ++ qualOps k ++ ptrAttrOps c nl rf
  | .array _ => parenOps c!"(" nextIsPointer
  | .func _ _ => parenOps c!"(" nextIsPointer

/-- The left part over the reversed declarators, src/bindgen/cdecl.rs:230-268. -/
def leftOps (c : OutConfig) : List CDeclarator → List WOp
  | [] => []
  | d :: rest => leftPieceOps c (headIsPtr false rest) d ++ leftOps c rest

/-- The optional identifier with the space before the declarators, src/bindgen/cdecl.rs:225-227. -/
def identSpaceOps : Option Str → List WOp
  | some _ => [.text c!" "]
  | none => []

/-- The optional identifier, src/bindgen/cdecl.rs:271-273. -/
def identOps : Option Str → List WOp
  | some i => [.text i]
  | none => []

/-- `void` for an empty list, src/bindgen/cdecl.rs:303-305. -/
def voidOps (c : OutConfig) (empty : Bool) : List WOp :=
  if empty && c.language == .c then [.text c!"void"] else []

/-- The arguments in a given layout, src/bindgen/cdecl.rs:307-358. -/
def layoutOps (c : OutConfig) (layout : Layout) (args : List (List WOp)) : List WOp :=
  match layout with
  | .vertical => verticalList (.join c!",") args
  | .horizontal => horizontalList (.join c!", ") args
  | .auto =>
    [.tryElse c.lineLength (horizontalList (.join c!", ") args) (verticalList (.join c!",") args)]

/-- The optional attribute of a function that does not return, src/bindgen/cdecl.rs:361-365. -/
def noReturnOps (c : OutConfig) (never : Bool) : List WOp :=
  if never ∧ c.language ≠ .cython then optText c.noReturn (c!" " ++ ·) else []

/-- The template arguments with their brackets, src/bindgen/cdecl.rs:210-222. -/
def templateOps : List (List WOp) → List WOp
  | [] => []
  | gs => [.text c!"<"] ++ horizontalList (.join c!", ") gs ++ [.text c!">"]

mutual
/-- `CDecl::write`, src/bindgen/cdecl.rs:190-371.  `layout` is the layout of the first declarator if
that is a function (`CDecl::from_func`, 83-107); those of function pointers have the configured layout
(179). -/
def CDecl.ops (c : OutConfig) (layout : Layout) : CDecl → Option Str → List WOp
  | .mk isConst ctype typeName generics declarators, ident =>
    qualOps isConst ++ ctypeOps c ctype ++ [.text typeName] ++ templateOps (CGArg.opsList c generics) ++
    identSpaceOps ident ++ leftOps c declarators.reverse ++ identOps ident ++
    CDecl.rightOps c layout false declarators
/-- The right part, src/bindgen/cdecl.rs:275-370. -/
def CDecl.rightOps (c : OutConfig) (layout : Layout) (lastWasPointer : Bool) :
    List CDeclarator → List WOp
  | [] => []
  | .ptr _ _ _ :: rest => CDecl.rightOps c c.function.args true rest
  | .array len :: rest =>
    parenOps c!")" lastWasPointer ++ [.text (c!"[" ++ len ++ c!"]")] ++
      CDecl.rightOps c c.function.args false rest
  | .func args never :: rest =>
    parenOps c!")" lastWasPointer ++ [.text c!"("] ++ voidOps c args.isEmpty ++
      layoutOps c layout (CArg.opsList c args) ++ [.text c!")"] ++ noReturnOps c never ++
      CDecl.rightOps c c.function.args true rest
/-- The template arguments, src/bindgen/cdecl.rs:212-220. -/
def CGArg.opsList (c : OutConfig) : List CGArg → List (List WOp)
  | [] => []
  | .type d :: gs => CDecl.ops c c.function.args d none :: CGArg.opsList c gs
  | .const s :: gs => [.text s] :: CGArg.opsList c gs
/-- The arguments, src/bindgen/cdecl.rs:315-325 and 335-344. -/
def CArg.opsList (c : OutConfig) : List CArg → List (List WOp)
  | [] => []
  | .mk n d :: as => CDecl.ops c c.function.args d n :: CArg.opsList c as
end

/-- `cdecl::write_field`, src/bindgen/cdecl.rs:384-392. -/
def declOps (c : OutConfig) (t : Ty) (ident : Str) : List WOp :=
  (CDecl.fromType c.toDeclConfig t).ops c c.function.args (some ident)

/-- `cdecl::write_type`, src/bindgen/cdecl.rs:394-401. -/
def typeOps (c : OutConfig) (t : Ty) : List WOp :=
  (CDecl.fromType c.toDeclConfig t).ops c c.function.args none

/-- `cdecl::write_func`, src/bindgen/cdecl.rs:374-382. -/
def funcDeclOps (c : OutConfig) (f : FuncItem) (layout : Layout) : List WOp :=
  match CDecl.fromFunc c.toDeclConfig ⟨f.path, f.ret, f.args, f.neverReturn⟩ with
  | some d => d.ops c layout (some f.path)
  | none => [.panic]

end Cbindgen
