import Verif.Model.Prim

/-!
# Translating Rust types into C declarations (src/bindgen/cdecl.rs)

The writer is modelled at the level of tokens: white space (including the choice between the
horizontal, vertical and automatic argument layouts, which only differ in white space) is dropped.
-/

namespace Cbindgen

/-- The pieces of text that `CDecl::write` emits, without white space.  `name` is used for every
word that is not `const`, `struct`, `enum` or `union`: type names and declared identifiers are not
distinguished.  `lit` is the text of an array length or of a constant template argument, `attr` the
text of a user supplied attribute. -/
inductive Tok
  | kwConst
  | kwTag (k : DeclKind)
  | name (s : Str)
  | lit (s : Str)
  | attr (s : Str)
  | star
  | amp
  | lparen
  | rparen
  | lbrack
  | rbrack
  | lt
  | gt
  | comma
  deriving DecidableEq, Repr

mutual
/-- `CDecl`, src/bindgen/cdecl.rs:38-45 (`deprecated` is not used by `write`).  `typeGenericArgs`
holds the declarations of the template arguments: the code keeps the types and converts them with
`CDecl::from_type` when they are written (cdecl.rs:212-220 through `write_type`, 394-401). -/
inductive CDecl
  | mk (isConst : Bool) (ctype : Option DeclKind) (typeName : Str) (typeGenericArgs : List CGArg)
      (declarators : List CDeclarator)
/-- `CDeclarator`, src/bindgen/cdecl.rs:18-30 (without the layout). -/
inductive CDeclarator
  | ptr (isConst isNullable isRef : Bool)
  | array (len : Str)
  | func (args : List CArg) (neverReturn : Bool)
/-- One template argument. -/
inductive CGArg
  | type (d : CDecl)
  | const (s : Str)
/-- One function argument. -/
inductive CArg
  | mk (name : Option Str) (d : CDecl)
end

/-- `CDeclarator::is_ptr`, src/bindgen/cdecl.rs:33-35. -/
def CDeclarator.isPtr : CDeclarator → Bool
  | .ptr .. => true
  | .func .. => true
  | .array .. => false

/-- `is_ptr` of the next declarator if there is one: the `peek` of src/bindgen/cdecl.rs:234
(with `dflt = false`). -/
def headIsPtr (dflt : Bool) : List CDeclarator → Bool
  | [] => dflt
  | d :: _ => d.isPtr

/-- Add a declarator in front: the code pushes it before building the rest
(src/bindgen/cdecl.rs:153-158, 162-163, 175-185). -/
def CDecl.push (d : CDeclarator) : CDecl → CDecl
  | .mk q k n g ds => .mk q k n g (d :: ds)

mutual
/-- `CDecl::build_type`, src/bindgen/cdecl.rs:109-188, on an empty declaration. -/
def CDecl.buildType (cfg : DeclConfig) : (t : Ty) → (isConst : Bool) → CDecl
  | .path _ e g k, isConst => .mk isConst k e (CDecl.buildGArgs cfg g) []
  | .prim p, isConst => .mk isConst none (p.toReprC cfg.usizeIsSizeT) [] []
  | .ptr t pc nl rf, isConst => (CDecl.buildType cfg t pc).push (.ptr isConst nl rf)
  | .array t len, isConst => (CDecl.buildType cfg t isConst).push (.array len.asStr)
  | .fnptr ret args _ never, _ =>
    ((CDecl.buildType cfg ret false).push (.func (CDecl.buildFArgs cfg args) never)).push
      (.ptr false true false)
/-- Template arguments, src/bindgen/cdecl.rs:129 and 216-219. -/
def CDecl.buildGArgs (cfg : DeclConfig) : List GArg → List CGArg
  | [] => []
  | .type t :: gs => .type (CDecl.buildType cfg t false) :: CDecl.buildGArgs cfg gs
  | .const c :: gs => .const c.asStr :: CDecl.buildGArgs cfg gs
/-- Arguments of a function pointer, src/bindgen/cdecl.rs:171-174. -/
def CDecl.buildFArgs (cfg : DeclConfig) : List FArg → List CArg
  | [] => []
  | .mk n t :: as => .mk n (CDecl.buildType cfg t false) :: CDecl.buildFArgs cfg as
end

/-- `CDecl::from_type`, src/bindgen/cdecl.rs:59-63. -/
def CDecl.fromType (cfg : DeclConfig) (t : Ty) : CDecl := CDecl.buildType cfg t false

/-- A function argument: `FunctionArgument`, src/bindgen/ir/function.rs:22-26. -/
structure FnArg where
  name : Option Str
  ty : Ty
  arrayLength : Option Str := none

/-- What `build_func` reads of a `Function` (src/bindgen/ir/function.rs:29-46). -/
structure Fn where
  name : Str
  ret : Ty
  args : List FnArg
  neverReturn : Bool := false

/-- `CDecl::from_func_arg`, src/bindgen/cdecl.rs:65-81.  `none` is the `unreachable!` of line 73. -/
def CDecl.fromFuncArg (cfg : DeclConfig) (t : Ty) (arrayLength : Option Str) : Option CDecl :=
  match arrayLength with
  | none => some (CDecl.fromType cfg t)
  | some l =>
    match t with
    | .ptr t' isConst _ _ => some (CDecl.buildType cfg (.array t' (.value l)) isConst)
    | _ => none

/-- The argument list of `CDecl::build_func`, src/bindgen/cdecl.rs:90-99. -/
def CDecl.buildArgs (cfg : DeclConfig) : List FnArg → Option (List CArg)
  | [] => some []
  | a :: as => do
    let d ← CDecl.fromFuncArg cfg a.ty a.arrayLength
    let ds ← CDecl.buildArgs cfg as
    return .mk a.name d :: ds

/-- `CDecl::from_func` / `build_func`, src/bindgen/cdecl.rs:83-107. -/
def CDecl.fromFunc (cfg : DeclConfig) (f : Fn) : Option CDecl := do
  let args ← CDecl.buildArgs cfg f.args
  return (CDecl.buildType cfg f.ret false).push (.func args f.neverReturn)

/-! ## Writing -/

/-- The optional nullability attribute, src/bindgen/cdecl.rs:245-255. -/
def ptrAttr (cfg : DeclConfig) (isNullable isRef : Bool) : List Tok :=
  if cfg.language = .cython then []
  else if isNullable = false ∧ isRef = false then (cfg.nonNullAttr.map Tok.attr).toList
  else if isNullable then (cfg.nullableAttr.map Tok.attr).toList
  else []

/-- `(` if the next declarator is a pointer, src/bindgen/cdecl.rs:258-260 and 263-265. -/
def openParen : Bool → List Tok
  | true => [.lparen]
  | false => []

/-- `const` if needed, src/bindgen/cdecl.rs:198-200 and 242-244. -/
def constToks : Bool → List Tok
  | true => [.kwConst]
  | false => []

/-- One iteration of the loop for the left part, src/bindgen/cdecl.rs:233-268. -/
def leftPiece (cfg : DeclConfig) (nextIsPointer : Bool) : CDeclarator → List Tok
  | .ptr c nl rf =>
    (if rf then Tok.amp else Tok.star) ::
      (constToks c ++ ptrAttr cfg nl rf)
  | .array _ => openParen nextIsPointer
  | .func _ _ => openParen nextIsPointer

/-- The loop for the left part over the reversed declarators, src/bindgen/cdecl.rs:230-268. -/
def leftPart (cfg : DeclConfig) : List CDeclarator → List Tok
  | [] => []
  | d :: rest =>
    leftPiece cfg (headIsPtr false rest) d ++ leftPart cfg rest

/-- `)` if the previous declarator was a pointer, src/bindgen/cdecl.rs:286-288 and 298-300. -/
def closeParen : Bool → List Tok
  | true => [.rparen]
  | false => []

/-- The optional `no_return` attribute, src/bindgen/cdecl.rs:361-365. -/
def noReturnAttr (cfg : DeclConfig) (never : Bool) : List Tok :=
  if never ∧ cfg.language ≠ .cython then (cfg.noReturn.map Tok.attr).toList else []

/-- The optional `struct`/`enum`/`union` keyword, src/bindgen/cdecl.rs:202-206. -/
def ctypeToks (cfg : DeclConfig) : Option DeclKind → List Tok
  | none => []
  | some k => if cfg.language = .cython then [] else [Tok.kwTag k]

/-- The optional identifier, src/bindgen/cdecl.rs:271-273. -/
def identToks : Option Str → List Tok
  | some i => [Tok.name i]
  | none => []

mutual
/-- `CDecl::write`, src/bindgen/cdecl.rs:190-371. -/
def CDecl.write (cfg : DeclConfig) : CDecl → Option Str → List Tok
  | .mk isConst ctype typeName generics declarators, ident =>
    constToks isConst ++ ctypeToks cfg ctype ++ [Tok.name typeName] ++
    CDecl.writeGArgList cfg generics ++ leftPart cfg declarators.reverse ++ identToks ident ++
    CDecl.rightPart cfg false declarators
/-- The loop for the right part, src/bindgen/cdecl.rs:275-370. -/
def CDecl.rightPart (cfg : DeclConfig) (lastWasPointer : Bool) : List CDeclarator → List Tok
  | [] => []
  | .ptr _ _ _ :: rest => CDecl.rightPart cfg true rest
  | .array len :: rest =>
    closeParen lastWasPointer ++ [.lbrack, .lit len, .rbrack] ++
      CDecl.rightPart cfg false rest
  | .func args never :: rest =>
    closeParen lastWasPointer ++ [.lparen] ++
      CDecl.writeArgList cfg args ++
      [.rparen] ++ noReturnAttr cfg never ++ CDecl.rightPart cfg true rest
/-- The template arguments with their brackets, src/bindgen/cdecl.rs:210-222. -/
def CDecl.writeGArgList (cfg : DeclConfig) : List CGArg → List Tok
  | [] => []
  | g :: gs => Tok.lt :: (CDecl.writeGArg cfg g ++ CDecl.writeGArgs cfg gs ++ [Tok.gt])
/-- The template arguments after the first, src/bindgen/cdecl.rs:212-220. -/
def CDecl.writeGArgs (cfg : DeclConfig) : List CGArg → List Tok
  | [] => []
  | g :: gs => Tok.comma :: (CDecl.writeGArg cfg g ++ CDecl.writeGArgs cfg gs)
/-- One template argument, src/bindgen/cdecl.rs:216-219. -/
def CDecl.writeGArg (cfg : DeclConfig) : CGArg → List Tok
  | .type d => CDecl.write cfg d none
  | .const s => [.lit s]
/-- The arguments without the parentheses, src/bindgen/cdecl.rs:303-358. -/
def CDecl.writeArgList (cfg : DeclConfig) : List CArg → List Tok
  | [] => if cfg.language = .c then [.name c!"void"] else []
  | a :: as => CDecl.writeArg cfg a ++ CDecl.writeArgs cfg as
/-- The arguments after the first, src/bindgen/cdecl.rs:315-325 and 335-344. -/
def CDecl.writeArgs (cfg : DeclConfig) : List CArg → List Tok
  | [] => []
  | a :: as => Tok.comma :: (CDecl.writeArg cfg a ++ CDecl.writeArgs cfg as)
/-- One argument, src/bindgen/cdecl.rs:322-324 and 341-343. -/
def CDecl.writeArg (cfg : DeclConfig) : CArg → List Tok
  | .mk n d => CDecl.write cfg d n
end

/-- `write_field`, src/bindgen/cdecl.rs:384-392. -/
def writeField (cfg : DeclConfig) (t : Ty) (ident : Str) : List Tok :=
  (CDecl.fromType cfg t).write cfg (some ident)

/-- `write_type`, src/bindgen/cdecl.rs:394-401. -/
def writeType (cfg : DeclConfig) (t : Ty) : List Tok :=
  (CDecl.fromType cfg t).write cfg none

/-- `write_func`, src/bindgen/cdecl.rs:374-382. -/
def writeFunc (cfg : DeclConfig) (f : Fn) : Option (List Tok) := do
  let d ← CDecl.fromFunc cfg f
  return d.write cfg (some f.name)

end Cbindgen
