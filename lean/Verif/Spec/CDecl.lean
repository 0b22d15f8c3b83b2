import Verif.Model.CDecl

/-!
# Reading C declarations

An independent reader for the declarator syntax of C (C11 6.7.6, 6.7.7; plus `&` and template
arguments of C++), and the C type that corresponds to a Rust type.  Nothing here refers to the
writer.
-/

namespace Cbindgen.CSpec

open Cbindgen (Str Tok DeclKind Ty GArg FArg DeclConfig)

mutual
/-- C types. -/
inductive CTy
  /-- a named type, possibly `const`, with its `struct`/`enum`/`union` keyword if it is written -/
  | base (isConst : Bool) (tag : Option DeclKind) (name : Str) (args : List CTyArg)
  /-- pointer (or reference) to a type; `isConst` qualifies the pointer itself -/
  | ptr (isConst isRef : Bool) (attr : Option Str) (to : CTy)
  | arr (len : Str) (elem : CTy)
  | fn (params : List CParam) (attr : Option Str) (ret : CTy)
inductive CTyArg
  | type (t : CTy)
  | const (s : Str)
inductive CParam
  | mk (name : Option Str) (t : CTy)
end

/-- One derivation step of a declarator, counted from the identifier outwards: "is a pointer to",
"is an array of", "is a function returning". -/
inductive Step
  | ptr (isConst isRef : Bool) (attr : Option Str)
  | arr (len : Str)
  | fn (params : List CParam) (attr : Option Str)

def Step.apply : Step → CTy → CTy
  | .ptr c r a, t => .ptr c r a t
  | .arr l, t => .arr l t
  | .fn ps a, t => .fn ps a t

/-- The type declared by derivation steps around a base type. -/
def applySteps (ss : List Step) (base : CTy) : CTy := ss.foldr Step.apply base

/-- An optional leading `const`. -/
def takeConst : List Tok → Bool × List Tok
  | .kwConst :: ts => (true, ts)
  | ts => (false, ts)

/-- An optional leading `struct`/`enum`/`union`. -/
def takeTag : List Tok → Option DeclKind × List Tok
  | .kwTag k :: ts => (some k, ts)
  | ts => (none, ts)

/-- An optional leading attribute. -/
def takeAttr : List Tok → Option Str × List Tok
  | .attr a :: ts => (some a, ts)
  | ts => (none, ts)

/-- Does `(` followed by these tokens start a parenthesised declarator (rather than a parameter
list)?  A parameter list starts with a type name, `const`, a tag or is empty.  When the identifier
is mandatory and still missing, a parenthesis always is a parenthesised declarator. -/
def opensDeclarator (needIdent : Bool) : List Tok → Bool
  | .star :: _ => true
  | .amp :: _ => true
  | .lparen :: _ => true
  | _ => needIdent

mutual
/-- declaration ::= [const] [tag] name [< args >] declarator -/
def readDecl : Nat → (needIdent : Bool) → List Tok → Option ((Option Str × CTy) × List Tok)
  | 0, _, _ => none
  | fuel + 1, needIdent, ts =>
    let (c, ts) := takeConst ts
    let (k, ts) := takeTag ts
    match ts with
    | .name n :: .lt :: ts =>
      match readTyArgs fuel ts with
      | some (args, ts) =>
        match readDeclarator fuel needIdent ts with
        | some ((i, ss), ts) => some ((i, applySteps ss (.base c k n args)), ts)
        | none => none
      | none => none
    | .name n :: ts =>
      match readDeclarator fuel needIdent ts with
      | some ((i, ss), ts) => some ((i, applySteps ss (.base c k n [])), ts)
      | none => none
    | _ => none
/-- declarator ::= * [const] [attr] declarator | direct suffixes,
direct ::= name | ( declarator ) | (nothing).
Suffixes bind tighter than the prefix `*`. -/
def readDeclarator : Nat → (needIdent : Bool) → List Tok →
    Option ((Option Str × List Step) × List Tok)
  | 0, _, _ => none
  | fuel + 1, needIdent, ts =>
    match ts with
    | .star :: ts =>
      let (c, ts) := takeConst ts
      let (a, ts) := takeAttr ts
      match readDeclarator fuel needIdent ts with
      | some ((i, ss), ts) => some ((i, ss ++ [.ptr c false a]), ts)
      | none => none
    | .amp :: ts =>
      let (c, ts) := takeConst ts
      let (a, ts) := takeAttr ts
      match readDeclarator fuel needIdent ts with
      | some ((i, ss), ts) => some ((i, ss ++ [.ptr c true a]), ts)
      | none => none
    | .name i :: ts =>
      match readSuffixes fuel ts with
      | some (ss, ts) => some ((some i, ss), ts)
      | none => none
    | .lparen :: ts' =>
      if opensDeclarator needIdent ts' then
        match readDeclarator fuel needIdent ts' with
        | some ((i, ss), .rparen :: ts) =>
          match readSuffixes fuel ts with
          | some (ss', ts) => some ((i, ss ++ ss'), ts)
          | none => none
        | _ => none
      else
        match readSuffixes fuel ts with
        | some (ss, ts) => some ((none, ss), ts)
        | none => none
    | ts =>
      match readSuffixes fuel ts with
      | some (ss, ts) => some ((none, ss), ts)
      | none => none
/-- suffixes ::= { [ length ] | ( parameters ) [attr] } -/
def readSuffixes : Nat → List Tok → Option (List Step × List Tok)
  | 0, _ => none
  | fuel + 1, ts =>
    match ts with
    | .lbrack :: .lit l :: .rbrack :: ts =>
      match readSuffixes fuel ts with
      | some (ss, ts) => some (.arr l :: ss, ts)
      | none => none
    | .lparen :: ts =>
      match readParams fuel ts with
      | some (ps, ts) =>
        let (a, ts) := takeAttr ts
        match readSuffixes fuel ts with
        | some (ss, ts) => some (.fn ps a :: ss, ts)
        | none => none
      | none => none
    | ts => some ([], ts)
/-- parameters, up to and including the closing parenthesis; `(void)` and `()` have none. -/
def readParams : Nat → List Tok → Option (List CParam × List Tok)
  | 0, _ => none
  | _ + 1, .rparen :: ts => some ([], ts)
  | fuel + 1, ts =>
    if ts.take 2 = [.name c!"void", .rparen] then some ([], ts.drop 2)
    else readParamList fuel ts
/-- a non-empty comma separated parameter list, up to and including the closing parenthesis -/
def readParamList : Nat → List Tok → Option (List CParam × List Tok)
  | 0, _ => none
  | fuel + 1, ts =>
    match readDecl fuel false ts with
    | some ((i, t), .rparen :: ts) => some ([.mk i t], ts)
    | some ((i, t), .comma :: ts) =>
      match readParamList fuel ts with
      | some (ps, ts) => some (.mk i t :: ps, ts)
      | none => none
    | _ => none
/-- comma separated template arguments, up to and including the closing `>` -/
def readTyArgs : Nat → List Tok → Option (List CTyArg × List Tok)
  | 0, _ => none
  | fuel + 1, ts =>
    match ts with
    | .lit s :: .gt :: ts => some ([.const s], ts)
    | .lit s :: .comma :: ts =>
      match readTyArgs fuel ts with
      | some (as, ts) => some (.const s :: as, ts)
      | none => none
    | ts =>
      match readDecl fuel false ts with
      | some ((none, t), .gt :: ts) => some ([.type t], ts)
      | some ((none, t), .comma :: ts) =>
        match readTyArgs fuel ts with
        | some (as, ts) => some (.type t :: as, ts)
        | none => none
      | _ => none
end

/-- Enough fuel for any token list: no two consecutive calls consume nothing. -/
def fuelFor (ts : List Tok) : Nat := 2 * ts.length + 4

/-- Read a whole token list as the declaration of an identifier. -/
def readNamed (ts : List Tok) : Option (Str × CTy) :=
  match readDecl (fuelFor ts) true ts with
  | some ((some i, t), []) => some (i, t)
  | _ => none

/-- Read a whole token list as a type name (abstract declarator, C11 6.7.7). -/
def readTypeName (ts : List Tok) : Option CTy :=
  match readDecl (fuelFor ts) false ts with
  | some ((none, t), []) => some t
  | _ => none

/-! ## The C type of a Rust type -/

/-- The attribute that the configuration asks for on a pointer that may / may not be null
(references never get the non-null attribute, Cython has no attributes). -/
def wantedAttr (cfg : DeclConfig) (isNullable isRef : Bool) : Option Str :=
  match cfg.language, isNullable, isRef with
  | .cython, _, _ => none
  | _, true, _ => cfg.nullableAttr
  | _, false, false => cfg.nonNullAttr
  | _, false, true => none

/-- The attribute that the configuration asks for on a function that never returns. -/
def wantedNoReturn (cfg : DeclConfig) (never : Bool) : Option Str :=
  match cfg.language, never with
  | .cython, _ => none
  | _, true => cfg.noReturn
  | _, false => none

mutual
/-- The C type of an object of Rust type `t`; `isConst` says that the object is accessed through a
`*const`/`&`, so it is `const`.  An array of constant objects is an array whose elements are
constant (C11 6.7.3p9); a constant pointer is a pointer that itself is `const`. -/
def meaning (cfg : DeclConfig) (isConst : Bool) : Ty → CTy
  | .ptr t pointeeConst nullable ref =>
    .ptr isConst ref (wantedAttr cfg nullable ref) (meaning cfg pointeeConst t)
  | .array t len => .arr len.asStr (meaning cfg isConst t)
  | .fnptr ret args nullable never =>
    .ptr isConst false (wantedAttr cfg nullable false)
      (.fn (meaningArgs cfg args) (wantedNoReturn cfg never) (meaning cfg false ret))
  | .prim p => .base isConst none (p.toReprC cfg.usizeIsSizeT) []
  | .path _ exportName generics tag =>
    .base isConst (if cfg.language = .cython then none else tag) exportName
      (meaningGArgs cfg generics)
def meaningArgs (cfg : DeclConfig) : List FArg → List CParam
  | [] => []
  | .mk n t :: as => .mk n (meaning cfg false t) :: meaningArgs cfg as
def meaningGArgs (cfg : DeclConfig) : List GArg → List CTyArg
  | [] => []
  | .type t :: as => .type (meaning cfg false t) :: meaningGArgs cfg as
  | .const c :: as => .const c.asStr :: meaningGArgs cfg as
end

/-- The C parameter of a Rust function argument.  An argument with an array length (the
`ptrs-as-arrays` annotation) is a parameter of array type. -/
def meaningFnArg (cfg : DeclConfig) (a : FnArg) : CParam :=
  match a.arrayLength, a.ty with
  | some l, .ptr t isConst _ _ => .mk a.name (.arr l (meaning cfg isConst t))
  | _, t => .mk a.name (meaning cfg false t)

/-- The C function type of a Rust function. -/
def meaningFn (cfg : DeclConfig) (f : Fn) : CTy :=
  .fn (f.args.map (meaningFnArg cfg)) (wantedNoReturn cfg f.neverReturn) (meaning cfg false f.ret)

end Cbindgen.CSpec

namespace Cbindgen.CSpec

open Cbindgen (Str Ty GArg FArg DeclConfig)

/-! ## Side conditions and comparison -/

/-- A parameter list that C reads as "no parameters": one unnamed `void`. -/
def isVoidList : List CParam → Prop
  | [.mk none (.base false none n [])] => n = c!"void"
  | _ => False

mutual
/-- No function pointer inside the type takes an (unnamed) `void` by value as its only parameter;
such a type has no inhabitants to pass in Rust, and `(void)` means "no parameters" in C. -/
def NoVoidParam (cfg : DeclConfig) : Ty → Prop
  | .ptr t _ _ _ => NoVoidParam cfg t
  | .array t _ => NoVoidParam cfg t
  | .fnptr ret args _ _ =>
    ¬ isVoidList (meaningArgs cfg args) ∧ NoVoidParam cfg ret ∧ NoVoidParamArgs cfg args
  | .prim _ => True
  | .path _ _ gs _ => NoVoidParamGArgs cfg gs
def NoVoidParamArgs (cfg : DeclConfig) : List FArg → Prop
  | [] => True
  | .mk _ t :: as => NoVoidParam cfg t ∧ NoVoidParamArgs cfg as
def NoVoidParamGArgs (cfg : DeclConfig) : List GArg → Prop
  | [] => True
  | .type t :: gs => NoVoidParam cfg t ∧ NoVoidParamGArgs cfg gs
  | .const _ :: gs => NoVoidParamGArgs cfg gs
end

mutual
/-- Forget `const` and the attribute on pointers to functions (and only there). -/
def CTy.forgetFnPtr : CTy → CTy
  | .base c k n as => .base c k n (CTy.forgetTyArgs as)
  | .ptr _ r _ (.fn ps a ret) =>
    .ptr false r none (.fn (CTy.forgetParams ps) a (CTy.forgetFnPtr ret))
  | .ptr c r a (.base c' k n as) => .ptr c r a (.base c' k n (CTy.forgetTyArgs as))
  | .ptr c r a (.ptr c' r' a' t) => .ptr c r a (CTy.forgetFnPtr (.ptr c' r' a' t))
  | .ptr c r a (.arr l t) => .ptr c r a (.arr l (CTy.forgetFnPtr t))
  | .arr l t => .arr l (CTy.forgetFnPtr t)
  | .fn ps a ret => .fn (CTy.forgetParams ps) a (CTy.forgetFnPtr ret)
def CTy.forgetTyArgs : List CTyArg → List CTyArg
  | [] => []
  | .type t :: as => .type (CTy.forgetFnPtr t) :: CTy.forgetTyArgs as
  | .const s :: as => .const s :: CTy.forgetTyArgs as
def CTy.forgetParams : List CParam → List CParam
  | [] => []
  | .mk n t :: ps => .mk n (CTy.forgetFnPtr t) :: CTy.forgetParams ps
end

mutual
/-- Function pointers are never behind a `*const`/`&`, and their attribute does not depend on
whether they may be null. -/
def FnPtrPlain (cfg : DeclConfig) (isConst : Bool) : Ty → Prop
  | .ptr t pointeeConst _ _ => FnPtrPlain cfg pointeeConst t
  | .array t _ => FnPtrPlain cfg isConst t
  | .fnptr ret args nullable _ =>
    isConst = false ∧ (nullable = true ∨ wantedAttr cfg false false = wantedAttr cfg true false) ∧
      FnPtrPlain cfg false ret ∧ FnPtrPlainArgs cfg args
  | .prim _ => True
  | .path _ _ gs _ => FnPtrPlainGArgs cfg gs
def FnPtrPlainArgs (cfg : DeclConfig) : List FArg → Prop
  | [] => True
  | .mk _ t :: as => FnPtrPlain cfg false t ∧ FnPtrPlainArgs cfg as
def FnPtrPlainGArgs (cfg : DeclConfig) : List GArg → Prop
  | [] => True
  | .type t :: gs => FnPtrPlain cfg false t ∧ FnPtrPlainGArgs cfg gs
  | .const _ :: gs => FnPtrPlainGArgs cfg gs
end

end Cbindgen.CSpec
