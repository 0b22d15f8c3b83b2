import Verif.Model.Syn
import Verif.Model.Prim
import Verif.Model.TyOps
import Verif.Model.LibConfig

/-!
# Loading items: the `load` functions of src/bindgen/ir

An error (`Err(String)`) is `.error .err`, without its text; a panic is `.error .panic`.
-/

namespace Cbindgen

inductive LoadErr
  | err
  | panic
  deriving DecidableEq

abbrev LoadM := Except LoadErr

/-- `Err(...)`. -/
def loadErr {α : Type} : LoadM α := .error .err

/-- A panic. -/
def loadPanic {α : Type} : LoadM α := .error .panic

/-- `try_skip_map`, src/bindgen/utilities.rs:15-31. -/
def trySkipMap {α β : Type} (f : α → LoadM (Option β)) : List α → LoadM (List β)
  | [] => .ok []
  | x :: xs => do
    let y ← f x
    let ys ← trySkipMap f xs
    match y with
    | some y => .ok (y :: ys)
    | none => .ok ys

/-- A loop that loads each element. -/
def tryMap {α β : Type} (f : α → LoadM β) : List α → LoadM (List β)
  | [] => .ok []
  | x :: xs => do
    let y ← f x
    let ys ← tryMap f xs
    .ok (y :: ys)

/-! ## Numbers as text -/

/-- `{}` of an unsigned number. -/
def natStr (n : Nat) : Str := Nat.toDigits 10 n

/-- `{:x}`. -/
def hexStr (n : Nat) : Str := Nat.toDigits 16 n

/-- `{:08X}`. -/
def hexStr8 (n : Nat) : Str :=
  let ds := (Nat.toDigits 16 n).map Char.toUpper
  List.replicate (8 - ds.length) '0' ++ ds

/-- The digits of `str::parse::<u64>`. -/
def parseDigits : Nat → Str → Option Nat
  | acc, [] => some acc
  | acc, c :: cs => if c.isDigit then parseDigits (10 * acc + (c.toNat - 48)) cs else none

/-- `str::parse::<u64>`: an optional `+`, at least one digit, less than 2^64. -/
def parseU64 (s : Str) : Option Nat :=
  let ds := match s with
    | '+' :: ds => ds
    | ds => ds
  if ds = [] then none
  else
    match parseDigits 0 ds with
    | some n => if n < 2 ^ 64 then some n else none
    | none => none

/-! ## `repr` attributes: src/bindgen/ir/repr.rs -/

/-- The entries of one attribute, src/bindgen/ir/repr.rs:58-90. -/
def reprId : ReprMeta → LoadM (Str × Option Str)
  | .path (some i) => .ok (i, none)
  | .path none => loadErr
  | .list n arg =>
    if n = c!"align" then
      match arg with
      | .int t => .ok (c!"align", some t)
      | _ => loadErr
    else if n = c!"packed" then
      match arg with
      | .empty => .ok (c!"packed", none)
      | .int t => .ok (c!"packed", some t)
      | .bad => loadErr
    else loadErr
  | .other => loadErr

/-- The first loop, src/bindgen/ir/repr.rs:49-92. -/
def reprIds : List SAttr → LoadM (List (Str × Option Str))
  | [] => .ok []
  | a :: as =>
    match a.attr with
    | .repr none => loadErr
    | .repr (some ms) => do
      let xs ← tryMap reprId ms
      let ys ← reprIds as
      .ok (xs ++ ys)
    | _ => reprIds as

/-- The integer types of src/bindgen/ir/repr.rs:97-106. -/
def reprIntTable : List (Str × IntKind × Bool) :=
  [ (c!"u8", .b8, false), (c!"u16", .b16, false), (c!"u32", .b32, false), (c!"u64", .b64, false),
    (c!"usize", .size, false), (c!"i8", .b8, true), (c!"i16", .b16, true), (c!"i32", .b32, true),
    (c!"i64", .b64, true), (c!"isize", .size, true) ]

/-- `u64::is_power_of_two`. -/
def isPow2 (n : Nat) : Bool := n ≠ 0 && n &&& (n - 1) == 0

/-- One entry, src/bindgen/ir/repr.rs:95-169. -/
def Repr.step (r : Repr) (id : Str × Option Str) : LoadM Repr :=
  match id with
  | (name, none) =>
    match reprIntTable.lookup name with
    | some t =>
      match r.ty with
      | some _ => loadErr
      | none => .ok { r with ty := some t }
    | none =>
      if name = c!"C" then .ok { r with style := .c }
      else if name = c!"transparent" then .ok { r with style := .transparent }
      else if name = c!"packed" then
        match r.align with
        | some _ => loadErr
        | none => .ok { r with align := some .packed }
      else loadErr
  | (name, some arg) =>
    if name = c!"packed" then loadErr
    else if name = c!"align" then
      match parseU64 arg with
      | none => loadErr
      | some n =>
        if isPow2 n = false then loadErr
        else
          match r.align with
          | some _ => loadErr
          | none => .ok { r with align := some (.align n) }
    else loadErr

/-- The second loop, src/bindgen/ir/repr.rs:93-170. -/
def Repr.steps (r : Repr) : List (Str × Option Str) → LoadM Repr
  | [] => .ok r
  | id :: ids =>
    match r.step id with
    | .ok r' => r'.steps ids
    | .error e => .error e

/-- `Repr::load`, src/bindgen/ir/repr.rs:45-172. -/
def Repr.load (attrs : List SAttr) : LoadM Repr := do
  let ids ← reprIds attrs
  Repr.steps {} ids

/-! ## Documentation and annotations -/

/-- A line without a `\r` at its end. -/
def stripCr (p : Str) : Str := if p.getLast? = some '\r' then p.dropLast else p

/-- The lines made of the pieces between newlines: the last piece is no line if it is empty, and only pieces
before a newline lose a `\r`. -/
def linesOf : List Str → List Str
  | [] => []
  | [p] => if p = [] then [] else [p]
  | p :: ps => stripCr p :: linesOf ps

/-- `str::lines`. -/
def strLines (s : Str) : List Str := linesOf (splitChar '\n' s)

/-- A line without text. -/
def isBlank (s : Str) : Bool := trim s == []

/-- `Iterator::min` of a list of numbers, 0 if it is empty. -/
def minOr0 : List Nat → Nat
  | [] => 0
  | n :: ns => ns.foldl min n

/-- Remove blank lines at the end, src/bindgen/utilities.rs:466-468. -/
def dropBlankEnd (ls : List Str) : List Str := (ls.reverse.dropWhile isBlank).reverse

/-- `split_doc_attr`, src/bindgen/utilities.rs:432-472. -/
def splitDocAttr (input : Str) : List Str :=
  if '\n' ∉ input then [input]
  else
    let lines := strLines input
    let indent := minOr0 ((lines.filter fun l => !isBlank l).map fun l => (l.takeWhile isWs).length)
    dropBlankEnd <| (lines.dropWhile isBlank).map fun l =>
      if isBlank l then [] else ' ' :: l.drop indent

/-- `get_comment_lines`, src/bindgen/utilities.rs:297-320. -/
def commentLines (attrs : List SAttr) : List Str :=
  attrs.flatMap fun a =>
    match a.outer, a.attr with
    | true, .nameValue n (some v) => if n = c!"doc" then splitDocAttr v else []
    | _, _ => []

/-- A line that is an annotation, src/bindgen/ir/annotation.rs:107-110, documentation.rs:17. -/
def isAnnLine (l : Str) : Bool := c!"cbindgen:".isPrefixOf (trimStart l)

/-- `Documentation::load`, src/bindgen/ir/documentation.rs:13-21. -/
def loadDoc (attrs : List SAttr) : List Str := (commentLines attrs).filter fun l => !isAnnLine l

/-- `parse_list`, src/bindgen/ir/annotation.rs:212-226. -/
def parseList (s : Str) : Option (List Str) :=
  match s with
  | '[' :: rest =>
    if rest.getLast? = some ']' then some ((splitChar ',' rest.dropLast).map trim) else none
  | _ => none

/-- The value of an annotation, src/bindgen/ir/annotation.rs:142-160. -/
def annValue (v : Str) : AnnValue :=
  match parseList v with
  | some x => .list x
  | none =>
    if v = c!"true" then .bool true
    else if v = c!"false" then .bool false
    else if v = [] then .atom none
    else .atom (some v)

/-- `HashMap::insert`: the new value is found first. -/
def annInsert (m : List (Str × AnnValue)) (n : Str) (v : AnnValue) : List (Str × AnnValue) :=
  (n, v) :: m.filter fun e => e.1 != n

/-- One line, src/bindgen/ir/annotation.rs:120-160. -/
def annStep (m : List (Str × AnnValue)) (line : Str) : LoadM (List (Str × AnnValue)) :=
  match (splitChar '=' (line.drop 9)).map trim with
  | [n] => .ok (annInsert m n (.bool true))
  | [n, v] => .ok (annInsert m n (annValue v))
  | _ => loadErr

/-- The loop over the lines, src/bindgen/ir/annotation.rs:119-161. -/
def annSteps (m : List (Str × AnnValue)) : List Str → LoadM (List (Str × AnnValue))
  | [] => .ok m
  | l :: ls =>
    match annStep m l with
    | .ok m' => annSteps m' ls
    | .error e => .error e

/-- `has_attr_namevalue`, src/bindgen/utilities.rs:155-163. -/
def hasAttrNameValue (name : Str) (attrs : List Attr) : Bool :=
  attrs.any fun a => match a with
    | .nameValue n _ => n == name
    | _ => false

/-- The first `#[deprecated(...)]`. -/
def deprecatedArgs : List Attr → Option (Option (List (Str × Option Str)))
  | [] => none
  | .deprecated args :: _ => some args
  | _ :: as => deprecatedArgs as

/-- `find_deprecated_note`, src/bindgen/utilities.rs:189-231. -/
def deprecatedNote (attrs : List Attr) : Option Str :=
  match attrLookup c!"deprecated" attrs with
  | some note => some note
  | none =>
    if hasAttrWord c!"deprecated" attrs then some []
    else
      match deprecatedArgs attrs with
      | some (some args) =>
        match args.find? fun a => a.1 == c!"note" with
        | some (_, v) => v
        | none => none
      | _ => none

/-- The lines that `AnnotationSet::load` looks at, src/bindgen/ir/annotation.rs:103-114. -/
def annLines (attrs : List SAttr) : List Str :=
  (commentLines attrs).filterMap fun l => if isAnnLine l then some (trimStart l) else none

/-- `AnnotationSet::load`, src/bindgen/ir/annotation.rs:102-169. -/
def Annotations.load (attrs : List SAttr) : LoadM Annotations := do
  let entries ← annSteps [] (annLines attrs)
  let as := attrs.map (·.attr)
  .ok { entries, mustUse := hasAttrWord c!"must_use" as || hasAttrNameValue c!"must_use" as,
        deprecated := deprecatedNote as }

/-- `AnnotationSet::add_default`, src/bindgen/ir/annotation.rs:172-176. -/
def Annotations.addDefault (a : Annotations) (n : Str) (v : AnnValue) : Annotations :=
  match a.entries.lookup n with
  | some _ => a
  | none => { a with entries := (n, v) :: a.entries }

/-- `Cfg::load` of attributes with a style. -/
def loadCfg (attrs : List SAttr) : Option Cfg := Cfg.load (attrs.map (·.attr))

/-! ## Types: src/bindgen/ir/ty.rs, generic_path.rs -/

/-- The literals of `ConstExpr::load`, src/bindgen/ir/ty.rs:260-268. -/
def constLit : SynLit → LoadM CExpr
  | .bool b => .ok (.value (if b then c!"true" else c!"false"))
  | .int n _ => .ok (.value (natStr n))
  | .byte n => .ok (.value (natStr n))
  | .char c => .ok (.value (natStr c.toNat))
  | .float _ => loadErr
  | .other => loadErr

/-- The end of the `Path` case of `Type::load`, src/bindgen/ir/ty.rs:390-401. -/
def typeOfPath (name : Str) (gs : List GArg) : LoadM (Option Ty) :=
  if name = c!"PhantomData" ∨ name = c!"PhantomPinned" then .ok none
  else
    match Prim.maybe name with
    | some p => if gs = [] then .ok (some (.prim p)) else loadErr
    | none => .ok (some (.newPath name gs))

/-- The name of a parameter of a function pointer, src/bindgen/ir/ty.rs:422-433, with the counter of
wildcards after it. -/
def fnptrArgName (k : Nat) : Option Str → Option Str × Nat
  | none => (none, k)
  | some i =>
    if i = c!"_" then (some (if k = 0 then c!"_" else '_' :: natStr k), k + 1)
    else (some (unraw i), k)

/-- Put an argument that evaporates or not before the rest. -/
def consOpt {α : Type} (x : Option α) (xs : List α) : List α :=
  match x with
  | some x => x :: xs
  | none => xs

/-- Nothing is `void`. -/
def orVoid : Option Ty → Ty
  | some t => t
  | none => .prim .void

/-- The argument for `...`, src/bindgen/ir/ty.rs:440-442. -/
def variadicArg (b : Bool) : List FArg := if b then [.mk none (.prim .vaList)] else []

mutual
/-- `Type::load`, src/bindgen/ir/ty.rs:351-462. -/
def SynTy.load : SynTy → LoadM (Option Ty)
  | .reference m e => do
    let t ← e.load
    .ok (some (.ptr (orVoid t) (!m) false false))
  | .ptr c e => do
    let t ← e.load
    .ok (some (.ptr (orVoid t) c true false))
  | .path n args =>
    if unraw n = c!"PhantomData" then .ok none
    else do
      let gs ← args.load
      typeOfPath (unraw n) gs
  | .array e l => do
    let t ← e.load
    match t with
    | none => loadErr
    | some t => do
      let l ← l.loadConst
      .ok (some (.array t l))
  | .fnptr ins v out => do
    let as ← SynFnArg.loadList 0 ins
    let (r, nr) ← out.load
    .ok (some (.fnptr r (as ++ variadicArg v) false nr))
  | .tuple [] => .ok none
  | .tuple (_ :: _) => loadErr
  | .never => loadErr
  | .dots => .ok (some (.prim .vaList))
  | .other => loadErr
/-- The generic arguments of a path, src/bindgen/ir/generic_path.rs:319-337. -/
def SynArgs.load : SynArgs → LoadM (List GArg)
  | .none => .ok []
  | .angle args => SynGArg.loadList args
  | .paren => loadErr
def SynGArg.loadList : List SynGArg → LoadM (List GArg)
  | [] => .ok []
  | a :: as => do
    let x ← a.load
    let xs ← SynGArg.loadList as
    .ok (consOpt x xs)
def SynGArg.load : SynGArg → LoadM (Option GArg)
  | .type t => do
    let t ← t.load
    .ok (t.map .type)
  | .lifetime => .ok none
  | .const e => do
    let c ← e.loadConst
    .ok (some (.const c))
  | .other => loadErr
/-- The parameters of a function pointer, src/bindgen/ir/ty.rs:416-439. -/
def SynFnArg.loadList (k : Nat) : List SynFnArg → LoadM (List FArg)
  | [] => .ok []
  | .mk n t :: as => do
    let t ← t.load
    match t with
    | none => SynFnArg.loadList k as
    | some t => do
      let as ← SynFnArg.loadList (fnptrArgName k n).2 as
      .ok (.mk (fnptrArgName k n).1 t :: as)
/-- `Type::load_from_output`, src/bindgen/ir/ty.rs:335-349. -/
def SynRet.load : SynRet → LoadM (Ty × Bool)
  | .default => .ok (.prim .void, false)
  | .type .never => .ok (.prim .void, true)
  | .type t => do
    let t ← t.load
    .ok (orVoid t, false)
/-- `ConstExpr::load`, src/bindgen/ir/ty.rs:257-278. -/
def SynExpr.loadConst : SynExpr → LoadM CExpr
  | .lit l => constLit l
  | .path _ n args =>
    if unraw n = c!"PhantomData" then .ok (.path (unraw n) (unraw n))
    else do
      let _ ← args.load
      .ok (.path (unraw n) (unraw n))
  | .cast e _ => e.loadConst
  | _ => loadErr
end

/-- `GenericParam::load`, src/bindgen/ir/generic_path.rs:36-78. -/
def SynGenericParam.load : SynGenericParam → LoadM (Option GParam)
  | .type i d => do
    match d with
    | none => .ok (some { name := unraw i })
    | some d => do
      let t ← d.load
      .ok (some { name := unraw i, default := some (.type (orVoid t)) })
  | .lifetime => .ok none
  | .const i t d => do
    let t ← t.load
    match t with
    | none => loadErr
    | some t =>
      match d with
      | none => .ok (some { name := unraw i, constTy := some t })
      | some d => do
        let c ← d.loadConst
        .ok (some { name := unraw i, constTy := some t, default := some (.const c) })

/-- `GenericParams::load`, src/bindgen/ir/generic_path.rs:95-104. -/
def loadParams : List SynGenericParam → LoadM (List GParam) := trySkipMap SynGenericParam.load

/-! ## Literals: src/bindgen/ir/constant.rs -/

/-- `member_to_ident`, src/bindgen/ir/constant.rs:25-30. -/
def SynMember.ident : SynMember → Str
  | .named n => unraw n
  | .unnamed i => '_' :: natStr i

/-- The operators, src/bindgen/ir/constant.rs:348-376. -/
def BinOp.text : BinOp → Str
  | .add => c!"+" | .sub => c!"-" | .mul => c!"*" | .div => c!"/" | .rem => c!"%"
  | .and => c!"&&" | .or => c!"||" | .bitXor => c!"^" | .bitAnd => c!"&" | .bitOr => c!"|"
  | .shl => c!"<<" | .shr => c!">>" | .eq => c!"==" | .lt => c!"<" | .le => c!"<=" | .ne => c!"!="
  | .ge => c!">=" | .gt => c!">" | .addAssign => c!"+=" | .subAssign => c!"-=" | .mulAssign => c!"*="
  | .divAssign => c!"/=" | .remAssign => c!"%=" | .bitXorAssign => c!"^=" | .bitAndAssign => c!"&="
  | .bitOrAssign => c!"|=" | .shlAssign => c!"<<=" | .shrAssign => c!">>="

/-- `char::escape_default`. -/
def escapeDefault (c : Char) : Str :=
  if c = '\t' then c!"\\t"
  else if c = '\r' then c!"\\r"
  else if c = '\n' then c!"\\n"
  else if c = '\'' then c!"\\'"
  else if c = '"' then c!"\\\""
  else if c = '\\' then c!"\\\\"
  else if 0x20 ≤ c.toNat ∧ c.toNat ≤ 0x7e then [c]
  else c!"\\u{" ++ hexStr c.toNat ++ c!"}"

/-- The suffix of an integer, src/bindgen/ir/constant.rs:402-408. -/
def intSuffix (n : Nat) (suffix : Str) : Str :=
  if suffix = c!"u64" then c!"ull"
  else if suffix = c!"i64" then c!"ll"
  else if suffix = c!"u32" then c!"u"
  else if 2 ^ 63 ≤ n then c!"ull"
  else []

/-- A literal, src/bindgen/ir/constant.rs:393-421. -/
def SynLit.load : SynLit → LoadM Str
  | .byte n => .ok (natStr n)
  | .char c =>
    .ok (if c.toNat ≤ 255 then c!"'" ++ escapeDefault c ++ c!"'"
         else c!"U'\\U" ++ hexStr8 c.toNat ++ c!"'")
  | .int n s => .ok (natStr n ++ intSuffix n s)
  | .float ds => .ok ds
  | .bool b => .ok (if b then c!"true" else c!"false")
  | .other => loadErr

/-- The name of a field of a literal. -/
def LitField.name : LitField → Str
  | .mk n _ _ => n

/-- `HashMap::insert`. -/
def litInsert (fs : List LitField) (f : LitField) : List LitField :=
  (fs.filter fun g => g.name != f.name) ++ [f]

/-- All fields inserted one after the other. -/
def litMap (fs : List LitField) : List LitField := fs.foldl litInsert []

/-- The called path of a tuple struct, src/bindgen/ir/constant.rs:438-444. -/
def calledName : Lit → LoadM Str
  | .path none n => .ok n
  | _ => loadErr

/-- A path expression, src/bindgen/ir/constant.rs:509-528; identifiers stay raw. -/
def litPath (init : List Str) (last : Str) : LoadM Lit :=
  match init with
  | [] => .ok (.path none last)
  | [t] => .ok (.path (some (t, t)) last)
  | _ => loadErr

/-- The operators that are supported, src/bindgen/ir/constant.rs:487-505. -/
def unOpText : UnOp → LoadM Str
  | .not => .ok c!"~"
  | .neg => .ok c!"-"
  | .deref => loadErr

mutual
/-- `Literal::load`, src/bindgen/ir/constant.rs:341-541.  `ord` is the iteration order of the hash map of
fields. -/
def SynExpr.load (ord : List LitField → List LitField) : SynExpr → LoadM Lit
  | .binary l op r => do
    let l ← l.load ord
    let r ← r.load ord
    .ok (.binop l op.text r)
  | .lit l => do
    let s ← l.load
    .ok (.expr s)
  | .field b m => do
    let b ← b.load ord
    .ok (.field b m.ident)
  | .call f as => do
    let f ← f.load ord
    let n ← calledName f
    let fs ← SynExpr.loadArgs ord 0 as
    .ok (.struct n n (ord (litMap fs)))
  | .struct n fs => do
    let fs ← SynFieldValue.loadList ord fs
    .ok (.struct (unraw n) (unraw n) (ord (litMap fs)))
  | .unary op e => do
    let op ← unOpText op
    let v ← e.load ord
    .ok (.unary op v)
  | .path init last _ => litPath init last
  | .paren e => e.load ord
  | .cast e t => do
    let v ← e.load ord
    let t ← t.load
    match t with
    | some t => .ok (.cast t v)
    | none => loadErr
  | .array es => do
    let is ← SynExpr.loadList ord es
    .ok (.array is)
  | .methodCall _ _ _ => loadErr
  | .other => loadErr
def SynExpr.loadList (ord : List LitField → List LitField) : List SynExpr → LoadM (List Lit)
  | [] => .ok []
  | e :: es => do
    let x ← e.load ord
    let xs ← SynExpr.loadList ord es
    .ok (x :: xs)
/-- The arguments of a tuple struct, src/bindgen/ir/constant.rs:446-452. -/
def SynExpr.loadArgs (ord : List LitField → List LitField) (i : Nat) :
    List SynExpr → LoadM (List LitField)
  | [] => .ok []
  | e :: es => do
    let x ← e.load ord
    let xs ← SynExpr.loadArgs ord (i + 1) es
    .ok (.mk ('_' :: natStr i) x none :: xs)
/-- The fields of a struct literal, src/bindgen/ir/constant.rs:467-473. -/
def SynFieldValue.loadList (ord : List LitField → List LitField) :
    List SynFieldValue → LoadM (List LitField)
  | [] => .ok []
  | .mk m e as :: fs => do
    let x ← e.load ord
    let xs ← SynFieldValue.loadList ord fs
    .ok (.mk m.ident x (loadCfg as) :: xs)
end

mutual
/-- `Literal::replace_self_with`, src/bindgen/ir/constant.rs:143-195. -/
def Lit.replaceSelf (selfTy : Str) : Lit → Lit
  | .expr s => .expr s
  | .path none n => .path none n
  | .path (some (p, e)) n => .path (some (replaceSelfName selfTy p e)) n
  | .unary op v => .unary op (v.replaceSelf selfTy)
  | .binop l op r => .binop (l.replaceSelf selfTy) op (r.replaceSelf selfTy)
  | .field b n => .field (b.replaceSelf selfTy) n
  | .struct p e fs =>
    .struct (replaceSelfName selfTy p e).1 (replaceSelfName selfTy p e).2 (LitField.replaceSelfList selfTy fs)
  | .cast t v => .cast (t.replaceSelf selfTy) (v.replaceSelf selfTy)
  | .array is => .array (Lit.replaceSelfList selfTy is)
def LitField.replaceSelfList (selfTy : Str) : List LitField → List LitField
  | [] => []
  | .mk n v c :: fs => .mk n (v.replaceSelf selfTy) c :: LitField.replaceSelfList selfTy fs
def Lit.replaceSelfList (selfTy : Str) : List Lit → List Lit
  | [] => []
  | v :: vs => v.replaceSelf selfTy :: Lit.replaceSelfList selfTy vs
end

/-! ## Items -/

/-- `LayoutConfig`, src/bindgen/config.rs:389-396. -/
structure LayoutConfig where
  packed : Option Str := none
  alignedN : Option Str := none

/-- `LayoutConfig::ensure_safe_to_represent`, src/bindgen/config.rs:398-404. -/
def LayoutConfig.ensureSafe (c : LayoutConfig) (a : ReprAlign) : LoadM Unit :=
  match a, c.packed, c.alignedN with
  | .packed, none, _ => loadErr
  | .align _, _, none => loadErr
  | _, _, _ => .ok ()

/-- The check of an optional alignment. -/
def LayoutConfig.ensureSafeOpt (c : LayoutConfig) : Option ReprAlign → LoadM Unit
  | none => .ok ()
  | some a => c.ensureSafe a

/-- The options read by the `load` functions. -/
structure LoadConfig where
  language : Language := .c
  layout : LayoutConfig := {}
  /-- `enumeration.rename_variant_name_fields` -/
  renameVariantNameFields : RenameRule := .snakeCase
  /-- `enumeration.add_sentinel` -/
  addSentinel : Bool := false
  caseFns : CaseFns
  /-- the iteration order of the fields of a struct literal -/
  fieldOrder : List LitField → List LitField := id

/-- `Field::load`, src/bindgen/ir/field.rs:26-44. -/
def SynField.load (selfPath : Str) (f : SynField) : LoadM (Option Field) := do
  let t ← f.ty.load
  match t with
  | none => .ok none
  | some t =>
    match f.ident with
    | none => loadErr
    | some i => do
      let annotations ← Annotations.load f.attrs
      .ok (some { name := unraw i, ty := t.replaceSelf selfPath, cfg := loadCfg f.attrs, annotations,
                  doc := loadDoc f.attrs })

/-- The loop over the fields of a tuple struct, src/bindgen/ir/structure.rs:80-97. -/
def loadTupleFields (selfPath : Str) (k : Nat) : List SynField → LoadM (List Field)
  | [] => .ok []
  | f :: fs => do
    let t ← f.ty.load
    match t with
    | none => loadTupleFields selfPath k fs
    | some t => do
      let annotations ← Annotations.load f.attrs
      let rest ← loadTupleFields selfPath (k + 1) fs
      .ok ({ name := natStr k, ty := t.replaceSelf selfPath, cfg := loadCfg f.attrs, annotations,
             doc := loadDoc f.attrs } :: rest)

/-- The fields of a struct, src/bindgen/ir/structure.rs:74-99. -/
def SynFields.load (selfPath : Str) : SynFields → LoadM (List Field)
  | .unit => .ok []
  | .named fs => trySkipMap (SynField.load selfPath) fs
  | .unnamed fs => loadTupleFields selfPath 0 fs

/-- `is_transparent`, src/bindgen/ir/structure.rs:59-65. -/
def structStyle : ReprStyle → LoadM Bool
  | .c => .ok false
  | .transparent => .ok true
  | .rust => loadErr

/-- `Struct::load`, src/bindgen/ir/structure.rs:53-115. -/
def SynStruct.load (c : LoadConfig) (modCfg : Option Cfg) (s : SynStruct) : LoadM StructItem := do
  let repr ← Repr.load s.attrs
  let isTransparent ← structStyle repr.style
  c.layout.ensureSafeOpt repr.align
  let fields ← s.fields.load (unraw s.ident)
  let params ← loadParams s.generics
  let annotations ← Annotations.load s.attrs
  .ok (StructItem.new (unraw s.ident) params fields false false repr.align isTransparent
    (Cfg.append modCfg (loadCfg s.attrs)) annotations (loadDoc s.attrs))

/-- A union has to be `#[repr(C)]`, src/bindgen/ir/union.rs:40-42. -/
def unionStyle : ReprStyle → LoadM Unit
  | .c => .ok ()
  | _ => loadErr

/-- `Union::load`, src/bindgen/ir/union.rs:34-70. -/
def SynUnion.load (c : LoadConfig) (modCfg : Option Cfg) (s : SynUnion) : LoadM UnionItem := do
  let repr ← Repr.load s.attrs
  unionStyle repr.style
  c.layout.ensureSafeOpt repr.align
  let fields ← trySkipMap (SynField.load (unraw s.ident)) s.fields
  let params ← loadParams s.generics
  let annotations ← Annotations.load s.attrs
  .ok { path := unraw s.ident, exportName := unraw s.ident, genericParams := params, fields,
        tupleUnion := false, alignment := repr.align, cfg := Cfg.append modCfg (loadCfg s.attrs),
        annotations, doc := loadDoc s.attrs }

/-- `OpaqueItem::load`, src/bindgen/ir/opaque.rs:26-39. -/
def loadOpaque (path : Str) (generics : List SynGenericParam) (attrs : List SAttr)
    (modCfg : Option Cfg) : LoadM OpaqueItem := do
  let params ← loadParams generics
  .ok { path, exportName := path, genericParams := params, cfg := Cfg.append modCfg (loadCfg attrs),
        annotations := (match Annotations.load attrs with
          | .ok a => a
          | .error _ => {}),
        doc := loadDoc attrs }

/-- `Typedef::load`, src/bindgen/ir/typedef.rs:33-47. -/
def SynAlias.load (modCfg : Option Cfg) (s : SynAlias) : LoadM TypedefItem := do
  let t ← s.ty.load
  match t with
  | none => loadErr
  | some t => do
    let params ← loadParams s.generics
    let annotations ← Annotations.load s.attrs
    .ok { path := unraw s.ident, exportName := unraw s.ident, genericParams := params, aliased := t,
          cfg := Cfg.append modCfg (loadCfg s.attrs), annotations, doc := loadDoc s.attrs }

/-- `Static::load`, src/bindgen/ir/global.rs:25-44. -/
def SynStatic.load (path : Str) (modCfg : Option Cfg) (s : SynStatic) : LoadM StaticItem := do
  let t ← s.ty.load
  match t with
  | none => loadErr
  | some t => do
    let annotations ← Annotations.load s.attrs
    .ok { path, exportName := path, ty := t, mutable := s.mutable,
          cfg := Cfg.append modCfg (loadCfg s.attrs), annotations, doc := loadDoc s.attrs }

/-- `str::strip_suffix`. -/
def stripSuffix (suffix s : Str) : Option Str :=
  if suffix.isSuffixOf s then some (s.take (s.length - suffix.length)) else none

/-- The exported name of a constant, src/bindgen/ir/constant.rs:600-607. -/
def constExportName (path : Str) : Option Str → LoadM Str
  | none => .ok path
  | some t =>
    match stripSuffix t path with
    | some n => .ok n
    | none => loadPanic

/-- `Constant::load` and `Constant::new`, src/bindgen/ir/constant.rs:557-619. -/
def loadConstant (ord : List LitField → List LitField) (path : Str) (modCfg : Option Cfg) (ty : SynTy)
    (expr : SynExpr) (attrs : List SAttr) (assoc : Option Str) : LoadM ConstItem := do
  let t ← ty.load
  match t with
  | none => loadErr
  | some t => do
    let v ← expr.load ord
    let annotations ← Annotations.load attrs
    let exportName ← constExportName path assoc
    .ok { path, exportName,
          ty := (match assoc with
            | some s => t.replaceSelf s
            | none => t),
          value := (match assoc with
            | some s => v.replaceSelf s
            | none => v),
          cfg := Cfg.append modCfg (loadCfg attrs), annotations, doc := loadDoc attrs,
          associatedTo := assoc }

/-! ## Functions: src/bindgen/ir/function.rs -/

/-- The type `Self`. -/
def selfTy : Ty := .newPath c!"Self" []

/-- `gen_self_type`, src/bindgen/ir/function.rs:225-249. -/
def SynReceiver.load : SynReceiver → LoadM Ty
  | .value => .ok selfTy
  | .reference m => .ok (.ptr selfTy (!m) false false)
  | .typed t => do
    let t' ← t.load
    match t with
    | .reference m _ => .ok (.ptr (t'.getD selfTy) (!m) false false)
    | _ => .ok (t'.getD selfTy)
  | .other => loadErr

/-- The end of the `Typed` case of `as_argument`, src/bindgen/ir/function.rs:276-283. -/
def typedParam (name : Option Str) : Ty → LoadM (Option FnArg)
  | .array _ _ => loadErr
  | t => .ok (some { name, ty := t })

/-- `as_argument`, src/bindgen/ir/function.rs:252-291. -/
def SynParam.load : SynParam → LoadM (Option FnArg)
  | .receiver r => do
    let t ← r.load
    .ok (some { name := some c!"self", ty := t })
  | .wild t => do
    let t ← t.load
    match t with
    | none => .ok none
    | some t => typedParam none t
  | .ident n t => do
    let t ← t.load
    match t with
    | none => .ok none
    | some t => typedParam (if t = .prim .vaList then none else some (unraw n)) t
  | .pattern t => do
    let t ← t.load
    match t with
    | none => .ok none
    | some _ => loadErr

/-- `replace_self_with` if there is a type. -/
def Ty.replaceSelfOpt (s : Option Str) (t : Ty) : Ty :=
  match s with
  | some p => t.replaceSelf p
  | none => t

/-- `Function::load`, src/bindgen/ir/function.rs:42-79. -/
def SynSig.load (path : Str) (selfType : Option Str) (externDecl : Bool) (attrs : List SAttr)
    (modCfg : Option Cfg) (s : SynSig) : LoadM FuncItem := do
  let args ← trySkipMap SynParam.load s.inputs
  let (ret, neverReturn) ← s.output.load
  let annotations ← Annotations.load attrs
  let args := args ++ (if s.variadic then [{ name := none, ty := .prim .vaList }] else [])
  .ok { path, selfTypePath := selfType, ret := ret.replaceSelfOpt selfType,
        args := args.map fun a => { a with ty := a.ty.replaceSelfOpt selfType },
        externDecl, cfg := Cfg.append modCfg (loadCfg attrs), annotations, doc := loadDoc attrs,
        neverReturn }

/-! ## Enums: src/bindgen/ir/enumeration.rs -/

/-- `annotations.parse_atom::<RenameRule>(name)` or the configured rule,
src/bindgen/ir/annotation.rs:197-208. -/
def Annotations.ruleFor (a : Annotations) (name : Str) (dflt : RenameRule) : LoadM RenameRule :=
  match a.entries.lookup name with
  | some (.atom (some s)) =>
    match RenameRule.parse s with
    | some r => .ok r
    | none => loadPanic
  | some (.atom none) => .ok .none
  | _ => .ok dflt

/-- The tag field of a variant, src/bindgen/ir/enumeration.rs:124-129. -/
def tagField (inlineName : Option Str) : Field :=
  { name := match inlineName with
      | some n => n ++ c!"_tag"
      | none => c!"tag",
    ty := .newPath c!"Tag" [] }

/-- The loop of `parse_fields`, src/bindgen/ir/enumeration.rs:131-148. -/
def loadVariantFields (selfPath : Str) (inlineName : Option Str) (i : Nat) :
    List SynField → LoadM (List Field)
  | [] => .ok []
  | f :: fs => do
    let t ← f.ty.load
    match t with
    | none => loadVariantFields selfPath inlineName (i + 1) fs
    | some t => do
      let annotations ← Annotations.load f.attrs
      let rest ← loadVariantFields selfPath inlineName (i + 1) fs
      let name := match inlineName with
        | some n => n
        | none => match f.ident with
          | some i => unraw i
          | none => natStr i
      .ok ({ name, ty := t.replaceSelf selfPath, cfg := loadCfg f.attrs, annotations,
             doc := loadDoc f.attrs } :: rest)

/-- `parse_fields`, src/bindgen/ir/enumeration.rs:115-151. -/
def parseFields (inlineTag : Bool) (selfPath : Str) (inlineName : Option Str) (fs : List SynField) :
    LoadM (List Field) := do
  let rest ← loadVariantFields selfPath inlineName 0 fs
  .ok ((if inlineTag then [tagField inlineName] else []) ++ rest)

/-- The body of a variant with fields, src/bindgen/ir/enumeration.rs:167-221; the name of the struct is
made from the raw identifier. -/
def variantBody (c : LoadConfig) (rule : RenameRule) (inlineTag : Bool) (selfPath ident : Str)
    (params : List GParam) (annotations : Annotations) (inl inlineCasts : Bool) (fs : List SynField) :
    LoadM VBody := do
  let name := rule.apply c.caseFns (unraw ident) .structMember
  let fields ← parseFields inlineTag selfPath (if inl then some name else none) fs
  .ok (.body name (StructItem.new (ident ++ c!"_Body") params fields inlineTag true none false none
    annotations []) inl inlineCasts)

/-- The `match variant.fields`, src/bindgen/ir/enumeration.rs:165-221. -/
def SynFields.loadBody (c : LoadConfig) (rule : RenameRule) (inlineTag : Bool) (selfPath ident : Str)
    (params : List GParam) (annotations : Annotations) : SynFields → LoadM VBody
  | .unit => .ok (.empty annotations)
  | .named fs => variantBody c rule inlineTag selfPath ident params annotations false false fs
  | .unnamed fs =>
    variantBody c rule inlineTag selfPath ident params annotations
      (fs.length == 1 && c.language ≠ .cxx) (fs.length == 1) fs

/-- A discriminant, src/bindgen/ir/enumeration.rs:108-115. -/
def loadDisc (ord : List LitField → List LitField) (selfPath : Str) : Option SynExpr → LoadM (Option Lit)
  | none => .ok none
  | some e => do
    let v ← e.load ord
    .ok (some (v.replaceSelf selfPath))

/-- `EnumVariant::load`, src/bindgen/ir/enumeration.rs:98-235. -/
def SynVariant.load (c : LoadConfig) (inlineTag : Bool) (params : List GParam) (modCfg : Option Cfg)
    (selfPath : Str) (enumAnnotations : Annotations) (v : SynVariant) : LoadM EnumVariant := do
  let disc ← loadDisc c.fieldOrder selfPath v.disc
  let annotations ← Annotations.load v.attrs
  let annotations := match enumAnnotations.bool c!"derive-ostream" with
    | some b => annotations.addDefault c!"derive-ostream" (.bool b)
    | none => annotations
  let rule ← enumAnnotations.ruleFor c!"rename-variant-name-fields" c.renameVariantNameFields
  let body ← v.fields.loadBody c rule inlineTag selfPath v.ident params annotations
  .ok (EnumVariant.new (unraw v.ident) disc body (Cfg.append modCfg (loadCfg v.attrs)) (loadDoc v.attrs))

/-- `VariantBody::is_empty`, src/bindgen/ir/enumeration.rs:50-55. -/
def VBody.isEmpty : VBody → Bool
  | .empty _ => true
  | .body .. => false

/-- The checks of the representation, src/bindgen/ir/enumeration.rs:360-367. -/
def enumRepr (r : Repr) : LoadM Unit :=
  if r.style = .rust ∧ r.ty = none then loadErr
  else if r.align ≠ none then loadErr
  else .ok ()

/-- `EnumConfig::add_sentinel`, src/bindgen/config.rs:642-647. -/
def LoadConfig.sentinel (c : LoadConfig) (a : Annotations) : Bool :=
  (a.bool c!"add-sentinel").getD c.addSentinel

/-- `Enum::load`, src/bindgen/ir/enumeration.rs:355-429. -/
def SynEnum.load (c : LoadConfig) (modCfg : Option Cfg) (s : SynEnum) : LoadM EnumItem := do
  let repr ← Repr.load s.attrs
  enumRepr repr
  let params ← loadParams s.generics
  let annotations ← Annotations.load s.attrs
  let variants ← tryMap (SynVariant.load c (repr.style != .c) params modCfg (unraw s.ident) annotations)
    s.variants
  let hasData := variants.any fun v => !v.body.isEmpty
  let trailing := ((annotations.list c!"enum-trailing-values").getD []).map fun n =>
    EnumVariant.new n none (.empty {}) none []
  let sentinel := if c.sentinel annotations then
    [EnumVariant.new c!"Sentinel" none (.empty {}) none [c!" Must be last for serialization purposes"]]
    else []
  .ok { path := unraw s.ident, exportName := unraw s.ident, genericParams := params, repr,
        variants := variants ++ trailing ++ sentinel,
        tag := if hasData then some c!"Tag" else none,
        cfg := Cfg.append modCfg (loadCfg s.attrs), annotations, doc := loadDoc s.attrs }

end Cbindgen
