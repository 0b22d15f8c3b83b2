import Verif.Model.Ir

/-!
# Traversals of types and literals: src/bindgen/ir/ty.rs, generic_path.rs, constant.rs
-/

namespace Cbindgen

/-! ## Dependencies -/

mutual
/-- `Type::add_dependencies_ignoring_generics`, src/bindgen/ir/ty.rs:682-716: the paths on which
`Dependencies::add` is called, in order.  (Which calls are made does not depend on what they do.) -/
def Ty.depPaths (params : List GParam) : Ty → List Str
  | .ptr t _ _ _ => t.depPaths params
  | .path n _ gs _ => GArg.depPathsList params gs ++ (if hasParam params n then [] else [n])
  | .prim _ => []
  | .array t _ => t.depPaths params
  | .fnptr r as _ _ => r.depPaths params ++ FArg.depPathsList params as
def GArg.depPaths (params : List GParam) : GArg → List Str
  | .type t => t.depPaths params
  | .const _ => []
def FArg.depPaths (params : List GParam) : FArg → List Str
  | .mk _ t => t.depPaths params
def GArg.depPathsList (params : List GParam) : List GArg → List Str
  | [] => []
  | g :: gs => g.depPaths params ++ GArg.depPathsList params gs
def FArg.depPathsList (params : List GParam) : List FArg → List Str
  | [] => []
  | a :: as => a.depPaths params ++ FArg.depPathsList params as
end

mutual
/-- `Literal::add_dependencies`, src/bindgen/ir/constant.rs:123-141 with `Literal::visit` (228-259):
the paths on which `Dependencies::add` is called, in order. -/
def Lit.depPaths : Lit → List Str
  | .expr _ => []
  | .path none _ => []
  | .path (some (p, _)) _ => [p]
  | .unary _ v => v.depPaths
  | .binop l _ r => l.depPaths ++ r.depPaths
  | .field b _ => b.depPaths
  | .struct p _ fs => p :: LitField.depPathsList fs
  | .cast _ v => v.depPaths
  | .array is => Lit.depPathsList is
def LitField.depPaths : LitField → List Str
  | .mk _ v _ => v.depPaths
def LitField.depPathsList : List LitField → List Str
  | [] => []
  | f :: fs => f.depPaths ++ LitField.depPathsList fs
def Lit.depPathsList : List Lit → List Str
  | [] => []
  | i :: is => i.depPaths ++ Lit.depPathsList is
end

/-! ## Substitution -/

/-- `GenericPath::is_single_identifier`, src/bindgen/ir/generic_path.rs:291-293, of a type that is a
path: its name and exported name. -/
def Ty.singleIdent : Ty → Option (Str × Str)
  | .path n e [] _ => some (n, e)
  | _ => none

/-- The loop of src/bindgen/ir/ty.rs:641-647: the first mapping for the name that is a type. -/
def firstType : List (Str × GArg) → Str → Option Ty
  | [], _ => none
  | (p, .type t) :: ms, n => if n = p then some t else firstType ms n
  | (_, .const _) :: ms, n => firstType ms n

/-- The loop of src/bindgen/ir/ty.rs:279-296: the first mapping for the name that can stand in a
constant expression. -/
def firstConst : List (Str × GArg) → Str → Option CExpr
  | [], _ => none
  | (p, .type t) :: ms, n =>
    if p = n then
      match t.singleIdent with
      | some (m, e) => some (.path m e)
      | none => firstConst ms n
    else firstConst ms n
  | (p, .const c) :: ms, n => if p = n then some c else firstConst ms n

/-- `ConstExpr::specialize`, src/bindgen/ir/ty.rs:276-300. -/
def CExpr.specialize (m : List (Str × GArg)) : CExpr → CExpr
  | .path n e => (firstConst m n).getD (.path n e)
  | .value s => .value s

/-- The choice made by `GenericArgument::specialize` for a type, src/bindgen/ir/generic_path.rs:211-224:
`spec` is the type after `Type::specialize`. -/
def specializeTypeArg (m : List (Str × GArg)) (t spec : Ty) : GArg :=
  match t.singleIdent with
  | some (n, _) =>
    match m.lookup n with
    | some v => v
    | none => .type spec
  | none => .type spec

/-- The choice made by `Type::specialize` for a path, src/bindgen/ir/ty.rs:640-658. -/
def specializePath (m : List (Str × GArg)) (n : Str) (gs : List GArg) : Ty :=
  match firstType m n with
  | some t => t
  | none => Ty.newPath n gs

mutual
/-- `Type::specialize`, src/bindgen/ir/ty.rs:627-680. -/
def Ty.specialize (m : List (Str × GArg)) : Ty → Ty
  | .ptr t c n r => .ptr (t.specialize m) c n r
  | .path n _ gs _ => specializePath m n (GArg.specializeList m gs)
  | .prim p => .prim p
  | .array t l => .array (t.specialize m) (l.specialize m)
  | .fnptr r as n nr => .fnptr (r.specialize m) (FArg.specializeList m as) n nr
/-- `GenericArgument::specialize`, src/bindgen/ir/generic_path.rs:209-227. -/
def GArg.specialize (m : List (Str × GArg)) : GArg → GArg
  | .type t => specializeTypeArg m t (t.specialize m)
  | .const c => .const c
def FArg.specialize (m : List (Str × GArg)) : FArg → FArg
  | .mk n t => .mk n (t.specialize m)
def GArg.specializeList (m : List (Str × GArg)) : List GArg → List GArg
  | [] => []
  | g :: gs => g.specialize m :: GArg.specializeList m gs
def FArg.specializeList (m : List (Str × GArg)) : List FArg → List FArg
  | [] => []
  | a :: as => a.specialize m :: FArg.specializeList m as
end

/-- `GenericParams::call`, src/bindgen/ir/generic_path.rs:107-139; `none` is a panic. -/
def callParams (params : List GParam) (args : List GArg) : Option (List (Str × GArg)) :=
  if params.length < args.length then none
  else
    (List.range params.length).zip params |>.mapM fun (i, p) =>
      match args[i]? with
      | some a => some (p.name, a)
      | none => p.default.map fun d => (p.name, d)

/-! ## Renaming -/

/-- `ConstExpr::rename_for_config`, src/bindgen/ir/ty.rs:252-256 with `GenericPath::rename_for_config`
(src/bindgen/ir/generic_path.rs:295-302). -/
def CExpr.rename (ren : Str → Str) (params : List GParam) : CExpr → CExpr
  | .path n e => .path n (if hasParam params n then e else ren e)
  | .value s => .value s

mutual
/-- `Type::rename_for_config`, src/bindgen/ir/ty.rs:754-778; `ren` is `ExportConfig::rename`. -/
def Ty.rename (ren : Str → Str) (params : List GParam) : Ty → Ty
  | .ptr t c n r => .ptr (t.rename ren params) c n r
  | .path n e gs k =>
    .path n (if hasParam params n then e else ren e) (GArg.renameList ren params gs) k
  | .prim p => .prim p
  | .array t l => .array (t.rename ren params) (l.rename ren params)
  | .fnptr r as n nr => .fnptr (r.rename ren params) (FArg.renameList ren params as) n nr
/-- `GenericArgument::rename_for_config`, src/bindgen/ir/generic_path.rs:229-234. -/
def GArg.rename (ren : Str → Str) (params : List GParam) : GArg → GArg
  | .type t => .type (t.rename ren params)
  | .const c => .const (c.rename ren params)
def FArg.rename (ren : Str → Str) (params : List GParam) : FArg → FArg
  | .mk n t => .mk n (t.rename ren params)
def GArg.renameList (ren : Str → Str) (params : List GParam) : List GArg → List GArg
  | [] => []
  | g :: gs => g.rename ren params :: GArg.renameList ren params gs
def FArg.renameList (ren : Str → Str) (params : List GParam) : List FArg → List FArg
  | [] => []
  | a :: as => a.rename ren params :: FArg.renameList ren params as
end

mutual
/-- `Literal::rename_for_config`, src/bindgen/ir/constant.rs:289-339. -/
def Lit.rename (ren : Str → Str) : Lit → Lit
  | .expr s => .expr s
  | .path none n => .path none (ren n)
  | .path (some (p, e)) n => .path (some (p, ren e)) n
  | .unary op v => .unary op (v.rename ren)
  | .binop l op r => .binop (l.rename ren) op (r.rename ren)
  | .field b f => .field (b.rename ren) f
  | .struct p e fs => .struct p (ren e) (LitField.renameList ren fs)
  | .cast t v => .cast (t.rename ren []) (v.rename ren)
  | .array is => .array (Lit.renameList ren is)
def LitField.rename (ren : Str → Str) : LitField → LitField
  | .mk n v c => .mk n (v.rename ren) c
def LitField.renameList (ren : Str → Str) : List LitField → List LitField
  | [] => []
  | f :: fs => f.rename ren :: LitField.renameList ren fs
def Lit.renameList (ren : Str → Str) : List Lit → List Lit
  | [] => []
  | i :: is => i.rename ren :: Lit.renameList ren is
end

/-! ## Declaration keywords -/

mutual
/-- `Type::resolve_declaration_types`, src/bindgen/ir/ty.rs:780-803; generic arguments are not
visited.  `find` is `DeclarationTypeResolver::type_for`. -/
def Ty.resolve (find : Str → Option DeclKind) : Ty → Ty
  | .ptr t c n r => .ptr (t.resolve find) c n r
  | .path n e gs _ => .path n e gs (find n)
  | .prim p => .prim p
  | .array t l => .array (t.resolve find) l
  | .fnptr r as n nr => .fnptr (r.resolve find) (FArg.resolveList find as) n nr
def FArg.resolve (find : Str → Option DeclKind) : FArg → FArg
  | .mk n t => .mk n (t.resolve find)
def FArg.resolveList (find : Str → Option DeclKind) : List FArg → List FArg
  | [] => []
  | a :: as => a.resolve find :: FArg.resolveList find as
end

/-! ## Mangled paths -/

/-- The replacement of a path in `Type::mangle_paths`, src/bindgen/ir/ty.rs:810-823; `find` is
`Monomorphs::mangle_path`. -/
def manglePath (find : Ty → Option Str) (t : Ty) : Ty :=
  match find t with
  | some p => Ty.newPath p []
  | none => t

mutual
/-- `Type::mangle_paths`, src/bindgen/ir/ty.rs:805-839. -/
def Ty.manglePaths (find : Ty → Option Str) : Ty → Ty
  | .ptr t c n r => .ptr (t.manglePaths find) c n r
  | .path n e gs k =>
    if gs.isEmpty then .path n e gs k else manglePath find (.path n e gs k)
  | .prim p => .prim p
  | .array t l => .array (t.manglePaths find) l
  | .fnptr r as n nr => .fnptr (r.manglePaths find) (FArg.manglePathsList find as) n nr
def FArg.manglePaths (find : Ty → Option Str) : FArg → FArg
  | .mk n t => .mk n (t.manglePaths find)
def FArg.manglePathsList (find : Ty → Option Str) : List FArg → List FArg
  | [] => []
  | a :: as => a.manglePaths find :: FArg.manglePathsList find as
end

/-! ## Generic uses -/

mutual
/-- The paths with generic arguments that `Type::add_monomorphs` reaches, in order,
src/bindgen/ir/ty.rs:722-752. -/
def Ty.genericUses : Ty → List (Str × Str × List GArg × Option DeclKind)
  | .ptr t _ _ _ => t.genericUses
  | .path n e gs k => if gs.isEmpty then [] else [(n, e, gs, k)]
  | .prim _ => []
  | .array t _ => t.genericUses
  | .fnptr r as _ _ => r.genericUses ++ FArg.genericUsesList as
def FArg.genericUses : FArg → List (Str × Str × List GArg × Option DeclKind)
  | .mk _ t => t.genericUses
def FArg.genericUsesList : List FArg → List (Str × Str × List GArg × Option DeclKind)
  | [] => []
  | a :: as => a.genericUses ++ FArg.genericUsesList as
end

/-! ## Standard types -/

/-- `Type::make_zeroable`, src/bindgen/ir/ty.rs:476-489. -/
def Ty.makeZeroable (new : Bool) : Ty → Option Ty
  | .prim (.integer z s k) => if z = new then none else some (.prim (.integer new s k))
  | _ => none

/-- `Type::make_nullable`, src/bindgen/ir/ty.rs:491-517. -/
def Ty.makeNullable : Ty → Option Ty
  | .ptr t c false r => some (.ptr t c true r)
  | .fnptr r as false nr => some (.fnptr r as true nr)
  | _ => none

/-- The match on the name in `Type::simplified_type`, src/bindgen/ir/ty.rs:542-564. -/
def simplifyWrapper (lang : Language) (name : Str) (generic : Ty) : Option Ty :=
  if name = c!"Option" then
    match generic.makeNullable with
    | some t => some t
    | none => generic.makeZeroable true
  else if name = c!"NonNull" then some (.ptr generic false false false)
  else if name = c!"NonZero" then generic.makeZeroable false
  else if name = c!"Box" ∧ lang ≠ .cxx then some (.ptr generic false false false)
  else if name = c!"SyncUnsafeCell" ∨ name = c!"UnsafeCell" ∨ name = c!"Cell" then some generic
  else if (name = c!"ManuallyDrop" ∨ name = c!"MaybeUninit" ∨ name = c!"Pin") ∧ lang ≠ .cxx then
    some generic
  else none

mutual
/-- `Type::simplified_type`, src/bindgen/ir/ty.rs:519-565. -/
def Ty.simplified (lang : Language) : Ty → Option Ty
  | .path n _ gs _ => GArg.simplifiedList lang n gs
  | .ptr .. => none
  | .prim _ => none
  | .array .. => none
  | .fnptr .. => none
/-- Lines 525-541: exactly one generic argument, which is a type. -/
def GArg.simplifiedList (lang : Language) (n : Str) : List GArg → Option Ty
  | [] => none
  | g :: gs => if gs.isEmpty then GArg.simplified lang n g else none
def GArg.simplified (lang : Language) (n : Str) : GArg → Option Ty
  | .const _ => none
  | .type t => simplifyWrapper lang n ((t.simplified lang).getD t)
end

/-- `if let Some(ty) = self.simplified_type(config) { *self = ty }`, src/bindgen/ir/ty.rs:569-571. -/
def Ty.simplifyTop (lang : Language) (t : Ty) : Ty := (t.simplified lang).getD t

mutual
/-- `Type::simplify_standard_types`, src/bindgen/ir/ty.rs:567-572 with `visit_types` (581-604). -/
def Ty.simplify (lang : Language) : Ty → Ty
  | .ptr t c n r => .ptr (t.simplify lang) c n r
  | .path n e gs k => (Ty.path n e (GArg.simplifyList lang gs) k).simplifyTop lang
  | .prim p => .prim p
  | .array t l => .array (t.simplify lang) l
  | .fnptr r as n nr => .fnptr (r.simplify lang) (FArg.simplifyList lang as) n nr
def GArg.simplify (lang : Language) : GArg → GArg
  | .type t => .type (t.simplify lang)
  | .const c => .const c
def FArg.simplify (lang : Language) : FArg → FArg
  | .mk n t => .mk n (t.simplify lang)
def GArg.simplifyList (lang : Language) : List GArg → List GArg
  | [] => []
  | g :: gs => g.simplify lang :: GArg.simplifyList lang gs
def FArg.simplifyList (lang : Language) : List FArg → List FArg
  | [] => []
  | a :: as => a.simplify lang :: FArg.simplifyList lang as
end

/-! ## The rest -/

/-- `Type::get_root_path`, src/bindgen/ir/ty.rs:606-625. -/
def Ty.rootPath : Ty → Option Str
  | .ptr t _ _ _ => t.rootPath
  | .path n _ _ _ => some n
  | .prim _ => none
  | .array .. => none
  | .fnptr .. => none

/-- `GenericPath::replace_self_with`, src/bindgen/ir/generic_path.rs:260-265. -/
def replaceSelfName (selfTy n e : Str) : Str × Str :=
  if n = c!"Self" then (selfTy, selfTy) else (n, e)

mutual
/-- `Type::replace_self_with`, src/bindgen/ir/ty.rs:574-579. -/
def Ty.replaceSelf (selfTy : Str) : Ty → Ty
  | .ptr t c n r => .ptr (t.replaceSelf selfTy) c n r
  | .path n e gs k =>
    .path (replaceSelfName selfTy n e).1 (replaceSelfName selfTy n e).2
      (GArg.replaceSelfList selfTy gs) k
  | .prim p => .prim p
  | .array t l => .array (t.replaceSelf selfTy) l
  | .fnptr r as n nr => .fnptr (r.replaceSelf selfTy) (FArg.replaceSelfList selfTy as) n nr
def GArg.replaceSelf (selfTy : Str) : GArg → GArg
  | .type t => .type (t.replaceSelf selfTy)
  | .const c => .const c
def FArg.replaceSelf (selfTy : Str) : FArg → FArg
  | .mk n t => .mk n (t.replaceSelf selfTy)
def GArg.replaceSelfList (selfTy : Str) : List GArg → List GArg
  | [] => []
  | g :: gs => g.replaceSelf selfTy :: GArg.replaceSelfList selfTy gs
def FArg.replaceSelfList (selfTy : Str) : List FArg → List FArg
  | [] => []
  | a :: as => a.replaceSelf selfTy :: FArg.replaceSelfList selfTy as
end

end Cbindgen
