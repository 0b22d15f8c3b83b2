import Verif.Model.Load
import Verif.Model.Library

/-!
# Putting loaded items into the tables: the `load_syn_*` functions of src/bindgen/parser.rs

`Parse` has the same tables as `Library`, so `Library` stands for it.  A panic is `none`.
-/

namespace Cbindgen

/-- The opaque item made of an item that cannot be loaded, `OpaqueItem::load(..).unwrap()`. -/
def Library.addOpaque (l : Library) (ident : Str) (generics : List SynGenericParam) (attrs : List SAttr)
    (modCfg : Option Cfg) : Option Library :=
  match loadOpaque (unraw ident) generics attrs modCfg with
  | .ok o => some { l with opaqueItems := (l.opaqueItems.tryInsert o).1 }
  | .error _ => none

/-- `Parse::load_syn_struct`, src/bindgen/parser.rs:909-929. -/
def Library.loadStruct (c : LoadConfig) (modCfg : Option Cfg) (l : Library) (s : SynStruct) :
    Option Library :=
  match s.load c modCfg with
  | .ok st => some { l with structs := (l.structs.tryInsert st).1 }
  | .error .err => l.addOpaque s.ident s.generics s.attrs modCfg
  | .error .panic => none

/-- `Parse::load_syn_union`, src/bindgen/parser.rs:932-953. -/
def Library.loadUnion (c : LoadConfig) (modCfg : Option Cfg) (l : Library) (s : SynUnion) :
    Option Library :=
  match s.load c modCfg with
  | .ok u => some { l with unions := (l.unions.tryInsert u).1 }
  | .error .err => l.addOpaque s.ident s.generics s.attrs modCfg
  | .error .panic => none

/-- `Parse::load_syn_enum`, src/bindgen/parser.rs:956-975. -/
def Library.loadEnum (c : LoadConfig) (modCfg : Option Cfg) (l : Library) (s : SynEnum) :
    Option Library :=
  match s.load c modCfg with
  | .ok e => some { l with enums := (l.enums.tryInsert e).1 }
  | .error .err => l.addOpaque s.ident s.generics s.attrs modCfg
  | .error .panic => none

/-- `Parse::load_syn_ty`, src/bindgen/parser.rs:978-994. -/
def Library.loadAlias (modCfg : Option Cfg) (l : Library) (s : SynAlias) : Option Library :=
  match s.load modCfg with
  | .ok t => some { l with typedefs := (l.typedefs.tryInsert t).1 }
  | .error .err => l.addOpaque s.ident s.generics s.attrs modCfg
  | .error .panic => none

/-- The end of `Parse::load_syn_const`, src/bindgen/parser.rs:852-868: a public constant of a crate for
which top level items are generated. -/
def Library.loadConst (c : LoadConfig) (modCfg : Option Cfg) (l : Library) (s : SynConst) :
    Option Library :=
  match loadConstant c.fieldOrder (unraw s.ident) modCfg s.ty s.expr s.attrs none with
  | .ok k => some { l with constants := (l.constants.tryInsert k).1 }
  | .error .err => some l
  | .error .panic => none

/-- The end of `Parse::load_syn_static`, src/bindgen/parser.rs:890-905: a static with an exported name. -/
def Library.loadStatic (modCfg : Option Cfg) (l : Library) (path : Str) (s : SynStatic) :
    Option Library :=
  match s.load path modCfg with
  | .ok g => some { l with globals := (l.globals.tryInsert g).1 }
  | .error .err => some l
  | .error .panic => none

/-- One associated constant of `Parse::load_syn_assoc_consts`, src/bindgen/parser.rs:796-825. -/
def Library.loadAssocConst (c : LoadConfig) (modCfg : Option Cfg) (implPath : Str) (l : Library)
    (s : SynConst) : Option Library :=
  match loadConstant c.fieldOrder (unraw s.ident ++ implPath) modCfg s.ty s.expr s.attrs
      (some implPath) with
  | .ok k =>
    if (l.structs.getItems implPath).getD [] = [] then
      some { l with constants := (l.constants.tryInsert k).1 }
    else
      some { l with structs := l.structs.mapItemsAt implPath fun st =>
        { st with assocConsts := st.assocConsts ++ [k] } }
  | .error .err => some l
  | .error .panic => none

end Cbindgen
