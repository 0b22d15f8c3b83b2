import Verif.Model.Text
import Verif.Model.Config

/-!
# `cfg` predicates and preprocessor conditions: src/bindgen/ir/cfg.rs
-/

namespace Cbindgen

/-- `DefineKey`, src/bindgen/ir/cfg.rs:12-16. -/
inductive DefineKey
  | boolean (key : Str)
  | named (name value : Str)
  deriving DecidableEq, Repr

/-- `DefineKey::load`, src/bindgen/ir/cfg.rs:19-42. -/
def DefineKey.load (key : Str) : DefineKey :=
  if '=' ∈ key then
    match splitChar '=' (trim key) with
    | [n, v] => .named (trim n) (trim v)
    | _ => .boolean key
  else .boolean key

/-- `Cfg`, src/bindgen/ir/cfg.rs:45-52. -/
inductive Cfg
  | boolean (name : Str)
  | named (name value : Str)
  | any (cs : List Cfg)
  | all (cs : List Cfg)
  | not (c : Cfg)

/-- `Condition`, src/bindgen/ir/cfg.rs:260-266. -/
inductive Condition
  | define (name : Str)
  | any (cs : List Condition)
  | all (cs : List Condition)
  | not (c : Condition)

/-- `Cfg::join`, src/bindgen/ir/cfg.rs:131-137. -/
def Cfg.join (cfgs : List Cfg) : Option Cfg :=
  if cfgs.isEmpty then none else some (.all cfgs)

/-- `Cfg::append`, src/bindgen/ir/cfg.rs:139-146. -/
def Cfg.append (parent child : Option Cfg) : Option Cfg :=
  match parent, child with
  | none, none => none
  | none, some c => some c
  | some p, none => some p
  | some p, some c => some (.all [p, c])

/-- `Cfg::load`, src/bindgen/ir/cfg.rs:148-170.  The argument lists the successfully parsed
arguments of the `#[cfg(...)]` attributes. -/
def Cfg.ofAttrs (configs : List Cfg) : Option Cfg :=
  match configs with
  | [] => none
  | [c] => some c
  | cs => some (.all cs)

/-- The lookup of src/bindgen/ir/cfg.rs:209-212 and 221-223.  `defines` lists the hash map in
iteration order. -/
def findDefine (defines : List (Str × Str)) (key : DefineKey) : Option Str :=
  (defines.find? fun e => decide (key = DefineKey.load e.1)).map Prod.snd

/-- `0 => None, 1 => the only one, _ => wrap`, src/bindgen/ir/cfg.rs:236-240 and 247-251. -/
def collapse (wrap : List Condition → Condition) : List Condition → Option Condition
  | [] => none
  | [c] => some c
  | cs => some (wrap cs)

/-- `filter_map` step, src/bindgen/ir/cfg.rs:232-235 and 243-246. -/
def consOption {α : Type} : Option α → List α → List α
  | none, xs => xs
  | some x, xs => x :: xs

mutual
/-- `<Cfg as ToCondition>::to_condition`, src/bindgen/ir/cfg.rs:204-258.  The warning about a missing
entry is not modelled. -/
def Cfg.toCondition (defines : List (Str × Str)) : Cfg → Option Condition
  | .boolean n => (findDefine defines (.boolean n)).map .define
  | .named n v => (findDefine defines (.named n v)).map .define
  | .any cs => collapse .any (Cfg.toConditions defines cs)
  | .all cs => collapse .all (Cfg.toConditions defines cs)
  | .not c => (Cfg.toCondition defines c).map .not
/-- The `filter_map` over the children. -/
def Cfg.toConditions (defines : List (Str × Str)) : List Cfg → List Condition
  | [] => []
  | c :: cs => consOption (Cfg.toCondition defines c) (Cfg.toConditions defines cs)
end

/-- `<Option<Cfg> as ToCondition>::to_condition`, src/bindgen/ir/cfg.rs:198-202. -/
def optToCondition (defines : List (Str × Str)) (c : Option Cfg) : Option Condition :=
  c.bind (Cfg.toCondition defines)

/-- ` || ` / ` or `, src/bindgen/ir/cfg.rs:283-287. -/
def orText : Language → Str
  | .cython => c!" or "
  | _ => c!" || "

/-- ` && ` / ` and `, src/bindgen/ir/cfg.rs:297-301. -/
def andText : Language → Str
  | .cython => c!" and "
  | _ => c!" && "

/-- `!` / `not `, src/bindgen/ir/cfg.rs:308-312. -/
def notText : Language → Str
  | .cython => c!"not "
  | _ => c!"!"

/-- `defined(X)` / `X`, src/bindgen/ir/cfg.rs:271-279. -/
def defineText : Language → Str → Str
  | .cython, d => d
  | _, d => c!"defined(" ++ d ++ c!")"

mutual
/-- `Condition::write`, src/bindgen/ir/cfg.rs:268-317. -/
def Condition.text (lang : Language) : Condition → Str
  | .define d => defineText lang d
  | .any cs => c!"(" ++ Condition.texts lang (orText lang) cs ++ c!")"
  | .all cs => c!"(" ++ Condition.texts lang (andText lang) cs ++ c!")"
  | .not c => notText lang ++ Condition.text lang c
/-- The loops of src/bindgen/ir/cfg.rs:281-290 and 295-304. -/
def Condition.texts (lang : Language) (sep : Str) : List Condition → Str
  | [] => []
  | c :: cs => Condition.text lang c ++ Condition.textsRest lang sep cs
/-- The iterations with `i != 0`. -/
def Condition.textsRest (lang : Language) (sep : Str) : List Condition → Str
  | [] => []
  | c :: cs => sep ++ Condition.text lang c ++ Condition.textsRest lang sep cs
end

end Cbindgen
