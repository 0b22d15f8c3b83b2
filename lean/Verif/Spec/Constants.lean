import Verif.Model.Emission

/-!
# What a constant needs

Independent of the traversals of the code.
-/

namespace Cbindgen.ConstSpec

/-- `Part p l`: the expression `p` occurs in `l`. -/
inductive Part : Lit → Lit → Prop
  | self (l) : Part l l
  | unary {p v} (o) : Part p v → Part p (.unary o v)
  | left {p l} (o r) : Part p l → Part p (.binop l o r)
  | right {p r} (l o) : Part p r → Part p (.binop l o r)
  | field {p b} (n) : Part p b → Part p (.field b n)
  | cast {p v} (t) : Part p v → Part p (.cast t v)
  | struct {p n v cfg fs} (q x) : LitField.mk n v cfg ∈ fs → Part p v → Part p (.struct q x fs)
  | array {p v items} : v ∈ items → Part p v → Part p (.array items)

/-- The type mentions a type that has to be defined. -/
inductive Named : Ty → Prop
  | path (n x g k) : Named (.path n x g k)
  | ptr {t} (c n r) : Named t → Named (.ptr t c n r)
  | array {t} (len) : Named t → Named (.array t len)
  | ret {t} (as n v) : Named t → Named (.fnptr t as n v)
  | arg {t n as} (r nl v) : FArg.mk n t ∈ as → Named t → Named (.fnptr r as nl v)

/-- The type is a primitive type or a pointer to one. -/
inductive Simple : Ty → Prop
  | prim (p) : Simple (.prim p)
  | ptr (p c n r) : Simple (.ptr (.prim p) c n r)

/-- A type definition is needed for the type of the constant, for a struct literal or for a cast. -/
def NeedsType (k : ConstItem) : Prop :=
  Named k.ty ∨ (∃ q x fs, Part (.struct q x fs) k.value) ∨ ∃ t v, Part (.cast t v) k.value ∧ Named t

/-- What the constants of the first group are: the types that occur are simple, and there is no struct
literal. -/
def First (k : ConstItem) : Prop :=
  Simple k.ty ∧ (∀ q x fs, ¬ Part (.struct q x fs) k.value) ∧
    ∀ t v, Part (.cast t v) k.value → Simple t

/-- The constant is written with the help of an item of that name. -/
def Refers (k : ConstItem) (item : Str) : Prop := ∃ x n, Part (.path (some (item, x)) n) k.value

/-- `t` is a text that the calls `ops` write. -/
def Writes (c : WConfig) (ops : List WOp) (t : Str) : Prop :=
  ∃ w w', WOp.exec c ops w = some (t, w')

/-- The texts of the second list are those of the members of the first one. -/
inductive TextsOf {α : Type} (w : α → Str → Prop) : List α → List Str → Prop
  | nil : TextsOf w [] []
  | cons {x t xs ts} : w x t → TextsOf w xs ts → TextsOf w (x :: xs) (t :: ts)

end Cbindgen.ConstSpec
