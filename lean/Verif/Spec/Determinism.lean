import Verif.Model.Library

/-!
# What may differ between two runs on the same input

Struct literals keep their fields in a hash map with a random seed.  Two runs see the fields of every struct
literal, at any depth, in any two orders.
-/

namespace Cbindgen.DetSpec

def fieldName : LitField → Str
  | .mk n _ _ => n

def fieldValue : LitField → Lit
  | .mk _ v _ => v

/-- The same literal, with the fields of its struct literals in another order. -/
inductive Reordered : Lit → Lit → Prop
  | refl (l) : Reordered l l
  | trans {a b c} : Reordered a b → Reordered b c → Reordered a c
  /-- a hash map has one entry for a name -/
  | fields (p x) {fs fs'} : fs.Perm fs' → (fs.map fieldName).Nodup → Reordered (.struct p x fs) (.struct p x fs')
  | inField (p x n c) (fs gs : List LitField) {v v'} : Reordered v v' →
      Reordered (.struct p x (fs ++ .mk n v c :: gs)) (.struct p x (fs ++ .mk n v' c :: gs))
  | unary (o) {v v'} : Reordered v v' → Reordered (.unary o v) (.unary o v')
  | left (o r) {l l'} : Reordered l l' → Reordered (.binop l o r) (.binop l' o r)
  | right (l o) {r r'} : Reordered r r' → Reordered (.binop l o r) (.binop l o r')
  | base (n) {b b'} : Reordered b b' → Reordered (.field b n) (.field b' n)
  | cast (t) {v v'} : Reordered v v' → Reordered (.cast t v) (.cast t v')
  | item (vs ws : List Lit) {v v'} : Reordered v v' → Reordered (.array (vs ++ v :: ws)) (.array (vs ++ v' :: ws))

/-- The elements of two lists are related, one by one. -/
inductive Both {α β : Type} (R : α → β → Prop) : List α → List β → Prop
  | nil : Both R [] []
  | cons {a b as bs} : R a b → Both R as bs → Both R (a :: as) (b :: bs)

/-- The same constant with a reordered value. -/
def SameConst (k k' : ConstItem) : Prop := k' = { k with value := k'.value } ∧ Reordered k.value k'.value

/-- Two entries of a table of constants with related constants. -/
inductive SameValue (R : ConstItem → ConstItem → Prop) : ItemValue ConstItem → ItemValue ConstItem → Prop
  | cfg {xs ys} : Both R xs ys → SameValue R (.cfg xs) (.cfg ys)
  | single {x y} : R x y → SameValue R (.single x) (.single y)

/-- Two tables with the same keys, in the same order, and related constants. -/
def SameTable (R : ConstItem → ConstItem → Prop) (m m' : ItemMap ConstItem) : Prop :=
  Both (fun a b => a.1 = b.1 ∧ SameValue R a.2 b.2) m m'

mutual
/-- The types that are named in a literal: those of struct literals and of associated constants. -/
def typeNames : Lit → List Str
  | .expr _ => []
  | .path none _ => []
  | .path (some (p, _)) _ => [p]
  | .unary _ v => typeNames v
  | .binop l _ r => typeNames l ++ typeNames r
  | .field b _ => typeNames b
  | .struct p _ fs => p :: typeNamesOf fs
  | .cast _ v => typeNames v
  | .array vs => typeNamesIn vs
def typeNamesOf : List LitField → List Str
  | [] => []
  | .mk _ v _ :: fs => typeNames v ++ typeNamesOf fs
def typeNamesIn : List Lit → List Str
  | [] => []
  | v :: vs => typeNames v ++ typeNamesIn vs
end

/-- At most one field of every struct literal names types. -/
inductive Sole : Lit → Prop
  | expr (s) : Sole (.expr s)
  | path (a n) : Sole (.path a n)
  | unary (o) {v} : Sole v → Sole (.unary o v)
  | binop (o) {l r} : Sole l → Sole r → Sole (.binop l o r)
  | field (n) {b} : Sole b → Sole (.field b n)
  | cast (t) {v} : Sole v → Sole (.cast t v)
  | array {vs} : (∀ v ∈ vs, Sole v) → Sole (.array vs)
  | struct (p x) {fs} : (∀ f ∈ fs, Sole (fieldValue f)) →
      ((fs.filter fun f => !(typeNames (fieldValue f)).isEmpty).length ≤ 1) → Sole (.struct p x fs)

/-- As long as the literal is a struct literal of a transparent struct, it has one field. -/
inductive Lone (transparent : Str → Bool) : Lit → Prop
  | other {l} : (∀ p x fs, l ≠ .struct p x fs) → Lone transparent l
  | struct (p x fs) : transparent p = false → Lone transparent (.struct p x fs)
  | single (p x n c) {v} : Lone transparent v → Lone transparent (.struct p x [.mk n v c])

end Cbindgen.DetSpec
