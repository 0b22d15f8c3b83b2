import Verif.Model.Load

/-!
# What a list of `repr` attributes asks for
-/

namespace Cbindgen.ReprSpec

/-- One request. -/
inductive Req
  | style (s : ReprStyle)
  | int (kind : IntKind) (signed : Bool)
  | align (a : ReprAlign)

/-- A decimal number: digits, possibly after a plus sign, as the integer parser of Rust reads it. -/
def Decimal (t : Str) (n : Nat) : Prop :=
  ∃ ds : Str, (t = ds ∨ t = '+' :: ds) ∧ ds ≠ [] ∧ (∀ c ∈ ds, c.isDigit = true) ∧
    ds.foldl (fun a c => 10 * a + (c.toNat - '0'.toNat)) 0 = n

/-- What one entry of a `repr` attribute means. -/
inductive Means : ReprMeta → Req → Prop
  | c : Means (.path (some c!"C")) (.style .c)
  | transparent : Means (.path (some c!"transparent")) (.style .transparent)
  | u8 : Means (.path (some c!"u8")) (.int .b8 false)
  | u16 : Means (.path (some c!"u16")) (.int .b16 false)
  | u32 : Means (.path (some c!"u32")) (.int .b32 false)
  | u64 : Means (.path (some c!"u64")) (.int .b64 false)
  | usize : Means (.path (some c!"usize")) (.int .size false)
  | i8 : Means (.path (some c!"i8")) (.int .b8 true)
  | i16 : Means (.path (some c!"i16")) (.int .b16 true)
  | i32 : Means (.path (some c!"i32")) (.int .b32 true)
  | i64 : Means (.path (some c!"i64")) (.int .b64 true)
  | isize : Means (.path (some c!"isize")) (.int .size true)
  | packed : Means (.path (some c!"packed")) (.align .packed)
  | packedCall : Means (.list c!"packed" .empty) (.align .packed)
  | align {t : Str} {n k : Nat} : Decimal t n → n = 2 ^ k → k < 64 →
      Means (.list c!"align" (.int t)) (.align (.align n))

/-- All entries of all `repr` attributes; `none` for an attribute whose contents are no list of entries. -/
def entries : List SAttr → Option (List ReprMeta)
  | [] => some []
  | { attr := .repr none, .. } :: _ => none
  | { attr := .repr (some ms), .. } :: as => (entries as).map (ms ++ ·)
  | _ :: as => entries as

/-- The integer types asked for. -/
def ints : List Req → List (IntKind × Bool)
  | [] => []
  | .int k s :: rs => (k, s) :: ints rs
  | _ :: rs => ints rs

/-- The alignments asked for. -/
def aligns : List Req → List ReprAlign
  | [] => []
  | .align a :: rs => a :: aligns rs
  | _ :: rs => aligns rs

/-- The styles asked for. -/
def styles : List Req → List ReprStyle
  | [] => []
  | .style s :: rs => s :: styles rs
  | _ :: rs => styles rs

/-- Each entry means the request at the same place. -/
inductive AllMean : List ReprMeta → List Req → Prop
  | nil : AllMean [] []
  | cons {m r ms rs} : Means m r → AllMean ms rs → AllMean (m :: ms) (r :: rs)

/-- The attributes ask for exactly this representation: every entry is understood, at most one integer type
and at most one of packed and align are named, and of the styles the last counts. -/
def Asks (attrs : List SAttr) (r : Repr) : Prop :=
  ∃ ms rs, entries attrs = some ms ∧ AllMean ms rs ∧ (ints rs).length ≤ 1 ∧ (aligns rs).length ≤ 1 ∧
    r.style = (styles rs).getLast?.getD .rust ∧ r.ty = (ints rs).head? ∧ r.align = (aligns rs).head?

/-- The config has the annotation that a packed or aligned type needs. -/
def HasAnnotation (c : LayoutConfig) : ReprAlign → Prop
  | .packed => ∃ s, c.packed = some s
  | .align _ => ∃ s, c.alignedN = some s

end Cbindgen.ReprSpec
