import Verif.Model.Load

/-!
# What the documentation and the annotations of an item are
-/

namespace Cbindgen.DocSpec

/-- Only white space. -/
def Ws (s : Str) : Prop := ∀ c ∈ s, isWs c = true

/-- The lines of a text: each ends with a newline or a carriage return and a newline, the last may end with
the text. -/
inductive Lines : Str → List Str → Prop
  | nil : Lines [] []
  | last {l} : l ≠ [] → '\n' ∉ l → Lines l [l]
  | lf {l t ls} : '\n' ∉ l → (∀ m, l ≠ m ++ ['\r']) → Lines t ls → Lines (l ++ '\n' :: t) (l :: ls)
  | crlf {l t ls} : '\n' ∉ l → Lines t ls → Lines (l ++ '\r' :: '\n' :: t) (l :: ls)

/-- A line and what is left of it when `k` characters of indentation go: blank lines become empty, others
start with one space. -/
inductive Outdent (k : Nat) : Str → Str → Prop
  | blank {l} : Ws l → Outdent k l []
  | text {w rest} : Ws w → w.length = k → ¬ Ws rest → Outdent k (w ++ rest) (' ' :: rest)

inductive OutdentAll (k : Nat) : List Str → List Str → Prop
  | nil : OutdentAll k [] []
  | cons {l o ls os} : Outdent k l o → OutdentAll k ls os → OutdentAll k (l :: ls) (o :: os)

/-- The blank lines at both ends go, and of the others the common indentation: `k` characters, which one
line does not exceed. -/
def Dedented (ls out : List Str) : Prop :=
  ∃ k pre core post, ls = pre ++ core ++ post ∧ (∀ l ∈ pre, Ws l) ∧ (∀ l ∈ post, Ws l) ∧
    (∀ l, core.head? = some l → ¬ Ws l) ∧ (∀ l, core.getLast? = some l → ¬ Ws l) ∧
    OutdentAll k core out ∧
    (core ≠ [] → ∃ w c rest, (w ++ c :: rest) ∈ core ∧ Ws w ∧ w.length = k ∧ isWs c = false)

/-- The text of a doc attribute before the item. -/
def docText : SAttr → Option Str
  | { outer := true, attr := .nameValue n (some t) } => if n = c!"doc" then some t else none
  | _ => none

/-- The doc lines of an item in order: a text without newline is one line as it is. -/
inductive DocLines : List SAttr → List Str → Prop
  | nil : DocLines [] []
  | other {a as ls} : docText a = none → DocLines as ls → DocLines (a :: as) ls
  | line {a as t ls} : docText a = some t → '\n' ∉ t → DocLines as ls → DocLines (a :: as) (t :: ls)
  | lines {a as t ts out ls} : docText a = some t → '\n' ∈ t → Lines t ts → Dedented ts out →
      DocLines as ls → DocLines (a :: as) (out ++ ls)

/-- A line for cbindgen. -/
def ForCbindgen (l : Str) : Prop := ∃ w rest, Ws w ∧ l = w ++ c!"cbindgen:" ++ rest

/-! ## Annotations -/

/-- No white space at either end. -/
def Tight (s : Str) : Prop :=
  (∀ c, s.head? = some c → isWs c = false) ∧ (∀ c, s.getLast? = some c → isWs c = false)

/-- Items with commas between them and white space around each. -/
inductive Items : Str → List Str → Prop
  | one {a x b} : Ws a → Ws b → Tight x → ',' ∉ x → Items (a ++ x ++ b) [x]
  | cons {a x b t xs} : Ws a → Ws b → Tight x → ',' ∉ x → Items t xs →
      Items (a ++ x ++ b ++ ',' :: t) (x :: xs)

/-- A value: `true` and `false` are Booleans, `[x, y, z]` is a list, anything else is an atom.  `[]` is the
list without items. -/
inductive ValueText : Str → AnnValue → Prop
  | true : ValueText c!"true" (.bool true)
  | false : ValueText c!"false" (.bool false)
  | empty {t} : Ws t → ValueText ('[' :: t ++ c!"]") (.list [])
  | list {t xs} : Items t xs → ¬ Ws t → ValueText ('[' :: t ++ c!"]") (.list xs)
  | none : ValueText [] (.atom none)
  | atom {s} : Tight s → s ≠ [] → s ≠ c!"true" → s ≠ c!"false" → (∀ t, s ≠ '[' :: t ++ c!"]") →
      ValueText s (.atom (some s))

/-- A comment line that sets an annotation: `cbindgen:name` or `cbindgen:name=value`, with white space at
all places. -/
inductive Says : Str → Str → AnnValue → Prop
  | flag {a b n c} : Ws a → Ws b → Ws c → Tight n → '=' ∉ n →
      Says (a ++ c!"cbindgen:" ++ (b ++ n ++ c)) n (.bool true)
  | value {a b n c d v e val} : Ws a → Ws b → Ws c → Ws d → Ws e → Tight n → '=' ∉ n → '=' ∉ v →
      ValueText v val → Says (a ++ c!"cbindgen:" ++ (b ++ n ++ c ++ '=' :: (d ++ v ++ e))) n val

/-- Each comment line either is not for cbindgen or sets an annotation. -/
inductive AllSay : List Str → List (Str × AnnValue) → Prop
  | nil : AllSay [] []
  | other {l ls nvs} : ¬ ForCbindgen l → AllSay ls nvs → AllSay (l :: ls) nvs
  | cons {l n v ls nvs} : Says l n v → AllSay ls nvs → AllSay (l :: ls) ((n, v) :: nvs)

/-- The last value given to a name. -/
def lastValue (nvs : List (Str × AnnValue)) (n : Str) : Option AnnValue :=
  ((nvs.filter fun e => e.1 = n).getLast?).map (·.2)

end Cbindgen.DocSpec
