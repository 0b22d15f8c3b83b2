import Verif.Model.Basic

/-!
# The part of the configuration that the model looks at
-/

namespace Cbindgen

/-- `Language`, src/bindgen/config.rs:22-26. -/
inductive Language
  | cxx
  | c
  | cython
  deriving DecidableEq, Repr

/-- The options read by the declaration writer: `language`, `usize_is_size_t`,
`pointer.non_null_attribute`, `pointer.nullable_attribute`, `function.no_return`
(src/bindgen/config.rs, `Config`, `PtrConfig`, `FunctionConfig`).
Layout options only influence white space and are not part of this record. -/
structure DeclConfig where
  language : Language := .c
  usizeIsSizeT : Bool := false
  nonNullAttr : Option Str := none
  nullableAttr : Option Str := none
  noReturn : Option Str := none

end Cbindgen
