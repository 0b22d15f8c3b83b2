import Verif.Model.Config

/-!
# Primitive types and their names
-/

namespace Cbindgen

/-- `PrimitiveType::maybe_nonzero_integer`, src/bindgen/ir/ty.rs:111-131, as a table. -/
def nonzeroIntegerTable : List (Str × IntKind × Bool) :=
  [ (c!"NonZeroU8", .b8, false), (c!"NonZeroU16", .b16, false), (c!"NonZeroU32", .b32, false),
    (c!"NonZeroU64", .b64, false), (c!"NonZeroUSize", .size, false), (c!"NonZeroI8", .b8, true),
    (c!"NonZeroI16", .b16, true), (c!"NonZeroI32", .b32, true), (c!"NonZeroI64", .b64, true),
    (c!"NonZeroISize", .size, true) ]

/-- The match of `PrimitiveType::maybe_integer`, src/bindgen/ir/ty.rs:72-99, as a table. -/
def integerTable : List (Str × IntKind × Bool) :=
  [ (c!"c_short", .short, true), (c!"c_int", .int, true), (c!"c_long", .long, true),
    (c!"c_longlong", .longlong, true), (c!"ssize_t", .sizeT, true), (c!"c_ushort", .short, false),
    (c!"c_uint", .int, false), (c!"c_ulong", .long, false), (c!"c_ulonglong", .longlong, false),
    (c!"size_t", .sizeT, false), (c!"RawFd", .int, true),
    (c!"isize", .size, true), (c!"intptr_t", .size, true),
    (c!"usize", .size, false), (c!"uintptr_t", .size, false),
    (c!"u8", .b8, false), (c!"uint8_t", .b8, false), (c!"u16", .b16, false),
    (c!"uint16_t", .b16, false), (c!"u32", .b32, false), (c!"uint32_t", .b32, false),
    (c!"u64", .b64, false), (c!"uint64_t", .b64, false), (c!"i8", .b8, true),
    (c!"int8_t", .b8, true), (c!"i16", .b16, true), (c!"int16_t", .b16, true),
    (c!"i32", .b32, true), (c!"int32_t", .b32, true), (c!"i64", .b64, true),
    (c!"int64_t", .b64, true) ]

/-- The match of `PrimitiveType::maybe`, src/bindgen/ir/ty.rs:51-68, as a table. -/
def plainTable : List (Str × Prim) :=
  [ (c!"c_void", .void), (c!"c_char", .char), (c!"c_schar", .schar), (c!"c_uchar", .uchar),
    (c!"c_float", .float), (c!"c_double", .double), (c!"ptrdiff_t", .ptrDiffT),
    (c!"VaList", .vaList), (c!"bool", .bool), (c!"char", .char32), (c!"f32", .float),
    (c!"f64", .double) ]

/-- `PrimitiveType::maybe`, src/bindgen/ir/ty.rs:51-131 (with `maybe_integer` and
`maybe_nonzero_integer`): the first table that knows the name decides. -/
def Prim.maybe (s : Str) : Option Prim :=
  match plainTable.lookup s with
  | some p => some p
  | none =>
    match integerTable.lookup s with
    | some (k, sg) => some (.integer true sg k)
    | none =>
      match nonzeroIntegerTable.lookup s with
      | some (k, sg) => some (.integer false sg k)
      | none => none

/-- `PrimitiveType::to_repr_rust`, src/bindgen/ir/ty.rs:133-172. -/
def Prim.toReprRust : Prim → Str
  | .bool => c!"bool"
  | .void => c!"c_void"
  | .char => c!"c_char"
  | .schar => c!"c_schar"
  | .uchar => c!"c_uchar"
  | .char32 => c!"char"
  | .integer _ true .short => c!"c_short"
  | .integer _ false .short => c!"c_ushort"
  | .integer _ true .int => c!"c_int"
  | .integer _ false .int => c!"c_uint"
  | .integer _ true .long => c!"c_long"
  | .integer _ false .long => c!"c_ulong"
  | .integer _ true .longlong => c!"c_longlong"
  | .integer _ false .longlong => c!"c_ulonglong"
  | .integer _ true .sizeT => c!"ssize_t"
  | .integer _ false .sizeT => c!"size_t"
  | .integer _ true .size => c!"isize"
  | .integer _ false .size => c!"usize"
  | .integer _ true .b8 => c!"i8"
  | .integer _ false .b8 => c!"u8"
  | .integer _ true .b16 => c!"i16"
  | .integer _ false .b16 => c!"u16"
  | .integer _ true .b32 => c!"i32"
  | .integer _ false .b32 => c!"u32"
  | .integer _ true .b64 => c!"i64"
  | .integer _ false .b64 => c!"u64"
  | .float => c!"f32"
  | .double => c!"f64"
  | .ptrDiffT => c!"ptrdiff_t"
  | .vaList => c!"va_list"

/-- `PrimitiveType::to_repr_c`, src/bindgen/ir/ty.rs:174-223. -/
def Prim.toReprC (usizeIsSizeT : Bool) : Prim → Str
  | .void => c!"void"
  | .bool => c!"bool"
  | .char => c!"char"
  | .schar => c!"signed char"
  | .uchar => c!"unsigned char"
  | .char32 => c!"uint32_t"
  | .integer _ true .short => c!"short"
  | .integer _ false .short => c!"unsigned short"
  | .integer _ true .int => c!"int"
  | .integer _ false .int => c!"unsigned int"
  | .integer _ true .long => c!"long"
  | .integer _ false .long => c!"unsigned long"
  | .integer _ true .longlong => c!"long long"
  | .integer _ false .longlong => c!"unsigned long long"
  | .integer _ true .sizeT => c!"ssize_t"
  | .integer _ false .sizeT => c!"size_t"
  | .integer _ true .size => if usizeIsSizeT then c!"ptrdiff_t" else c!"intptr_t"
  | .integer _ false .size => if usizeIsSizeT then c!"size_t" else c!"uintptr_t"
  | .integer _ true .b8 => c!"int8_t"
  | .integer _ false .b8 => c!"uint8_t"
  | .integer _ true .b16 => c!"int16_t"
  | .integer _ false .b16 => c!"uint16_t"
  | .integer _ true .b32 => c!"int32_t"
  | .integer _ false .b32 => c!"uint32_t"
  | .integer _ true .b64 => c!"int64_t"
  | .integer _ false .b64 => c!"uint64_t"
  | .float => c!"float"
  | .double => c!"double"
  | .ptrDiffT => c!"ptrdiff_t"
  | .vaList => c!"..."

end Cbindgen
