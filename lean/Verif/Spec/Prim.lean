import Verif.Model.Basic

/-!
# What primitive types are, in Rust and in C

Written from the language references, without looking at how cbindgen maps one to the other.
-/

namespace Cbindgen.PrimSpec

/-- The choices a platform makes: widths in bits and the signedness of `char`. -/
structure Platform where
  short : Nat
  int : Nat
  long : Nat
  longlong : Nat
  ptr : Nat
  size : Nat
  ptrdiff : Nat
  charSigned : Bool

/-- The representation of a scalar. -/
inductive Scalar
  | void
  | bool
  | int (bits : Nat) (signed : Bool)
  | float (bits : Nat)
  | vaList
  | variadic
  deriving DecidableEq

/-- The names of Rust's primitive types, of the types of `core::ffi`, `libc` and `std::os` that stand for C
types, and of `core::num::NonZero*`, with their representation. -/
def rustScalars (p : Platform) : List (Str × Scalar) :=
  [ (c!"bool", .bool), (c!"char", .int 32 false), (c!"f32", .float 32), (c!"f64", .float 64),
    (c!"u8", .int 8 false), (c!"u16", .int 16 false), (c!"u32", .int 32 false), (c!"u64", .int 64 false),
    (c!"u128", .int 128 false), (c!"i8", .int 8 true), (c!"i16", .int 16 true), (c!"i32", .int 32 true),
    (c!"i64", .int 64 true), (c!"i128", .int 128 true), (c!"usize", .int p.ptr false),
    (c!"isize", .int p.ptr true),
    (c!"NonZeroU8", .int 8 false), (c!"NonZeroU16", .int 16 false), (c!"NonZeroU32", .int 32 false),
    (c!"NonZeroU64", .int 64 false), (c!"NonZeroUsize", .int p.ptr false),
    (c!"NonZeroI8", .int 8 true), (c!"NonZeroI16", .int 16 true), (c!"NonZeroI32", .int 32 true),
    (c!"NonZeroI64", .int 64 true), (c!"NonZeroIsize", .int p.ptr true),
    (c!"c_void", .void), (c!"c_char", .int 8 p.charSigned), (c!"c_schar", .int 8 true),
    (c!"c_uchar", .int 8 false), (c!"c_short", .int p.short true), (c!"c_ushort", .int p.short false),
    (c!"c_int", .int p.int true), (c!"c_uint", .int p.int false), (c!"c_long", .int p.long true),
    (c!"c_ulong", .int p.long false), (c!"c_longlong", .int p.longlong true),
    (c!"c_ulonglong", .int p.longlong false), (c!"c_float", .float 32), (c!"c_double", .float 64),
    (c!"size_t", .int p.size false), (c!"ssize_t", .int p.size true), (c!"ptrdiff_t", .int p.ptrdiff true),
    (c!"intptr_t", .int p.ptr true), (c!"uintptr_t", .int p.ptr false),
    (c!"uint8_t", .int 8 false), (c!"uint16_t", .int 16 false), (c!"uint32_t", .int 32 false),
    (c!"uint64_t", .int 64 false), (c!"int8_t", .int 8 true), (c!"int16_t", .int 16 true),
    (c!"int32_t", .int 32 true), (c!"int64_t", .int 64 true), (c!"RawFd", .int p.int true),
    (c!"VaList", .vaList) ]

/-- The names of C's types, with their representation; `...` is not a type but the rest of a parameter
list. -/
def cScalars (p : Platform) : List (Str × Scalar) :=
  [ (c!"void", .void), (c!"bool", .bool), (c!"char", .int 8 p.charSigned), (c!"signed char", .int 8 true),
    (c!"unsigned char", .int 8 false), (c!"short", .int p.short true),
    (c!"unsigned short", .int p.short false), (c!"int", .int p.int true),
    (c!"unsigned int", .int p.int false), (c!"long", .int p.long true),
    (c!"unsigned long", .int p.long false), (c!"long long", .int p.longlong true),
    (c!"unsigned long long", .int p.longlong false), (c!"float", .float 32), (c!"double", .float 64),
    (c!"size_t", .int p.size false), (c!"ssize_t", .int p.size true), (c!"ptrdiff_t", .int p.ptrdiff true),
    (c!"intptr_t", .int p.ptr true), (c!"uintptr_t", .int p.ptr false), (c!"int8_t", .int 8 true),
    (c!"int16_t", .int 16 true), (c!"int32_t", .int 32 true), (c!"int64_t", .int 64 true),
    (c!"uint8_t", .int 8 false), (c!"uint16_t", .int 16 false), (c!"uint32_t", .int 32 false),
    (c!"uint64_t", .int 64 false), (c!"va_list", .vaList), (c!"...", .variadic) ]

/-- The representation of a Rust name. -/
def rustScalar (p : Platform) (s : Str) : Option Scalar := (rustScalars p).lookup s

/-- The representation of a C name. -/
def cScalar (p : Platform) (s : Str) : Option Scalar := (cScalars p).lookup s

/-- `usize_is_size_t` is for platforms on which `size_t` and `ptrdiff_t` are as wide as a pointer. -/
def Platform.Allows (p : Platform) (usizeIsSizeT : Bool) : Prop :=
  usizeIsSizeT = true → p.size = p.ptr ∧ p.ptrdiff = p.ptr

end Cbindgen.PrimSpec
