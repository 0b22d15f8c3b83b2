import Verif.Props.Layout

/-!
# Headers of the test suite of cbindgen, as written by the model
-/

namespace Cbindgen.HeaderCases

def fld (name : Str) (ty : Ty) : Field := { name, ty }

def assocConst (ty name : Str) (fields : List LitField) : ConstItem :=
  { path := name, exportName := name, ty := .path ty ty [] none, value := .struct ty ty fields,
    associatedTo := some ty }

def expr (name value : Str) : LitField := .mk name (.expr value) none

/-- `ABC` of tests/rust/struct_literal_order.rs. -/
def abc : StructItem :=
  { path := c!"ABC", exportName := c!"ABC",
    fields := [fld c!"a" (.prim .float), fld c!"b" (.prim (.integer true false .b32)),
      fld c!"c" (.prim (.integer true false .b32))],
    assocConsts :=
      [assocConst c!"ABC" c!"abc" [expr c!"a" c!"1.0", expr c!"b" c!"2", expr c!"c" c!"3"],
       assocConst c!"ABC" c!"bac" [expr c!"b" c!"2", expr c!"a" c!"1.0", expr c!"c" c!"3"],
       assocConst c!"ABC" c!"cba" [expr c!"c" c!"3", expr c!"b" c!"2", expr c!"a" c!"1.0"]] }

/-- `BAC` of tests/rust/struct_literal_order.rs. -/
def bac : StructItem :=
  { path := c!"BAC", exportName := c!"BAC",
    fields := [fld c!"b" (.prim (.integer true false .b32)), fld c!"a" (.prim .float),
      fld c!"c" (.prim (.integer true true .b32))],
    assocConsts :=
      [assocConst c!"BAC" c!"abc" [expr c!"a" c!"2.0", expr c!"b" c!"1", expr c!"c" c!"3"],
       assocConst c!"BAC" c!"bac" [expr c!"b" c!"1", expr c!"a" c!"2.0", expr c!"c" c!"3"],
       assocConst c!"BAC" c!"cba" [expr c!"c" c!"3", expr c!"b" c!"1", expr c!"a" c!"2.0"]] }

def root : FuncItem :=
  { path := c!"root", ret := .prim .void,
    args := [⟨some c!"a1", .path c!"ABC" c!"ABC" [] none, none⟩,
      ⟨some c!"a2", .path c!"BAC" c!"BAC" [] none, none⟩] }

def orderBindings : Bindings := ⟨[], [], [.struct abc, .struct bac], [root]⟩

def orderEnv : Env :=
  { cfg := { language := .cxx }, structs := [(c!"ABC", .single abc), (c!"BAC", .single bac)] }

/-- tests/expectations/struct_literal_order.cpp. -/
def orderLines : List Str :=
  [c!"#include <cstdarg>",
   c!"#include <cstdint>",
   c!"#include <cstdlib>",
   c!"#include <ostream>",
   c!"#include <new>",
   [],
   c!"struct ABC {",
   c!"  float a;",
   c!"  uint32_t b;",
   c!"  uint32_t c;",
   c!"};",
   c!"constexpr static const ABC ABC_abc = ABC{",
   c!"  /* .a = */ 1.0,",
   c!"  /* .b = */ 2,",
   c!"  /* .c = */ 3",
   c!"};",
   c!"constexpr static const ABC ABC_bac = ABC{",
   c!"  /* .a = */ 1.0,",
   c!"  /* .b = */ 2,",
   c!"  /* .c = */ 3",
   c!"};",
   c!"constexpr static const ABC ABC_cba = ABC{",
   c!"  /* .a = */ 1.0,",
   c!"  /* .b = */ 2,",
   c!"  /* .c = */ 3",
   c!"};",
   [],
   c!"struct BAC {",
   c!"  uint32_t b;",
   c!"  float a;",
   c!"  int32_t c;",
   c!"};",
   c!"constexpr static const BAC BAC_abc = BAC{",
   c!"  /* .b = */ 1,",
   c!"  /* .a = */ 2.0,",
   c!"  /* .c = */ 3",
   c!"};",
   c!"constexpr static const BAC BAC_bac = BAC{",
   c!"  /* .b = */ 1,",
   c!"  /* .a = */ 2.0,",
   c!"  /* .c = */ 3",
   c!"};",
   c!"constexpr static const BAC BAC_cba = BAC{",
   c!"  /* .b = */ 1,",
   c!"  /* .a = */ 2.0,",
   c!"  /* .c = */ 3",
   c!"};",
   [],
   c!"extern \"C\" {",
   [],
   c!"void root(ABC a1, BAC a2);",
   [],
   c!"}  // extern \"C\""
  ]

/-- The model writes exactly the expected header, and every condition of the theorems on headers is
about a run that does not panic. -/
theorem order_header : headerText orderEnv orderBindings = some (orderLines.flatMap (· ++ ['\n'])) := by
  decide +kernel

end Cbindgen.HeaderCases
