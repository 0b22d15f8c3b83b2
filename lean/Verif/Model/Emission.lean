import Verif.Model.EmitEnum
import Verif.Model.Library

/-!
# The whole header

`write_bindings` and the functions that it calls, src/bindgen/language_backend/mod.rs:119-228 with the
overrides of clike.rs and cython.rs.
-/

namespace Cbindgen

/-- One `#include` or another line of its own: `write!(..); new_line()`. -/
def lineOps (s : Str) : List WOp := [.text s, .newLine]

/-- A block before which a line is left empty: `new_line_if_not_start(); write!(..); new_line()`. -/
def paragraphOps (s : Str) : List WOp := [.newLineIfNotStart, .text s, .newLine]

/-- An optional block. -/
def optParagraph (o : Option Str) : List WOp :=
  match o with
  | some s => paragraphOps s
  | none => []

/-- The standard headers, src/bindgen/language_backend/clike.rs:389-428. -/
def standardIncludes (c : OutConfig) : List Str :=
  match c.language with
  | .c =>
    [c!"#include <stdarg.h>", c!"#include <stdbool.h>"] ++
    (if c.usizeIsSizeT then [c!"#include <stddef.h>"] else []) ++
    [c!"#include <stdint.h>", c!"#include <stdlib.h>"]
  | .cxx =>
    [c!"#include <cstdarg>"] ++ (if c.usizeIsSizeT then [c!"#include <cstddef>"] else []) ++
    [c!"#include <cstdint>", c!"#include <cstdlib>", c!"#include <ostream>", c!"#include <new>"] ++
    (if c.enumeration.castAssertName.isNone &&
        (c.enumeration.deriveMutCasts || c.enumeration.deriveConstCasts) then
      [c!"#include <cassert>"] else [])
  | .cython => []

/-- The standard lines of Cython, src/bindgen/language_backend/cython.rs:82-93. -/
def cythonImports (c : OutConfig) : List WOp :=
  [.text c!"from libc.stdint cimport int8_t, int16_t, int32_t, int64_t, intptr_t", .newLine,
   .text c!"from libc.stdint cimport uint8_t, uint16_t, uint32_t, uint64_t, uintptr_t", .newLine,
   .text c!"cdef extern from *"] ++
  (c.opn ++ [.text c!"ctypedef bint bool", .newLine, .text c!"ctypedef struct va_list", .newLine] ++
   c.cls false)

/-- `names.join(", ")`. -/
def joinNames : List Str → Str
  | [] => []
  | [x] => x
  | x :: xs => x ++ c!", " ++ joinNames xs

/-- The guard at the start, src/bindgen/language_backend/clike.rs:352-358. -/
def guardOps (o : Option Str) : List WOp :=
  match o with
  | some g => [.newLineIfNotStart, .text (c!"#ifndef " ++ g), .newLine, .text (c!"#define " ++ g), .newLine]
  | none => []

/-- Whether the second half of the header is skipped, src/bindgen/language_backend/clike.rs:380-386 and
cython.rs:71-78. -/
def noPrelude (c : OutConfig) : Bool :=
  c.noIncludes && c.allSysIncludes.isEmpty && c.allIncludes.isEmpty &&
  (c.language != .cython || c.cythonCimports.isEmpty) && c.afterIncludes.isNone

/-- The includes, src/bindgen/language_backend/clike.rs:388-445 and cython.rs:80-104. -/
def preludeOps (c : OutConfig) : List WOp :=
  [.newLineIfNotStart] ++
  (match c.language with
   | .cython =>
     onlyIf (!c.noIncludes) (cythonImports c) ++
     c.cythonCimports.flatMap fun m => lineOps (c!"from " ++ m.1 ++ c!" cimport " ++ joinNames m.2)
   | _ =>
     onlyIf (!c.noIncludes) ((standardIncludes c).flatMap lineOps) ++
     c.allSysIncludes.flatMap (fun i => lineOps (c!"#include <" ++ i ++ c!">")) ++
     c.allIncludes.flatMap fun i => lineOps (c!"#include \"" ++ i ++ c!"\"")) ++
  (match c.afterIncludes with
   | some s => lineOps s
   | none => [])

/-- The text of the package version, src/bindgen/language_backend/clike.rs:344 and cython.rs:47. -/
def packageText (lang : Language) (v : Str) : Str :=
  match lang with
  | .cython => c!"''' Package version: " ++ v ++ c!" '''"
  | _ => c!"/* Package version: " ++ v ++ c!" */"

/-- `write_headers`, src/bindgen/language_backend/clike.rs:342-446 and cython.rs:45-105. -/
def headersOps (e : Env) : List WOp :=
  let c := e.cfg
  onlyIf c.packageVersion (lineOps (packageText c.language e.packageVersion)) ++
  optParagraph c.header ++ guardOps c.guard ++
  onlyIf (c.language != .cython && c.pragmaOnce) (paragraphOps c!"#pragma once") ++
  onlyIf c.includeVersion (paragraphOps (c!"/* Generated with cbindgen:" ++ c.version ++ c!" */")) ++
  optParagraph c.autogenWarning ++ onlyIf (!noPrelude c) (preludeOps c)

/-- The namespaces, src/bindgen/language_backend/clike.rs:70-84. -/
def OutConfig.spaces (c : OutConfig) : List Str :=
  if c.language != .cxx && !c.cppCompatibleC then [] else c.namespace_.toList ++ c.namespaces.getD []

/-- `open_close_namespaces`, src/bindgen/language_backend/clike.rs:69-113, given the lines to write. -/
def namespaceLines (c : OutConfig) (lines : List Str) : List WOp :=
  if lines.isEmpty then []
  else
    onlyIf c.cppCompatibleC [.newLineIfNotStart, .text c!"#ifdef __cplusplus"] ++
    lines.flatMap (fun l => [.newLine, .text l]) ++ [.newLine] ++
    onlyIf c.cppCompatibleC [.text c!"#endif  // __cplusplus", .newLine]

/-- `open_namespaces`, src/bindgen/language_backend/clike.rs:448-450 and cython.rs:107-112. -/
def openNamespaces (c : OutConfig) : List WOp :=
  match c.language with
  | .cython => [.newLine, .text (c!"cdef extern from " ++ c.cythonHeader.getD c!"*")] ++ c.opn
  | _ => namespaceLines c (c.spaces.map fun n => c!"namespace " ++ n ++ c!" {")

/-- `close_namespaces`, src/bindgen/language_backend/clike.rs:452-454 and cython.rs:114-116. -/
def closeNamespaces (c : OutConfig) : List WOp :=
  match c.language with
  | .cython => c.cls false
  | _ => namespaceLines c (c.spaces.reverse.map fun n => c!"}  // namespace " ++ n)

/-- `write_footers`, src/bindgen/language_backend/clike.rs:456-466 and cython.rs:118. -/
def footersOps (c : OutConfig) : List WOp :=
  match c.guard with
  | some g =>
    paragraphOps (if c.language = .c then c!"#endif  /* " ++ g ++ c!" */" else c!"#endif  // " ++ g)
  | none => []

/-- One item with its line ends, src/bindgen/language_backend/mod.rs:133-138 and others. -/
def itemOps (ops : List WOp) : List WOp := [.newLineIfNotStart] ++ ops ++ [.newLine]

/-- `write_primitive_constants` and `write_non_primitive_constants`,
src/bindgen/language_backend/mod.rs:132-140 and 180-188. -/
def constantsOps (e : Env) (primitive : Bool) (ks : List ConstItem) : List WOp :=
  (ks.filter fun k => k.onlyPrimitive == primitive).flatMap fun k => itemOps (k.ops e none)

/-- `Struct::as_typedef`, src/bindgen/ir/structure.rs:170-175 with src/bindgen/ir/typedef.rs:74-84. -/
def StructItem.asTypedef (s : StructItem) : Option TypedefItem :=
  match s.fields with
  | f :: _ =>
    if s.isTransparent then
      some { path := s.path, exportName := s.exportName, genericParams := s.genericParams,
             aliased := f.ty, cfg := s.cfg, annotations := s.annotations, doc := s.doc }
    else none
  | [] => none

/-- `write_struct_or_typedef`, src/bindgen/language_backend/mod.rs:143-158. -/
def structOrTypedef (e : Env) (s : StructItem) : List WOp :=
  match s.asTypedef with
  | some t => emitTypedef e.cfg t ++ assocOps e s
  | none => emitStruct e s

/-- `Item::annotations` of a container. -/
def Container.annotations : Container → Annotations
  | .enum x => x.annotations
  | .struct x => x.annotations
  | .union x => x.annotations
  | .opaque x => x.annotations
  | .typedef x => x.annotations

/-- The match of `write_items`, src/bindgen/language_backend/mod.rs:167-175. -/
def Container.ops (e : Env) : Container → List WOp
  | .enum x => emitEnum e x
  | .struct x => structOrTypedef e x
  | .union x => emitUnion e.cfg x
  | .opaque x => emitOpaque e.cfg x
  | .typedef x => emitTypedef e.cfg x

/-- `write_items`, src/bindgen/language_backend/mod.rs:160-178. -/
def itemsOps (e : Env) (items : List Container) : List WOp :=
  (items.filter fun i => i.annotations.shouldExport).flatMap fun i => itemOps (i.ops e)

/-- `write_globals_default`, src/bindgen/language_backend/mod.rs:194-203. -/
def globalsDefault (c : OutConfig) (gs : List StaticItem) : List WOp :=
  (gs.filter fun g => g.annotations.shouldExport).flatMap fun g => itemOps (emitStatic c g)

/-- `write_functions_default`, src/bindgen/language_backend/mod.rs:209-218. -/
def functionsDefault (c : OutConfig) (fs : List FuncItem) : List WOp :=
  (fs.filter fun f => f.annotations.shouldExport).flatMap fun f => itemOps (emitFunc c f)

/-- Whether there is anything with linkage, src/bindgen/language_backend/clike.rs:969 and 1003. -/
def Bindings.hasLinkage (b : Bindings) : Bool := !b.functions.isEmpty || !b.globals.isEmpty

/-- The lines before the globals, src/bindgen/language_backend/clike.rs:970-994. -/
def externOpen (c : OutConfig) : List WOp :=
  onlyIf c.cppCompatibleC [.newLineIfNotStart, .text c!"#ifdef __cplusplus"] ++
  onlyIf (c.language == .cxx)
    (match c.usingNamespaces with
     | some ns => ns.flatMap (fun n => [.newLine, .text (c!"using namespace " ++ n ++ c!";")]) ++ [.newLine]
     | none => []) ++
  onlyIf (c.language == .cxx || c.cppCompatibleC) [.newLine, .text c!"extern \"C\" {", .newLine] ++
  onlyIf c.cppCompatibleC [.text c!"#endif // __cplusplus", .newLine]

/-- The lines after the functions, src/bindgen/language_backend/clike.rs:1006-1020. -/
def externClose (c : OutConfig) : List WOp :=
  onlyIf c.cppCompatibleC [.newLine, .text c!"#ifdef __cplusplus"] ++
  onlyIf (c.language == .cxx || c.cppCompatibleC) [.newLine, .text c!"}  // extern \"C\"", .newLine] ++
  onlyIf c.cppCompatibleC [.text c!"#endif  // __cplusplus", .newLine]

/-- `write_globals`, src/bindgen/language_backend/clike.rs:966-998 and mod.rs:190-192. -/
def globalsOps (c : OutConfig) (b : Bindings) : List WOp :=
  match c.language with
  | .cython => globalsDefault c b.globals
  | _ => onlyIf b.hasLinkage (externOpen c ++ globalsDefault c b.globals)

/-- `write_functions`, src/bindgen/language_backend/clike.rs:1000-1022 and cython.rs:421-431. -/
def functionsOps (c : OutConfig) (b : Bindings) : List WOp :=
  match c.language with
  | .cython =>
    functionsDefault c b.functions ++
    onlyIf (b.globals.isEmpty && b.constants.isEmpty && b.items.isEmpty && b.functions.isEmpty)
      [.text c!"pass"]
  | _ => onlyIf b.hasLinkage (functionsDefault c b.functions ++ externClose c)

/-- `write_trailer`, src/bindgen/language_backend/mod.rs:220-228. -/
def trailerOps (o : Option Str) : List WOp :=
  match o with
  | some f => [.newLineIfNotStart, .text f] ++ onlyIf (f.getLast? != some '\n') [.newLine]
  | none => []

/-- `write_bindings`, src/bindgen/language_backend/mod.rs:119-130. -/
def bindingsOps (e : Env) (b : Bindings) : List WOp :=
  headersOps e ++ openNamespaces e.cfg ++ constantsOps e true b.constants ++ itemsOps e b.items ++
  constantsOps e false b.constants ++ globalsOps e.cfg b ++ functionsOps e.cfg b ++
  closeNamespaces e.cfg ++ footersOps e.cfg ++ trailerOps e.cfg.trailer

/-- `Bindings::write` for a run that is not a no-op, src/bindgen/bindings.rs:271-295: the text of the
header, `none` for a panic. -/
def headerText (e : Env) (b : Bindings) : Option Str :=
  (WOp.exec e.cfg.writer (bindingsOps e b) {}).map Prod.fst

end Cbindgen
