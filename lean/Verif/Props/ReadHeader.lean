import Verif.Lemmas.HeadAll
import Verif.Props.ReadItems

/-!
# C60, C61: the text of an enum and of a whole C header reads back

`readHeader` of `Verif.Spec.Header` reads C and knows nothing of cbindgen.  The text of an enum declares the
enumerators, the structs of the variants and the tagged union (C60); the text of a whole header declares exactly
the items of the bindings, each once and in order, and nothing else (C61).
-/

namespace Cbindgen
open LexSpec CSpec HeadSpec

section
variable {R : Dialect} {on : Str → Bool} {D : List Str} {e : Env}

/-- **C60.** The text of an enum declares its enumerators with their values, in order; with data it declares the
structs of the variants, and a struct (or union) of the tag and the data. -/
theorem C60_enum_reads_back (ho : ReadFine e.cfg R D) {x : EnumItem} (hx : EnumGood R on D e x) {w w' : W} {t : Str}
    (hw : w.lineNumber ≠ 0) (h : WOp.exec e.cfg.writer (emitEnum e x) w = some (t, w')) :
    readHeader R on t = some (enumOut R e on x) :=
  reads_of (seg_enum ho hx) hw h

/-- **C61.** The text of a whole header, read as C where exactly the macros in `on` are defined, gives the items of the
bindings whose conditions hold, in their order, the macros of the constants, and the included files; nothing but the
blocks of code that users give is added. -/
theorem C61_header_reads_back {b : Bindings} (h : HeaderGood R on D e b) {t : Str} (ht : headerText e b = some t) :
    readHeader R on t = some (headerOut R e on b) := by
  obtain ⟨ls, h1, h2⟩ := header_toks (wc := e.cfg.writer) h
  simp only [headerText, Option.map_eq_some_iff] at ht
  obtain ⟨⟨t', w'⟩, hx, rfl⟩ := ht
  have hl := lex_of h1 (by decide) hx
  have hr := h2.2 [] [] [] [] rfl Fresh.nil
  have e : run R on {} ls = some ⟨[], none, [⟨(headerOut R e on b).items, []⟩], (headerOut R e on b).macros,
      (headerOut R e on b).includes⟩ := by simpa using hr
  simp [readHeader, hl, e]

/-- **C61.** What is compiled is what Rust compiles: the reader finds an item exactly if its `cfg` holds in Rust, where
every option in the `cfg` has a macro, and the macros that are defined are those of the options that are set. -/
theorem C61_conditions {c : OutConfig} {rust : CfgSpec.Opt → Bool} {on : Str → Bool} (hm : CfgSpec.Matches c.defines rust on)
    {g : Cfg} (hg : CfgSpec.Mapped c.defines g) : shown c on (some g) = CfgSpec.holds rust g := by
  obtain ⟨k, hk, hh⟩ := toCondition_holds c.defines rust on hm g hg
  simp [shown, OutConfig.cond, optToCondition, hk, hh]

/-- **C61.** A second inclusion declares nothing but the blocks that users give for the start and the end of the file,
which are outside the guard. -/
theorem C61_guarded {b : Bindings} (h : HeaderGood R on D e b) {t g : Str} (ht : headerText e b = some t)
    (hg : e.cfg.guard = some g) (hon : on g = true) :
    readHeader R on t = some (blockOut R on e.cfg.header ++ blockOut R on e.cfg.trailer) := by
  rw [C61_header_reads_back h ht]
  simp [headerOut, hg, hon, whenOut, Out.append_def]

end

end Cbindgen
