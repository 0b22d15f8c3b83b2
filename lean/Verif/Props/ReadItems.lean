import Verif.Lemmas.HeadTypes
import Verif.Props.DeclText

/-!
# C59: the text of an item, read as C, declares that item

`readHeader` of `Verif.Spec.Header` is a reader of C that knows nothing of cbindgen: it splits the text into tokens,
carries out the directives of the preprocessor and reads the declarations.  What it finds in the text that is
written for an item in C is what the item stands for (`Verif.Spec.HeaderItems`): a struct with its members in their
order, each with its name and its type, a function with its type, and so on; and nothing at all if the condition of
the item does not hold.
-/

namespace Cbindgen
open LexSpec CSpec HeadSpec

section
variable {R : Dialect} {on : Str → Bool} {D : List Str}

/-- What a whole text gives. -/
theorem HeadSpec.reads_of {wc : WConfig} {ops : List WOp} {o : Out} (h : Seg wc R on D .at ops o .done) {w w' : W} {t : Str}
    (hw : w.lineNumber ≠ 0) (hx : WOp.exec wc ops w = some (t, w')) : readHeader R on t = some o := by
  obtain ⟨ls, h1, h2⟩ := h
  have hl := lex_of h1 hw hx
  have hr := (h2.1 []).2 [] [] [] [] rfl Fresh.nil
  have e : run R on {} ls = some ⟨[], none, [⟨o.items, []⟩], o.macros, o.includes⟩ := by simpa using hr
  simp [readHeader, hl, e]

variable {e : Env} {c : OutConfig} {w w' : W} {t : Str}

/-- **C59.** The text of a struct declares a struct with the members of that struct, and its constants. -/
theorem C59_struct_reads_back (ho : ReadFine e.cfg R D) {s : StructItem} (hs : StructGood R on D e s) (hw : w.lineNumber ≠ 0)
    (h : WOp.exec e.cfg.writer (emitStruct e s) w = some (t, w')) : readHeader R on t = some (structOut R e on s) :=
  reads_of (seg_struct ho hs) hw h

/-- **C59.** The text of a union declares a union with the members of that union. -/
theorem C59_union_reads_back (ho : ReadFine c R D) {u : UnionItem} (hu : UnionGood R on D c u) (hw : w.lineNumber ≠ 0)
    (h : WOp.exec c.writer (emitUnion c u) w = some (t, w')) : readHeader R on t = some (unionOut R c on u) :=
  reads_of (seg_union ho hu) hw h

/-- **C59.** The text of a type without definition declares its tag, and its name where the style has names. -/
theorem C59_opaque_reads_back (ho : ReadFine c R D) {o : OpaqueItem} (hg : OpaqueGood R c o) (hw : w.lineNumber ≠ 0)
    (h : WOp.exec c.writer (emitOpaque c o) w = some (t, w')) : readHeader R on t = some (opaqueOut c on o) :=
  reads_of (seg_opaque ho hg) hw h

/-- **C59.** The text of an alias declares a name for the type. -/
theorem C59_typedef_reads_back (ho : ReadFine c R D) {a : TypedefItem} (hg : TypedefGood R c a) (hw : w.lineNumber ≠ 0)
    (h : WOp.exec c.writer (emitTypedef c a) w = some (t, w')) : readHeader R on t = some (typedefOut c on a) :=
  reads_of (seg_typedef ho hg) hw h

/-- **C59.** The text of a variable declares it with its type, `const` if it is immutable. -/
theorem C59_static_reads_back_partial (ho : ReadFine c R D) {s : StaticItem} (hg : StaticGood R c s) (hw : w.lineNumber ≠ 0)
    (h : WOp.exec c.writer (emitStatic c s) w = some (t, w')) : readHeader R on t = some (staticOut c on s) :=
  reads_of (seg_static ho hg) hw h

/-- **C59.** The text of a function declares it with its type and its attributes, whatever the layout. -/
theorem C59_function_reads_back (ho : ReadFine c R D) {f : FuncItem} (hg : FuncGood R c f) (hw : w.lineNumber ≠ 0)
    (h : WOp.exec c.writer (emitFunc c f) w = some (t, w')) : readHeader R on t = some (funcOut c on f) :=
  reads_of (seg_func ho hg) hw h

/-- **C59.** The text of a constant defines a macro with the tokens of its value. -/
theorem C59_constant_reads_back (ho : ReadFine e.cfg R D) {s : Option StructItem} {k : ConstItem} (hk : ConstGood R D e s k)
    (hw : w.lineNumber ≠ 0) (h : WOp.exec e.cfg.writer (k.ops e s) w = some (t, w')) :
    readHeader R on t = some (constOut e on s k) :=
  reads_of (seg_const ho hk) hw h

end

namespace ReadCases

/-- `static B: Option<Box<bool>>` -/
def boxed : StaticItem := { path := c!"B", exportName := c!"B", ty := .ptr (.prim .bool) false true false }

/-- `extern const bool *B;` -/
theorem C59_static_pointer_refuted : ∃ (c : OutConfig) (s : StaticItem) (t : Str) (w : W) (ty : CTy), s.mutable = false ∧
    WOp.exec c.writer (emitStatic c s) {} = some (t, w) ∧
    readHeader {} (fun _ => false) t = some (decls [.object true [] s.exportName ty []]) ∧
    ty = .ptr false false none (.base true none c!"bool" []) ∧
    meaning c.toDeclConfig true s.ty = .ptr true false none (.base false none c!"bool" []) :=
  ⟨{ language := .c }, boxed, _, _, _, rfl, rfl, rfl, rfl, rfl⟩

end ReadCases

end Cbindgen
