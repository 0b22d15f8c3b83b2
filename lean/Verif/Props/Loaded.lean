import Verif.Lemmas.Loaded
import Verif.Props.Refs
import Verif.Props.Keywords
import Verif.Props.SourceCases

/-!
# C70: names and generic uses, from the sources to what is written
-/

namespace Cbindgen

open RefSpec MonoSpec

variable {pc : ParseConfig} {lc : LoadConfig} {c : LibConfig}
  {order : List (Str × Annotations) → List (Str × Annotations)} {crates fuel : Nat} {i : Inputs}

theorem buildBindings_ok {b : Bindings} (h : buildBindings pc lc c order crates fuel i = .ok b) :
    ∃ l, buildLibrary pc lc crates i = .ok l ∧ l.generate c order fuel = .ok b := by
  unfold buildBindings at h
  split at h
  · cases h
  · rename_i l hl
    split at h
    · cases h
      exact ⟨l, hl, by assumption⟩
    · cases h

/-- **C70.** Whatever the sources are, the tables they are loaded into are keyed by the names of the items, nothing in
them is renamed, and the bodies of the variants of an enum have the parameters of the enum. -/
theorem C70_loaded (ho : Reorders lc.fieldOrder) {l : Library} (h : buildLibrary pc lc crates i = .ok l) :
    l.WF ∧ l.Plain ∧ l.BodiesPlain :=
  ⟨build_wf h, build_plain ho h, build_bodies ho h⟩

/-- **C70.** Whatever the sources are, what is written as the definition of a type carries the name that the configuration
gives, and every reference to it, from types, functions, statics and constants, is written with that name. -/
theorem C70_names (ho : Reorders lc.fieldOrder) {b : Bindings} (h : buildBindings pc lc c order crates fuel i = .ok b) {y : Container}
    (hy : y ∈ b.items) :
    y.exportName = exported c.export_.rename c.export_.pre c.export_.renamingOverridesPrefixing y.path ∧
      (∀ x ∈ b.items, ∀ e, ItemMentions x y.path e → e = y.exportName) ∧
      (∀ x ∈ b.functions, ∀ e, FuncMentions x y.path e → e = y.exportName) ∧
      (∀ x ∈ b.globals, ∀ e, Mentions x.ty y.path e → e = y.exportName) ∧
      ∀ x ∈ b.constants, ∀ e, ConstMentions x y.path e → e = y.exportName := by
  obtain ⟨l, h1, h2⟩ := buildBindings_ok h
  have hp := build_plain ho h1
  exact ⟨(C14_definitions hp h2).1 y hy, C14_consistent hp h2 hy⟩

/-- **C70 (partial).** Whatever the sources are, nothing that is written in C or Cython as a type or a function has generic
arguments at a definition of the sources.  Missing: statics, see `C65_generic_refuted`. -/
theorem C70_generic_partial (hc : c.language ≠ .cxx) (ho : Reorders lc.fieldOrder) {l : Library} {b : Bindings}
    (hl : buildLibrary pc lc crates i = .ok l) (h : buildBindings pc lc c order crates fuel i = .ok b) :
    (∀ x ∈ b.items, ∀ n gs, ItemUses x n gs → l.getItems c n = none) ∧
    ∀ x ∈ b.functions, ∀ n gs, FuncUses x n gs → l.getItems c n = none := by
  obtain ⟨l', h1, h2⟩ := buildBindings_ok h
  rw [hl] at h1
  cases h1
  exact C16_header_partial hc (build_wf hl) (build_plain ho hl) (build_bodies ho hl) h2

namespace LoadedCases

def fields : List SynField := [⟨some c!"x", .path c!"T" .none, []⟩,
  ⟨some c!"next", .ptr false (.path c!"G" (.angle [.type (.path c!"T" .none)])), []⟩]

/-- `#[repr(C)] pub struct G<T> { x: T, next: *mut G<T> }` -/
def struct : SynStruct := ⟨c!"G", [.type c!"T" none], .named fields, [{ attr := .repr (some [.path c!"C"]) }]⟩

/-- `#[no_mangle] pub extern "C" fn f(x: *mut G<u32>) {}` -/
def fn : SynFn :=
  ⟨{ ident := c!"f", abi := .named c!"C", inputs := [.ident c!"x" (.ptr false (.path c!"G" (.angle [.type (.path c!"u32" .none)])))] },
    [{ attr := noMangle }]⟩

def inputs : Inputs := { srcs := [(c!"lib", some [.struct struct, .fn fn])] }

/-- The prefix `P`. -/
def config (f : CaseFns) : LibConfig := { plainConfig .c f with export_ := { (plainConfig .c f).export_ with pre := some c!"P" } }

/-- `G<T>` as it is loaded. -/
def g : StructItem :=
  { path := c!"G", exportName := c!"G", genericParams := [{ name := c!"T" }],
    fields := [{ name := c!"x", ty := .newPath c!"T" [] },
      { name := c!"next", ty := .ptr (.newPath c!"G" [.type (.newPath c!"T" [])]) false true false }] }

def u32 : Ty := .prim (.integer true false .b32)

/-- The function with the type of its parameter. -/
def takes (t : Ty) : FuncItem := ScopeCases.takes t

def lib : Library := { structs := [(c!"G", .single g)], functions := [takes (.newPath c!"G" [.type u32])] }

/-- The instance. -/
def gu (e : Str) (k : Option DeclKind) : StructItem :=
  { path := c!"G_u32", exportName := e,
    fields := [{ name := c!"x", ty := u32 },
      { name := c!"next", ty := .ptr (.path c!"G_u32" e [] k) false true false }] }

def lib' : Library :=
  { structs := [(c!"G_u32", .single (gu c!"PG_u32" (some .struct)))],
    functions := [takes (.path c!"G_u32" c!"PG_u32" [] (some .struct))] }

def bindings : Bindings := ⟨[], [], [.struct (gu c!"PG_u32" (some .struct))], [takes (.path c!"G_u32" c!"PG_u32" [] (some .struct))]⟩

theorem built (f : CaseFns) : buildLibrary SourceCases.pc { caseFns := f } 1 inputs = .ok lib := rfl

theorem prepared (f : CaseFns) : lib.prepare (config f) id 2 = .ok lib' := rfl

theorem generated (f : CaseFns) : lib.generate (config f) id 2 = .ok bindings := by
  refine Library.generate_of (l' := lib') (prepared f) ?_
  rw [DetSpec.collect_of (d := ⟨[.struct (gu c!"PG_u32" (some .struct))], [c!"G_u32"]⟩) rfl]
  simp only [DetSpec.bindingsOf]
  rw [sortItems_rest (by decide)]
  rfl

/-- The struct of the instance is called `PG_u32`, and so it is in the function and in itself. -/
example (f : CaseFns) : buildBindings SourceCases.pc { caseFns := f } (config f) id 1 2 inputs = .ok bindings ∧
    Reorders (LoadConfig.fieldOrder { caseFns := f }) ∧
    (∃ y ∈ bindings.items, y.exportName = c!"PG_u32" ∧ (∃ x ∈ bindings.functions, FuncMentions x y.path c!"PG_u32") ∧
      ItemMentions y y.path c!"PG_u32") ∧
    ∃ x ∈ lib.functions, ∃ gs, FuncUses x c!"G" gs ∧ (lib.getItems (config f) c!"G").isSome = true := by
  refine ⟨?_, fun fs => List.Perm.refl fs, ⟨_, List.mem_singleton.2 rfl, rfl, ⟨_, List.mem_singleton.2 rfl, ?_⟩, ?_⟩,
    ⟨_, List.mem_singleton.2 rfl, [.type u32], ?_, rfl⟩⟩
  · simp only [buildBindings, built, generated]
  · exact .inr ⟨_, List.mem_singleton.2 rfl, .ptr (.here ..)⟩
  · exact .inl ⟨_, .tail _ (.head _), .ptr (.here ..), by rintro ⟨p, hp, _⟩; cases hp⟩
  · exact .inr ⟨_, List.mem_singleton.2 rfl, .ptr (.here (by simp))⟩

end LoadedCases

end Cbindgen
