import Verif.Props.OnlyConsts
import Verif.Props.OnlyConstsCxx
import Verif.Props.SourceConstCases
import Verif.Props.SourceCxxConstCases

/-!
# Concrete cases for C84
-/

namespace Cbindgen
open CSpec HeadSpec LexSpec ScopeSpec
open SrcSpec hiding Reaches Given Plain Declares

open ConstCases in
open SourceCases (env R on pc rust fits) in
open EnumCases (lc c) in
/-- The header for the sources of C67, with all of its macros: the private constant `A` has none. -/
theorem C84_case : ∃ tx o, Stages pc lc 1 1 inputs c id lib lib₁ ConstCases.bindings ∧
    headerText env ConstCases.bindings = some tx ∧ readHeader R on tx = some o ∧
    o.macros.map (·.1) = [c!"N", c!"F", c!"B", c!"S", c!"T", c!"U", c!"X", c!"Y"] ∧ ∀ d ∈ o.macros, MacroSource pc inputs c env.cfg.caseFns env.cfg.defines rust d.1 := by
  obtain ⟨tx, ht⟩ := Option.isSome_iff_exists.1 (show (headerText env ConstCases.bindings).isSome = true by decide +kernel)
  have hr := C61_header_reads_back bindings_good ht
  refine ⟨tx, _, stages, ht, hr, by decide +kernel, fun d hd => ?_⟩
  rcases C84_c_partial stages bindings_good ht fits rfl hr hd with ⟨k, hk, s, o', rfl, _⟩ | ⟨g, hg, _⟩ | h
  · simp [env] at hk
  · cases hg
  · exact h

namespace AssocCases
open SourceCases (pc env R on rust fits unix)
open ScopeCases (ident)
open DefCases (reprC)
open EnumCases (lc c D opts fn f number)
open ConstCases (u32 int pu32)

/-- `#[cfg(unix)] pub const K: u32 = 3;` -/
def k : SynConst := { ident := c!"K", ty := u32, expr := int 3, attrs := [{ attr := cfgUnix }] }
/-- `#[cfg(not(unix))] pub const L: u32 = 3;` -/
def l : SynConst := { ident := c!"L", ty := u32, expr := int 3, attrs := [{ attr := .cfg (some (.not (.boolean c!"unix"))) }] }
/-- `#[repr(C)] struct E { x: u32 }` -/
def struct : SynStruct := ⟨c!"E", [], .named [⟨some c!"x", u32, []⟩], [reprC]⟩
/-- With `impl E { K L }` and `impl O { K }`, where `O` is no type of the sources. -/
def items : List FItem :=
  [.struct struct, .impl [] true (.path c!"E" .none) [] [k, l], .impl [] true (.path c!"O" .none) [] [k], .fn fn]
def inputs : Inputs := { srcs := [(c!"lib", some items)] }

def item (p n : Str) (g : Cfg) (o : Str) : ConstItem :=
  { path := p, exportName := n, ty := pu32, value := .expr c!"3", cfg := some g, associatedTo := some o }
def kItem : ConstItem := item c!"KE" c!"K" (.boolean c!"unix") c!"E"
def lItem : ConstItem := item c!"LE" c!"L" (.not (.boolean c!"unix")) c!"E"
def oItem : ConstItem := item c!"KO" c!"K" (.boolean c!"unix") c!"O"
def sItem : StructItem :=
  { path := c!"E", exportName := c!"E", fields := [{ name := c!"x", ty := pu32 }], assocConsts := [kItem, lItem] }

def lib : Library :=
  { structs := [(c!"E", .single sItem)], constants := [(c!"KO", .cfg [oItem])], functions := [f none] }
def lib' : Library := { lib with functions := [f (some .struct)] }
def bindings : Bindings := ⟨[oItem], [], [.struct sItem], [f (some .struct)]⟩

theorem built : buildLibrary pc lc 1 inputs = .ok lib := rfl

theorem expanded : (((lib.transferAnnotations id).simplify c).sortFunctions c).expand c 1 = .ok lib := rfl

theorem generated : lib.generate c id 1 = .ok bindings := by
  refine Library.generate_of (l' := lib') rfl ?_
  rw [DetSpec.collect_of (d := ⟨[.struct sItem], [c!"E"]⟩) rfl]
  simp only [DetSpec.bindingsOf]
  rw [sortItems_rest (by decide)]
  rfl

theorem const_good {p n : Str} {g : Cfg} {o : Str} {s : Option StructItem}
    (hn : ∀ m, (item p n g o).writtenName env.cfg s = some m → Word m ∧ m ∉ D) : ConstGood R D env s (item p n g o) where
  name := hn
  value := by
    intro w hw
    have : some (Lit.expr c!"3") = some w := hw
    cases this
    exact number (ls := [.word c!"3"]) (by decide) (by decide)
  doc := nofun
  variable_ := nofun

theorem names : ∀ w ∈ [c!"E_K", c!"E_L", c!"O_K"], Word w ∧ w ∉ D := by unfold Word; decide

theorem bindings_good : HeaderGood R on D env bindings where
  options := opts
  cpp := nofun
  spaces := nofun
  version := by unfold CommentSafe; decide
  guard := nofun
  header := nofun
  autogen := nofun
  after := nofun
  trailer := nofun
  sys := nofun
  quoted := nofun
  constants := by
    intro x hx
    simp only [bindings, List.mem_singleton] at hx
    subst hx
    refine const_good fun m hm => ?_
    have : some c!"O_K" = some m := hm
    cases this
    exact names _ (by simp)
  globals := nofun
  items := by
    intro x hx _
    simp only [bindings, List.mem_singleton] at hx
    subst hx
    exact {
      name := ident (n := c!"E") (by decide)
      attrs := by
        intro o ho
        simp only [structAttrs, List.mem_cons, List.not_mem_nil, or_false] at ho
        rcases ho with rfl | rfl | rfl <;> exact nofun
      fields := by
        intro x hx
        simp only [sItem, List.mem_singleton] at hx
        subst hx
        exact ⟨ident (n := c!"x") (by decide), trivial, trivial, nofun, nofun⟩
      bodies := ⟨nofun, nofun⟩
      doc := nofun
      consts := by
        intro x hx
        simp only [sItem, List.mem_cons, List.not_mem_nil, or_false] at hx
        rcases hx with rfl | rfl
        · refine const_good fun m hm => ?_
          have : some c!"E_K" = some m := hm
          cases this
          exact names _ (by simp)
        · refine const_good fun m hm => ?_
          have : some c!"E_L" = some m := hm
          cases this
          exact names _ (by simp) }
  functions := by
    intro f' hf _
    simp only [bindings, List.mem_singleton] at hf
    subst hf
    exact {
      name := ident (n := c!"f") (by decide)
      ret := trivial
      args := by
        intro a ha
        simp only [f, ScopeCases.takes, List.mem_singleton] at ha
        subst ha
        exact ⟨fun n hn => by cases hn; exact ident (by decide), ⟨ident (n := c!"E") (by decide), trivial⟩, nofun⟩
      lengths := by
        intro a ha hl
        simp only [f, ScopeCases.takes, List.mem_singleton] at ha
        subst ha
        simp at hl
      params := by
        refine ⟨by simp [f, ScopeCases.takes, isVoidList, meaningFnArg, ScopeCases.ptr], trivial, ?_⟩
        intro a ha
        simp only [f, ScopeCases.takes, List.mem_singleton] at ha
        subst ha
        trivial
      attrs := by
        intro o ho
        simp only [f, funcAttrs, funcPost, ScopeCases.takes, Bool.false_eq_true, if_false, List.cons_append,
          List.nil_append, List.mem_cons, List.not_mem_nil, or_false] at ho
        rcases ho with rfl | rfl | rfl | rfl | rfl <;> exact nofun
      doc := nofun }

theorem plain : InputsPlain inputs where
  srcs := by
    intro name is h
    simp only [inputs, List.mem_singleton, Prod.mk.injEq, Option.some.injEq] at h
    obtain ⟨_, rfl⟩ := h
    refine ⟨⟨trivial, ⟨rfl, ?_⟩, ⟨rfl, ?_⟩, trivial, trivial⟩, ⟨trivial, ?_, ?_, ?_, trivial⟩⟩
    · simp [k, l]
    · simp [k]
    · exact nofun
    · exact nofun
    · show ParserSpec.UnsafeOne _
      intro args h
      simp [fn, noMangle] at h
  lib := by
    intro ws root p is h
    simp [inputs] at h

theorem onePath : OnePath pc inputs where
  names := by
    intro ws root p q cs cs' h
    simp [inputs] at h
  paths := by
    intro ws root p cs cs' h
    simp [inputs] at h

theorem stages : Stages pc lc 1 1 inputs c id lib lib bindings where
  built := built
  plain := plain
  onePath := onePath
  language := rfl
  ordered := rfl
  bare := by
    intro s cs a h ha
    have h' : ∃ cfg crate, Occurs cfg crate items (.alias s) cs := by
      cases h with
      | src hs ho =>
        simp only [inputs, List.mem_singleton, Prod.mk.injEq, Option.some.injEq] at hs
        obtain ⟨_, rfl⟩ := hs
        exact ⟨_, _, ho⟩
      | lib hl => simp [inputs] at hl
    obtain ⟨_, _, ho⟩ := h'
    have := occurs_types ho rfl
    simp [items, FItem.typesAll, FItem.types] at this
  generated := generated
  expanded := expanded

end AssocCases

open AssocCases in
open SourceCases (env R on pc rust fits) in
open EnumCases (lc c) in
/-- Constants of a struct and of a type that is not in the sources: `L`, whose `cfg` is off, has no macro. -/
theorem C84_case_assoc : ∃ tx o, Stages pc lc 1 1 AssocCases.inputs c id AssocCases.lib AssocCases.lib AssocCases.bindings ∧
    headerText env AssocCases.bindings = some tx ∧ readHeader R on tx = some o ∧
    o.macros.map (·.1) = [c!"O_K", c!"E_K"] ∧
    ∀ d ∈ o.macros, MacroSource pc AssocCases.inputs c env.cfg.caseFns env.cfg.defines rust d.1 := by
  obtain ⟨tx, ht⟩ := Option.isSome_iff_exists.1 (show (headerText env AssocCases.bindings).isSome = true by decide +kernel)
  have hr := C61_header_reads_back AssocCases.bindings_good ht
  refine ⟨tx, _, AssocCases.stages, ht, hr, by decide +kernel, fun d hd => ?_⟩
  rcases C84_c_partial AssocCases.stages AssocCases.bindings_good ht fits rfl hr hd with ⟨k, hk, s, o', rfl, _⟩ | ⟨g, hg, _⟩ | h
  · simp [env] at hk
  · cases hg
  · exact h

open CxxConstCases in
open CxxSourceCases (env R fits) in
open SourceCases (on pc rust) in
open CxxEnumCases (lc c) in
/-- The same sources in C++: all public constants are objects in the namespace, and the private `A` is not. -/
theorem C84_case_cxx : ∃ tx o ds, StagesX pc lc 1 1 ConstCases.inputs c id CxxConstCases.lib CxxConstCases.bindings ∧
    headerText env CxxConstCases.bindings = some tx ∧ readHeader R on tx = some o ∧ o.macros = [] ∧
    o.items = [.space c!"ns" ds] ∧ ds.filterMap constantName = [c!"N", c!"F", c!"B", c!"S", c!"T", c!"U", c!"X", c!"Y"] ∧
    ∀ ws n ty ts, Declares o.items [c!"ns"] false (.constant ws n ty ts) →
      MacroSource pc ConstCases.inputs c env.cfg.caseFns env.cfg.defines rust n := by
  obtain ⟨tx, ht⟩ := Option.isSome_iff_exists.1 (show (headerText env CxxConstCases.bindings).isSome = true by decide +kernel)
  have hr := C74_header_reads_back_partial CxxConstCases.bindings_good ht
  refine ⟨tx, _, inside.items, CxxConstCases.stages, ht, hr, rfl, header_items, by decide +kernel, fun ws n ty ts hd => ?_⟩
  refine (C84_cxx_objects_partial CxxConstCases.stages CxxConstCases.bindings_good ht fits rfl hr (fun k hk h => ?_) hd).2.2
  have : k = none := by simpa [env, SourceCases.env] using hk
  subst this
  exact no_types_nil h

end Cbindgen
