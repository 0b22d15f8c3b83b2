import Verif.Props.OnlyEnumerators
import Verif.Props.SourceEnumCases
import Verif.Props.SourceCxxEnumCases

/-!
# Concrete cases for C85
-/

namespace Cbindgen
open CSpec HeadSpec LexSpec ScopeSpec
open SrcSpec hiding Reaches Given Plain Declares

/-- The names of the enumerators of a declaration. -/
def HeadSpec.CItem.enumeratorNames (d : CItem) : Option (List Str) := d.enumerators.map (·.map HeadSpec.Enumerator.name)

open EnumCases in
open SourceCases (env R on pc rust fits) in
/-- The header for the sources of C66, with all of its enumerators: the variant `C` of `K`, whose `cfg` is off, has none. -/
theorem C85_case : ∃ tx o, Stages pc lc 1 1 EnumCases.inputs c id EnumCases.lib EnumCases.lib EnumCases.bindings ∧
    headerText env EnumCases.bindings = some tx ∧ readHeader R on tx = some o ∧
    o.items.filterMap CItem.enumeratorNames = [[c!"A", c!"B", c!"int_"], [c!"N"], [c!"P", c!"Q", c!"R"]] ∧
    ∀ d ∈ o.items, d.defines ≠ [] → ∀ es, d.enumerators = some es →
      EnumSource pc lc EnumCases.inputs c env.cfg.defines rust es := by
  obtain ⟨tx, ht⟩ := Option.isSome_iff_exists.1 (show (headerText env EnumCases.bindings).isSome = true by decide +kernel)
  have hr := C61_header_reads_back EnumCases.bindings_good ht
  refine ⟨tx, _, EnumCases.stages, ht, hr, by decide +kernel, fun d hd hn es hes => ?_⟩
  refine C85_c_partial EnumCases.stages EnumCases.bindings_good ht fits (fun k hk ns link d h => ?_) hr hd hn hes
  have : k = none := by simpa [env] using hk
  subst this
  exact absurd h no_types_nil

open CxxSourceCases (env R) in
open SourceCases (on) in
/-- What is in the namespace of the header. -/
def CxxEnumCases.inside : Out :=
  constantsOut env on true CxxEnumCases.bindings.constants ++
  outs ((CxxEnumCases.bindings.items.filter fun i => i.annotations.shouldExport).map (containerOut R env on)) ++
  constantsOut env on false CxxEnumCases.bindings.constants ++ cxxLinkageOut env on CxxEnumCases.bindings

open CxxEnumCases in
open CxxSourceCases (env R fits) in
open SourceCases (on pc rust) in
/-- The header for the sources of C77: enums in the namespace, and those of tags inside of types. -/
theorem C85_case_cxx : ∃ tx o ds, StagesX pc lc 1 1 CxxEnumCases.inputs c id CxxEnumCases.lib CxxEnumCases.bindings ∧
    headerText env CxxEnumCases.bindings = some tx ∧ readHeader R on tx = some o ∧ o.items = [.space c!"ns" ds] ∧
    ds.filterMap CItem.enumeratorNames = [[c!"A", c!"B", c!"int_"]] ∧
    (ds.flatMap CItem.members).filterMap CItem.enumeratorNames = [[c!"I", c!"J"], [c!"P", c!"Q", c!"R"]] ∧
    ∀ ns k d, Declares o.items ns k d → d.defines ≠ [] → ∀ m ∈ d :: d.members, ∀ es, m.enumerators = some es →
      EnumSource pc lc CxxEnumCases.inputs c env.cfg.defines rust es := by
  obtain ⟨tx, ht⟩ := Option.isSome_iff_exists.1 (show (headerText env CxxEnumCases.bindings).isSome = true by decide +kernel)
  have hr := C74_header_reads_back_partial CxxEnumCases.bindings_good ht
  have hb : NoTypesIn R on env.cfg := by
    intro k hk ns link d h
    have : k = none := by simpa [env, SourceCases.env] using hk
    subst this
    exact absurd h no_types_nil
  refine ⟨tx, _, CxxEnumCases.inside.items, CxxEnumCases.stages, ht, hr, rfl, ?_, ?_, fun ns k d hd hn m hm es hes => ?_⟩
  · decide +kernel
  · decide +kernel
  · rcases List.mem_cons.1 hm with rfl | hm
    · exact C85_cxx_partial CxxEnumCases.stages CxxEnumCases.bindings_good ht fits hb hr hd hn hes
    · refine C85_tags_partial CxxEnumCases.stages CxxEnumCases.bindings_good ht fits hb (fun p k hk m hm => ?_) hr hd hn hm hes
      have : k = none := by simpa [env, SourceCases.env, OutConfig.preBodyOf, OutConfig.postBodyOf] using hk
      subst this
      cases hm

namespace SentinelCases
open SourceCases (pc env R on rust fits unix)
open ScopeCases (ident)
open DefCases (reprC)
open EnumCases (F D opts fn f number variant_good)

/-- `#[repr(C)] enum E { A = 9, #[cfg(not(unix))] C, #[cfg(unix)] int }` -/
def s : SynEnum :=
  ⟨c!"E", [], [⟨c!"A", .unit, some (.lit (.int 9 [])), []⟩, ⟨c!"C", .unit, none, [{ attr := .cfg (some (.not (.boolean c!"unix"))) }]⟩,
    ⟨c!"int", .unit, none, [{ attr := cfgUnix }]⟩], [reprC]⟩
def items : List FItem := [.enum s, .fn fn]
def inputs : Inputs := { srcs := [(c!"lib", some items)] }

/-- The settings ask for a sentinel and for names with a prefix; the enum is renamed. -/
def lc : LoadConfig := { caseFns := F, addSentinel := true }
def c : LibConfig := { language := .c, caseFns := F, prefixWithName := true, export_ := { rename := [(c!"E", c!"Z")] } }

def item (n a k i t : Str) (doc : List Str) : EnumItem :=
  { path := c!"E", exportName := n, repr := { style := .c },
    variants := [{ name := c!"A", exportName := a, disc := some (.expr c!"9") },
      { name := c!"C", exportName := k, cfg := some (.not (.boolean c!"unix")) },
      { name := c!"int", exportName := i, cfg := some (.boolean c!"unix") },
      { name := c!"Sentinel", exportName := t, doc }] }
def doc : List Str := [c!" Must be last for serialization purposes"]
def before : EnumItem := item c!"E" c!"A" c!"C" c!"int" c!"Sentinel" doc
def after : EnumItem := item c!"Z" c!"Z_A" c!"Z_C" c!"Z_int_" c!"Z_Sentinel" doc

def lib : Library := { enums := [(c!"E", .single before)], functions := [f none] }

theorem built : buildLibrary pc lc 1 inputs = .ok lib := rfl

theorem expanded : (((lib.transferAnnotations id).simplify c).sortFunctions c).expand c 1 = .ok lib := rfl

def g : FuncItem := ScopeCases.takes (.path c!"E" c!"Z" [] (some .enum))
def lib' : Library := { enums := [(c!"E", .single after)], functions := [g] }
def bindings : Bindings := ⟨[], [], [.enum after], [g]⟩

theorem generated : lib.generate c id 1 = .ok bindings := by
  refine Library.generate_of (l' := lib') rfl ?_
  rw [DetSpec.collect_of (d := ⟨[.enum after], [c!"E"]⟩) rfl]
  simp only [DetSpec.bindingsOf]
  rw [show [Container.enum after] = [Container.enum after] ++ [] from rfl, sortItems_enums (by decide) (by decide)]
  rfl

theorem item_good : EnumGood R on D env after where
  name := ident (n := c!"Z") (by decide)
  attrs := nofun
  variants := by
    intro v hv
    simp only [after, item, List.mem_cons, List.not_mem_nil, or_false] at hv
    rcases hv with rfl | rfl | rfl | rfl
    · exact variant_good ⟨by simp, by decide⟩ rfl
        (by rintro d ⟨⟩; exact ⟨number (ls := [.word c!"9"]) (by decide) (by decide), by decide, by decide⟩) rfl
    · exact variant_good ⟨by simp, by decide⟩ rfl nofun rfl
    · exact variant_good ⟨by simp, by decide⟩ rfl nofun rfl
    · have h := variant_good (v := { name := c!"Sentinel", exportName := c!"Z_Sentinel" }) ⟨by simp, by decide⟩ rfl nofun rfl
      exact { h with doc := by unfold PreSpec.DocFine TextSpec.OneLine CommentSpec.Closes; decide }
  doc := nofun
  size := nofun
  data := nofun

theorem bindings_good : HeaderGood R on D env bindings where
  options := opts
  cpp := nofun
  spaces := nofun
  version := by unfold CommentSafe; decide
  guard := nofun
  header := nofun
  autogen := nofun
  after := nofun
  trailer := nofun
  sys := nofun
  quoted := nofun
  constants := nofun
  globals := nofun
  items := by
    intro x hx _
    simp only [bindings, List.mem_singleton] at hx
    subst hx
    exact item_good
  functions := by
    intro f' hf _
    simp only [bindings, List.mem_singleton] at hf
    subst hf
    exact {
      name := ident (n := c!"f") (by decide)
      ret := trivial
      args := by
        intro a ha
        simp only [g, ScopeCases.takes, List.mem_singleton] at ha
        subst ha
        exact ⟨fun n hn => by cases hn; exact ident (by decide), ⟨ident (n := c!"Z") (by decide), trivial⟩, nofun⟩
      lengths := by
        intro a ha hl
        simp only [g, ScopeCases.takes, List.mem_singleton] at ha
        subst ha
        simp at hl
      params := by
        refine ⟨by simp [g, ScopeCases.takes, isVoidList, meaningFnArg, ScopeCases.ptr], trivial, ?_⟩
        intro a ha
        simp only [g, ScopeCases.takes, List.mem_singleton] at ha
        subst ha
        trivial
      attrs := by
        intro o ho
        simp only [g, funcAttrs, funcPost, ScopeCases.takes, Bool.false_eq_true, if_false, List.cons_append,
          List.nil_append, List.mem_cons, List.not_mem_nil, or_false] at ho
        rcases ho with rfl | rfl | rfl | rfl | rfl <;> exact nofun
      doc := nofun }

theorem plain : InputsPlain inputs where
  srcs := by
    intro name is h
    simp only [inputs, List.mem_singleton, Prod.mk.injEq, Option.some.injEq] at h
    obtain ⟨_, rfl⟩ := h
    refine ⟨⟨trivial, trivial, trivial⟩, ⟨trivial, ?_, trivial⟩⟩
    show ParserSpec.UnsafeOne _
    intro args h
    simp [fn, noMangle] at h
  lib := by
    intro ws root p is h
    simp [inputs] at h

theorem onePath : OnePath pc inputs where
  names := by
    intro ws root p q cs cs' h
    simp [inputs] at h
  paths := by
    intro ws root p cs cs' h
    simp [inputs] at h

theorem given_types {t : Taken} {cs : List Cfg} {n : Str} (h : SrcSpec.Given pc inputs t cs) (hn : typeName t = some n) :
    (t, cs) ∈ [(Taken.enum s, ([] : List Cfg))] := by
  have h' : ∃ cfg crate, Occurs cfg crate items t cs := by
    cases h with
    | src hs ho =>
      simp only [inputs, List.mem_singleton, Prod.mk.injEq, Option.some.injEq] at hs
      obtain ⟨_, rfl⟩ := hs
      exact ⟨_, _, ho⟩
    | lib hl => simp [inputs] at hl
  obtain ⟨_, _, ho⟩ := h'
  exact occurs_types ho hn

theorem stages : Stages pc lc 1 1 inputs c id lib lib bindings where
  built := built
  plain := plain
  onePath := onePath
  language := rfl
  ordered := rfl
  bare := by
    intro s cs a h ha
    have := given_types h rfl
    simp at this
  generated := generated
  expanded := expanded

end SentinelCases

open SentinelCases in
open SourceCases (env R on pc rust fits) in
/-- An enum that is renamed, with a prefix, a reserved word, a variant whose `cfg` is off, and the sentinel. -/
theorem C85_case_sentinel : ∃ tx o, Stages pc lc 1 1 SentinelCases.inputs c id SentinelCases.lib SentinelCases.lib SentinelCases.bindings ∧
    headerText env SentinelCases.bindings = some tx ∧ readHeader R on tx = some o ∧
    o.items.filterMap CItem.enumeratorNames = [[c!"Z_A", c!"Z_int_", c!"Z_Sentinel"]] ∧
    ∀ d ∈ o.items, d.defines ≠ [] → ∀ es, d.enumerators = some es →
      EnumSource pc lc SentinelCases.inputs c env.cfg.defines rust es := by
  obtain ⟨tx, ht⟩ := Option.isSome_iff_exists.1 (show (headerText env SentinelCases.bindings).isSome = true by decide +kernel)
  have hr := C61_header_reads_back SentinelCases.bindings_good ht
  refine ⟨tx, _, SentinelCases.stages, ht, hr, by decide +kernel, fun d hd hn es hes => ?_⟩
  refine C85_c_partial SentinelCases.stages SentinelCases.bindings_good ht fits (fun k hk ns link d h => ?_) hr hd hn hes
  have : k = none := by simpa [env] using hk
  subst this
  exact absurd h no_types_nil

end Cbindgen
