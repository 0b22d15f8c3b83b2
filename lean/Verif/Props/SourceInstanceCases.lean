import Verif.Props.SourceInstances
import Verif.Props.SourceDefCases
import Verif.Props.SourceGenericCases

/-! # Cases for the instances of generic structs (C71) -/

namespace Cbindgen
open CSpec HeadSpec ScopeSpec LexSpec MonoSpec
open SrcSpec hiding Reaches Given Plain

namespace InstanceCases

open SourceCases (R pc)
open ScopeCases (ident)
open DefCases (reprC layout no_bits)
open GenericCases (env on rust fits opts takesTy)

/-- `#[repr(C)] pub struct P { y: u32 }` -/
def point : SynStruct := ⟨c!"P", [], .named [⟨some c!"y", .path c!"u32" .none, []⟩], [reprC]⟩

def gFields : List SynField := [⟨some c!"x", .path c!"T" .none, []⟩,
  ⟨some c!"next", .ptr false (.path c!"G" (.angle [.type (.path c!"T" .none)])), []⟩]

/-- `#[repr(C)] pub struct G<T> { x: T, next: *mut G<T> }` -/
def generic : SynStruct := ⟨c!"G", [.type c!"T" none], .named gFields, [reprC]⟩

/-- `P` as an argument. -/
def args : List SynGArg := [.type (.path c!"P" .none)]

/-- `fn f(x: *mut G<P>)` -/
def fn : SynFn := takesTy (.path c!"G" (.angle args))

def items : List FItem := [.struct point, .struct generic, .fn fn]
def inputs : Inputs := { srcs := [(c!"lib", some items)] }

def pItem : StructItem := { path := c!"P", exportName := c!"P", fields := [{ name := c!"y", ty := LoadedCases.u32 }] }
def lib : Library :=
  { structs := [(c!"P", .single pItem), (c!"G", .single LoadedCases.g)],
    functions := [LoadedCases.takes (.newPath c!"G" [.type (.newPath c!"P" [])])] }

/-- The instance. -/
def gp (k : Option DeclKind) : StructItem :=
  { path := c!"G_P", exportName := c!"G_P",
    fields := [{ name := c!"x", ty := .path c!"P" c!"P" [] k }, { name := c!"next", ty := .ptr (.path c!"G_P" c!"G_P" [] k) false true false }] }

def lib₁ : Library :=
  { structs := [(c!"P", .single pItem), (c!"G_P", .single (gp none))], functions := [LoadedCases.takes (.newPath c!"G_P" [])] }
def lib' : Library :=
  { structs := [(c!"P", .single pItem), (c!"G_P", .single (gp (some .struct)))],
    functions := [LoadedCases.takes (ScopeCases.tagged c!"G_P")] }

def bindings : Bindings := ⟨[], [], [.struct pItem, .struct (gp (some .struct))], [LoadedCases.takes (ScopeCases.tagged c!"G_P")]⟩

theorem built (f : CaseFns) : buildLibrary pc { caseFns := f } 1 inputs = .ok lib := rfl

theorem expanded (f : CaseFns) :
    (((lib.transferAnnotations id).simplify (plainConfig .c f)).sortFunctions (plainConfig .c f)).expand (plainConfig .c f) 2 = .ok lib₁ := rfl

set_option maxHeartbeats 1000000 in
theorem prepared (f : CaseFns) : lib.prepare (plainConfig .c f) id 2 = .ok lib' := by
  have h : lib.prepare (plainConfig .c f) id 2 = .ok (GenericCases.tables (lib.prepare (plainConfig .c f) id 2)) := rfl
  rw [h]
  exact congrArg _ (GenericCases.library_ext rfl rfl rfl rfl rfl rfl rfl rfl)

theorem generated (f : CaseFns) : lib.generate (plainConfig .c f) id 2 = .ok bindings := by
  refine Library.generate_of (l' := lib') (prepared f) ?_
  rw [DetSpec.collect_of (d := ⟨[.struct pItem, .struct (gp (some .struct))], [c!"P", c!"G_P"]⟩) rfl]
  simp only [DetSpec.bindingsOf]
  rw [sortItems_rest (by decide)]
  rfl

theorem bindings_good : HeaderGood R on [] env bindings where
  options := opts
  cpp := nofun
  spaces := nofun
  version := ⟨nofun, nofun⟩
  guard := nofun
  header := nofun
  autogen := nofun
  after := nofun
  trailer := nofun
  sys := nofun
  quoted := nofun
  constants := nofun
  globals := nofun
  items := by
    intro x hx _
    simp only [bindings, List.mem_cons, List.not_mem_nil, or_false] at hx
    rcases hx with rfl | rfl
    · exact {
        name := ident (n := c!"P") (by decide)
        attrs := by
          intro o ho
          simp only [structAttrs, List.mem_cons, List.not_mem_nil, or_false] at ho
          rcases ho with rfl | rfl | rfl <;> exact nofun
        fields := by
          intro x hx
          simp only [pItem, List.mem_cons, List.not_mem_nil, or_false] at hx
          subst hx
          exact ⟨ident (n := c!"y") (by decide), trivial, trivial, nofun, nofun⟩
        bodies := ⟨nofun, nofun⟩
        doc := nofun
        consts := nofun }
    · exact {
        name := ident (n := c!"G_P") (by decide)
        attrs := by
          intro o ho
          simp only [structAttrs, List.mem_cons, List.not_mem_nil, or_false] at ho
          rcases ho with rfl | rfl | rfl <;> exact nofun
        fields := by
          intro x hx
          simp only [gp, List.mem_cons, List.not_mem_nil, or_false] at hx
          rcases hx with rfl | rfl
          · exact ⟨ident (n := c!"x") (by decide), ⟨ident (n := c!"P") (by decide), trivial⟩, trivial, nofun, nofun⟩
          · exact ⟨ident (n := c!"next") (by decide), ⟨ident (n := c!"G_P") (by decide), trivial⟩, trivial, nofun, nofun⟩
        bodies := ⟨nofun, nofun⟩
        doc := nofun
        consts := nofun }
  functions := by
    intro f hf _
    simp only [bindings, List.mem_singleton] at hf
    subst hf
    exact {
      name := ident (n := c!"f") (by decide)
      ret := trivial
      args := by
        intro a ha
        simp only [LoadedCases.takes, ScopeCases.takes, List.mem_singleton] at ha
        subst ha
        exact ⟨fun n hn => by cases hn; exact ident (by decide), ⟨ident (n := c!"G_P") (by decide), trivial⟩, nofun⟩
      lengths := by
        intro a ha hl
        simp only [LoadedCases.takes, ScopeCases.takes, List.mem_singleton] at ha
        subst ha
        simp at hl
      params := by
        refine ⟨by simp [LoadedCases.takes, ScopeCases.takes, isVoidList, meaningFnArg, ScopeCases.ptr], trivial, ?_⟩
        intro a ha
        simp only [LoadedCases.takes, ScopeCases.takes, List.mem_singleton] at ha
        subst ha
        trivial
      attrs := by
        intro o ho
        simp only [funcAttrs, funcPost, LoadedCases.takes, ScopeCases.takes, Bool.false_eq_true, if_false, List.cons_append,
          List.nil_append, List.mem_cons, List.not_mem_nil, or_false] at ho
        rcases ho with rfl | rfl | rfl | rfl | rfl <;> exact nofun
      doc := nofun }

theorem plain : InputsPlain inputs where
  srcs := by
    intro name is h
    simp only [inputs, List.mem_singleton, Prod.mk.injEq, Option.some.injEq] at h
    obtain ⟨_, rfl⟩ := h
    refine ⟨⟨trivial, trivial, trivial, trivial⟩, ⟨trivial, trivial, ?_, trivial⟩⟩
    show ParserSpec.UnsafeOne _
    intro args h
    simp [fn, takesTy, noMangle] at h
  lib := by
    intro ws root p is h
    simp [inputs] at h

theorem onePath : OnePath pc inputs where
  names := by
    intro ws root p q cs cs' h
    simp [inputs] at h
  paths := by
    intro ws root p cs cs' h
    simp [inputs] at h

def types : List (Taken × List Cfg) := [(.struct point, []), (.struct generic, [])]

theorem given_types {t : Taken} {cs : List Cfg} {n : Str} (h : SrcSpec.Given pc inputs t cs) (hn : typeName t = some n) :
    (t, cs) ∈ types := by
  have h' : ∃ cfg crate, Occurs cfg crate items t cs := by
    cases h with
    | src hs ho =>
      simp only [inputs, List.mem_singleton, Prod.mk.injEq, Option.some.injEq] at hs
      obtain ⟨_, rfl⟩ := hs
      exact ⟨_, _, ho⟩
    | lib hl => simp [inputs] at hl
  obtain ⟨_, _, ho⟩ := h'
  exact occurs_types ho hn

theorem stages (f : CaseFns) : Stages pc { caseFns := f } 1 2 inputs (plainConfig .c f) id lib lib₁ bindings where
  built := built f
  plain := plain
  onePath := onePath
  language := rfl
  ordered := rfl
  bare := by
    intro s cs a h ha
    have := given_types h rfl
    simp [types] at this
  generated := generated f
  expanded := expanded f

theorem top {i : FItem} {t : Taken} {cs : List Cfg} (hi : i ∈ items) (hv : ¬ Hidden i.attrs)
    (hd : Declares (fileConfig pc c!"lib") c!"lib" i t cs) : SrcSpec.Given pc inputs t cs :=
  .src (name := c!"lib") (is := items) (by simp [inputs]) (.here hi hv hd)

def E (f : CaseFns) (owner : Option Str) : TyEnv := envOf (plainConfig .c f) env.cfg (tagFor (plainConfig .c f) lib₁) .none owner

theorem named_type {f : CaseFns} {o : Option Str} {c : Bool} {n : Str} {k : Option DeclKind} (hn : unraw n ∉ builtin)
    (hk : (E f o).tag (unraw n) = k) (he : (E f o).name (unraw n) = n) :
    CType (E f o) c (.path n .none) (.base c k n []) := by
  have := CType.named (E := E f o) (c := c) hn .none
  rw [hk, he] at this
  exact this

def pMembers : List CItem := [.object false [] c!"y" (cname false c!"uint32_t") []]

theorem point_members (f : CaseFns) : Members (E f (some c!"P")) (memberName f .none) rust (countOf point.fields)
    (listOf point.fields) pMembers :=
  .shown (n := c!"y") (u := cname false c!"uint32_t") .named (.prim (by show _ ∈ intTypes false ++ otherTypes; decide) .none) (no_bits rfl)
    nofun .nil

theorem sole_point (f : CaseFns) : Sole pc { caseFns := f } inputs (plainConfig .c f) (.struct point) [] c!"P" where
  given := top (i := .struct point) (by simp [items]) (by simp [Hidden, ParserSpec.Ignored, FItem.attrs, point, reprC]) .struct
  declarable := .struct (s := point) rfl nofun (layout f rfl) (.inl rfl) (a := {}) rfl rfl (point_members f)
  name := rfl
  others := fun t' cs' h h' => Or.inl (by
    have := given_types h h'
    simp only [types, List.mem_cons, List.not_mem_nil, or_false, Prod.mk.injEq] at this
    rcases this with ⟨rfl, rfl⟩ | ⟨rfl, rfl⟩
    · exact ⟨rfl, rfl⟩
    · exact absurd h' (by decide))
  std := by decide
  instances := no_instance rfl (by decide)
  kept := List.not_mem_nil
  wanted := by intro k _; cases k <;> rfl

/-- The fields of the instance: `x: P` and `next: *mut G_P`. -/
def fields' : List SynField := [⟨some c!"x", .path c!"P" .none, []⟩, ⟨some c!"next", .ptr false (.path c!"G_P" .none), []⟩]

/-- All uses that are followed are `G<P>`. -/
theorem requested (f : CaseFns) {u : GUse} (h : Requested (plainConfig .c f) (lib.before (plainConfig .c f) id) u) :
    u = (c!"G", c!"G", [.type (.newPath c!"P" [])], none) := by
  induction h with
  | here hu =>
    have : (lib.before (plainConfig .c f) id).monoUses = [(c!"G", c!"G", [.type (.newPath c!"P" [])], none)] := rfl
    rw [this] at hu
    exact List.mem_singleton.1 hu
  | inside _ hg hx hy hσ hw ih =>
    subst ih
    have h1 : (lib.before (plainConfig .c f) id).getItems (plainConfig .c f) c!"G" = some [.struct LoadedCases.g] := rfl
    rw [h1] at hg
    cases hg
    obtain rfl := List.mem_singleton.1 hx
    obtain rfl := List.mem_singleton.1 hy
    cases hσ
    exact List.mem_singleton.1 hw

theorem sole_instance (f : CaseFns) : SoleInstance pc inputs (plainConfig .c f) id lib lib₁ (.struct generic) generic []
    [.type (.newPath c!"P" [])] c!"G_P" where
  given := top (i := .struct generic) (by simp [items]) (by simp [Hidden, ParserSpec.Ignored, FItem.attrs, generic, reprC]) .struct
  struct := rfl
  others := fun t' cs' h h' => by
    have := given_types h h'
    simp only [types, List.mem_cons, List.not_mem_nil, or_false, Prod.mk.injEq] at this
    rcases this with ⟨rfl, rfl⟩ | ⟨rfl, rfl⟩
    · exact absurd h' (by decide)
    · exact ⟨rfl, rfl⟩
  std := by decide
  name := rfl
  only := by
    intro u hu items hg x hx z hz _
    cases requested f hu
    have h1 : (lib.before (plainConfig .c f) id).getItems (plainConfig .c f) c!"G" = some [.struct LoadedCases.g] := rfl
    rw [h1] at hg
    cases hg
    obtain rfl := List.mem_singleton.1 hx
    obtain rfl := List.mem_singleton.1 hz
    exact ⟨rfl, rfl, rfl⟩
  free := by
    intro z hz
    have : lib.types = [.struct pItem, .struct LoadedCases.g] := rfl
    rw [this] at hz
    simp only [List.mem_cons, List.not_mem_nil, or_false] at hz
    rcases hz with rfl | rfl <;> decide
  made := ⟨.struct (gp none), .tail _ (.head _), rfl⟩
  kept := List.not_mem_nil
  wanted := rfl

def binding : Binding := Binding.withType ⟨fun _ => none, fun _ => none⟩ c!"T" (.path c!"P" .none)

theorem instance_name (f : CaseFns) (o : Option Str) : InstanceName (plainConfig .c f) lib o c!"G" (.angle args) c!"G_P" :=
  (C71_name (ns := [c!"P"]) rfl rfl (.type (n := c!"P") .none (.inr (by decide)) .nil) (by simp) rfl).2 rfl

theorem instance_is (f : CaseFns) : InstanceIs pc inputs (plainConfig .c f) id lib lib₁ (.struct generic) generic [] args c!"G_P" fields' where
  sole := ⟨_, rfl, sole_instance f⟩
  fields := by
    refine ⟨binding, .type (n := c!"T") .nil ⟨rfl, rfl⟩ ⟨by decide, by decide⟩, ?_⟩
    refine .cons (f := ⟨some c!"x", .path c!"T" .none, []⟩) ⟨_, .param (n := c!"T") .none rfl (by decide), .plain .none⟩ ?_
    refine .cons (f := ⟨some c!"next", .ptr false (.path c!"G" (.angle [.type (.path c!"T" .none)])), []⟩)
      ⟨.ptr false (.path c!"G" (.angle args)), .raw (.generic (n := c!"G") ⟨rfl, rfl⟩ (by decide) (by decide)
        (.type (.param (n := c!"T") .none rfl (by decide)) .nil)),
        .raw (.inst (n := c!"G") (instance_name f _) (by decide) (by decide) (by decide) (by decide))⟩ .nil
  std := by decide

/-- `fn f(x: *mut G_P)` -/
def sig' : SynSig := { fn.sig with inputs := [.ident c!"x" (.ptr false (.path c!"G_P" .none))] }

theorem needed (f : CaseFns) : NeededOut pc { caseFns := f } inputs (plainConfig .c f) id lib lib₁ c!"G_P" := by
  have h : Params (E f none) sig'.inputs [.mk (some c!"x") (.ptr false false none (.base false (some .struct) c!"G_P" []))] :=
    .ident (n := c!"x") (.raw (.some (named_type (n := c!"G_P") (by decide) rfl rfl))) (fun h => h) .nil
  refine .function (path := c!"f") (owner := none) (ext := false) (sf := fn) (cs := []) (a := {}) (E := E f none) (s' := sig')
    (top (i := .fn fn) (by simp [items]) (by simp [Hidden, ParserSpec.Ignored, FItem.attrs, fn, takesTy, noMangle])
      (.fn (Or.inl rfl) (Or.inr (Or.inl rfl)) (Or.inr ⟨by decide, Or.inl (by simp [fn, takesTy, noMangle]), rfl⟩)))
    List.not_mem_nil rfl rfl ?_ rfl (.mk h .default) (.ident (n := c!"x") (.head _) (.raw (.named (n := c!"G_P") (by decide) .none)))
  exact {
    inputs := .ident (.raw (.inst (n := c!"G") (instance_name f none) (by decide) (by decide) (by decide) (by decide))) .nil
    output := .default
    variadic := rfl }

def gMembers : List CItem :=
  [.object false [] c!"x" (.base false (some .struct) c!"P" []) [],
   .object false [] c!"next" (.ptr false false none (.base false (some .struct) c!"G_P" [])) []]

theorem instance_members (f : CaseFns) : Members (E f (some c!"G")) (memberName f .none) rust (countOf generic.fields) fields' gMembers := by
  refine .shown (n := c!"x") (u := .base false (some .struct) c!"P" []) .named (named_type (by decide) rfl rfl) (no_bits rfl) nofun ?_
  exact .shown (n := c!"next") (u := .ptr false false none (.base false (some .struct) c!"G_P" [])) .named
    (.raw (.some (named_type (n := c!"G_P") (by decide) rfl rfl))) (no_bits rfl) nofun .nil

/-- Only the instance needs `P`. -/
theorem needed_point (f : CaseFns) : NeededOut pc { caseFns := f } inputs (plainConfig .c f) id lib lib₁ c!"P" :=
  .inside (instance_is f) (layout f rfl) (a := {}) rfl rfl (instance_members f) (needed f) (.head _) (.named (n := c!"P") (by decide) .none)

theorem read {t : Str} (ht : headerText env bindings = some t) : ReadWhere R on [] env bindings t rust [] where
  good := bindings_good
  text := ht
  first := nofun
  same := fits
  mapped := nofun
  holds := nofun

end InstanceCases

open InstanceCases in
open GenericCases (env on) in
open SourceCases (R) in
/-- Cases for C71: a generic struct that is used for another struct; only the instance needs that one. -/
example (f : CaseFns) : ∃ t o, headerText env InstanceCases.bindings = some t ∧ readHeader R on t = some o ∧
    .record .struct [] (tagOf env.cfg c!"G_P") (nameOf env.cfg c!"G_P") gMembers ∈ o.items ∧
    .record .struct [] (tagOf env.cfg c!"P") (nameOf env.cfg c!"P") pMembers ∈ o.items := by
  obtain ⟨t, ht⟩ := Option.isSome_iff_exists.1 (show (headerText env InstanceCases.bindings).isSome = true by decide +kernel)
  obtain ⟨o₁, h₁, k₁⟩ := C71_instance_partial (InstanceCases.stages f) (fun fs => List.Perm.refl fs) (InstanceCases.read ht) (instance_is f)
    (InstanceCases.needed f) ⟨rfl, rfl⟩ (DefCases.layout f rfl) (a := {}) rfl rfl rfl (rule := .none) rfl
    (by
      intro x hx y hy
      simp only [fields', List.mem_cons, List.not_mem_nil, or_false] at hx
      rcases hx with rfl | rfl <;> cases hy) (instance_members f)
  obtain ⟨o₂, h₂, k₂⟩ := C71_struct_partial (InstanceCases.stages f) (fun fs => List.Perm.refl fs) (InstanceCases.read ht) (sole_point f)
    (needed_point f) (s := point) rfl ⟨rfl, rfl⟩ (DefCases.layout f rfl) (a := {}) rfl rfl rfl (rule := .none) rfl
    (by
      intro x hx y hy
      simp only [point, listOf, List.mem_cons, List.not_mem_nil, or_false] at hx
      subst hx
      cases hy) (point_members f)
  obtain rfl := Option.some.inj (h₁.symm.trans h₂)
  exact ⟨t, o₁, ht, h₁, k₁, k₂⟩

end Cbindgen
