import Verif.Props.Scope
import Verif.Props.RefCases
import Verif.Props.Determinism

/-! # Cases for C62, and a program for which it is false -/

namespace Cbindgen
open LexSpec CSpec HeadSpec ScopeSpec LibSpec RefSpec

/-- Items that are neither enums without data nor opaque types keep their order. -/
theorem sortItems_rest {xs : List Container} (h : ∀ x ∈ xs, isPlainEnum x = false ∧ isOpaque x = false) :
    sortItems xs = xs := by
  refine ((C12_layers _ _).1 ⟨[], ⟨.nil, fun n => ?_⟩, ?_⟩).symm
  · have : xs.filter isOpaque = [] := List.filter_eq_nil_iff.2 fun x hx => by simp [(h x hx).2]
    rw [this]
  · rw [List.filter_eq_nil_iff.2 fun x hx => by simp [(h x hx).1]]
    exact (List.filter_eq_self.2 fun x hx => by simp [h x hx]).symm

namespace ScopeCases

/-- The default options, for C. -/
def env : Env := { cfg := { language := .c } }
def R : Dialect := {}
/-- No macro is defined. -/
def on : Str → Bool := fun _ => false

/-- `T` as it is loaded, and as it is written. -/
def ref (n : Str) : Ty := .path n n [] none
def tagged (n : Str) : Ty := .path n n [] (some .struct)
def ptr (t : Ty) : Ty := .ptr t false true false
def i32 : Ty := .prim (.integer false true .b32)

def struct2 (n f g : Str) (t u : Ty) : StructItem :=
  { path := n, exportName := n, fields := [{ name := f, ty := t }, { name := g, ty := u }] }

/-- `fn f(x: *mut T)` -/
def takes (t : Ty) : FuncItem := { path := c!"f", ret := .prim .void, args := [{ name := some c!"x", ty := ptr t }] }

/-! ## A struct with another struct, and with a pointer to itself -/

/-- `struct A { x: i32, y: i32 }`, `struct B { a: A, next: *mut B }`, `fn f(x: *mut B)` -/
def lib : Library :=
  { structs := [(c!"A", .single (struct2 c!"A" c!"x" c!"y" i32 i32)),
      (c!"B", .single (struct2 c!"B" c!"a" c!"next" (ref c!"A") (ptr (ref c!"B"))))],
    functions := [takes (ref c!"B")] }

def a : StructItem := struct2 c!"A" c!"x" c!"y" i32 i32
def b : StructItem := struct2 c!"B" c!"a" c!"next" (tagged c!"A") (ptr (tagged c!"B"))

def lib' : Library :=
  { structs := [(c!"A", .single a), (c!"B", .single b)], functions := [takes (tagged c!"B")] }

def bindings : Bindings := ⟨[], [], [.struct a, .struct b], [takes (tagged c!"B")]⟩

theorem generated (f : CaseFns) : lib.generate (plainConfig .c f) id 1 = .ok bindings := by
  refine Library.generate_of (l' := lib') rfl ?_
  rw [DetSpec.collect_of (d := ⟨[.struct a, .struct b], [c!"A", c!"B"]⟩) rfl]
  simp only [DetSpec.bindingsOf]
  rw [sortItems_rest (by decide)]
  rfl

/-! ## Two structs that refer to each other -/

/-- `struct A { x: i32, b: *mut B }`, `struct B { y: i32, a: A }`, `fn f(x: *mut A)` -/
def cyclic : Library :=
  { structs := [(c!"A", .single (struct2 c!"A" c!"x" c!"b" i32 (ptr (ref c!"B")))),
      (c!"B", .single (struct2 c!"B" c!"y" c!"a" i32 (ref c!"A")))],
    functions := [takes (ref c!"A")] }

def cyclicA : StructItem := struct2 c!"A" c!"x" c!"b" i32 (ptr (tagged c!"B"))
def cyclicB : StructItem := struct2 c!"B" c!"y" c!"a" i32 (tagged c!"A")
def cyclic' : Library :=
  { structs := [(c!"A", .single cyclicA), (c!"B", .single cyclicB)], functions := [takes (tagged c!"A")] }
def cyclicBindings : Bindings := ⟨[], [], [.struct cyclicB, .struct cyclicA], [takes (tagged c!"A")]⟩

theorem cyclic_generated (f : CaseFns) : cyclic.generate (plainConfig .c f) id 1 = .ok cyclicBindings := by
  refine Library.generate_of (l' := cyclic') rfl ?_
  rw [DetSpec.collect_of (d := ⟨[.struct cyclicB, .struct cyclicA], [c!"B", c!"A"]⟩) rfl]
  simp only [DetSpec.bindingsOf]
  rw [sortItems_rest (by decide)]
  rfl

/-! ## Reading them -/

theorem opts : OptsFine env.cfg R [] where
  lang := rfl
  names := nofun
  asked := nofun
  dialect :=
    { known := ⟨nofun, by decide, by decide, by decide⟩
      macros := nofun
      apart := by decide
      noTypedef := by decide
      noExtern := by decide }

theorem ident {n : Str} (h : (n ≠ [] ∧ n.all LexSpec.wordChar = true) ∧ wordTok R.attrs n = .name n ∧ isArith n = false ∧
    n ≠ c!"typedef" ∧ n ≠ c!"extern") : Ident R.attrs n := ⟨h.1.1, h.1.2, h.2⟩

def TyGood (t : Ty) : Prop := TyFine R.attrs t ∧ NoVoidParam env.cfg.toDeclConfig t

theorem i32_good : TyGood i32 := by simp [TyGood, i32, TyFine, NoVoidParam]
theorem tagged_good {n : Str} (h : Ident R.attrs n) : TyGood (tagged n) := ⟨⟨h, trivial⟩, trivial⟩
theorem ptr_good {t : Ty} (h : TyGood t) : TyGood (ptr t) := h

theorem struct_good {n f g : Str} {t u : Ty} (hn : Ident R.attrs n) (hf : Ident R.attrs f) (hg : Ident R.attrs g)
    (ht : TyGood t) (hu : TyGood u) : ContainerGood R on [] env (.struct (struct2 n f g t u)) where
  name := hn
  attrs := by
    intro o ho
    simp only [structAttrs, List.mem_cons, List.not_mem_nil, or_false] at ho
    rcases ho with rfl | rfl | rfl <;> exact nofun
  fields := by
    intro x hx
    simp only [struct2, List.mem_cons, List.not_mem_nil, or_false] at hx
    rcases hx with rfl | rfl
    · exact ⟨hf, ht.1, ht.2, nofun, nofun⟩
    · exact ⟨hg, hu.1, hu.2, nofun, nofun⟩
  bodies := ⟨nofun, nofun⟩
  doc := nofun
  consts := nofun

theorem takes_good {t : Ty} (ht : TyGood t) : FuncGood R env.cfg (takes t) where
  name := ident (n := c!"f") (by decide)
  ret := trivial
  args := by
    intro a ha
    simp only [takes, List.mem_singleton] at ha
    subst ha
    exact ⟨fun n hn => by cases hn; exact ident (by decide), ht.1, nofun⟩
  lengths := by
    intro a ha hl
    simp only [takes, List.mem_singleton] at ha
    subst ha
    simp at hl
  params := by
    refine ⟨by simp [takes, isVoidList, meaningFnArg, ptr], trivial, ?_⟩
    intro a ha
    simp only [takes, List.mem_singleton] at ha
    subst ha
    exact ht.2
  attrs := by
    intro o ho
    simp only [funcAttrs, funcPost, takes, Bool.false_eq_true, if_false, List.cons_append, List.nil_append, List.mem_cons,
      List.not_mem_nil, or_false] at ho
    rcases ho with rfl | rfl | rfl | rfl | rfl <;> exact nofun
  doc := nofun

theorem header_good {xs : List Container} {t : Ty} (hx : ∀ x ∈ xs, ContainerGood R on [] env x) (ht : TyGood t) :
    HeaderGood R on [] env ⟨[], [], xs, [takes t]⟩ where
  options := opts
  cpp := nofun
  spaces := nofun
  version := by unfold CommentSafe; decide
  guard := nofun
  header := nofun
  autogen := nofun
  after := nofun
  trailer := nofun
  sys := nofun
  quoted := nofun
  constants := nofun
  items := fun x h _ => hx x h
  globals := nofun
  functions := by
    intro f hf _
    simp only [List.mem_singleton] at hf
    subst hf
    exact takes_good ht

theorem bindings_good : HeaderGood R on [] env bindings := by
  refine header_good ?_ (tagged_good (ident (by decide)))
  intro x hx
  simp only [List.mem_cons, List.not_mem_nil, or_false] at hx
  rcases hx with rfl | rfl
  · exact struct_good (ident (by decide)) (ident (by decide)) (ident (by decide)) i32_good i32_good
  · exact struct_good (ident (by decide)) (ident (by decide)) (ident (by decide)) (tagged_good (ident (by decide)))
      (ptr_good (tagged_good (ident (by decide))))

theorem cyclic_good : HeaderGood R on [] env cyclicBindings := by
  refine header_good ?_ (tagged_good (ident (by decide)))
  intro x hx
  simp only [List.mem_cons, List.not_mem_nil, or_false] at hx
  rcases hx with rfl | rfl
  · exact struct_good (ident (by decide)) (ident (by decide)) (ident (by decide)) i32_good (tagged_good (ident (by decide)))
  · exact struct_good (ident (by decide)) (ident (by decide)) (ident (by decide)) i32_good
      (ptr_good (tagged_good (ident (by decide))))

theorem text_of {b : Bindings} (h : (headerText env b).isSome = true) : ∃ t, headerText env b = some t :=
  Option.isSome_iff_exists.1 h

theorem given_struct {n f g : Str} {t u : Ty} {v : Name}
    (h : Given (containerOut R env on (.struct (struct2 n f g t u))).items v) : v = (some .struct, n) ∨ v = (none, n) := by
  obtain ⟨d, hd, hv⟩ := h
  have hd : d ∈ [structItemOf R env.cfg on (struct2 n f g t u)] := hd
  rw [List.mem_singleton] at hd
  subst hd
  have : gives (structItemOf R env.cfg on (struct2 n f g t u)) = [(some .struct, n), (none, n)] := rfl
  rw [this] at hv
  simpa using hv

theorem needed : ∀ x ∈ bindings.items, ∀ p n k, ItemNeeds x p n k →
    x = .struct b ∧ p = c!"A" ∧ n = c!"A" ∧ k = some .struct := by
  intro x hx p n k hn
  simp only [bindings, List.mem_cons, List.not_mem_nil, or_false] at hx
  rcases hx with rfl | rfl
  · obtain ⟨g, hg, hn⟩ := hn
    simp only [a, struct2, Bool.false_eq_true, if_false, List.drop_zero, List.mem_cons, List.not_mem_nil, or_false] at hg
    rcases hg with rfl | rfl <;> cases hn.refers
  · obtain ⟨g, hg, hn⟩ := hn
    simp only [b, struct2, Bool.false_eq_true, if_false, List.drop_zero, List.mem_cons, List.not_mem_nil, or_false] at hg
    rcases hg with rfl | rfl
    · cases hn.refers; exact ⟨rfl, rfl, rfl, rfl⟩
    · rcases hn with ⟨hn, hk⟩ | hn
      · cases hn with
        | ptr hn => cases hn; simp at hk
      · cases hn

theorem clear : ClearNames R on env bindings.items where
  refs := by
    intro y hy p n k hn x hx hg
    obtain ⟨rfl, rfl, rfl, rfl⟩ := needed y hy p n k hn
    simp only [bindings, List.mem_cons, List.not_mem_nil, or_false] at hx
    rcases hx with rfl | rfl
    · rfl
    · have := given_struct (n := c!"B") hg
      simp at this
  prims := by
    rintro x hx ⟨k, n⟩ ⟨rfl, p, hp⟩ hg
    simp only at hp
    have hn : n = c!"A" ∨ n = c!"B" := by
      simp only [bindings, List.mem_cons, List.not_mem_nil, or_false] at hx
      rcases hx with rfl | rfl
      · have := given_struct (n := c!"A") hg; simp_all
      · have := given_struct (n := c!"B") hg; simp_all
    subst hp
    generalize env.cfg.toDeclConfig.usizeIsSizeT = v at hn
    cases p with
    | integer z s k => cases s <;> cases k <;> cases v <;> simp [Prim.toReprC] at hn
    | _ => cases v <;> simp [Prim.toReprC] at hn

theorem reaches_a {f : CaseFns} {p q : Str} (h : Reaches (lib'.getItems (plainConfig .c f)) p q) : p = c!"A" → q = c!"A" := by
  induction h with
  | refl => exact id
  | step _ hg hx hu _ ih =>
    intro hp
    have hq := ih hp
    subst hq
    have : lib'.getItems (plainConfig .c f) c!"A" = some [.struct a] := rfl
    rw [this] at hg
    cases hg
    rw [List.mem_singleton] at hx
    subst hx
    rcases hu with ⟨g, hg, hu, _⟩ | ⟨k, hk, _⟩
    · simp only [a, struct2, Bool.false_eq_true, if_false, List.drop_zero, List.mem_cons, List.not_mem_nil, or_false] at hg
      rcases hg with rfl | rfl <;> cases hu
    · simp [a, struct2] at hk

theorem plain : lib.Plain where
  constants x hx := by simp [lib, ItemMap.toVec] at hx
  globals x hx := by simp [lib, ItemMap.toVec] at hx
  enums x hx := by simp [lib, ItemMap.toVec] at hx
  structs x hx := by
    simp only [lib, ItemMap.toVec, List.flatMap_cons, List.flatMap_nil, ItemValue.items,
      List.append_nil, List.cons_append, List.nil_append, List.mem_cons, List.not_mem_nil, or_false] at hx
    rcases hx with rfl | rfl
    all_goals
      refine ⟨rfl, rfl, fun p hp => by simp [struct2] at hp, ?_, fun k hk => by simp [struct2] at hk⟩
      intro g hg
      simp only [struct2, List.mem_cons, List.not_mem_nil, or_false] at hg
      rcases hg with rfl | rfl <;> simp [RefSpec.Plain, RefSpec.PlainArgs, i32, ref, ptr]
  unions x hx := by simp [lib, ItemMap.toVec] at hx
  opaqueItems x hx := by simp [lib, ItemMap.toVec] at hx
  typedefs x hx := by simp [lib, ItemMap.toVec] at hx
  functions x hx := by
    simp only [lib, List.mem_singleton] at hx
    subst hx
    refine ⟨trivial, ?_⟩
    intro a ha
    simp only [takes, List.mem_singleton] at ha
    subst ha
    exact ⟨rfl, rfl, trivial⟩

end ScopeCases

open ScopeCases in
/-- **C62** is false for two structs that refer to each other: `A` has a pointer to `B`, and `B` has an `A`.  `B` is
written first, with a member of the type `struct A`, which is not complete there. -/
theorem C62_refuted (f : CaseFns) : ∃ t o, cyclic.generate (plainConfig .c f) id 1 = .ok cyclicBindings ∧
    headerText env cyclicBindings = some t ∧ readHeader R on t = some o ∧ ¬ InOrder o.items := by
  obtain ⟨t, ht⟩ := text_of (b := cyclicBindings) (by decide +kernel)
  refine ⟨t, _, cyclic_generated f, ht, C61_header_reads_back cyclic_good ht, fun h => ?_⟩
  obtain ⟨d, hd, _⟩ := h [] (structItemOf R env.cfg on cyclicB)
    ([structItemOf R env.cfg on cyclicA] ++ (funcOut env.cfg on (takes (tagged c!"A"))).items) rfl
    (some .struct, c!"A") (by decide) ⟨structItemOf R env.cfg on cyclicA, by simp, by decide⟩
  simp at hd

open ScopeCases in
/-- A case for C62: a struct with another struct and with a pointer to itself.  All hypotheses hold. -/
example (f : CaseFns) : ∃ t o, lib.generate (plainConfig .c f) id 1 = .ok bindings ∧
    headerText env bindings = some t ∧ readHeader R on t = some o ∧ InOrder o.items ∧ Given o.items (some .struct, c!"A") := by
  obtain ⟨t, ht⟩ := text_of (b := bindings) (by decide +kernel)
  have hshape : ∀ x ∈ bindings.items, Shaped env.cfg x := by
    intro x hx
    simp only [bindings, List.mem_cons, List.not_mem_nil, or_false] at hx
    rcases hx with rfl | rfl <;> exact ⟨rfl, rfl⟩
  obtain ⟨o, ho, hin⟩ := C62_in_order_partial (generated f) (l' := lib') rfl bindings_good ht
    ⟨rfl, rfl, rfl, rfl, fun _ => rfl, fun _ => rfl⟩ hshape clear (by
      intro x hx p n k hn hr
      obtain ⟨rfl, rfl, rfl, rfl⟩ := needed x hx p n k hn
      have := reaches_a hr rfl
      simp [b, struct2, Container.path] at this)
  obtain ⟨_, o', ho', hd⟩ := C62_declared plain (generated f) (l' := lib') (l₁ := lib) rfl rfl rfl
    (by
      intro x hx y hy _
      simp [lib, Library.types, ItemMap.toVec, ItemValue.items] at hx hy
      rcases hx with rfl | rfl <;> rcases hy with rfl | rfl <;> rfl)
    (by
      intro x hx
      simp [lib, Library.types, ItemMap.toVec, ItemValue.items] at hx
      rcases hx with rfl | rfl <;> simp [Ordinary, struct2])
    bindings_good rfl ht nofun
    (by
      intro x hx
      refine ⟨hshape x hx, ?_⟩
      simp only [bindings, List.mem_cons, List.not_mem_nil, or_false] at hx
      rcases hx with rfl | rfl <;> exact trivial)
    (p := c!"A") (n := c!"A") (k := some .struct) (its := [.struct a]) rfl (.head _) rfl rfl nofun
    (.inl ⟨.struct b, .tail _ (.head _), _, .head _, .inr (.here ..)⟩)
  rw [ho] at ho'
  cases ho'
  exact ⟨t, o, generated f, ht, ho, hin, hd⟩

end Cbindgen
