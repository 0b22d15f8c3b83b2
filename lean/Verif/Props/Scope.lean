import Verif.Lemmas.ScopeItems
import Verif.Props.ReadHeader
import Verif.Props.Library
import Verif.Props.Refs
import Verif.Props.Keywords

/-!
# The order of the declarations of a C header (C62)

C10 is about the order of the items that are to be written.  Here the header is read as C, and the names that its
declarations need are compared with the names that are declared before.
-/

namespace Cbindgen
open LexSpec CSpec HeadSpec ScopeSpec LibSpec

/-! ## Lists -/

theorem ScopeSpec.flatMap_split {α β : Type} {f : α → List β} {d : β} : ∀ {xs : List α} {pre post : List β},
    xs.flatMap f = pre ++ d :: post → ∃ xs1 x xs2 p q, xs = xs1 ++ x :: xs2 ∧ f x = p ++ d :: q ∧
      pre = xs1.flatMap f ++ p ∧ post = q ++ xs2.flatMap f
  | [], pre, post, h => by simp at h
  | x :: xs, pre, post, h => by
    rw [List.flatMap_cons, List.append_eq_append_iff] at h
    rcases h with ⟨w, h1, h2⟩ | ⟨w, h1, h2⟩
    · obtain ⟨xs1, y, xs2, p, q, rfl, h4, rfl, rfl⟩ := flatMap_split h2
      exact ⟨x :: xs1, y, xs2, p, q, rfl, h4, by simp [h1], rfl⟩
    · cases w with
      | nil =>
        simp only [List.append_nil, List.nil_append] at h1 h2
        obtain ⟨xs1, y, xs2, p, q, rfl, h4, h5, rfl⟩ := flatMap_split (pre := []) h2.symm
        refine ⟨x :: xs1, y, xs2, p, q, rfl, h4, ?_, rfl⟩
        simp only [List.flatMap_cons, List.append_assoc, ← h5, List.append_nil, h1]
      | cons y ys =>
        simp only [List.cons_append, List.cons.injEq] at h2
        obtain ⟨rfl, rfl⟩ := h2
        exact ⟨[], x, xs, pre, ys, rfl, h1, by simp, rfl⟩

theorem ScopeSpec.filter_split {α : Type} {p : α → Bool} {x : α} : ∀ {xs pre post : List α},
    xs.filter p = pre ++ x :: post → ∃ xs1 xs2, xs = xs1 ++ x :: xs2 ∧ xs1.filter p = pre
  | [], pre, post, h => by simp at h
  | y :: ys, pre, post, h => by
    rw [List.filter_cons] at h
    split at h
    · rename_i hy
      cases pre with
      | nil =>
        simp only [List.nil_append, List.cons.injEq] at h
        obtain ⟨rfl, _⟩ := h
        exact ⟨[], ys, rfl, rfl⟩
      | cons z zs =>
        simp only [List.cons_append, List.cons.injEq] at h
        obtain ⟨rfl, h⟩ := h
        obtain ⟨xs1, xs2, rfl, h2⟩ := filter_split h
        exact ⟨y :: xs1, xs2, rfl, by simp [hy, h2]⟩
    · rename_i hy
      obtain ⟨xs1, xs2, rfl, h2⟩ := filter_split h
      exact ⟨y :: xs1, xs2, rfl, by simp [hy, h2]⟩

/-! ## The header -/

/-- A name that is written in a type stands for one definition: an item that declares the name is the one that the
type refers to.  No item has the name of a primitive type. -/
structure ScopeSpec.ClearNames (R : Dialect) (on : Str → Bool) (e : Env) (items : List Container) : Prop where
  refs : ∀ y ∈ items, ∀ p n k, ItemNeeds y p n k → ∀ x ∈ items, Given (containerOut R e on x).items (k, n) → x.path = p
  prims : ∀ x ∈ items, ∀ u, PrimName e.cfg.toDeclConfig u → ¬ Given (containerOut R e on x).items u

namespace ScopeSpec
section
variable {R : Dialect} {on : Str → Bool} {e : Env} {b : Bindings}

/-- The items that are written. -/
def written (b : Bindings) : List Container := b.items.filter fun i => i.annotations.shouldExport

def NoTypes (ds : List CItem) : Prop := ∀ d ∈ ds, gives d = []

theorem static_noTypes {g : StaticItem} : NoTypes (staticOut e.cfg on g).items := by
  intro d hd
  rw [staticOut, items_when] at hd
  split at hd
  · simp only [decls, List.mem_singleton] at hd
    subst hd; rfl
  · simp at hd

theorem func_noTypes {g : FuncItem} : NoTypes (funcOut e.cfg on g).items := by
  intro d hd
  rw [funcOut, items_when] at hd
  split at hd
  · simp only [decls, List.mem_singleton] at hd
    subst hd; rfl
  · simp at hd

theorem constants_items (hc : e.cfg.language = .c) {prim : Bool} {ks : List ConstItem} : (constantsOut e on prim ks).items = [] := by
  rw [constantsOut, items_outs]
  simp only [List.flatMap_eq_nil_iff, List.mem_map]
  rintro _ ⟨k, _, rfl⟩
  exact items_const hc

/-- The declarations of a header: those of the items, then variables and functions. -/
theorem header_items (hc : e.cfg.language = .c) (hn : NoBlocks R on e.cfg) : ∃ objs, NoTypes objs ∧
    ((headerOut R e on b).items = [] ∨
      (headerOut R e on b).items = (written b).flatMap (fun x => (containerOut R e on x).items) ++ objs) := by
  refine ⟨(outs ((b.globals.filter fun g => g.annotations.shouldExport).map (staticOut e.cfg on))).items ++
    (outs ((b.functions.filter fun f => f.annotations.shouldExport).map (funcOut e.cfg on))).items, ?_, ?_⟩
  · intro d hd
    simp only [items_outs, List.mem_append, List.mem_flatMap, List.mem_map] at hd
    rcases hd with ⟨_, ⟨g, _, rfl⟩, hd⟩ | ⟨_, ⟨g, _, rfl⟩, hd⟩
    · exact static_noTypes d hd
    · exact func_noTypes d hd
  · have hb : (bindingsOut R e on b).items = (written b).flatMap (fun x => (containerOut R e on x).items) ++
        ((outs ((b.globals.filter fun g => g.annotations.shouldExport).map (staticOut e.cfg on))).items ++
        (outs ((b.functions.filter fun f => f.annotations.shouldExport).map (funcOut e.cfg on))).items) := by
      simp only [bindingsOut, items_append, constants_items hc, items_outs, written, List.flatMap_map]
      simp
    simp only [headerOut, items_append, hn.header, hn.trailer, items_when, guardedOut, hb, guardOut, hn.autogen, hn.after]
    split
    · right; simp
    · left; simp

end
end ScopeSpec

/-- **C62.** What a declaration of the header needs, if the header declares it at all, is declared before: for items
whose needs do not lead back to them, in a header where a name stands for one definition. -/
theorem C62_in_order_partial {c : LibConfig} {order : List (Str × Annotations) → List (Str × Annotations)} {fuel : Nat}
    {l l' : Library} {b : Bindings} (h : l.generate c order fuel = .ok b) (hl' : l.prepare c order fuel = .ok l')
    {R : Dialect} {on : Str → Bool} {D : List Str} {e : Env} (hg : HeaderGood R on D e b) {t : Str}
    (ht : headerText e b = some t) (hn : NoBlocks R on e.cfg) (hs : ∀ x ∈ b.items, Shaped e.cfg x)
    (hc : ClearNames R on e b.items)
    (ha : ∀ x ∈ b.items, ∀ p n k, ItemNeeds x p n k → ¬ Reaches (l'.getItems c) p x.path) :
    ∃ o, readHeader R on t = some o ∧ InOrder o.items := by
  refine ⟨_, C61_header_reads_back hg ht, ?_⟩
  obtain ⟨objs, hobj, hi⟩ := header_items (R := R) (on := on) (e := e) (b := b) hg.options.lang hn
  rcases hi with hi | hi
  · rw [hi]
    intro before d after hd
    simp at hd
  rw [hi]
  intro before d after hd u hu hgiven
  rw [List.append_eq_append_iff] at hd
  have hlate : ∀ ds, NoTypes ds → ¬ Given ds u := by
    rintro ds hds ⟨y, hy, hu⟩
    rw [hds y hy] at hu
    simp at hu
  have hmem : ∀ x ∈ written b, x ∈ b.items := fun x hx => (List.mem_filter.1 hx).1
  rcases hd with ⟨w, h1, h2⟩ | ⟨w, h1, h2⟩
  · -- a variable or a function
    exact absurd hgiven (hlate _ fun y hy => hobj y (by rw [h2]; exact List.mem_append_right _ hy))
  · cases w with
    | nil =>
      simp only [List.nil_append] at h2
      exact absurd hgiven (hlate _ fun y hy => hobj y (by rw [← h2]; exact hy))
    | cons z zs =>
      simp only [List.cons_append, List.cons.injEq] at h2
      obtain ⟨rfl, rfl⟩ := h2
      obtain ⟨xs1, x, xs2, p, q, hx, hp, rfl, rfl⟩ := ScopeSpec.flatMap_split h1
      have hxw : x ∈ written b := by rw [hx]; simp
      have hxb := hmem x hxw
      -- the item that declares the name
      have hgiver : ∃ z ∈ b.items, z ∈ written b ∧ Given (containerOut R e on z).items u := by
        obtain ⟨y, hy, hyu⟩ := hgiven
        have hy' : y ∈ (d :: q) ++ xs2.flatMap (fun x => (containerOut R e on x).items) ++ objs := by
          simpa using hy
        rcases List.mem_append.1 hy' with hy' | hy'
        · rcases List.mem_append.1 hy' with hy' | hy'
          · exact ⟨x, hxb, hxw, y, by rw [hp]; exact List.mem_append_right _ hy', hyu⟩
          · obtain ⟨z, hz, hyz⟩ := List.mem_flatMap.1 hy'
            have hzw : z ∈ written b := by rw [hx]; simp [hz]
            exact ⟨z, hmem z hzw, hzw, y, hyz, hyu⟩
        · rw [hobj y hy'] at hyu
          simp at hyu
      obtain ⟨z, hzb, hzw, hz⟩ := hgiver
      rcases container_chain hn hg.options.lang (fun h => (hg.cpp h).1) (hs x hxb) p d q hp u hu with hu' | ⟨r, hr⟩ | hu'
      · exact hu'.mono fun y hy => List.mem_append_right _ (by simpa using hy)
      · have hzr := hc.refs x hxb r _ _ hr z hzb hz
        subst hzr
        obtain ⟨l₂, hl₂, hall⟩ := C11_generate h
        obtain ⟨l₃, hl₃, hbefore⟩ := C10_before h
        rw [hl'] at hl₂ hl₃
        cases hl₂
        cases hl₃
        obtain ⟨⟨its, hits, hzi⟩, _⟩ := (hall z).1 hzb
        obtain ⟨ys1, ys2, hys, hf⟩ := ScopeSpec.filter_split hx
        have hplain : isPlainEnum x = false := by
          cases x with
          | enum x =>
            have : x.tag.isSome = true := hr.1
            simp only [isPlainEnum]
            cases htag : x.tag <;> simp_all
          | _ => rfl
        rcases hbefore ys1 x ys2 hys hplain _ its (needs_uses (hs x hxb) hr) hits with hb' | hb'
        · have hzx : z ∈ xs1 := by
            rw [← hf]
            exact List.mem_filter.2 ⟨hb' z hzi, (List.mem_filter.1 hzw).2⟩
          exact hz.mono fun y hy => List.mem_append_left _ (List.mem_flatMap.2 ⟨z, hzx, hy⟩)
        · exact absurd hb' (ha x hxb _ _ _ hr)
      · exact absurd hz (hc.prims z hzb u hu')

/-! ## What is declared -/

namespace ScopeSpec
open RefSpec

theorem Refers.mentions {t : Ty} {p n : Str} {k : Option DeclKind} (h : Refers t p n k) : Mentions t p n := by
  induction h with
  | here => exact .here ..
  | ptr _ ih => exact .ptr ih
  | array _ ih => exact .array ih
  | ret _ ih => exact .ret ih
  | arg ha _ ih => exact .arg ha ih

theorem Refers.writes {t : Ty} {p n : Str} {k : Option DeclKind} (h : Refers t p n k) : RefSpec.Writes t p k := by
  induction h with
  | here => exact .here ..
  | ptr _ ih => exact .ptr ih
  | array _ ih => exact .array ih
  | ret _ ih => exact .ret ih
  | arg ha _ ih => exact .arg ha ih

/-- The variants of an enum start with a tag exactly if it is not `repr(C)`. -/
def TagsFirst : Container → Prop
  | .enum x => ∀ v ∈ x.variants, ∀ m b i ic, v.body = .body m b i ic → (b.hasTagField = true ↔ x.repr.style ≠ .c)
  | _ => True

theorem tags_drop {x : EnumItem} (hx : TagsFirst (.enum x)) {v : EnumVariant} (hv : v ∈ x.variants) {m : Str}
    {b : StructItem} {i ic : Bool} (hb : v.body = .body m b i ic) :
    (if b.hasTagField then 1 else 0) = if x.repr.style = .c then 0 else 1 := by
  have := hx v hv m b i ic hb
  cases h : b.hasTagField <;> simp_all

theorem ItemNeeds.mentions {c : OutConfig} {x : Container} (hs : Shaped c x) (hx : TagsFirst x) {p n : Str}
    {k : Option DeclKind} (h : ItemNeeds x p n k) : ItemMentions x p n := by
  cases x with
  | struct x =>
    obtain ⟨f, hf, h⟩ := h
    exact .inl ⟨f, hf, h.refers.mentions, by simp [IsParam, hs.1]⟩
  | union x =>
    obtain ⟨f, hf, h⟩ := h
    exact ⟨f, hf, h.refers.mentions, by simp [IsParam, show x.genericParams = [] from hs]⟩
  | enum x =>
    obtain ⟨_, v, hv, m, b, i, ic, hb, f, hf, h⟩ := h
    exact ⟨v, hv, .inl ⟨m, b, i, ic, hb, .inl ⟨f, by rwa [tags_drop hx hv hb] at hf, h.refers.mentions,
      by simp [IsParam, (hs v hv m b i ic hb).1]⟩⟩⟩
  | typedef x => exact ⟨h.refers.mentions, by simp [IsParam, show x.genericParams = [] from hs]⟩
  | «opaque» x => exact h

theorem ItemNeeds.writes {x : Container} (hx : TagsFirst x) {p n : Str} {k : Option DeclKind} (h : ItemNeeds x p n k) :
    ItemWrites x p k := by
  cases x with
  | struct x => obtain ⟨f, hf, h⟩ := h; exact ⟨f, hf, h.refers.writes⟩
  | union x => obtain ⟨f, hf, h⟩ := h; exact ⟨f, hf, h.refers.writes⟩
  | enum x =>
    obtain ⟨_, v, hv, m, b, i, ic, hb, f, hf, h⟩ := h
    exact ⟨v, hv, m, b, i, ic, hb, f, by rwa [tags_drop hx hv hb] at hf, h.refers.writes⟩
  | typedef x => exact h.refers.writes
  | «opaque» x => exact h

/-- The name that a reference to an item has to be written with. -/
def writtenAs (c : OutConfig) (x : Container) : Name :=
  (if hasTag c.style then definedAs x else none, x.exportName)

theorem gives_record {R : Dialect} {on : Str → Bool} {c : OutConfig} (hc : c.language = .c) {kind : DeclKind}
    {attrs : List (Option Str)} {p n : Str} {ms : List CItem} :
    (if hasTag c.style then some kind else none, n) ∈ gives (recordOf R c on kind attrs p n ms) := by
  simp only [recordOf, gives, tagOf, nameOf]
  cases ht : hasTag c.style with
  | true => simp
  | false =>
    cases hy : hasName c.style with
    | true => simp [hc]
    | false => simp [style_some _ hy] at ht

/-- An item whose condition holds declares its name, or is an opaque type that is written with its tag. -/
theorem declares_itself {R : Dialect} {on : Str → Bool} {e : Env} (hc : e.cfg.language = .c)
    (hcpp : e.cfg.cppCompatibleC = true → on cplusplus = false) {x : Container} (hsh : shown e.cfg on (itemCfg x) = true)
    (hop : isOpaque x = true → hasTag e.cfg.style = false) :
    Given (containerOut R e on x).items (writtenAs e.cfg x) := by
  cases x with
  | struct x =>
    simp only [itemCfg] at hsh
    simp only [containerOut, writtenAs, definedAs, Container.exportName]
    split
    · rename_i t ht
      unfold StructItem.asTypedef at ht
      split at ht
      · rename_i f fs hfs
        split at ht
        · rename_i htr
          simp only [Option.some.injEq] at ht
          subst ht
          exact ⟨_, by rw [items_append, typedefOut, templated_c hc, items_when, if_pos hsh]; exact List.mem_append_left _ (.head _),
            by simp [aliasOf, gives, htr, hfs]⟩
        · simp at ht
      · simp at ht
    · rename_i ht
      have hd : (x.isTransparent && !x.fields.isEmpty) = false := by
        unfold StructItem.asTypedef at ht
        split at ht
        · split at ht <;> simp_all
        · simp_all
      refine ⟨_, by rw [struct_items hc, if_pos hsh]; exact .head _, ?_⟩
      simp only [hd, structItemOf]
      exact gives_record hc
  | union x =>
    exact ⟨_, by rw [containerOut, unionOut, templated_c hc, items_when, if_pos (show shown e.cfg on x.cfg = true from hsh)]; exact .head _,
      gives_record hc⟩
  | typedef x =>
    exact ⟨_, by rw [containerOut, typedefOut, templated_c hc, items_when, if_pos (show shown e.cfg on x.cfg = true from hsh)]; exact .head _,
      by simp [aliasOf, gives, writtenAs, definedAs, Container.exportName]⟩
  | «opaque» x =>
    have ht := hop rfl
    have hy : hasName e.cfg.style = true := by
      cases hy : hasName e.cfg.style with
      | true => rfl
      | false => simp [style_some _ hy] at ht
    exact ⟨_, by rw [containerOut, opaqueOut, templated_c hc, items_when, if_pos (show shown e.cfg on x.cfg = true from hsh)]; exact .head _,
      by simp [gives, hc, writtenAs, ht, hy, Container.exportName]⟩
  | enum x =>
    have hsh : shown e.cfg on x.cfg = true := hsh
    rw [containerOut, enumOut, if_neg (fun h => by simp [hc] at h)]
    simp only [items_when, if_pos hsh, items_append, writtenAs, definedAs, Container.exportName]
    cases ht : x.tag with
    | some t =>
      refine ⟨dataOf R e.cfg on x, by simp [items_append, decls], ?_⟩
      have : (if tagInside x then DeclKind.union else .struct) = (if x.repr.style = .c then .struct else .union) := by
        unfold tagInside
        cases x.repr.style <;> rfl
      simp only [dataOf, this]
      have := gives_record hc (R := R) (on := on) (c := e.cfg) (kind := if x.repr.style = .c then .struct else .union)
        (attrs := dataAttrs e.cfg x) (p := x.path) (n := x.exportName) (ms := dataMembers e.cfg on x)
      by_cases h : x.repr.style = .c <;> simpa [h] using this
    | none =>
      have hname : x.tagName = x.exportName := by simp [EnumItem.tagName, ht]
      have hg := tag_given hc hcpp x
      rw [hname] at hg
      refine Given.mono (a := (tagEnumOut e on x).items) (fun _ h => List.mem_append_left _ h) ?_
      cases hr : x.repr.ty with
      | some r => simpa using hg.1 (.inl (by simp [EnumItem.size, hr]))
      | none =>
        cases hgt : hasTag e.cfg.style with
        | true => simpa using hg.2 (.inr hgt)
        | false =>
          cases hy : hasName e.cfg.style with
          | true => simpa using hg.1 (.inr hy)
          | false => simp [style_some _ hy] at hgt

theorem collected_mem {c : LibConfig} {order : List (Str × Annotations) → List (Str × Annotations)} {fuel : Nat}
    {l l' : Library} {b : Bindings} (hl' : l.prepare c order fuel = .ok l') (h : l.generate c order fuel = .ok b) :
    (∀ f ∈ b.functions, f ∈ l'.functions) ∧ ∀ g ∈ b.globals, g ∈ l'.globals.toVec := by
  obtain ⟨l₂, hl₂, hb⟩ := Library.generate_ok h
  rw [hl'] at hl₂
  cases hl₂
  simp only [Library.collect, Option.map_eq_some_iff] at hb
  obtain ⟨d, _, rfl⟩ := hb
  constructor
  · intro f hf
    simp only at hf
    split at hf
    · exact hf
    · simp at hf
  · intro g hg
    simp only at hg
    split at hg
    · exact (mem_sortIf _ _ _ _).1 hg
    · simp at hg

end ScopeSpec

open RefSpec in
/-- **C62.** What an item, a function or a variable needs is declared in the header, if the definition is known, is to
be exported, its condition holds, and it is no opaque type that is written with its tag. -/
theorem C62_declared {c : LibConfig} {order : List (Str × Annotations) → List (Str × Annotations)} {fuel : Nat}
    {l l' l₁ : Library} {b : Bindings} (hp : l.Plain) (h : l.generate c order fuel = .ok b)
    (hl' : l.prepare c order fuel = .ok l') (hlang : c.language = .c)
    (he : (((l.transferAnnotations order).simplify c).sortFunctions c).expand c fuel = .ok l₁)
    (hu : Uniform l₁.types) (ho : ∀ x ∈ l₁.types, Ordinary x)
    {R : Dialect} {on : Str → Bool} {D : List Str} {e : Env} (hg : HeaderGood R on D e b)
    (hstyle : c.generateTag = hasTag e.cfg.style) {t : Str}
    (ht : headerText e b = some t) (hguard : ∀ g, e.cfg.guard = some g → on g = false)
    (hs : ∀ x ∈ b.items, Shaped e.cfg x ∧ TagsFirst x)
    {p n : Str} {k : Option DeclKind} {its : List Container} (hk : l'.getItems c p = some its) {i : Container} (hi : i ∈ its)
    (hex : i.annotations.shouldExport = true) (hsh : shown e.cfg on (itemCfg i) = true)
    (hop : isOpaque i = true → hasTag e.cfg.style = false)
    (hneed : (∃ y ∈ b.items, ItemNeeds y p n k) ∨ (∃ f ∈ b.functions, FuncNeeds f p n k) ∨
      ∃ g ∈ b.globals, TyNeeds g.ty p n k) :
    i ∈ b.items ∧ ∃ o, readHeader R on t = some o ∧ Given o.items (k, n) := by
  have hib : i ∈ b.items := by
    rcases hneed with ⟨y, hy, hnd⟩ | ⟨f, hf, hnd⟩ | ⟨g, hgm, hnd⟩
    · obtain ⟨l₂, hl₂, hall⟩ := C10_closed h
      rw [hl'] at hl₂
      cases hl₂
      exact hall y hy p its (needs_uses (hs y hy).1 hnd) hk i hi
    · obtain ⟨l₂, hl₂, hall⟩ := C10_roots h
      rw [hl'] at hl₂
      cases hl₂
      refine hall p its (.inl ⟨f, (collected_mem hl' h).1 f hf, ?_⟩) hk i hi
      rcases hnd with hnd | ⟨a, ha, hnd⟩
      · exact .inl hnd.refers.uses
      · exact .inr ⟨a, ha, hnd.refers.uses⟩
    · obtain ⟨l₂, hl₂, hall⟩ := C10_roots h
      rw [hl'] at hl₂
      cases hl₂
      exact hall p its (.inr (.inl ⟨g, (collected_mem hl' h).2 g hgm, hnd.refers.uses⟩)) hk i hi
  have hpath : i.path = p := by
    obtain ⟨l₂, hl₂, _⟩ := Library.generate_ok h
    exact (Library.getItems_path (Library.prepare_wf hl') hk).2 i hi
  subst hpath
  have hname : n = i.exportName := by
    obtain ⟨h1, h2, h3, _⟩ := C14_consistent hp h hib
    rcases hneed with ⟨y, hy, hnd⟩ | ⟨f, hf, hnd | ⟨a, ha, hnd⟩⟩ | ⟨g, hgm, hnd⟩
    · exact h1 y hy _ (hnd.mentions (hs y hy).1 (hs y hy).2)
    · exact h2 f hf _ (.inl hnd.refers.mentions)
    · exact h2 f hf _ (.inr ⟨a, ha, hnd.refers.mentions⟩)
    · exact h3 g hgm _ hnd.refers.mentions
  have hkind : k = if hasTag e.cfg.style then definedAs i else none := by
    cases hgt : hasTag e.cfg.style with
    | true =>
      obtain ⟨h1, h2, h3⟩ := C35_keywords_partial hlang (hstyle.trans hgt) he hu ho h hib
      rcases hneed with ⟨y, hy, hnd⟩ | ⟨f, hf, hnd | ⟨a, ha, hnd⟩⟩ | ⟨g, hgm, hnd⟩
      · exact h1 y hy _ (hnd.writes (hs y hy).2)
      · exact h2 f hf _ (.inl hnd.refers.writes)
      · exact h2 f hf _ (.inr ⟨a, ha, hnd.refers.writes⟩)
      · exact h3 g hgm _ hnd.refers.writes
    | false =>
      obtain ⟨h1, h2, h3⟩ := C35_no_tags (by simp [hstyle, hgt]) hp h i.path k
      rcases hneed with ⟨y, hy, hnd⟩ | ⟨f, hf, hnd | ⟨a, ha, hnd⟩⟩ | ⟨g, hgm, hnd⟩
      · exact h1 y hy (hnd.writes (hs y hy).2)
      · exact h2 f hf (.inl hnd.refers.writes)
      · exact h2 f hf (.inr ⟨a, ha, hnd.refers.writes⟩)
      · exact h3 g hgm hnd.refers.writes
  subst hname hkind
  refine ⟨hib, _, C61_header_reads_back hg ht, ?_⟩
  obtain ⟨d, hd, hdu⟩ := declares_itself (R := R) hg.options.lang (fun h => (hg.cpp h).1) hsh hop
  refine ⟨d, ?_, hdu⟩
  have hguard' : (e.cfg.guard.all fun g => !on g) = true := by
    cases hgd : e.cfg.guard with
    | none => rfl
    | some g => simp [hguard g hgd]
  have hd' : d ∈ (bindingsOut R e on b).items := by
    simp only [bindingsOut, items_append, items_outs, List.mem_append]
    exact .inl (.inl (.inl (.inr (List.mem_flatMap.2 ⟨_, List.mem_map.2 ⟨i, List.mem_filter.2 ⟨hib, hex⟩, rfl⟩, hd⟩))))
  simp only [headerOut, guardedOut, items_append, items_when, hguard', if_true, List.mem_append]
  exact .inl (.inr (.inr hd'))

end Cbindgen
