import Verif.Lemmas.CxxMembers
import Verif.Model.Emission

/-!
# C72: derived C++ member functions do what their names say
-/

namespace Cbindgen.CxxSpec
open LexSpec TextSpec

/-! ## What is derived -/

/-- The option for an operator, in the annotations or else in the configuration. -/
def key : Rel → Str
  | .eq => c!"derive-eq"
  | .ne => c!"derive-neq"
  | .lt => c!"derive-lt"
  | .le => c!"derive-lte"
  | .gt => c!"derive-gt"
  | .ge => c!"derive-gte"

def setting (c : OutConfig) : Rel → Bool
  | .eq => c.structure_.deriveEq
  | .ne => c.structure_.deriveNeq
  | .lt => c.structure_.deriveLt
  | .le => c.structure_.deriveLte
  | .gt => c.structure_.deriveGt
  | .ge => c.structure_.deriveGte

/-- The operator is asked for. -/
def Wanted (c : OutConfig) (a : Annotations) (r : Rel) : Prop := (a.bool (key r)).getD (setting c r) = true

/-- Arrays and references to them: C++ compares their addresses. -/
inductive ArrayLike : Ty → Prop
  | array (t : Ty) (n : CExpr) : ArrayLike (.array t n)
  | ref {t : Ty} (c n : Bool) : ArrayLike t → ArrayLike (.ptr t c n true)

/-- Types with an order: pointers, named types and numbers. -/
inductive Ordered : Ty → Prop
  | ptr (t : Ty) (c n : Bool) : Ordered (.ptr t c n false)
  | path (p n : Str) (as : List GArg) (k : Option DeclKind) : Ordered (.path p n as k)
  | prim {p : Prim} : p ≠ .bool → Ordered (.prim p)

/-- The fields can be compared. -/
def Comparable (fs : List Field) (r : Rel) : Prop :=
  if r = .eq ∨ r = .ne then fs ≠ [] ∧ ∀ f ∈ fs, ¬ArrayLike f.ty else ∃ f, fs = [f] ∧ Ordered f.ty

/-! ## The code agrees -/

theorem canCmpEq_iff : ∀ t : Ty, t.canCmpEq = true ↔ ¬ArrayLike t
  | .ptr t c n rf => by
    cases rf with
    | true =>
      have ih := canCmpEq_iff t
      constructor
      · intro h ha
        cases ha with
        | ref _ _ ha => exact ih.mp (by simpa [Ty.canCmpEq] using h) ha
      · intro h
        have := ih.mpr fun ha => h (.ref c n ha)
        simpa [Ty.canCmpEq] using this
    | false => simp only [Ty.canCmpEq, Bool.not_false, Bool.true_or, true_iff]; nofun
  | .path .. => by simp only [Ty.canCmpEq, true_iff]; nofun
  | .prim _ => by simp only [Ty.canCmpEq, true_iff]; nofun
  | .array t n => by simp only [Ty.canCmpEq, Bool.false_eq_true, false_iff]; exact fun h => h (.array t n)
  | .fnptr .. => by simp only [Ty.canCmpEq, true_iff]; nofun

theorem canDeriveEq_iff (s : StructItem) :
    s.canDeriveEq = true ↔ s.fields ≠ [] ∧ ∀ f ∈ s.fields, ¬ArrayLike f.ty := by
  simp [StructItem.canDeriveEq, canCmpEq_iff]

theorem canCmpOrder_iff (t : Ty) : t.canCmpOrder = true ↔ Ordered t := by
  cases t with
  | ptr t c n rf =>
    cases rf with
    | true => simp only [Ty.canCmpOrder, Bool.not_true, Bool.false_eq_true, false_iff]; nofun
    | false => simp only [Ty.canCmpOrder, Bool.not_false, true_iff]; exact .ptr ..
  | path p => simp only [Ty.canCmpOrder, true_iff]; exact .path ..
  | prim p =>
    simp only [Ty.canCmpOrder, bne_iff_ne]
    exact ⟨.prim, fun h => by cases h; assumption⟩
  | array => simp only [Ty.canCmpOrder, Bool.false_eq_true, false_iff]; nofun
  | fnptr => simp only [Ty.canCmpOrder, Bool.false_eq_true, false_iff]; nofun

theorem canOrder_iff (s : StructItem) : s.canOrder = true ↔ ∃ f, s.fields = [f] ∧ Ordered f.ty := by
  unfold StructItem.canOrder
  split
  · rename_i f h
    rw [canCmpOrder_iff, h]
    exact ⟨fun h => ⟨f, rfl, h⟩, by rintro ⟨g, h1, h2⟩; cases h1; exact h2⟩
  · rename_i h
    simp only [Bool.false_eq_true, false_iff]
    rintro ⟨f, h1, _⟩
    exact h f h1

/-- The condition of the code. -/
def able (s : StructItem) (r : Rel) : Bool := if r = .eq ∨ r = .ne then s.canDeriveEq else s.canOrder

theorem able_iff (s : StructItem) (r : Rel) : able s r = true ↔ Comparable s.fields r := by
  unfold able Comparable
  split
  · exact canDeriveEq_iff s
  · exact canOrder_iff s

/-- The name of the operator in the annotations for attributes. -/
def attrName : Rel → Str
  | .eq => c!"eq"
  | .ne => c!"neq"
  | .lt => c!"lt"
  | .le => c!"lte"
  | .gt => c!"gt"
  | .ge => c!"gte"

theorem block_mem {c : OutConfig} {s : StructItem} {r : Rel} (hw : Wanted c s.annotations r) (ha : Comparable s.fields r) :
    compareOps c s (attrName r) r.text (conjText r) ∈ derivedBlocks c s := by
  have ha := (able_iff s r).mpr ha
  unfold Wanted at hw
  cases r <;> simp only [key, setting, able] at hw ha <;>
    simp [derivedBlocks, blockIf, Annotations.boolOr, hw, attrName, Rel.text, conjText, Rel.conj] <;> simp_all

/-! ## Parts of the calls -/

theorem infix_mem_flatten {α : Type} {x : List α} {xs : List (List α)} (h : x ∈ xs) : x <:+: xs.flatten := by
  obtain ⟨a, b, rfl⟩ := List.append_of_mem h
  exact ⟨a.flatten, b.flatten, by simp⟩

theorem infix_mem_flatMap {α β : Type} {f : α → List β} {x : α} {xs : List α} (h : x ∈ xs) : f x <:+: xs.flatMap f := by
  rw [List.flatMap_def]
  exact infix_mem_flatten (List.mem_map.mpr ⟨x, h, rfl⟩)

theorem infix_left {α : Type} {x a : List α} (h : x <:+: a) (b : List α) : x <:+: a ++ b :=
  h.trans ⟨[], b, by simp⟩

theorem infix_right {α : Type} {x b : List α} (h : x <:+: b) (a : List α) : x <:+: a ++ b :=
  h.trans ⟨a, [], by simp⟩

theorem rest_infix {c : OutConfig} {s : StructItem} {r : Rel} (hw : Wanted c s.annotations r)
    (ha : Comparable s.fields r) : compareRest c s r <:+: derivedOps c s := by
  have h := block_mem hw ha
  have h1 : compareRest c s r <:+: compareOps c s (attrName r) r.text (conjText r) := by
    rw [compareOps_eq]; exact infix_right (List.infix_refl _) _
  unfold derivedOps
  split
  · rename_i hb; rw [hb] at h; cases h
  · rename_i x xs hb
    rw [hb] at h
    have := infix_mem_flatten h
    rw [List.flatten_cons] at this
    rw [List.append_assoc]
    exact infix_right (h1.trans this) _

theorem derived_infix {e : Env} {s : StructItem} (hl : e.cfg.language = .cxx) : derivedOps e.cfg s <:+: emitStruct e s := by
  have h : derivedOps e.cfg s <:+: structBodyC e s := by
    unfold structBodyC
    rw [hl]
    exact infix_left (infix_left (infix_right (List.infix_refl _) _) _) _
  have : emitStruct e s = structOpsC e s := by unfold emitStruct; rw [hl]
  rw [this]
  unfold structOpsC
  refine infix_left (infix_right (infix_left (infix_right (infix_left (infix_right h _) _) _) _) _) _

theorem item_infix {e : Env} {b : Bindings} {i : Container} (hi : i ∈ b.items) (hx : i.annotations.shouldExport = true) :
    i.ops e <:+: bindingsOps e b := by
  have h : itemOps (i.ops e) <:+: itemsOps e b.items :=
    infix_mem_flatMap (f := fun i => itemOps (Container.ops e i)) (List.mem_filter.mpr ⟨hi, hx⟩)
  have h1 : i.ops e <:+: itemOps (i.ops e) := ⟨_, _, rfl⟩
  unfold bindingsOps
  exact infix_left (infix_left (infix_left (infix_left (infix_left (infix_left (infix_right (h1.trans h) _) _) _) _) _) _) _

theorem has_infix {e : Env} {b : Bindings} {t : Str} (ht : headerText e b = some t) {ops : List WOp}
    (hi : ops <:+: bindingsOps e b) {ls : List Lx} {z : Bool} {k : Member} (h : Inl e.cfg.writer false false ops ls z)
    (hr : readMember ls = some k) : Has t k := by
  unfold headerText at ht
  obtain ⟨p, hp, rfl⟩ := Option.map_eq_some_iff.mp ht
  obtain ⟨x, y, hxy⟩ := hi
  rw [← hxy, List.append_assoc] at hp
  exact has_part (w := {}) (w' := p.2) h hr (by decide) hp

/-- What is said about an operator `r` of a struct with the fields `fs` to compare. -/
def Compares (t : Str) (s : StructItem) (p : Str) (fs : List Field) (r : Rel) : Prop :=
  ∃ k, Has t k ∧ k.head = .op r s.exportName p ∧
    ∀ (V : Type) (this other : Str → Option V) (w w' : V) (const : Str → Str → Option V)
      (cmp : Rel → V → V → Option Bool) (g : Str → Bool),
      (∀ f ∈ fs, ∃ x y, this f.name = some x ∧ other f.name = some y ∧ cmp r x y = some (g f.name)) →
      k.result (.within p this other w w' const cmp) =
        some (if r = .ne then fs.any (g ·.name) else fs.all (g ·.name))

theorem compares_of {e : Env} {b : Bindings} {t : Str} (ht : headerText e b = some t)
    (hl : e.cfg.language = .cxx) {s : StructItem} (hi : emitStruct e s <:+: bindingsOps e b) {r : Rel}
    (hw : Wanted e.cfg s.annotations r)
    (ha : Comparable s.fields r) {p : Str} (hpe : e.cfg.argName c!"other" = p) (hp : Word p) (hn : Word s.exportName)
    {fs : List Field} (hfs : s.fields.drop (if s.hasTagField then 1 else 0) = fs) (hne : fs ≠ [])
    (hf : ∀ f ∈ fs, Word f.name ∧ f.name ≠ p) : Compares t s p fs r := by
  have hi : compareRest e.cfg s r <:+: bindingsOps e b :=
    ((rest_infix hw ha).trans (derived_infix hl)).trans hi
  have hc : comparedFields s = fs := hfs
  have h := inl_compare (wc := e.cfg.writer) hl (s := s) (r := r) (hpe ▸ hp) hn (by rw [hc]; exact fun f h => (hf f h).1)
  rw [hc, hpe] at h
  cases fs with
  | nil => exact absurd rfl hne
  | cons f fs =>
    rw [List.map_cons] at h
    have hm := readMember_compare r s.exportName p f.name (fs.map (·.name))
    generalize compareToks r s.exportName p (f.name :: fs.map (·.name)) = ls at h hm
    refine ⟨_, has_infix ht hi h hm, rfl, ?_⟩
    intro V this other w w' const cmp g hg
    have he : (allCmp r p (f.name :: fs.map (·.name))).eval
        (.within p this other w w' const cmp) =
          some (if r = .ne then (f.name :: fs.map (·.name)).any g else (f.name :: fs.map (·.name)).all g) := by
      refine allCmp_eval fun n hn => ?_
      have hn : n ∈ (f :: fs).map Field.name := hn
      obtain ⟨y, hy, rfl⟩ := List.mem_map.mp hn
      obtain ⟨u, v, h1, h2, h3⟩ := hg y hy
      exact fieldCmp_within (hf y hy).2 h1 h2 h3
    simp only [Member.result, runStmts, Stmt.run, Simple.run, CxxSpec.andThen]
    rw [he]
    by_cases hr : r = .ne <;> simp [hr, List.any_map, List.all_map, Function.comp_def]

end Cbindgen.CxxSpec

namespace Cbindgen
open LexSpec TextSpec CxxSpec

/-- **C72 (structs).**  A header in C++ with a struct for which an operator is asked, and whose fields can be
compared, has that operator as a member function of the struct with the name of the struct: it gives `true` if the
comparison does so for all fields, and for `!=` if it does so for some field; a tag field in front is left out.  Here
no field has the name of the parameter, and something is left to compare. -/
theorem C72_struct_partial {e : Env} {b : Bindings} {t : Str} (ht : headerText e b = some t)
    (hl : e.cfg.language = .cxx) {s : StructItem} (hs : Container.struct s ∈ b.items)
    (hx : s.annotations.shouldExport = true) (htr : s.isTransparent = false) {r : Rel} (hw : Wanted e.cfg s.annotations r)
    (ha : Comparable s.fields r) {p : Str} (hpe : e.cfg.argName c!"other" = p) (hp : Word p) (hn : Word s.exportName)
    {fs : List Field} (hfs : s.fields.drop (if s.hasTagField then 1 else 0) = fs) (hne : fs ≠ [])
    (hf : ∀ f ∈ fs, Word f.name ∧ f.name ≠ p) : Compares t s p fs r := by
  have hops : Container.ops e (.struct s) = emitStruct e s := by
    have : s.asTypedef = none := by unfold StructItem.asTypedef; rw [htr]; cases s.fields <;> rfl
    show structOrTypedef e s = _
    unfold structOrTypedef
    rw [this]
  exact compares_of ht hl (hops ▸ item_infix hs hx) hw ha hpe hp hn hfs hne hf

end Cbindgen
