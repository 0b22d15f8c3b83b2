import Verif.Spec.Constants
import Verif.Lemmas.Writer
import Verif.Props.HeaderCases

/-!
# C30: the place of constants
-/

namespace Cbindgen
open ConstSpec

/-! ## `Literal::visit` sees every part -/

mutual
theorem Lit.any_iff (f : Lit → Bool) : ∀ l : Lit, l.any f = true ↔ ∃ p, Part p l ∧ f p = true
  | .expr s => by
    simp only [Lit.any]
    exact ⟨fun h => ⟨_, .self _, h⟩, by rintro ⟨p, hp, h⟩; cases hp; exact h⟩
  | .path a n => by
    simp only [Lit.any]
    exact ⟨fun h => ⟨_, .self _, h⟩, by rintro ⟨p, hp, h⟩; cases hp; exact h⟩
  | .unary o v => by
    simp only [Lit.any, Bool.or_eq_true, Lit.any_iff f v]
    constructor
    · rintro (h | ⟨p, hp, h⟩)
      · exact ⟨_, .self _, h⟩
      · exact ⟨p, .unary o hp, h⟩
    · rintro ⟨p, hp, h⟩
      cases hp with
      | self => exact .inl h
      | unary _ hp => exact .inr ⟨p, hp, h⟩
  | .binop l o r => by
    simp only [Lit.any, Bool.or_eq_true, Lit.any_iff f l, Lit.any_iff f r]
    constructor
    · rintro ((h | ⟨p, hp, h⟩) | ⟨p, hp, h⟩)
      · exact ⟨_, .self _, h⟩
      · exact ⟨p, .left o r hp, h⟩
      · exact ⟨p, .right l o hp, h⟩
    · rintro ⟨p, hp, h⟩
      cases hp with
      | self => exact .inl (.inl h)
      | left _ _ hp => exact .inl (.inr ⟨p, hp, h⟩)
      | right _ _ hp => exact .inr ⟨p, hp, h⟩
  | .field b n => by
    simp only [Lit.any, Bool.or_eq_true, Lit.any_iff f b]
    constructor
    · rintro (h | ⟨p, hp, h⟩)
      · exact ⟨_, .self _, h⟩
      · exact ⟨p, .field n hp, h⟩
    · rintro ⟨p, hp, h⟩
      cases hp with
      | self => exact .inl h
      | field _ hp => exact .inr ⟨p, hp, h⟩
  | .cast t v => by
    simp only [Lit.any, Bool.or_eq_true, Lit.any_iff f v]
    constructor
    · rintro (h | ⟨p, hp, h⟩)
      · exact ⟨_, .self _, h⟩
      · exact ⟨p, .cast t hp, h⟩
    · rintro ⟨p, hp, h⟩
      cases hp with
      | self => exact .inl h
      | cast _ hp => exact .inr ⟨p, hp, h⟩
  | .struct q x fs => by
    simp only [Lit.any, Bool.or_eq_true, LitField.anyList_iff f fs]
    constructor
    · rintro (h | ⟨n, v, c, hm, p, hp, h⟩)
      · exact ⟨_, .self _, h⟩
      · exact ⟨p, .struct q x hm hp, h⟩
    · rintro ⟨p, hp, h⟩
      cases hp with
      | self => exact .inl h
      | struct _ _ hm hp => exact .inr ⟨_, _, _, hm, p, hp, h⟩
  | .array items => by
    simp only [Lit.any, Bool.or_eq_true, Lit.anyList_iff f items]
    constructor
    · rintro (h | ⟨v, hm, p, hp, h⟩)
      · exact ⟨_, .self _, h⟩
      · exact ⟨p, .array hm hp, h⟩
    · rintro ⟨p, hp, h⟩
      cases hp with
      | self => exact .inl h
      | array hm hp => exact .inr ⟨_, hm, p, hp, h⟩
theorem LitField.anyList_iff (f : Lit → Bool) : ∀ fs : List LitField,
    LitField.anyList f fs = true ↔
      ∃ n v c, LitField.mk n v c ∈ fs ∧ ∃ p, Part p v ∧ f p = true
  | [] => by simp [LitField.anyList]
  | .mk n v c :: fs => by
    simp only [LitField.anyList, Bool.or_eq_true, Lit.any_iff f v, LitField.anyList_iff f fs,
      List.mem_cons]
    constructor
    · rintro (h | ⟨n', v', c', hm, h⟩)
      · exact ⟨n, v, c, .inl rfl, h⟩
      · exact ⟨n', v', c', .inr hm, h⟩
    · rintro ⟨n', v', c', hm | hm, h⟩
      · cases hm; exact .inl h
      · exact .inr ⟨n', v', c', hm, h⟩
theorem Lit.anyList_iff (f : Lit → Bool) : ∀ vs : List Lit,
    Lit.anyList f vs = true ↔ ∃ v, v ∈ vs ∧ ∃ p, Part p v ∧ f p = true
  | [] => by simp [Lit.anyList]
  | v :: vs => by
    simp only [Lit.anyList, Bool.or_eq_true, Lit.any_iff f v, Lit.anyList_iff f vs, List.mem_cons]
    constructor
    · rintro (h | ⟨v', hm, h⟩)
      · exact ⟨v, .inl rfl, h⟩
      · exact ⟨v', .inr hm, h⟩
    · rintro ⟨v', hm | hm, h⟩
      · cases hm; exact .inl h
      · exact .inr ⟨v', hm, h⟩
end

theorem simple_iff (t : Ty) : t.isPrimOrPtrPrim = true ↔ Simple t := by
  constructor
  · intro h
    unfold Ty.isPrimOrPtrPrim at h
    split at h
    · exact .prim _
    · exact .ptr ..
    · cases h
  · rintro (_ | _) <;> rfl

theorem ConstSpec.Simple.not_named {t : Ty} (h : Simple t) : ¬ Named t := by
  intro hn
  cases h with
  | prim p => cases hn
  | ptr p c n r =>
    cases hn with
    | ptr _ _ _ hn => cases hn

/-- The test of the code is the specification. -/
theorem onlyPrimitive_iff (k : ConstItem) : k.onlyPrimitive = true ↔ First k := by
  unfold ConstItem.onlyPrimitive Lit.onlyPrimitive First
  rw [Bool.and_eq_true, simple_iff, Bool.not_eq_true', and_comm]
  refine and_congr_right fun _ => ?_
  rw [← Bool.not_eq_true, Lit.any_iff]
  constructor
  · intro h
    refine ⟨fun q x fs hp => h ⟨_, hp, rfl⟩, fun t v hp => ?_⟩
    rw [← simple_iff]
    cases ht : t.isPrimOrPtrPrim with
    | true => rfl
    | false => exact absurd ⟨_, hp, by simp [Lit.needsType, ht]⟩ h
  · rintro ⟨h1, h2⟩ ⟨p, hp, hf⟩
    unfold Lit.needsType at hf
    split at hf
    · exact h1 _ _ _ hp
    · rw [(simple_iff _).mpr (h2 _ _ hp)] at hf; cases hf
    · cases hf

theorem ConstSpec.First.not_needs {k : ConstItem} (h : First k) : ¬ NeedsType k := by
  rintro (h1 | ⟨q, x, fs, h1⟩ | ⟨t, v, h1, h2⟩)
  · exact h.1.not_named h1
  · exact h.2.1 _ _ _ h1
  · exact (h.2.2 _ _ h1).not_named h2

/-! ## The sections of a header -/

/-- The calls for one constant of the list. -/
def blockOf (e : Env) (k : ConstItem) : List WOp := itemOps (k.ops e none)

theorem writes_blocks {α : Type} {c : WConfig} {f : α → List WOp} : ∀ {xs : List α} {w w' : W} {t : Str},
    WOp.exec c (xs.flatMap f) w = some (t, w') →
      ∃ ts, t = ts.flatten ∧ TextsOf (fun x t => Writes c (f x) t) xs ts
  | [], w, w', t, h => by
    rw [List.flatMap_nil, exec_nil] at h
    simp only [Option.some.injEq, Prod.mk.injEq] at h
    exact ⟨[], h.1.symm, .nil⟩
  | x :: xs, w, w', t, h => by
    rw [List.flatMap_cons] at h
    obtain ⟨t1, w1, t2, h1, h2, rfl⟩ := exec_append_some.mp h
    obtain ⟨ts, rfl, hts⟩ := writes_blocks h2
    exact ⟨t1 :: ts, by simp, .cons ⟨_, _, h1⟩ hts⟩

theorem filter_perm {α : Type} (p : α → Bool) (xs : List α) :
    (xs.filter (fun x => p x == true) ++ xs.filter fun x => p x == false).Perm xs := by
  induction xs with
  | nil => exact .refl _
  | cons x xs ih =>
    cases h : p x with
    | true =>
      rw [List.filter_cons_of_pos (by simp [h]), List.filter_cons_of_neg (by simp [h])]
      exact ih.cons x
    | false =>
      rw [List.filter_cons_of_neg (by simp [h]), List.filter_cons_of_pos (by simp [h])]
      exact List.perm_middle.trans (ih.cons x)

/-- A header consists of five parts.  The second one has the constants of the first group, the third
one all the type definitions, and the fourth one the other constants.  Every constant is in exactly one
of the two groups, as often as it is in the bindings, and in the same order.  (An associated constant is
written with its type.) -/
theorem C30_sections (e : Env) (b : Bindings) {t : Str} (h : headerText e b = some t) :
    ∃ first second : List ConstItem, ∃ ts₁ ts₂ start types rest,
      t = start ++ ts₁.flatten ++ types ++ ts₂.flatten ++ rest ∧
      (first ++ second).Perm b.constants ∧
      first.Sublist b.constants ∧ second.Sublist b.constants ∧
      (∀ k ∈ first, First k) ∧ (∀ k ∈ second, ¬ First k) ∧
      Writes e.cfg.writer (headersOps e ++ openNamespaces e.cfg) start ∧
      TextsOf (fun k t => Writes e.cfg.writer (blockOf e k) t) first ts₁ ∧
      Writes e.cfg.writer (itemsOps e b.items) types ∧
      TextsOf (fun k t => Writes e.cfg.writer (blockOf e k) t) second ts₂ := by
  unfold headerText at h
  obtain ⟨⟨t', w'⟩, hx, rfl⟩ := Option.map_eq_some_iff.mp h
  clear h
  have hb : bindingsOps e b = (headersOps e ++ openNamespaces e.cfg) ++ (constantsOps e true b.constants ++
      (itemsOps e b.items ++ (constantsOps e false b.constants ++ (globalsOps e.cfg b ++
        functionsOps e.cfg b ++ closeNamespaces e.cfg ++ footersOps e.cfg ++
        trailerOps e.cfg.trailer)))) := by
    simp [bindingsOps]
  rw [hb] at hx
  obtain ⟨t0, w0, _, h0, hx1, rfl⟩ := exec_append_some.mp hx
  obtain ⟨t1, w1, _, h1, hx2, rfl⟩ := exec_append_some.mp hx1
  obtain ⟨t2, w2, _, h2, hx3, rfl⟩ := exec_append_some.mp hx2
  obtain ⟨t3, w3, t4, h3, _, rfl⟩ := exec_append_some.mp hx3
  obtain ⟨ts1, rfl, hts1⟩ := writes_blocks h1
  obtain ⟨ts2, rfl, hts2⟩ := writes_blocks h3
  refine ⟨b.constants.filter fun k => k.onlyPrimitive == true,
    b.constants.filter fun k => k.onlyPrimitive == false, ts1, ts2, t0, t2, t4, by simp,
    filter_perm _ _, List.filter_sublist, List.filter_sublist, ?_, ?_, ⟨_, _, h0⟩, hts1, ⟨_, _, h2⟩, hts2⟩
  · intro k hk
    have := (List.mem_filter.mp hk).2
    exact (onlyPrimitive_iff k).mp (by simpa using this)
  · intro k hk hf
    have := (List.mem_filter.mp hk).2
    rw [(onlyPrimitive_iff k).mpr hf] at this
    simp at this

/-- A constant that is written before the type definitions has a primitive type or a pointer to one,
and its value has neither a struct literal nor a cast to any other type.  What is missing: it may still
refer to an associated constant or to an enumerator (see `C30_enum_refuted`). -/
theorem C30_first_needs_no_type_partial {k : ConstItem} (h : First k) : ¬ NeedsType k := h.not_needs

/-- A constant that needs a type definition is written after all of them. -/
theorem C30_needs_follow (e : Env) (b : Bindings) {t : Str} (h : headerText e b = some t)
    {k : ConstItem} (hk : k ∈ b.constants) (hn : NeedsType k) :
    ∃ before types between text after_,
      t = before ++ types ++ between ++ text ++ after_ ∧
      Writes e.cfg.writer (itemsOps e b.items) types ∧ Writes e.cfg.writer (blockOf e k) text := by
  obtain ⟨first, second, ts1, ts2, start, types, rest, rfl, hp, _, _, hf, _, _, _, hty, h2⟩ :=
    C30_sections e b h
  have hm : k ∈ second := by
    rcases List.mem_append.mp (hp.mem_iff.mpr hk) with h | h
    · exact absurd hn (hf k h).not_needs
    · exact h
  have split : ∀ {ks ts}, TextsOf (fun k t => Writes e.cfg.writer (blockOf e k) t) ks ts → k ∈ ks →
      ∃ a x z, ts.flatten = a ++ x ++ z ∧ Writes e.cfg.writer (blockOf e k) x := by
    intro ks ts hts
    induction hts with
    | nil => intro h; cases h
    | @cons y u ys us hw _ ih =>
      intro h
      rcases List.mem_cons.mp h with rfl | h
      · exact ⟨[], u, us.flatten, by simp, hw⟩
      · obtain ⟨a, x, z, he, hx⟩ := ih h
        exact ⟨u ++ a, x, z, by simp [he], hx⟩
  obtain ⟨a, x, z, he, hx⟩ := split h2 hm
  exact ⟨start ++ ts1.flatten, types, a, x, z ++ rest, by simp [he], hty, hx⟩

/-! ## A valid constant is defined -/

theorem text_infix {c : WConfig} {ops : List WOp} {s t : Str} (hm : WOp.text s ∈ ops)
    (h : Writes c ops t) : s <:+: t := by
  obtain ⟨w, w', h⟩ := h
  obtain ⟨a, b, rfl⟩ := List.append_of_mem hm
  obtain ⟨t1, w1, t2, _, h2, rfl⟩ := exec_append_some.mp h
  rw [exec_cons_some] at h2
  obtain ⟨t3, w2, t4, h3, _, rfl⟩ := h2
  have : s <:+: t3 := by
    simp only [WOp.exec1, W.put] at h3
    split at h3
    · rename_i hs; subst hs; exact List.nil_infix
    · split at h3
      · injection h3 with h3; injection h3 with h3 _; subst h3; exact List.infix_rfl
      · split at h3
        · cases h3
        · injection h3 with h3; injection h3 with h3 _; subst h3
          exact (List.suffix_append _ _).isInfix
  obtain ⟨x, y, rfl⟩ := this
  exact ⟨t1 ++ x, y ++ t4, by simp⟩

theorem text_mem_decl (c : OutConfig) (t : Ty) (n : Str) : WOp.text n ∈ declOps c t n := by
  unfold declOps
  obtain ⟨q, k, m, g, ds⟩ := CDecl.fromType c.toDeclConfig t
  simp [CDecl.ops, identOps]

/-- If a constant is valid, and the writer does not panic, then the text of the constant has its name,
and in C the text has a `#define` of the name. -/
theorem C30_written (e : Env) (k : ConstItem) (hv : k.value.isValid e = true) {t : Str}
    (h : Writes e.cfg.writer (blockOf e k) t) :
    ∃ name, k.writtenName e.cfg none = some name ∧ name <:+: t ∧
      (e.cfg.language = .c → c!"#define " ++ name ++ c!" " <:+: t) := by
  unfold blockOf itemOps ConstItem.ops at h
  simp only [Option.any_none, hv, Bool.not_true, Bool.or_self, Bool.false_eq_true, if_false] at h
  split at h
  · rename_i name value hn _
    refine ⟨name, hn, ?_⟩
    have hin : ∀ {s}, WOp.text s ∈ k.bodyOps e (inBody e.cfg none) name value → s <:+: t := fun hm =>
      text_infix (by simp [hm]) h
    cases hl : e.cfg.language with
    | c =>
      have := hin (s := c!"#define " ++ name ++ c!" ") (by simp [ConstItem.bodyOps, hl])
      exact ⟨List.IsInfix.trans ⟨c!"#define ", c!" ", by simp⟩ this, fun _ => this⟩
    | cython =>
      refine ⟨hin ?_, fun h => nomatch h⟩
      simp [ConstItem.bodyOps, hl, text_mem_decl]
    | cxx =>
      refine ⟨?_, fun h => nomatch h⟩
      by_cases ha : (e.cfg.allowStaticConst || (e.cfg.allowConstexpr && k.value.canBeConstexpr)) = true
      · refine hin ?_
        simp only [ConstItem.bodyOps, hl, ha, if_true]
        simp [text_mem_decl]
      · have := hin (s := c!"#define " ++ name ++ c!" ") (by
          simp only [ConstItem.bodyOps, hl]
          rw [if_neg ha]
          simp)
        exact List.IsInfix.trans ⟨c!"#define ", c!" ", by simp⟩ this
  · obtain ⟨w, w', h⟩ := h
    exfalso
    obtain ⟨t1, w1, t2, h1, h2, _⟩ := exec_append_some.mp h
    obtain ⟨t1, w1, t2, h1, h2, _⟩ := exec_append_some.mp h1
    obtain ⟨t1, w1, t2, h1, h2, _⟩ := exec_append_some.mp h2
    rw [exec_single] at h2
    simp [WOp.exec1] at h2

/-! ## Refutations -/

namespace C30Cases

def u8 : Ty := .prim (.integer true false .b8)

/-- `enum E { A }`. -/
def enumE : EnumItem := { path := c!"E", exportName := c!"E", variants := [{ name := c!"A", exportName := c!"A" }] }

/-- `pub const X: u8 = E::A as u8;`. -/
def constX : ConstItem :=
  { path := c!"X", exportName := c!"X", ty := u8, value := .cast u8 (.path (some (c!"E", c!"E")) c!"A") }

def env : Env := { cfg := { language := .cxx, noIncludes := true }, enums := [(c!"E", .single enumE)] }

/-- `pub const Y: [u8; 1] = [7];`. -/
def constY : ConstItem :=
  { path := c!"Y", exportName := c!"Y", ty := .array u8 (.value c!"1"), value := .array [.expr c!"7"] }

/-- `pub const Z: u8 = Missing::A;` where nothing is known of `Missing`. -/
def constZ : ConstItem :=
  { path := c!"Z", exportName := c!"Z", ty := u8, value := .path (some (c!"Missing", c!"Missing")) c!"A" }

end C30Cases

open C30Cases in
/-- A constant that is an enumerator precedes the definition of its enum, so the header does not
compile. -/
theorem C30_enum_refuted : ∃ e b t before between after_ k,
    headerText e b = some t ∧ k ∈ b.constants ∧ Refers k c!"E" ∧
    t = before ++ c!"constexpr static const uint8_t X = (uint8_t)E::A;" ++ between ++ c!"enum class E {" ++
      after_ ∧ ¬ c!"E" <:+: before := by
  refine ⟨env, ⟨[constX], [], [.enum enumE], []⟩, _, [], c!"\n\n", c!"\n  A,\n};\n", constX,
    rfl, by simp, ⟨c!"E", c!"A", .cast _ (.self _)⟩, by decide +kernel, by decide⟩

open C30Cases in
/-- A constant with an array of a primitive type needs no type definition and is still written after
them. -/
theorem C30_array_refuted : ¬ NeedsType constY ∧ ¬ First constY := by
  constructor
  · rintro (h | ⟨q, x, fs, h⟩ | ⟨t, v, h, _⟩)
    · cases h with | array _ h => cases h
    · cases h with
      | array hm h => simp at hm; subst hm; cases h
    · cases h with
      | array hm h => simp at hm; subst hm; cases h
  · rintro ⟨h, _⟩
    cases h

open C30Cases in
/-- A constant that refers to an unknown item is not written at all. -/
theorem C30_invalid_refuted : ∃ e b t k, headerText e b = some t ∧ k ∈ b.constants ∧ ¬ c!"Z" <:+: t := by
  refine ⟨env, ⟨[constZ], [], [.enum enumE], []⟩, _, constZ, rfl, by simp, ?_⟩
  decide +kernel

/-! ## A case: one constant of each group -/

namespace C30Cases

/-- `pub const W: E = E::A;`. -/
def constW : ConstItem :=
  { path := c!"W", exportName := c!"W", ty := .path c!"E" c!"E" [] none,
    value := .path (some (c!"E", c!"E")) c!"A" }

/-- `pub const V: u8 = 3;`. -/
def constV : ConstItem := { path := c!"V", exportName := c!"V", ty := u8, value := .expr c!"3" }

example : NeedsType constW ∧ First constV ∧
    headerText env ⟨[constW, constV], [], [.enum enumE], []⟩ = some (
      c!"constexpr static const uint8_t V = 3;\n\nenum class E {\n  A,\n};\n\n" ++
      c!"constexpr static const E W = E::A;\n") := by
  refine ⟨.inl (.path ..), ⟨.prim _, ?_, ?_⟩, by decide +kernel⟩
  · intro q x fs h; cases h
  · intro t v h; cases h

end C30Cases
end Cbindgen
