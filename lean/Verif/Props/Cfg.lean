import Verif.Lemmas.Cfg

/-!
# C04, C05, C42: guards
-/

namespace Cbindgen

open CfgSpec

/-- **C04.** For every `cfg` predicate whose options all have an entry in the `[defines]` table, a
guard is generated, and in every configuration in which the macros are defined exactly as the
options are set, the text of the guard, read as a C/C++ (or Cython) condition, is true exactly when
the `cfg` predicate is true.  `defines` is the table in any iteration order. -/
theorem C04_guard_iff_cfg (lang : Language) (defines : List (Str × Str)) (on : Opt → Bool)
    (defined : Str → Bool) (cfg : Cfg) (hn : ∀ e ∈ defines, GoodName e.2)
    (hm : Matches defines on defined) (hc : Mapped defines cfg) :
    ∃ k e, cfg.toCondition defines = some k ∧ readCondition lang (k.text lang) = some e ∧
      e.eval defined = holds on cfg := by
  obtain ⟨k, h1, h2⟩ := toCondition_holds defines on defined hm cfg hc
  have hw := toCondition_wf defines hn cfg k h1
  exact ⟨k, exprOf k, h1, readCondition_text lang k hw, by rw [eval_exprOf defined k hw, h2]⟩

/-- **C04.** An item without `cfg` gets no guard. -/
theorem C04_no_cfg_no_guard (defines : List (Str × Str)) : optToCondition defines none = none := rfl

/-- The hypotheses of C04 at `all(feature = "a b", not(any(unix, x)))`. -/
example :
    let defines : List (Str × Str) :=
      [(c!"feature = a b ", c!"F"), (c!"unix", c!"U"), (c!"x", c!"X_1")]
    let on : Opt → Bool := fun o => decide (o = .flag c!"unix")
    (∀ e ∈ defines, GoodName e.2) ∧ Matches defines on (fun d => decide (d = c!"U")) ∧
    Mapped defines (.all [.named c!"feature" c!"a b",
      .not (.any [.boolean c!"unix", .boolean c!"x"])]) := by
  intro defines on
  refine ⟨by simp [defines, GoodName]; decide, ?_, ?_⟩
  · intro e he o ho
    simp [defines] at he
    rcases he with rfl | rfl | rfl
    · cases o with
      | flag n => exact absurd ho.1 (by decide)
      | kv n v => simp [on]
    · cases o with
      | flag n => obtain ⟨_, rfl⟩ := ho; rfl
      | kv n v =>
        obtain ⟨x, y, h, _⟩ := ho
        have : '=' ∈ c!"unix" := by simp only at h; rw [h]; simp
        exact absurd this (by decide)
    · cases o with
      | flag n => obtain ⟨_, rfl⟩ := ho; rfl
      | kv n v =>
        obtain ⟨x, y, h, _⟩ := ho
        have : '=' ∈ c!"x" := by simp only at h; rw [h]; simp
        exact absurd this (by decide)
  · refine ⟨by simp, ?_, ⟨by simp, ?_, ?_, trivial⟩, trivial⟩
    · exact ⟨_, by simp [defines]; exact Or.inl rfl, c!"feature ", c!" a b ", rfl, by decide,
        by decide, by decide, by decide⟩
    · exact ⟨(c!"unix", c!"U"), by simp [defines], by decide, rfl⟩
    · exact ⟨(c!"x", c!"X_1"), by simp [defines], by decide, rfl⟩

/-- **C05.** The text of every condition, read with the operator precedence of the language, is
exactly the expression of that condition (operators associating to the left). -/
theorem C05_condition_text_reads_back (lang : Language) (c : Condition) (h : WellFormed c) :
    readCondition lang (c.text lang) = some (exprOf c) := readCondition_text lang c h

/-- **C05.** Every condition that is generated satisfies the hypothesis above if the `[defines]`
table maps to macro names. -/
theorem C05_generated_wellFormed (defines : List (Str × Str)) (hd : ∀ e ∈ defines, GoodName e.2)
    (cfg : Option Cfg) (k : Condition) (h : optToCondition defines cfg = some k) :
    WellFormed k := by
  cases cfg with
  | none => simp [optToCondition] at h
  | some c => exact toCondition_wf defines hd c k h

example : WellFormed (.all [.define c!"A", .not (.any [.define c!"B", .define c!"C"])]) := by
  simp [WellFormed, WellFormedAll, GoodName]; decide

/-! ## C42: options without a `[defines]` entry -/

/-- The guard lets the item through: there is none, or it is true. -/
def guardOpen (defined : Str → Bool) : Option Condition → Prop
  | none => True
  | some k => condHolds defined k = true

mutual
/-- A conjunction of options. -/
def Conj : Cfg → Prop
  | .boolean n => '=' ∉ n
  | .named _ _ => True
  | .all cs => ConjAll cs
  | _ => False
def ConjAll : List Cfg → Prop
  | [] => True
  | c :: cs => Conj c ∧ ConjAll cs
end

theorem findDefine_spec {defines : List (Str × Str)} {k : DefineKey} {d : Str}
    (h : findDefine defines k = some d) : ∃ e ∈ defines, e.2 = d ∧ DefineKey.load e.1 = k := by
  simp only [findDefine, Option.map_eq_some_iff] at h
  obtain ⟨e, h1, h2⟩ := h
  have := List.find?_some h1
  simp at this
  exact ⟨e, List.mem_of_find?_eq_some h1, h2, this.symm⟩

mutual
theorem conj_open (defines : List (Str × Str)) (on : Opt → Bool) (defined : Str → Bool)
    (hm : Matches defines on defined) : ∀ (c : Cfg), Conj c → holds on c = true →
    guardOpen defined (c.toCondition defines)
  | .boolean n, hc, h => by
    cases hf : findDefine defines (.boolean n) with
    | none => simp [Cfg.toCondition, hf, guardOpen]
    | some d =>
      obtain ⟨e, he, rfl, hl⟩ := findDefine_spec hf
      simp only [holds] at h
      simp [Cfg.toCondition, hf, guardOpen, condHolds,
        hm e he _ (load_boolean_inv _ _ hc hl), h]
  | .named n v, hc, h => by
    cases hf : findDefine defines (.named n v) with
    | none => simp [Cfg.toCondition, hf, guardOpen]
    | some d =>
      obtain ⟨e, he, rfl, hl⟩ := findDefine_spec hf
      simp only [holds] at h
      simp [Cfg.toCondition, hf, guardOpen, condHolds,
        hm e he _ ((load_named_iff _ _ _).mp hl), h]
  | .all cs, hc, h => by
    simp only [holds] at h
    have := conjAll_open defines on defined hm cs hc h
    cases hcs : Cfg.toConditions defines cs with
    | nil => simp [Cfg.toCondition, hcs, collapse, guardOpen]
    | cons k ks =>
      obtain ⟨k', h1, h2⟩ := collapse_all defined (k :: ks) (by simp)
      rw [hcs] at this
      simp [Cfg.toCondition, hcs, h1, guardOpen, h2, this]
  | .any _, hc, _ => by simp [Conj] at hc
  | .not _, hc, _ => by simp [Conj] at hc
theorem conjAll_open (defines : List (Str × Str)) (on : Opt → Bool) (defined : Str → Bool)
    (hm : Matches defines on defined) : ∀ (cs : List Cfg), ConjAll cs → holdsAll on cs = true →
    condHoldsAll defined (Cfg.toConditions defines cs) = true
  | [], _, _ => by simp [Cfg.toConditions, condHoldsAll]
  | c :: cs, hc, h => by
    simp only [holdsAll, Bool.and_eq_true] at h
    have h1 := conj_open defines on defined hm c hc.1 h.1
    have h2 := conjAll_open defines on defined hm cs hc.2 h.2
    cases hk : c.toCondition defines with
    | none => simpa [Cfg.toConditions, hk, consOption] using h2
    | some k =>
      rw [hk] at h1
      simp only [guardOpen] at h1
      simp [Cfg.toConditions, hk, consOption, condHoldsAll, h1, h2]
end

/-- **C42 (partial).** A conjunction of options, some of which may have no `[defines]` entry, never
hides an item whose `cfg` is true.  Missing: `any` and `not`, for which the claim is false, see
`C42_any_hides` . -/
theorem C42_conjunction_never_hides_partial (defines : List (Str × Str)) (on : Opt → Bool)
    (defined : Str → Bool) (cfg : Cfg) (hm : Matches defines on defined) (hc : Conj cfg)
    (h : holds on cfg = true) : guardOpen defined (cfg.toCondition defines) :=
  conj_open defines on defined hm cfg hc h

example : Conj (.all [.boolean c!"unix", .named c!"feature" c!"x"]) := by
  simp [Conj, ConjAll]

/-- **C42 (refuted).** `any(unmapped, mapped)` hides an item whose `cfg` is true. -/
theorem C42_any_hides : ∃ (defines : List (Str × Str)) (on : Opt → Bool) (defined : Str → Bool)
    (cfg : Cfg), Matches defines on defined ∧ holds on cfg = true ∧
    ¬ guardOpen defined (cfg.toCondition defines) := by
  refine ⟨[(c!"b", c!"B")], fun o => decide (o = .flag c!"a"), fun _ => false,
    .any [.boolean c!"a", .boolean c!"b"], ?_, by rfl, by simp [guardOpen, Cfg.toCondition,
      Cfg.toConditions, findDefine, DefineKey.load, consOption, collapse, condHolds]⟩
  intro e he o ho
  simp at he; subst he
  cases o with
  | flag n => obtain ⟨_, rfl⟩ := ho; rfl
  | kv n v => simp

/-- **C42 (refuted, other direction).** `any()` is never true in Rust, but the item is emitted
without a guard; likewise `not(all())`. -/
theorem C42_empty_any_unguarded (defines : List (Str × Str)) (on : Opt → Bool) :
    holds on (.any []) = false ∧ (Cfg.any []).toCondition defines = none ∧
    holds on (.not (.all [])) = false ∧ (Cfg.not (.all [])).toCondition defines = none := by
  simp [holds, holdsAny, holdsAll, Cfg.toCondition, Cfg.toConditions, collapse]

end Cbindgen
