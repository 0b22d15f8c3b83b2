import Verif.Lemmas.Names

/-! # C07, C40, C48, C49: names of fields, arguments and enumerators -/

namespace Cbindgen

open CfgSpec NameSpec

/-! ## C07 -/

/-- **C07.** Whatever the annotations and rename rules, no field of a struct is named like a word of
the keyword table. -/
theorem C07_struct_fields_not_reserved (f : CaseFns) (fieldNames : Option (List Str))
    (rule : RenameRule) (names : List Str) :
    ∀ n ∈ structFieldNames f fieldNames rule names, n ∉ reservedKeywords := by
  intro n hn
  unfold structFieldNames at hn
  obtain ⟨m, _, rfl⟩ := List.mem_map.mp hn
  exact escape_not_reserved m

/-- **C07.** Whatever the annotations and rename rules, no argument of a function is named like a
word of the keyword table. -/
theorem C07_args_not_reserved (f : CaseFns) (renTy : Ty → Ty) (rule : RenameRule)
    (arrays : Option (List Str)) (args out : List FnArg)
    (h : renameArgs f renTy rule arrays args = some out) :
    ∀ a ∈ out, ∀ n, a.name = some n → n ∉ reservedKeywords := by
  have key : ∀ a ∈ args.map (fun a => ({ name := a.name.map (argName f rule), ty := renTy a.ty, arrayLength := if rule.notNone.isSome then none else a.arrayLength } : FnArg)),
      ∀ n, a.name = some n → n ∉ reservedKeywords := by
    intro a ha n hn
    obtain ⟨b, _, rfl⟩ := List.mem_map.mp ha
    simp only [Option.map_eq_some_iff] at hn
    obtain ⟨m, _, rfl⟩ := hn
    exact escape_not_reserved _
  unfold renameArgs at h
  cases arrays with
  | none =>
    simp only [Option.some.injEq] at h
    subst h; exact key
  | some ts =>
    simp only [Option.map_eq_some_iff] at h
    obtain ⟨m, _, rfl⟩ := h
    intro a ha n hn
    obtain ⟨b, hb, rfl⟩ := List.mem_map.mp ha
    refine key b hb n ?_
    unfold setArrayLength at hn
    split at hn
    · split at hn <;> exact hn
    · exact hn

/-- **C07.** Words that are not in the table are left as they are, those in the table get one
underscore, and escaping is idempotent. -/
theorem C07_escape (s : Str) :
    (s ∉ reservedKeywords → escape s = s) ∧ (s ∈ reservedKeywords → escape s = s ++ c!"_") ∧
    escape (escape s) = escape s := by
  refine ⟨escape_of_not_mem s, ?_, escape_escape s⟩
  intro h; rw [escape_eq, if_pos h]

/-- **C07.** Without `field-names` and rename rule the fields keep their names, up to the escape and
the underscore before a digit. -/
theorem C07_struct_fields_kept (f : CaseFns) (names : List Str)
    (h : ∀ n ∈ names, n ∉ reservedKeywords ∧ ∀ c cs, n = c :: cs → ¬ ('0' ≤ c ∧ c ≤ '9')) :
    structFieldNames f none .none names = names := by
  simp only [structFieldNames, RenameRule.notNone, List.map_map]
  rw [List.map_congr_left (g := id)]
  · simp
  · intro n hn
    obtain ⟨h1, h2⟩ := h n hn
    have : underscoreDigit n = n := by
      cases n with
      | nil => rfl
      | cons c cs => simp only [underscoreDigit]; rw [if_neg (h2 c cs rfl)]
    simp only [Function.comp, this, id, escape_of_not_mem n h1]

/-- The rename rules do what is documented. -/
theorem apply_eq_ruled (f : CaseFns) (r : RenameRule) {s : Str} (hs : s ≠ []) :
    (∀ e, e ≠ [] → r.apply f s (.enumVariant e) = ruled f [] (some e) r s) ∧
    r.apply f s .structMember = ruled f c!"m" none r s ∧
    r.apply f s .functionArg = ruled f c!"a" none r s := by
  refine ⟨fun e he => ?_, ?_, ?_⟩ <;> cases r <;>
    simp [RenameRule.apply, ruled, screaming, IdentType.toStr, *]

theorem overwrite_getElem (ns os : List Str) (i : Nat) :
    (overwrite ns os)[i]? = (ns[i]?).map fun n => (os[i]?).getD n := by
  induction ns generalizing os i with
  | nil => simp [overwrite]
  | cons n ns ih =>
    cases os with
    | nil => simp [overwrite]
    | cons o os => cases i <;> simp [overwrite, ih]

/-- **C07.** A struct keeps its number of fields, and each field gets its documented name, escaped if
it is a reserved word. -/
theorem C07_struct_field_names (f : CaseFns) (fieldNames : Option (List Str)) (rule : RenameRule)
    (names : List Str) (hn : ∀ n ∈ names, n ≠ []) :
    (structFieldNames f fieldNames rule names).length = names.length ∧
    ∀ (i : Nat) (n : Str), names[i]? = some n → ∃ m,
      (structFieldNames f fieldNames rule names)[i]? = some m ∧
      m = if fieldName f fieldNames rule i n ∈ reservedKeywords then
        fieldName f fieldNames rule i n ++ c!"_" else fieldName f fieldNames rule i n := by
  have key : ∀ i : Nat, (structFieldNames f fieldNames rule names)[i]? =
      (names[i]?).map fun n => escape (fieldName f fieldNames rule i n) := by
    intro i
    unfold structFieldNames
    cases fieldNames with
    | some o => simp [overwrite_getElem, fieldName]; rfl
    | none =>
      cases hr : rule.notNone with
      | none =>
        have hrule : rule = .none := by
          cases hc : rule <;> simp [hc, RenameRule.notNone] at hr ⊢
        simp only [List.map_map, List.getElem?_map]
        cases names[i]? with
        | none => rfl
        | some n => cases n <;> simp [fieldName, hrule, underscoreDigit]
      | some r =>
        have hrule : rule = r ∧ rule ≠ .none := by
          cases hc : rule <;> simp [hc, RenameRule.notNone] at hr ⊢ <;> exact hr
        simp only [List.map_map, List.getElem?_map]
        cases hni : names[i]? with
        | none => rfl
        | some n =>
          have := (apply_eq_ruled f r (hn n (List.mem_of_getElem? hni))).2.1
          simp only [Option.map_some, Function.comp, this, fieldName]
          rw [if_pos hrule.2, hrule.1]
  constructor
  · apply Nat.le_antisymm
    · by_cases h : names.length < (structFieldNames f fieldNames rule names).length
      · have := key names.length
        simp [List.getElem?_eq_getElem h] at this
      · omega
    · by_cases h : (structFieldNames f fieldNames rule names).length < names.length
      · have := key (structFieldNames f fieldNames rule names).length
        simp [List.getElem?_eq_getElem h] at this
      · omega
  · intro i n hi
    refine ⟨escape (fieldName f fieldNames rule i n), by rw [key, hi]; rfl, by rw [escape_eq]⟩

example : structFieldNames ⟨id, id, id, id, id, id⟩ (some [c!"a", c!"int"]) .none
    [c!"0", c!"1", c!"2"] = [c!"a", c!"int_", c!"2"] := by decide +kernel

example : structFieldNames ⟨id, id, id, id, id, id⟩ none .none [c!"class", c!"x", c!"0"] =
    [c!"class_", c!"x", c!"_0"] := by decide +kernel

/-! ## C49: real keywords -/

/-- **C49 (partial).** The fields of a struct are never keywords of C11 or C++20, except for the words
that are missing from the table.  The exact set of names that stay keywords. -/
theorem C49_escaped_is_keyword_iff_partial (s : Str) : Keyword (escape s) ↔ s ∈ missingKeywords :=
  escape_keyword_iff s

/-- **C49 (refuted).** A field called `restrict`, `asm`, `typeid` or `and` is emitted as it is. -/
theorem C49_missing_keywords (f : CaseFns) :
    structFieldNames f none .none [c!"restrict", c!"asm", c!"typeid", c!"and"] =
      [c!"restrict", c!"asm", c!"typeid", c!"and"] ∧
    ∀ n ∈ [c!"restrict", c!"asm", c!"typeid", c!"and"], Keyword n := by
  refine ⟨?_, by simp only [Keyword]; decide +kernel⟩
  apply C07_struct_fields_kept
  intro n hn
  refine ⟨by revert n; decide +kernel, ?_⟩
  intro c cs h
  simp at hn
  rcases hn with rfl | rfl | rfl | rfl <;> simp at h <;> rw [← h.1] <;> decide

/-- **C49 (refuted).** Fields of unions are not escaped at all. -/
theorem C49_union_fields_not_escaped (f : CaseFns) :
    c!"class" ∈ unionFieldNames f none .none false [c!"class"] ∧ Keyword c!"class" := by
  refine ⟨by simp [unionFieldNames, RenameRule.notNone], ?_⟩
  simp only [Keyword]; decide +kernel

/-- **C49 (refuted).** An enumerator can become a keyword through a rename rule, which is applied after
the escape. -/
theorem C49_renamed_variant_keyword : ∃ (f : CaseFns) (v : Variant Unit) (w : Variant Unit),
    v.exportName = c!"Class" ∧ f.lower c!"Class" = c!"class" ∧
    renameVariants f id { rule := .lowerCase } c!"E" [v] = [w] ∧ Keyword w.exportName := by
  refine ⟨⟨id, fun _ => c!"class", id, id, id, id⟩, { exportName := c!"Class" },
    { exportName := c!"class" }, rfl, rfl, ?_, by simp only [Keyword]; decide +kernel⟩
  have : escape c!"Class" = c!"Class" := escape_of_not_mem _ (by decide +kernel)
  simp [renameVariants, RenameRule.notNone, prefixVariant, ruleVariant, this, RenameRule.apply]

/-! ## C50: distinct fields stay distinct -/

/-- **C50 (partial).** Distinct struct fields get distinct names if there is no rename rule, unless a
field is called like a keyword followed by an underscore or like an underscore followed by a
digit. -/
theorem C50_struct_fields_distinct_partial (f : CaseFns) (names : List Str) (hn : names.Nodup)
    (h1 : ∀ n ∈ names, ∀ k ∈ reservedKeywords, n ≠ k ++ c!"_")
    (h2 : ∀ n ∈ names, ∀ c cs, n = '_' :: c :: cs → ¬ ('0' ≤ c ∧ c ≤ '9')) :
    (structFieldNames f none .none names).Nodup := by
  have key : ∀ a ∈ names, ∀ b ∈ names,
      escape (underscoreDigit a) = escape (underscoreDigit b) → a = b := by
    have hu : ∀ n ∈ names, ∀ k ∈ reservedKeywords, underscoreDigit n ≠ k ++ c!"_" := by
      intro n hn k hk
      cases n with
      | nil => exact h1 [] hn k hk
      | cons c cs =>
        simp only [underscoreDigit]
        split
        · intro he
          have hk0 : ∀ k ∈ reservedKeywords, k.head? ≠ some '_' ∧ k ≠ [] := by decide +kernel
          obtain ⟨ha, hb⟩ := hk0 k hk
          cases k with
          | nil => exact hb rfl
          | cons d ds => simp at he; simp at ha; exact ha he.1.symm
        · exact h1 _ hn k hk
    intro a ha b hb hab
    have he := escape_inj_of _ _ (hu a ha) (hu b hb) hab
    cases a with
    | nil =>
      cases b with
      | nil => rfl
      | cons d ds =>
        simp only [underscoreDigit] at he
        split at he <;> cases he
    | cons c cs =>
      cases b with
      | nil =>
        simp only [underscoreDigit] at he
        split at he <;> cases he
      | cons d ds =>
        simp only [underscoreDigit] at he
        split at he
        · rename_i hc
          split at he
          · simpa using he
          · exact absurd hc (h2 _ hb c cs (by rw [← he]))
        · split at he
          · rename_i hd
            exact absurd hd (h2 _ ha d ds (by rw [he]))
          · exact he
  simp only [structFieldNames, RenameRule.notNone, List.map_map]
  rw [List.nodup_iff_pairwise_ne] at hn ⊢
  rw [List.pairwise_map]
  refine List.Pairwise.imp_of_mem ?_ hn
  intro a b ha hb hab he
  exact hab (key a ha b hb he)

example : ∀ n ∈ [c!"int", c!"0", c!"x_"], (∀ k ∈ reservedKeywords, n ≠ k ++ c!"_") ∧
    ∀ c cs, n = '_' :: c :: cs → ¬ ('0' ≤ c ∧ c ≤ '9') := by
  intro n hn
  refine ⟨by revert n; decide +kernel, ?_⟩
  intro c cs h
  simp at hn
  rcases hn with rfl | rfl | rfl <;> simp at h

/-- **C50 (refuted).** `struct S { int: u8, int_: u8 }` gets two fields called `int_`. -/
theorem C50_escape_collides (f : CaseFns) :
    structFieldNames f none .none [c!"int", c!"int_"] = [c!"int_", c!"int_"] := by
  have h1 : escape c!"int" = c!"int_" := by rw [escape_eq]; decide +kernel
  have h2 : escape c!"int_" = c!"int_" := by rw [escape_eq]; decide +kernel
  simp only [structFieldNames, RenameRule.notNone, List.map_map, List.map_cons, List.map_nil]
  simp [Function.comp, underscoreDigit, h1, h2]

/-! ## C40: enumerators -/

theorem renameVariants_eq {D : Type} (f : CaseFns) (renDisc : D → D) (cfg : VariantConfig)
    (enumName : Str) (he : enumName ≠ []) (vs : List (Variant D)) :
    ∃ g : Variant D → Variant D, renameVariants f renDisc cfg enumName vs = vs.map g ∧
      ∀ v, (v.exportName ≠ [] → (g v).exportName = variantName f cfg enumName v.exportName) ∧
        (g v).disc = v.disc.map renDisc ∧ (g v).cfg = v.cfg := by
  unfold renameVariants
  cases hr : cfg.rule.notNone with
  | none =>
    refine ⟨_, rfl, ?_⟩
    intro v
    have hrule : cfg.rule = .none := by
      cases hc : cfg.rule <;> simp [hc, RenameRule.notNone] at hr ⊢
    simp [prefixVariant, variantName, hrule, escape_eq, ruled]
  | some r =>
    refine ⟨fun v => ruleVariant f enumName r
      (prefixVariant cfg enumName { v with disc := v.disc.map renDisc }), ?_, ?_⟩
    · simp
    · intro v
      refine ⟨fun hv => ?_, by simp [ruleVariant, prefixVariant], by simp [ruleVariant, prefixVariant]⟩
      have hrule : cfg.rule = r := by
        cases hc : cfg.rule <;> simp [hc, RenameRule.notNone] at hr ⊢ <;> exact hr
      have hne : (prefixVariant cfg enumName { v with disc := v.disc.map renDisc }).exportName ≠ [] := by
        have : escape v.exportName ≠ [] := by
          rw [escape_eq]; split <;> simp [hv]
        simp only [prefixVariant]
        split <;> simp [this]
      have h1 := (apply_eq_ruled f r hne).1 enumName he
      simp only [ruleVariant]
      rw [h1]
      simp [prefixVariant, variantName, escape_eq, hrule]

theorem mem_enumValues {α D : Type} (eval : D → Int) (disc : α → Option D) (k : Int) (as : List α)
    {x : α × Int} (h : x ∈ enumValues eval disc k as) : x.1 ∈ as := by
  induction as generalizing k with
  | nil => simp [enumValues] at h
  | cons a as ih =>
    simp only [enumValues, List.mem_cons] at h
    rcases h with rfl | h
    · simp
    · exact List.mem_cons_of_mem _ (ih _ h)

/-- **C40.** In every build, the enumerators that the C compiler sees are, in order, exactly the
variants that the Rust compiler sees, each under its documented name and with the value that Rust
gives it.  `defined` are the macros of the C build, `on` the options of the Rust build; `evalR` and
`evalC` evaluate discriminant expressions before and after their renaming. -/
theorem C40_enumerators {D : Type} (f : CaseFns) (renDisc : D → D) (cfg : VariantConfig)
    (enumName : Str) (hn : enumName ≠ []) (vs : List (Variant D)) (hv : ∀ v ∈ vs, v.exportName ≠ [])
    (defines : List (Str × Str)) (on : Opt → Bool)
    (defined : Str → Bool) (hm : Matches defines on defined)
    (hc : ∀ v ∈ vs, ∀ c, v.cfg = some c → Mapped defines c)
    (evalR evalC : D → Int) (he : ∀ d, evalC (renDisc d) = evalR d) :
    (enumValues evalC (·.disc) 0
      (((renameVariants f renDisc cfg enumName vs).map (writeVariant defines)).filter
        (visible defined))).map (fun x => (x.1.name, x.2)) =
    (enumValues evalR (·.disc) 0 (vs.filter fun v => holdsOpt on v.cfg)).map
      fun x => (variantName f cfg enumName x.1.exportName, x.2) := by
  obtain ⟨g, hg, hgv⟩ := renameVariants_eq f renDisc cfg enumName hn vs
  rw [hg, List.map_map, filter_map_comm _ _ (fun v => holdsOpt on v.cfg)]
  · rw [enumValues_map evalR evalC Variant.disc Enumerator.disc]
    · rw [List.map_map]
      apply List.map_congr_left
      intro x hx
      have h1 := hv x.1 (List.mem_filter.mp (mem_enumValues _ _ _ _ hx)).1
      simp [Function.comp, writeVariant, (hgv x.1).1 h1]
    · intro v
      simp only [Function.comp, writeVariant, (hgv v).2.1, Option.map_map]
      congr 1
      funext d
      exact he d
  · intro v hv
    simp only [Function.comp, writeVariant, visible, (hgv v).2.2]
    cases hcfg : v.cfg with
    | none => simp [optToCondition, holdsOpt]
    | some c =>
      obtain ⟨k, h1, h2⟩ := toCondition_holds defines on defined hm c (hc v hv c hcfg)
      simp [optToCondition, h1, h2, holdsOpt]

/-- **C40.** Distinct variants whose documented names differ stay distinct. -/
theorem C40_distinct {D : Type} (f : CaseFns) (renDisc : D → D) (cfg : VariantConfig)
    (enumName : Str) (hn : enumName ≠ []) (vs : List (Variant D)) (hv : ∀ v ∈ vs, v.exportName ≠ [])
    (h : (vs.map fun v => variantName f cfg enumName v.exportName).Nodup) :
    ((renameVariants f renDisc cfg enumName vs).map (·.exportName)).Nodup := by
  obtain ⟨g, hg, hgv⟩ := renameVariants_eq f renDisc cfg enumName hn vs
  rw [hg, List.map_map]
  rw [List.map_congr_left (g := fun v => variantName f cfg enumName v.exportName)]
  · exact h
  · intro v hm; exact (hgv v).1 (hv v hm)

/-- **C40.** Without a rename rule, distinct variants stay distinct unless one is called like a keyword
followed by an underscore. -/
theorem C40_distinct_without_rule {D : Type} (f : CaseFns) (renDisc : D → D) (cfg : VariantConfig)
    (enumName : Str) (he : enumName ≠ []) (vs : List (Variant D)) (hv : ∀ v ∈ vs, v.exportName ≠ [])
    (hr : cfg.rule = .none) (hn : (vs.map (·.exportName)).Nodup)
    (hk : ∀ v ∈ vs, ∀ k ∈ reservedKeywords, v.exportName ≠ k ++ c!"_") :
    ((renameVariants f renDisc cfg enumName vs).map (·.exportName)).Nodup := by
  apply C40_distinct f renDisc cfg enumName he vs hv
  rw [List.nodup_iff_pairwise_ne, List.pairwise_map] at hn ⊢
  refine List.Pairwise.imp_of_mem ?_ hn
  intro a b ha hb hab he
  apply hab
  apply escape_inj_of _ _ (hk a ha) (hk b hb)
  rw [escape_eq, escape_eq]
  simp only [variantName, hr, ruled] at he
  split at he
  · exact List.append_cancel_left he
  · exact he

/-- The sentinel and the trailing values are added after the variants of the source. -/
theorem C40_source_variants_first {D : Type} (vs : List (Variant D)) (trailing : Option (List Str))
    (sentinel : Bool) : vs <+: loadVariants vs trailing sentinel := by
  unfold loadVariants
  rw [List.append_assoc]
  exact List.prefix_append _ _

example : ∃ vs : List (Variant Int), (vs.map (·.exportName)).Nodup ∧ vs.length = 3 ∧
    (∀ v ∈ vs, ∀ k ∈ reservedKeywords, v.exportName ≠ k ++ c!"_") ∧
    enumValues id (·.disc) 0 vs = vs.zip [0, 7, 8] :=
  ⟨[{ exportName := c!"int" }, { exportName := c!"B", disc := some 7 }, { exportName := c!"C" }],
    by decide +kernel, rfl, by decide +kernel, rfl⟩

/-- **C51 (refuted).** The sentinel can collide with a variant of the source. -/
theorem C51_sentinel_collides : ∃ vs : List (Variant Unit), (vs.map (·.exportName)).Nodup ∧
    ¬ ((loadVariants vs none true).map (·.exportName)).Nodup :=
  ⟨[{ exportName := c!"Sentinel" }], by simp, by simp [loadVariants]⟩

/-! ## C48: arrays -/

/-- **C48.** An array length is only ever put on a pointer, so that the declaration writer never meets
the `unreachable!` case. -/
theorem C48_array_only_on_pointers (f : CaseFns) (renTy : Ty → Ty) (rule : RenameRule)
    (arrays : Option (List Str)) (args out : List FnArg)
    (hload : ∀ a ∈ args, a.arrayLength = none)
    (h : renameArgs f renTy rule arrays args = some out) (cfg : DeclConfig) :
    ∀ a ∈ out, CDecl.fromFuncArg cfg a.ty a.arrayLength ≠ none := by
  have base : ∀ a : FnArg, a.arrayLength = none ∨ a.ty.isPtrTy = true →
      CDecl.fromFuncArg cfg a.ty a.arrayLength ≠ none := by
    intro a ha
    cases hl : a.arrayLength with
    | none => simp [CDecl.fromFuncArg]
    | some l =>
      rcases ha with ha | ha
      · rw [hl] at ha; cases ha
      · cases ht : a.ty <;> simp [ht, Ty.isPtrTy] at ha
        simp [CDecl.fromFuncArg]
  have h0 : ∀ a ∈ args.map (fun a => ({ name := a.name.map (argName f rule), ty := renTy a.ty, arrayLength := if rule.notNone.isSome then none else a.arrayLength } : FnArg)),
      a.arrayLength = none := by
    intro a ha
    obtain ⟨b, hb, rfl⟩ := List.mem_map.mp ha
    simp [hload b hb]
  intro a ha
  apply base
  unfold renameArgs at h
  cases arrays with
  | none =>
    simp only [Option.some.injEq] at h
    subst h
    exact Or.inl (h0 a ha)
  | some ts =>
    simp only [Option.map_eq_some_iff] at h
    obtain ⟨m, _, rfl⟩ := h
    obtain ⟨b, hb, rfl⟩ := List.mem_map.mp ha
    unfold setArrayLength
    split
    · rename_i hp
      split
      · exact Or.inr hp
      · exact Or.inl (h0 b hb)
    · exact Or.inl (h0 b hb)

/-- **C48 (partial).** A well-formed annotation `[[name; length]]` puts the length on the pointer
arguments that have that name in the header, and on no other.  The full property asks for the Rust
name, see `C48_rust_name_ignored`. -/
theorem C48_array_length_partial (f : CaseFns) (renTy : Ty → Ty) (rule : RenameRule)
    (n l : Str) (args : List FnArg) (hload : ∀ a ∈ args, a.arrayLength = none)
    (hn : trim n = n ∧ ';' ∉ n) (hl : trim l = l ∧ ';' ∉ l) :
    ∃ out, renameArgs f renTy rule (some [c!"[" ++ n ++ c!"; " ++ l ++ c!"]"]) args = some out ∧
      out.length = args.length ∧
      ∀ (i : Nat) (a b : FnArg), args[i]? = some a → out[i]? = some b →
        b.name = a.name.map (argName f rule) ∧ b.ty = renTy a.ty ∧
        b.arrayLength = if (renTy a.ty).isPtrTy ∧ a.name.map (argName f rule) = some n then some l
          else none := by
  have hbody : stripTuple (c!"[" ++ n ++ c!"; " ++ l ++ c!"]") = some (n ++ c!"; " ++ l) := by
    have : c!"[" ++ n ++ c!"; " ++ l ++ c!"]" = '[' :: ((n ++ c!"; " ++ l) ++ c!"]") := by simp
    rw [this]
    generalize hx : n ++ c!"; " ++ l = x
    cases x with
    | nil => simp at hx
    | cons d ds =>
      have h1 : (d :: (ds ++ c!"]")).dropLast = d :: ds := by
        rw [show d :: (ds ++ c!"]") = (d :: ds) ++ c!"]" from rfl, List.dropLast_concat]
      have h2 : ∀ h, ((d :: (ds ++ c!"]")).getLast h) = ']' := by
        intro h
        have : d :: (ds ++ c!"]") = (d :: ds) ++ c!"]" := rfl
        simp only [this, List.getLast_concat]
      simp only [stripTuple, List.cons_append, h1, h2]
      rw [if_pos (by decide)]
  have hsplit : (splitChar ';' (n ++ c!"; " ++ l)).map trim = [n, l] := by
    have : n ++ c!"; " ++ l = n ++ ';' :: (' ' :: l) := by simp
    rw [this, splitChar_append_cons hn.2, splitChar_of_not_mem]
    · simp only [List.map_cons, List.map_nil, hn.1]
      have : trim (' ' :: l) = l := by
        rw [show trim (' ' :: l) = trim l from ?_, hl.1]
        simp [trim, trimStart, isWs]
      rw [this]
    · simp [hl.2]
  have htup : arrayTuples [c!"[" ++ n ++ c!"; " ++ l ++ c!"]"] = some [(n, l)] := by
    unfold arrayTuples
    rw [hbody]
    simp only [arrayTuples]
    rw [hsplit]
    rfl
  unfold renameArgs
  simp only [htup, Option.map_some]
  refine ⟨_, rfl, by simp, ?_⟩
  intro i a b ha hb
  simp only [List.getElem?_map, ha, Option.map_some, Option.some.injEq] at hb
  subst hb
  have hla : (if rule.notNone.isSome = true then none else a.arrayLength) = none := by
    simp [hload a (List.mem_of_getElem? ha)]
  unfold setArrayLength
  simp only [hla]
  by_cases hp : (renTy a.ty).isPtrTy = true
  · cases hname : a.name with
    | none => simp [hp, hname]
    | some m =>
      by_cases hmn : argName f rule m = n
      · simp [hp, hname, hmn, List.lookup]
      · have : (argName f rule m == n) = false := by simpa using hmn
        simp [hp, hname, hmn, List.lookup, this]
  · simp [hp]

example : trim c!"buf" = c!"buf" ∧ ';' ∉ c!"buf" ∧ trim c!"16" = c!"16" ∧ ';' ∉ c!"16" := by
  decide +kernel

/-- **C48 (refuted).** The annotation refers to the name in the header, not to the Rust name: for an
argument called `int` the annotation `[[int; 3]]` has no effect. -/
theorem C48_rust_name_ignored (f : CaseFns) :
    ∃ out, renameArgs f id .none (some [c!"[int; 3]"])
      [⟨some c!"int", .ptr (.prim .bool) false true false, none⟩] = some out ∧
      ∀ a ∈ out, a.arrayLength = none := by
  obtain ⟨out, h1, h2, h3⟩ := C48_array_length_partial f id .none c!"int" c!"3"
    [⟨some c!"int", .ptr (.prim .bool) false true false, none⟩] (by simp) (by decide +kernel)
    (by decide +kernel)
  refine ⟨out, h1, ?_⟩
  intro a ha
  match out, h2 with
  | [b], _ =>
    simp at ha; subst ha
    have := (h3 0 _ a rfl rfl).2.2
    rw [this]
    have he : argName f .none c!"int" ≠ c!"int" := by
      simp only [argName, RenameRule.notNone]
      rw [escape_eq]; decide +kernel
    simp [he]

/-- **C48 (refuted).** `ptrs-as-arrays=[]` (a list with one empty entry) makes the generator panic. -/
theorem C48_empty_tuple_panics (f : CaseFns) (args : List FnArg) :
    renameArgs f id .none (some [c!""]) args = none := by
  simp [renameArgs, arrayTuples, stripTuple]

end Cbindgen
