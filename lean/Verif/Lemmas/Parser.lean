import Verif.Spec.Parser

/-! # Lemmas about the parser model -/

namespace Cbindgen

open CfgSpec ParserSpec

/-! ## Guards -/

theorem parsedCfgs_eq (attrs : List Attr) : parsedCfgs attrs = cfgs attrs := by
  induction attrs with
  | nil => rfl
  | cons a as ih =>
    cases a with
    | cfg c => cases c <;> simp [parsedCfgs, cfgs, List.filterMap_cons, ih] <;> exact ih
    | _ => simpa [parsedCfgs, cfgs, List.filterMap_cons] using ih

theorem holdsAll_eq (on : Opt → Bool) (cs : List Cfg) : holdsAll on cs = cs.all (holds on) := by
  induction cs with
  | nil => rfl
  | cons c cs ih => simp [holdsAll, ih]

theorem holdsOpt_load (on : Opt → Bool) (attrs : List Attr) :
    holdsOpt on (Cfg.load attrs) = (cfgs attrs).all (holds on) := by
  unfold Cfg.load
  rw [parsedCfgs_eq]
  match cfgs attrs with
  | [] => rfl
  | [c] => simp [Cfg.ofAttrs, holdsOpt]
  | c :: d :: cs => simp [Cfg.ofAttrs, holdsOpt, holds, holdsAll, holdsAll_eq]

theorem load_toList_all (on : Opt → Bool) (attrs : List Attr) :
    (Cfg.load attrs).toList.all (holds on) = (cfgs attrs).all (holds on) := by
  rw [← holdsOpt_load]
  cases Cfg.load attrs <;> simp [holdsOpt]

theorem holdsOpt_append (on : Opt → Bool) (a b : Option Cfg) :
    holdsOpt on (Cfg.append a b) = (holdsOpt on a && holdsOpt on b) := by
  cases a <;> cases b <;> simp [Cfg.append, holdsOpt, holds, holdsAll]

theorem holdsOpt_join (on : Opt → Bool) (st : List Cfg) :
    holdsOpt on (Cfg.join st) = st.all (holds on) := by
  cases st <;> simp [Cfg.join, holdsOpt, holds, holdsAll, holdsAll_eq]

/-- All options have macros. -/
def MappedOpt (d : List (Str × Str)) (g : Option Cfg) : Prop := ∀ c, g = some c → Mapped d c

theorem mappedAll_iff (d : List (Str × Str)) (cs : List Cfg) : MappedAll d cs ↔ ∀ c ∈ cs, Mapped d c := by
  induction cs with
  | nil => simp [MappedAll]
  | cons c cs ih => simp [MappedAll, ih]

theorem mappedOpt_load {d : List (Str × Str)} {attrs : List Attr} (h : ∀ c ∈ cfgs attrs, Mapped d c) :
    MappedOpt d (Cfg.load attrs) := by
  unfold Cfg.load
  rw [parsedCfgs_eq]
  intro c hc
  match hcs : cfgs attrs, h, hc with
  | [], _, hc => simp [Cfg.ofAttrs] at hc
  | [x], h, hc => simp [Cfg.ofAttrs] at hc; subst hc; exact h _ (by simp)
  | x :: y :: cs, h, hc =>
    simp only [Cfg.ofAttrs, Option.some.injEq] at hc
    subst hc
    exact ⟨by simp, (mappedAll_iff _ _).mpr h⟩

theorem mappedOpt_append {d : List (Str × Str)} {a b : Option Cfg} (ha : MappedOpt d a) (hb : MappedOpt d b) :
    MappedOpt d (Cfg.append a b) := by
  intro c hc
  match a, b, ha, hb, hc with
  | none, none, _, _, hc => simp [Cfg.append] at hc
  | some x, none, ha, _, hc => simp [Cfg.append] at hc; subst hc; exact ha _ rfl
  | none, some x, _, hb, hc => simp [Cfg.append] at hc; subst hc; exact hb _ rfl
  | some x, some y, ha, hb, hc =>
    simp only [Cfg.append, Option.some.injEq] at hc
    subst hc
    exact ⟨by simp, ha _ rfl, hb _ rfl, trivial⟩

theorem mappedOpt_join {d : List (Str × Str)} {cs : List Cfg} (h : ∀ c ∈ cs, Mapped d c) : MappedOpt d (Cfg.join cs) := by
  intro c hc
  cases cs with
  | nil => simp [Cfg.join] at hc
  | cons x cs =>
    simp only [Cfg.join, List.isEmpty_cons, Bool.false_eq_true, if_false, Option.some.injEq] at hc
    subst hc
    exact ⟨by simp, (mappedAll_iff _ _).mpr h⟩

/-- `g` is the guard of something found inside a module with guard `m` under predicates `cs`. -/
def Below (m : Option Cfg) (cs : List Cfg) (g : Option Cfg) : Prop :=
  (∀ on, holdsOpt on g = (holdsOpt on m && cs.all (holds on))) ∧
    ∀ d, MappedOpt d m → (∀ c ∈ cs, Mapped d c) → MappedOpt d g

theorem below_guarded (m : Option Cfg) (attrs : List Attr) :
    Below m (cfgs attrs) (Cfg.append m (Cfg.load attrs)) := by
  refine ⟨fun on => ?_, fun d hm hc => mappedOpt_append hm (mappedOpt_load hc)⟩
  rw [holdsOpt_append, holdsOpt_load]

/-! ## Attributes -/

theorem shouldSkip_iff (attrs : List Attr) : shouldSkip attrs = true ↔ Ignored attrs := by
  simp only [shouldSkip, List.any_eq_true, Ignored]
  constructor
  · rintro ⟨a, ha, h⟩
    match a, h with
    | .word n, h => simp [isSkipAttr] at h; subst h; exact Or.inl ha
    | .cfg (some (.boolean n)), h => simp [isSkipAttr] at h; subst h; exact Or.inr (Or.inl ha)
    | .nameValue n (some v), h =>
      simp [isSkipAttr] at h
      obtain ⟨rfl, h⟩ := h
      exact Or.inr (Or.inr ⟨v, ha, h⟩)
  · rintro (h | h | ⟨v, h, hv⟩)
    · exact ⟨_, h, by simp [isSkipAttr]⟩
    · exact ⟨_, h, by simp [isSkipAttr]⟩
    · exact ⟨_, h, by simp [isSkipAttr, hv]⟩

theorem shouldSkip_false_iff (attrs : List Attr) : shouldSkip attrs = false ↔ ¬ Ignored attrs := by
  rw [← shouldSkip_iff]; simp

theorem attrLookup_eq (attrs : List Attr) : attrLookup c!"export_name" attrs =
    (attrs.filterMap plainExportName).head? := by
  induction attrs with
  | nil => rfl
  | cons a as ih =>
    unfold attrLookup at *
    rw [List.findSome?_cons, List.filterMap_cons]
    match a with
    | .nameValue n (some v) =>
      by_cases hn : n = c!"export_name"
      · simp [hn, plainExportName]
      · simp only [hn, if_false, plainExportName]
        exact ih
    | .nameValue n none =>
      by_cases hn : n = c!"export_name" <;> simp only [hn, if_true, if_false, plainExportName] <;>
        exact ih
    | .word n => exact ih
    | .cfg c => exact ih
    | .unsafeList c => exact ih
    | .repr _ => exact ih
    | .deprecated _ => exact ih
    | .other => exact ih

theorem unsafeAttrLookup_eq (attrs : List Attr) (h : UnsafeOne attrs) :
    unsafeAttrLookup c!"export_name" attrs = (attrs.filterMap unsafeExportName).head? := by
  induction attrs with
  | nil => rfl
  | cons a as ih =>
    have ih := ih (fun args ha => h args (by simp [ha]))
    unfold unsafeAttrLookup at *
    rw [List.findSome?_cons, List.filterMap_cons]
    match a with
    | .nameValue n v => exact ih
    | .word n => exact ih
    | .cfg c => exact ih
    | .repr _ => exact ih
    | .deprecated _ => exact ih
    | .other => exact ih
    | .unsafeList args =>
      have hl := h args (by simp)
      match args, hl with
      | [.word n], _ => exact ih
      | [.nameValue n none], _ =>
        by_cases hn : n = c!"export_name" <;>
          simp only [unsafePairs, pairLookup, unsafeExportName, hn, if_true, if_false,
            Option.map_some, Option.bind_some] <;> exact ih
      | [.nameValue n (some v)], _ =>
        by_cases hn : n = c!"export_name"
        · simp [unsafePairs, pairLookup, hn, unsafeExportName]
        · simp only [unsafePairs, pairLookup, unsafeExportName, hn, if_false,
            Option.map_some, Option.bind_some]
          exact ih

theorem isNoMangle_iff (attrs : List Attr) (h : UnsafeOne attrs) :
    isNoMangle attrs = true ↔ NoMangle attrs := by
  simp only [isNoMangle, NoMangle, Bool.or_eq_true, hasAttrWord, hasUnsafeAttrWord,
    List.any_eq_true]
  constructor
  · rintro (⟨a, ha, hb⟩ | ⟨a, ha, hb⟩)
    · cases a <;> simp at hb
      subst hb; exact Or.inl ha
    · cases a <;> simp at hb
      rename_i args
      have hl := h args ha
      match args, hl with
      | [.word n], _ =>
        simp [unsafeWords] at hb; subst hb; exact Or.inr ha
      | [.nameValue n v], _ => simp [unsafeWords] at hb
  · rintro (h | h)
    · exact Or.inl ⟨_, h, by simp⟩
    · exact Or.inr ⟨_, h, by simp [unsafeWords]⟩

theorem fnExportedName_iff (attrs : List Attr) (ident name : Str) (h : UnsafeOne attrs) :
    fnExportedName attrs ident = some name ↔ Exported attrs ident name := by
  unfold fnExportedName Exported exportNames
  rw [attrLookup_eq, unsafeAttrLookup_eq attrs h]
  generalize attrs.filterMap plainExportName = l1
  generalize attrs.filterMap unsafeExportName = l2
  cases l1 with
  | cons x l1 => simp
  | nil =>
    cases l2 with
    | cons x l2 => simp
    | nil =>
      rw [← isNoMangle_iff attrs h]
      cases isNoMangle attrs <;> simp [eq_comm]

theorem staticExportedName_iff (attrs : List Attr) (ident name : Str) (h : UnsafeOne attrs)
    (hr : ∀ args, .unsafeList args ∈ attrs → ∀ n v, .nameValue n v ∉ args) :
    staticExportedName attrs ident = some name ↔ Exported attrs ident name := by
  have h2 : attrs.filterMap unsafeExportName = [] := by
    rw [List.filterMap_eq_nil_iff]
    intro a ha
    unfold unsafeExportName
    split
    · rename_i n v
      exact absurd (by simp) (hr _ ha n v)
    · rfl
  unfold staticExportedName Exported exportNames
  rw [attrLookup_eq, h2, List.append_nil]
  generalize attrs.filterMap plainExportName = l1
  cases l1 with
  | cons x l1 => simp
  | nil =>
    rw [← isNoMangle_iff attrs h]
    cases isNoMangle attrs <;> simp [eq_comm]

theorem topLevel_iff (cfg : ParseConfig) (crate : Str) :
    cfg.topLevel crate = true ↔ Wanted cfg crate := by
  simp [ParseConfig.topLevel, Wanted]

theorem ccompatible_iff (a : Abi) :
    (a.isOmitted || a.isC || a.isCmse) = true ↔ CCompatible a := by
  cases a <;> simp [Abi.isOmitted, Abi.isC, Abi.isCmse, CCompatible, or_assoc]

/-! ## Items -/

theorem mem_loadFn (cfg : ParseConfig) (crate : Str) (m : Option Cfg) (owner : Option Str)
    (f : FnItem) (hf : UnsafeOne f.attrs) (e : Entry) (g : Option Cfg) :
    (e, g) ∈ loadFn cfg crate m owner f ↔
      ∃ name, Wanted cfg crate ∧ CCompatible f.abi ∧ f.loads = true ∧
        Exported f.attrs f.ident name ∧ e = ⟨.function, owner, name⟩ ∧
        g = Cfg.append m (Cfg.load f.attrs) := by
  unfold loadFn
  rw [← topLevel_iff, ← ccompatible_iff]
  by_cases h1 : cfg.topLevel crate = true
  · simp only [h1, Bool.true_eq_false, if_false]
    by_cases h2 : (f.abi.isOmitted || f.abi.isC || f.abi.isCmse) = true
    · simp only [h2]
      cases h3 : fnExportedName f.attrs f.ident with
      | none =>
        simp only [List.not_mem_nil, false_iff]
        rintro ⟨name, _, _, _, he, _⟩
        rw [← fnExportedName_iff _ _ _ hf, h3] at he
        cases he
      | some n =>
        have : ∀ name, Exported f.attrs f.ident name ↔ name = n := by
          intro name
          rw [← fnExportedName_iff _ _ _ hf, h3]
          simp [eq_comm]
        simp only [this]
        by_cases h4 : f.loads = true
        · simp [h4, guarded]
        · simp [h4]
    · have h2' : (f.abi.isOmitted || f.abi.isC || f.abi.isCmse) = false := by simpa using h2
      simp [h2']
  · have h1' : cfg.topLevel crate = false := by simpa using h1
    simp [h1']

theorem mem_loadForeignFns (cfg : ParseConfig) (crate : Str) (m : Option Cfg) (fs : List FnItem)
    (e : Entry) (g : Option Cfg) :
    (e, g) ∈ loadForeignFns cfg crate m fs ↔
      ∃ f ∈ fs, Wanted cfg crate ∧ f.loads = true ∧ e = ⟨.function, none, f.ident⟩ ∧
        g = Cfg.append m (Cfg.load f.attrs) := by
  rw [← topLevel_iff]
  induction fs with
  | nil => simp [loadForeignFns]
  | cons f fs ih =>
    unfold loadForeignFns
    by_cases h1 : cfg.topLevel crate = true
    · simp only [h1, Bool.true_eq_false, if_false, List.mem_append, ih, List.mem_cons]
      by_cases h2 : f.loads = true
      · simp [h2, guarded, h1]
      · simp [h2, h1]
    · have h1' : cfg.topLevel crate = false := by simpa using h1
      simp [h1']

theorem mem_loadAssocConsts (m : Option Cfg) (root : Str) (cs : List ConstSrc)
    (hp : ∀ c ∈ cs, c.isPub = true) (e : Entry) (g : Option Cfg) :
    (e, g) ∈ loadAssocConsts m root cs ↔
      ∃ c ∈ cs, ¬ Ignored c.attrs ∧ c.loads = true ∧ e = ⟨.assocConst, some root, c.ident⟩ ∧
        g = Cfg.append m (Cfg.load c.attrs) := by
  induction cs with
  | nil => simp [loadAssocConsts]
  | cons c cs ih =>
    have ih := ih (fun c hc => hp c (by simp [hc]))
    unfold loadAssocConsts
    by_cases h1 : shouldSkip c.attrs = true
    · have h1' := (shouldSkip_iff _).mp h1
      simp [h1, ih, h1']
    · have h1' : ¬ Ignored c.attrs := fun h => h1 ((shouldSkip_iff _).mpr h)
      have hpc := hp c (by simp)
      simp only [h1, Bool.false_eq_true, if_false, hpc, Bool.true_eq_false, List.mem_append, ih,
        List.mem_cons]
      by_cases h2 : c.loads = true
      · simp [h2, guarded, h1']
      · simp [h2]

/-- What one item contributes, in either loop. -/
theorem mem_item (cfg : ParseConfig) (crate : Str) (m : Option Cfg) (i : RItem) (hr : Regular i)
    (hw : WfUnsafe i) :
    (∀ e g, (e, g) ∈ loadItem cfg crate m i ∨ (e, g) ∈ loadLate m i →
      ∃ cs, Declares cfg crate i e cs ∧ Below m cs g) ∧
    (∀ e cs, Declares cfg crate i e cs →
      ∃ g, ((e, g) ∈ loadItem cfg crate m i ∨ (e, g) ∈ loadLate m i) ∧ Below m cs g) := by
  cases i with
  | fn f =>
    refine ⟨?_, ?_⟩
    · rintro e g (h | h)
      · obtain ⟨n, h1, h2, h3, h4, rfl, rfl⟩ := (mem_loadFn cfg crate m none f hw e g).mp h
        exact ⟨_, .fn h1 h2 h3 h4, below_guarded _ _⟩
      · simp [loadLate] at h
    · intro e cs h
      cases h with
      | fn h1 h2 h3 h4 =>
        exact ⟨_, Or.inl ((mem_loadFn cfg crate m none f hw _ _).mpr
          ⟨_, h1, h2, h3, h4, rfl, rfl⟩), below_guarded _ _⟩
  | const c =>
    refine ⟨?_, ?_⟩
    · rintro e g (h | h)
      · simp only [loadItem] at h
        split at h
        · simp at h
        · split at h
          · simp at h
          · split at h
            · rename_i h1 h2 h3
              simp [guarded] at h
              obtain ⟨rfl, rfl⟩ := h
              exact ⟨_, .const ((topLevel_iff _ _).mp (by simpa using h1)) (by simpa using h2) h3,
                below_guarded _ _⟩
            · simp at h
      · simp [loadLate] at h
    · intro e cs h
      cases h with
      | const h1 h2 h3 =>
        refine ⟨_, Or.inl ?_, below_guarded _ _⟩
        simp [loadItem, (topLevel_iff _ _).mpr h1, h2, h3, guarded]
  | static c =>
    refine ⟨?_, ?_⟩
    · rintro e g (h | h)
      · simp only [loadItem] at h
        split at h
        · simp at h
        · rename_i h1
          split at h
          · rename_i h2
            split at h
            · rename_i h3
              simp [guarded] at h
              obtain ⟨rfl, rfl⟩ := h
              exact ⟨_, .static ((topLevel_iff _ _).mp (by simpa using h1)) h3
                ((staticExportedName_iff _ _ _ hw hr).mp h2), below_guarded _ _⟩
            · simp at h
          · simp at h
      · simp [loadLate] at h
    · intro e cs h
      cases h with
      | static h1 h2 h3 =>
        refine ⟨_, Or.inl ?_, below_guarded _ _⟩
        simp [loadItem, (topLevel_iff _ _).mpr h1, (staticExportedName_iff _ _ _ hw hr).mpr h3, h2,
          guarded]
  | type ident attrs =>
    refine ⟨?_, ?_⟩
    · rintro e g (h | h)
      · simp [loadItem, guarded] at h
        obtain ⟨rfl, rfl⟩ := h
        exact ⟨_, .type, below_guarded _ _⟩
      · simp [loadLate] at h
    · intro e cs h
      cases h
      exact ⟨_, Or.inl (by simp [loadItem, guarded]), below_guarded _ _⟩
  | impl attrs self root methods consts =>
    refine ⟨?_, ?_⟩
    · rintro e g (h | h)
      · cases self with
        | none => simp [loadItem, loadMethods] at h
        | some s =>
          simp only [loadItem, loadMethods, List.mem_flatMap, List.mem_filter] at h
          obtain ⟨f, ⟨hf, hs⟩, h⟩ := h
          obtain ⟨n, h1, h2, h3, h4, rfl, rfl⟩ := (mem_loadFn cfg crate m _ f (hw f hf) e g).mp h
          have := below_guarded m f.attrs
          have hd := Declares.method (attrs := attrs) (root := root) (consts := consts) (self := s)
            hf ((shouldSkip_false_iff _).mp (by simpa using hs)) h1 h2 h3 h4
          rw [hr.1, List.nil_append] at hd
          exact ⟨_, hd, this⟩
      · cases root with
        | none => simp [loadLate, loadImplConsts] at h
        | some r =>
          simp only [loadLate, loadImplConsts] at h
          obtain ⟨c, hc, h1, h2, rfl, rfl⟩ := (mem_loadAssocConsts m r consts hr.2 e g).mp h
          have hd := Declares.assocConst (cfg := cfg) (crate := crate) (attrs := attrs)
            (root := r) (self := self) (methods := methods) hc h1 (hr.2 c hc) h2
          rw [hr.1, List.nil_append] at hd
          exact ⟨_, hd, below_guarded _ _⟩
    · intro e cs h
      cases h with
      | method hm hi h1 h2 h3 h4 =>
        rw [hr.1, List.nil_append]
        refine ⟨_, Or.inl ?_, below_guarded _ _⟩
        simp only [loadItem, loadMethods, List.mem_flatMap, List.mem_filter]
        exact ⟨_, ⟨hm, by simpa using (shouldSkip_false_iff _).mpr hi⟩,
          (mem_loadFn cfg crate m _ _ (hw _ hm) _ _).mpr ⟨_, h1, h2, h3, h4, rfl, rfl⟩⟩
      | assocConst hm hi h1 h2 =>
        rw [hr.1, List.nil_append]
        refine ⟨_, Or.inr ?_, below_guarded _ _⟩
        exact (mem_loadAssocConsts m _ consts hr.2 _ _).mpr ⟨_, hm, hi, h2, rfl, rfl⟩
  | foreign attrs abi fns =>
    have habi : (abi.isC = false ∧ abi.isOmitted = false) ↔
        ¬ (abi = .omitted ∨ abi = .named c!"C" ∨ abi = .named c!"C-unwind") := by
      cases abi <;> simp [Abi.isC, Abi.isOmitted]
    have hb : ∀ f : FnItem, Below m (cfgs attrs ++ cfgs f.attrs)
        (Cfg.append (Cfg.append m (Cfg.load attrs)) (Cfg.load f.attrs)) := by
      intro f
      refine ⟨fun on => ?_, fun d hm hc => ?_⟩
      · rw [holdsOpt_append, holdsOpt_append, holdsOpt_load, holdsOpt_load, List.all_append,
          Bool.and_assoc]
      · exact mappedOpt_append (mappedOpt_append hm (mappedOpt_load fun c h => hc c (by simp [h])))
          (mappedOpt_load fun c h => hc c (by simp [h]))
    refine ⟨?_, ?_⟩
    · rintro e g (h | h)
      · simp only [loadItem] at h
        split at h
        · simp at h
        · rename_i hn
          rw [habi, Classical.not_not] at hn
          obtain ⟨f, hf, h1, h2, rfl, rfl⟩ := (mem_loadForeignFns cfg crate _ fns e g).mp h
          exact ⟨_, .foreign hn hf (hr f hf) h1 h2, hb f⟩
      · simp [loadLate] at h
    · intro e cs h
      cases h with
      | foreign ha hf hi h1 h2 =>
        refine ⟨_, Or.inl ?_, hb _⟩
        have hn : ¬ (abi.isC = false ∧ abi.isOmitted = false) := by
          rw [habi, Classical.not_not]; exact ha
        simp only [loadItem, hn, if_false]
        exact (mem_loadForeignFns cfg crate _ fns _ _).mpr ⟨_, hf, h1, h2, rfl, rfl⟩
  | bitflags attrs struct root consts =>
    refine ⟨?_, ?_⟩
    · rintro e g (h | h)
      · simp only [loadItem] at h
        split at h
        · simp at h
        · rename_i he
          rw [List.mem_append] at h
          rcases h with h | h
          · cases struct with
            | none => simp at h
            | some s =>
              obtain ⟨ident, sattrs⟩ := s
              simp [guarded] at h
              obtain ⟨rfl, rfl⟩ := h
              have hd := Declares.flagsStruct (cfg := cfg) (crate := crate) (attrs := attrs)
                (ident := ident) (sattrs := sattrs) (root := root) (consts := consts)
                (by simpa using he)
              rw [hr.1, List.nil_append] at hd
              exact ⟨_, hd, below_guarded _ _⟩
          · cases root with
            | none => simp [loadImplConsts] at h
            | some r =>
              simp only [loadImplConsts] at h
              obtain ⟨c, hc, h1, h2, rfl, rfl⟩ := (mem_loadAssocConsts m r consts hr.2 e g).mp h
              have hd := Declares.flagsConst (cfg := cfg) (crate := crate) (attrs := attrs)
                (root := r) (struct := struct) (by simpa using he) hc h1 (hr.2 c hc) h2
              rw [hr.1, List.nil_append] at hd
              exact ⟨_, hd, below_guarded _ _⟩
      · simp [loadLate] at h
    · intro e cs h
      cases h with
      | flagsStruct he =>
        rw [hr.1, List.nil_append]
        exact ⟨_, Or.inl (by simp [loadItem, he, guarded]), below_guarded _ _⟩
      | flagsConst he hm hi h1 h2 =>
        rw [hr.1, List.nil_append]
        refine ⟨_, Or.inl ?_, below_guarded _ _⟩
        simp only [loadItem, he, Bool.true_eq_false, if_false, List.mem_append]
        exact Or.inr ((mem_loadAssocConsts m _ consts hr.2 _ _).mpr ⟨_, hm, hi, h2, rfl, rfl⟩)
  | mod attrs s sub =>
    refine ⟨?_, ?_⟩
    · rintro e g (h | h) <;> simp [loadItem, loadLate] at h
    · intro e cs h; cases h
  | other attrs =>
    refine ⟨?_, ?_⟩
    · rintro e g (h | h) <;> simp [loadItem, loadLate] at h
    · intro e cs h; cases h

theorem regularAll_iff (is : List RItem) : RegularAll is ↔ ∀ i ∈ is, Regular i := by
  induction is with
  | nil => simp [RegularAll]
  | cons i is ih => simp [RegularAll, ih]

theorem wfUnsafeAll_iff (is : List RItem) : WfUnsafeAll is ↔ ∀ i ∈ is, WfUnsafe i := by
  induction is with
  | nil => simp [WfUnsafeAll]
  | cons i is ih => simp [WfUnsafeAll, ih]

theorem mem_notSkipped (items : List RItem) (i : RItem) :
    i ∈ notSkipped items ↔ i ∈ items ∧ ¬ Ignored i.attrs := by
  simp only [notSkipped, List.mem_filter, decide_eq_true_eq]
  rw [shouldSkip_false_iff]

theorem mem_loadMod (cfg : ParseConfig) (crate : Str) (m : Option Cfg) (items : List RItem)
    (x : Entry × Option Cfg) : x ∈ loadMod cfg crate m items ↔
      ∃ i ∈ items, ¬ Ignored i.attrs ∧ (x ∈ loadItem cfg crate m i ∨ x ∈ loadLate m i) := by
  simp only [loadMod, List.mem_append, List.mem_flatMap, mem_notSkipped]
  constructor
  · rintro (⟨i, ⟨h1, h2⟩, h3⟩ | ⟨i, ⟨h1, h2⟩, h3⟩)
    · exact ⟨i, h1, h2, Or.inl h3⟩
    · exact ⟨i, h1, h2, Or.inr h3⟩
  · rintro ⟨i, h1, h2, h3 | h3⟩
    · exact Or.inl ⟨i, ⟨h1, h2⟩, h3⟩
    · exact Or.inr ⟨i, ⟨h1, h2⟩, h3⟩

/-! ## Modules -/

mutual
/-- What the nested modules among the items contribute, for a given cfg stack. -/
def nestedEntries (cfg : ParseConfig) (crate : Str) (stack : List Cfg) :
    List RItem → List (Entry × Option Cfg)
  | [] => []
  | i :: is => oneEntries cfg crate stack i ++ nestedEntries cfg crate stack is
def oneEntries (cfg : ParseConfig) (crate : Str) (stack : List Cfg) :
    RItem → List (Entry × Option Cfg)
  | .mod attrs .found sub =>
    if shouldSkip attrs then []
    else
      loadMod cfg crate (Cfg.join (stack ++ (Cfg.load attrs).toList)) sub ++
        nestedEntries cfg crate (stack ++ (Cfg.load attrs).toList) sub
  | _ => []
end

/-- Everything that a module contributes. -/
def modEntries (cfg : ParseConfig) (crate : Str) (stack : List Cfg) (items : List RItem) :
    List (Entry × Option Cfg) :=
  loadMod cfg crate (Cfg.join stack) items ++ nestedEntries cfg crate stack items

theorem push_eq (st : PState) (c : Option Cfg) :
    st.push c = { st with stack := st.stack ++ c.toList } := by
  cases c <;> simp [PState.push]

theorem pop_push (st : PState) (stack : List Cfg) (c : Option Cfg) :
    PState.pop { st with stack := stack ++ c.toList } c = { st with stack := stack } := by
  cases c <;> simp [PState.pop]

mutual
theorem processNested_eq (cfg : ParseConfig) (crate : Str) : ∀ (items : List RItem) (st st' : PState),
    processNested cfg crate st items = .ok st' →
    st' = { st with out := st.out ++ nestedEntries cfg crate st.stack items }
  | [], st, st', h => by
    simp only [processNested, Except.ok.injEq] at h
    subst h; simp [nestedEntries]
  | i :: is, st, st', h => by
    simp only [processNested] at h
    split at h
    · rename_i st1 h1
      have e1 := processOne_eq cfg crate i st st1 h1
      have e2 := processNested_eq cfg crate is st1 st' h
      rw [e2, e1]
      simp [nestedEntries]
    · cases h
theorem processOne_eq (cfg : ParseConfig) (crate : Str) : ∀ (i : RItem) (st st' : PState),
    processOne cfg crate st i = .ok st' →
    st' = { st with out := st.out ++ oneEntries cfg crate st.stack i }
  | .mod attrs .found sub, st, st', h => by
    simp only [processOne] at h
    split at h
    · rename_i hs
      simp only [Except.ok.injEq] at h
      subst h; simp [oneEntries, hs]
    · rename_i hs
      split at h
      · rename_i st1 h1
        simp only [Except.ok.injEq] at h
        have e1 := processNested_eq cfg crate sub _ st1 h1
        rw [← h, e1]
        simp only [enterMod, push_eq, oneEntries, hs]
        cases Cfg.load attrs <;> simp [PState.pop]
      · cases h
  | .mod attrs .missing sub, st, st', h => by
    simp only [processOne, Except.ok.injEq] at h
    subst h; simp [oneEntries]
  | .mod attrs .broken sub, st, st', h => by
    simp only [processOne] at h
    split at h
    · simp only [Except.ok.injEq] at h
      subst h; simp [oneEntries]
    · cases h
  | .fn _, st, st', h => by
    simp only [processOne, Except.ok.injEq] at h; subst h; simp [oneEntries]
  | .const _, st, st', h => by
    simp only [processOne, Except.ok.injEq] at h; subst h; simp [oneEntries]
  | .static _, st, st', h => by
    simp only [processOne, Except.ok.injEq] at h; subst h; simp [oneEntries]
  | .type _ _, st, st', h => by
    simp only [processOne, Except.ok.injEq] at h; subst h; simp [oneEntries]
  | .impl _ _ _ _ _, st, st', h => by
    simp only [processOne, Except.ok.injEq] at h; subst h; simp [oneEntries]
  | .foreign _ _ _, st, st', h => by
    simp only [processOne, Except.ok.injEq] at h; subst h; simp [oneEntries]
  | .bitflags _ _ _ _, st, st', h => by
    simp only [processOne, Except.ok.injEq] at h; subst h; simp [oneEntries]
  | .other _, st, st', h => by
    simp only [processOne, Except.ok.injEq] at h; subst h; simp [oneEntries]
end

theorem processMod_eq (cfg : ParseConfig) (crate : Str) (st st' : PState) (items : List RItem)
    (h : processMod cfg crate st items = .ok st') :
    st' = { st with out := st.out ++ modEntries cfg crate st.stack items } := by
  have := processNested_eq cfg crate items _ st' h
  rw [this]
  simp [enterMod, modEntries]

/-! ## Modules against the specification -/

/-- Guards below a cfg stack. -/
theorem below_join {stack : List Cfg} {cs : List Cfg} {g : Option Cfg}
    (h : Below (Cfg.join stack) cs g) : GuardIs g (stack ++ cs) := by
  refine ⟨fun on => ?_, fun d hm => h.2 d (mappedOpt_join fun c hc => hm c (by simp [hc])) fun c hc => hm c (by simp [hc])⟩
  rw [h.1 on, holdsOpt_join, List.all_append]

theorem guardIs_congr {g : Option Cfg} {as bs : List Cfg} (h : GuardIs g as)
    (hab : ∀ on, as.all (holds on) = bs.all (holds on))
    (hm : ∀ d, (∀ c ∈ bs, Mapped d c) → ∀ c ∈ as, Mapped d c) : GuardIs g bs :=
  ⟨fun on => by rw [h.1 on, hab on], fun d hd => h.2 d (hm d hd)⟩

theorem mapped_stack (stack : List Cfg) (attrs : List Attr) (cs : List Cfg) (d : List (Str × Str))
    (h : ∀ c ∈ stack ++ (cfgs attrs ++ cs), Mapped d c) :
    ∀ c ∈ stack ++ (Cfg.load attrs).toList ++ cs, Mapped d c := by
  intro c hc
  simp only [List.mem_append, Option.mem_toList] at hc
  rcases hc with (hc | hc) | hc
  · exact h c (by simp [hc])
  · exact mappedOpt_load (fun c hc => h c (by simp [hc])) c hc
  · exact h c (by simp [hc])

mutual
theorem nested_sound (cfg : ParseConfig) (crate : Str) : ∀ (items : List RItem) (stack : List Cfg)
    (e : Entry) (g : Option Cfg), RegularAll items → WfUnsafeAll items →
    (e, g) ∈ nestedEntries cfg crate stack items →
    ∃ attrs sub cs, .mod attrs .found sub ∈ items ∧ ¬ Ignored attrs ∧ InMod cfg crate sub e cs ∧
      GuardIs g (stack ++ (cfgs attrs ++ cs))
  | [], stack, e, g, _, _, h => by simp [nestedEntries] at h
  | i :: is, stack, e, g, hr, hw, h => by
    simp only [nestedEntries, List.mem_append] at h
    rcases h with h | h
    · obtain ⟨attrs, sub, cs, h1, h2, h3, h4⟩ := one_sound cfg crate i stack e g hr.1 hw.1 h
      exact ⟨attrs, sub, cs, by simp [h1], h2, h3, h4⟩
    · obtain ⟨attrs, sub, cs, h1, h2⟩ := nested_sound cfg crate is stack e g hr.2 hw.2 h
      exact ⟨attrs, sub, cs, by simp [h1], h2⟩
theorem one_sound (cfg : ParseConfig) (crate : Str) : ∀ (i : RItem) (stack : List Cfg)
    (e : Entry) (g : Option Cfg), Regular i → WfUnsafe i →
    (e, g) ∈ oneEntries cfg crate stack i →
    ∃ attrs sub cs, i = .mod attrs .found sub ∧ ¬ Ignored attrs ∧ InMod cfg crate sub e cs ∧
      GuardIs g (stack ++ (cfgs attrs ++ cs))
  | .mod attrs .found sub, stack, e, g, hr, hw, h => by
    simp only [oneEntries] at h
    split at h
    · simp at h
    · rename_i hs
      have hs' : ¬ Ignored attrs := fun hi => hs ((shouldSkip_iff _).mpr hi)
      have hall : ∀ (cs : List Cfg) on, (stack ++ (Cfg.load attrs).toList ++ cs).all (holds on) =
          (stack ++ (cfgs attrs ++ cs)).all (holds on) := by
        intro cs on
        simp only [List.all_append, load_toList_all, Bool.and_assoc]
      have hmap : ∀ (cs : List Cfg) d, (∀ c ∈ stack ++ (cfgs attrs ++ cs), Mapped d c) →
          ∀ c ∈ stack ++ (Cfg.load attrs).toList ++ cs, Mapped d c := mapped_stack stack attrs
      rw [List.mem_append] at h
      rcases h with h | h
      · obtain ⟨j, hj, hji, hjm⟩ := (mem_loadMod _ _ _ _ _).mp h
        obtain ⟨cs, h1, h2⟩ := (mem_item cfg crate _ j ((regularAll_iff _).mp hr j hj)
          ((wfUnsafeAll_iff _).mp hw j hj)).1 e g hjm
        exact ⟨attrs, sub, cs, rfl, hs', .here hj hji h1,
          guardIs_congr (below_join h2) (hall cs) (hmap cs)⟩
      · obtain ⟨a', s', cs, h1, h2, h3, h4⟩ := nested_sound cfg crate sub _ e g hr hw h
        exact ⟨attrs, sub, _, rfl, hs', .nested h1 h2 h3, guardIs_congr h4 (hall _) (hmap _)⟩
  | .mod attrs .missing sub, stack, e, g, _, _, h => by simp [oneEntries] at h
  | .mod attrs .broken sub, stack, e, g, _, _, h => by simp [oneEntries] at h
  | .fn _, stack, e, g, _, _, h => by simp [oneEntries] at h
  | .const _, stack, e, g, _, _, h => by simp [oneEntries] at h
  | .static _, stack, e, g, _, _, h => by simp [oneEntries] at h
  | .type _ _, stack, e, g, _, _, h => by simp [oneEntries] at h
  | .impl _ _ _ _ _, stack, e, g, _, _, h => by simp [oneEntries] at h
  | .foreign _ _ _, stack, e, g, _, _, h => by simp [oneEntries] at h
  | .bitflags _ _ _ _, stack, e, g, _, _, h => by simp [oneEntries] at h
  | .other _, stack, e, g, _, _, h => by simp [oneEntries] at h
end

theorem mod_sound (cfg : ParseConfig) (crate : Str) (items : List RItem) (stack : List Cfg)
    (e : Entry) (g : Option Cfg) (hr : RegularAll items) (hw : WfUnsafeAll items)
    (h : (e, g) ∈ modEntries cfg crate stack items) :
    ∃ cs, InMod cfg crate items e cs ∧ GuardIs g (stack ++ cs) := by
  rw [modEntries, List.mem_append] at h
  rcases h with h | h
  · obtain ⟨j, hj, hji, hjm⟩ := (mem_loadMod _ _ _ _ _).mp h
    obtain ⟨cs, h1, h2⟩ := (mem_item cfg crate _ j ((regularAll_iff _).mp hr j hj)
      ((wfUnsafeAll_iff _).mp hw j hj)).1 e g hjm
    exact ⟨cs, .here hj hji h1, below_join h2⟩
  · obtain ⟨attrs, sub, cs, h1, h2, h3, h4⟩ := nested_sound cfg crate items stack e g hr hw h
    exact ⟨_, .nested h1 h2 h3, h4⟩

theorem mem_nested_of_mem (cfg : ParseConfig) (crate : Str) (stack : List Cfg) (items : List RItem)
    (i : RItem) (hi : i ∈ items) (x : Entry × Option Cfg) (hx : x ∈ oneEntries cfg crate stack i) :
    x ∈ nestedEntries cfg crate stack items := by
  induction items with
  | nil => simp at hi
  | cons j js ih =>
    simp only [nestedEntries, List.mem_append]
    rcases List.mem_cons.mp hi with rfl | hi
    · exact Or.inl hx
    · exact Or.inr (ih hi)

theorem mod_complete (cfg : ParseConfig) (crate : Str) (items : List RItem) (e : Entry)
    (cs : List Cfg) (h : InMod cfg crate items e cs) : ∀ (stack : List Cfg),
    RegularAll items → WfUnsafeAll items →
    ∃ g, (e, g) ∈ modEntries cfg crate stack items ∧ GuardIs g (stack ++ cs) := by
  induction h with
  | @here items i e cs hi hni hd =>
    intro stack hr hw
    obtain ⟨g, h1, h2⟩ := (mem_item cfg crate (Cfg.join stack) i ((regularAll_iff _).mp hr i hi)
      ((wfUnsafeAll_iff _).mp hw i hi)).2 e cs hd
    exact ⟨g, by rw [modEntries, List.mem_append]; exact Or.inl ((mem_loadMod _ _ _ _ _).mpr
      ⟨i, hi, hni, h1⟩), below_join h2⟩
  | @nested items attrs sub e cs hi hni hin ih =>
    intro stack hr hw
    obtain ⟨g, h1, h2⟩ := ih (stack ++ (Cfg.load attrs).toList)
      ((regularAll_iff _).mp hr _ hi) ((wfUnsafeAll_iff _).mp hw _ hi)
    refine ⟨g, ?_, guardIs_congr h2 ?_ (mapped_stack stack attrs cs)⟩
    · rw [modEntries, List.mem_append]
      refine Or.inr (mem_nested_of_mem cfg crate stack items _ hi _ ?_)
      have hs : shouldSkip attrs = false := (shouldSkip_false_iff _).mpr hni
      simp only [oneEntries, hs, Bool.false_eq_true, if_false]
      exact h1
    · intro on
      simp only [List.all_append, load_toList_all, Bool.and_assoc]

end Cbindgen
