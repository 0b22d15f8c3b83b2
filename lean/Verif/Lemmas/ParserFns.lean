import Verif.Lemmas.Crates

/-! # Lemmas about the functions among the entries -/

namespace Cbindgen

open CfgSpec ParserSpec

mutual
theorem mem_nestedEntries (cfg : ParseConfig) (crate : Str) : ∀ (items : List RItem)
    (stack : List Cfg) (x : Entry × Option Cfg), WfUnsafeAll items →
    x ∈ nestedEntries cfg crate stack items →
    ∃ attrs sub i m, .mod attrs .found sub ∈ items ∧ ¬ Ignored attrs ∧ Contains i sub ∧ WfUnsafe i ∧
      (x ∈ loadItem cfg crate m i ∨ x ∈ loadLate m i)
  | [], stack, x, _, h => by simp [nestedEntries] at h
  | i :: is, stack, x, hw, h => by
    simp only [nestedEntries, List.mem_append] at h
    rcases h with h | h
    · obtain ⟨a, s, j, m, h1, h2⟩ := mem_oneEntries cfg crate i stack x hw.1 h
      exact ⟨a, s, j, m, by simp [h1], h2⟩
    · obtain ⟨a, s, j, m, h1, h2⟩ := mem_nestedEntries cfg crate is stack x hw.2 h
      exact ⟨a, s, j, m, by simp [h1], h2⟩
theorem mem_oneEntries (cfg : ParseConfig) (crate : Str) : ∀ (i : RItem)
    (stack : List Cfg) (x : Entry × Option Cfg), WfUnsafe i → x ∈ oneEntries cfg crate stack i →
    ∃ attrs sub j m, i = .mod attrs .found sub ∧ ¬ Ignored attrs ∧ Contains j sub ∧ WfUnsafe j ∧
      (x ∈ loadItem cfg crate m j ∨ x ∈ loadLate m j)
  | .mod attrs .found sub, stack, x, hw, h => by
    simp only [oneEntries] at h
    split at h
    · simp at h
    · rename_i hs
      have hs' : ¬ Ignored attrs := fun hi => hs ((shouldSkip_iff _).mpr hi)
      rw [List.mem_append] at h
      rcases h with h | h
      · obtain ⟨j, hj, hji, hjm⟩ := (mem_loadMod _ _ _ _ _).mp h
        exact ⟨attrs, sub, j, _, rfl, hs', .here hj hji, (wfUnsafeAll_iff _).mp hw j hj, hjm⟩
      · obtain ⟨a', s', j, m, h1, h2, h3, h4⟩ := mem_nestedEntries cfg crate sub _ x hw h
        exact ⟨attrs, sub, j, m, rfl, hs', .nested h1 h2 h3, h4⟩
  | .mod attrs .missing sub, stack, x, _, h => by simp [oneEntries] at h
  | .mod attrs .broken sub, stack, x, _, h => by simp [oneEntries] at h
  | .fn _, stack, x, _, h => by simp [oneEntries] at h
  | .const _, stack, x, _, h => by simp [oneEntries] at h
  | .static _, stack, x, _, h => by simp [oneEntries] at h
  | .type _ _, stack, x, _, h => by simp [oneEntries] at h
  | .impl _ _ _ _ _, stack, x, _, h => by simp [oneEntries] at h
  | .foreign _ _ _, stack, x, _, h => by simp [oneEntries] at h
  | .bitflags _ _ _ _, stack, x, _, h => by simp [oneEntries] at h
  | .other _, stack, x, _, h => by simp [oneEntries] at h
end

theorem mem_modEntries (cfg : ParseConfig) (crate : Str) (items : List RItem) (stack : List Cfg)
    (x : Entry × Option Cfg) (hw : WfUnsafeAll items) (h : x ∈ modEntries cfg crate stack items) :
    ∃ i m, Contains i items ∧ WfUnsafe i ∧ (x ∈ loadItem cfg crate m i ∨ x ∈ loadLate m i) := by
  rw [modEntries, List.mem_append] at h
  rcases h with h | h
  · obtain ⟨j, hj, hji, hjm⟩ := (mem_loadMod _ _ _ _ _).mp h
    exact ⟨j, _, .here hj hji, (wfUnsafeAll_iff _).mp hw j hj, hjm⟩
  · obtain ⟨a, s, j, m, h1, h2, h3, h4⟩ := mem_nestedEntries cfg crate items stack x hw h
    exact ⟨j, m, .nested h1 h2 h3, h4⟩

theorem contains_modEntries (cfg : ParseConfig) (crate : Str) {i : RItem} {items : List RItem}
    (h : Contains i items) : ∀ (stack : List Cfg), WfUnsafeAll items →
    ∃ m, WfUnsafe i ∧ ∀ x, (x ∈ loadItem cfg crate m i ∨ x ∈ loadLate m i) →
      x ∈ modEntries cfg crate stack items := by
  induction h with
  | here hi hni =>
    intro stack hw
    refine ⟨Cfg.join stack, (wfUnsafeAll_iff _).mp hw i hi, fun x hx => ?_⟩
    rw [modEntries, List.mem_append]
    exact Or.inl ((mem_loadMod _ _ _ _ _).mpr ⟨i, hi, hni, hx⟩)
  | @nested items attrs sub hm hni _ ih =>
    intro stack hw
    obtain ⟨m, h1, h2⟩ := ih (stack ++ (Cfg.load attrs).toList) ((wfUnsafeAll_iff _).mp hw _ hm)
    refine ⟨m, h1, fun x hx => ?_⟩
    rw [modEntries, List.mem_append]
    refine Or.inr (mem_nested_of_mem cfg crate stack items _ hm _ ?_)
    have hs : shouldSkip attrs = false := (shouldSkip_false_iff _).mpr hni
    simp only [oneEntries, hs, Bool.false_eq_true, if_false]
    exact h2 x hx

theorem not_mem_loadImplConsts_fn (m : Option Cfg) (root : Option Str) (cs : List ConstSrc)
    (owner : Option Str) (name : Str) (g : Option Cfg) :
    (⟨.function, owner, name⟩, g) ∉ loadImplConsts m root cs := by
  cases root with
  | none => simp [loadImplConsts]
  | some r =>
    simp only [loadImplConsts]
    induction cs with
    | nil => simp [loadAssocConsts]
    | cons c cs ih =>
      unfold loadAssocConsts
      split
      · exact ih
      · split
        · simp
        · rw [List.mem_append]
          rintro (h | h)
          · split at h
            · simp [guarded] at h
            · simp at h
          · exact ih h

theorem mem_item_fn (cfg : ParseConfig) (crate : Str) (m : Option Cfg) (i : RItem) (hw : WfUnsafe i)
    (owner : Option Str) (name : Str) :
    (∃ g, (⟨.function, owner, name⟩, g) ∈ loadItem cfg crate m i ∨
      (⟨.function, owner, name⟩, g) ∈ loadLate m i) ↔
      Wanted cfg crate ∧ BindsFn i owner name := by
  cases i with
  | fn f =>
    constructor
    · rintro ⟨g, h | h⟩
      · obtain ⟨n, h1, h2, h3, h4, h5, _⟩ := (mem_loadFn cfg crate m none f hw _ g).mp h
        cases h5
        exact ⟨h1, .fn h2 h3 h4⟩
      · simp [loadLate] at h
    · rintro ⟨h1, hb⟩
      cases hb with
      | fn h2 h3 h4 =>
        exact ⟨_, Or.inl ((mem_loadFn cfg crate m none f hw _ _).mpr ⟨name, h1, h2, h3, h4, rfl, rfl⟩)⟩
  | foreign attrs abi fns =>
    have habi : ¬ (abi.isC = false ∧ abi.isOmitted = false) ↔
        (abi = .omitted ∨ abi = .named c!"C" ∨ abi = .named c!"C-unwind") := by
      cases abi <;> simp [Abi.isC, Abi.isOmitted]
      rename_i s
      by_cases h1 : s = c!"C" <;> simp [h1]
    constructor
    · rintro ⟨g, h | h⟩
      · simp only [loadItem] at h
        split at h
        · simp at h
        · rename_i hab
          obtain ⟨f, hf, h1, h2, h3, _⟩ := (mem_loadForeignFns _ _ _ _ _ _).mp h
          cases h3
          exact ⟨h1, .foreign (habi.mp hab) hf h2⟩
      · simp [loadLate] at h
    · rintro ⟨h1, hb⟩
      cases hb with
      | @foreign _ _ _ f ha hf hl =>
        refine ⟨Cfg.append (Cfg.append m (Cfg.load attrs)) (Cfg.load f.attrs), Or.inl ?_⟩
        simp only [loadItem]
        rw [if_neg (habi.mpr ha)]
        exact (mem_loadForeignFns _ _ _ _ _ _).mpr ⟨_, hf, h1, hl, rfl, rfl⟩
  | impl attrs self root methods consts =>
    constructor
    · rintro ⟨g, h | h⟩
      · simp only [loadItem] at h
        cases self with
        | none => simp [loadMethods] at h
        | some s =>
          simp only [loadMethods, List.mem_flatMap, List.mem_filter] at h
          obtain ⟨f, ⟨hf, hsk⟩, h⟩ := h
          obtain ⟨n, h1, h2, h3, h4, h5, _⟩ := (mem_loadFn cfg crate m _ f (hw f hf) _ g).mp h
          cases h5
          refine ⟨h1, .method hf ?_ h2 h3 h4⟩
          rw [← shouldSkip_false_iff]
          simpa using hsk
      · exact absurd h (not_mem_loadImplConsts_fn _ _ _ _ _ _)
    · rintro ⟨h1, hb⟩
      cases hb with
      | @method _ s _ _ _ f _ hf hni h2 h3 h4 =>
        refine ⟨Cfg.append m (Cfg.load f.attrs), Or.inl ?_⟩
        simp only [loadItem, loadMethods, List.mem_flatMap, List.mem_filter]
        refine ⟨f, ⟨hf, by simp [(shouldSkip_false_iff _).mpr hni]⟩, ?_⟩
        exact (mem_loadFn cfg crate m _ f (hw f hf) _ _).mpr ⟨name, h1, h2, h3, h4, rfl, rfl⟩
  | bitflags attrs struct root consts =>
    constructor
    · rintro ⟨g, h | h⟩
      · simp only [loadItem] at h
        split at h
        · simp at h
        · rw [List.mem_append] at h
          rcases h with h | h
          · split at h
            · simp [guarded] at h
            · simp at h
          · exact absurd h (not_mem_loadImplConsts_fn _ _ _ _ _ _)
      · simp [loadLate] at h
    · rintro ⟨_, hb⟩; cases hb
  | const c =>
    constructor
    · rintro ⟨g, h | h⟩
      · simp only [loadItem] at h
        split at h
        · simp at h
        · split at h
          · simp at h
          · split at h
            · simp [guarded] at h
            · simp at h
      · simp [loadLate] at h
    · rintro ⟨_, hb⟩; cases hb
  | static c =>
    constructor
    · rintro ⟨g, h | h⟩
      · simp only [loadItem] at h
        split at h
        · simp at h
        · split at h
          · split at h
            · simp [guarded] at h
            · simp at h
          · simp at h
      · simp [loadLate] at h
    · rintro ⟨_, hb⟩; cases hb
  | type ident attrs =>
    constructor
    · rintro ⟨g, h | h⟩
      · simp [loadItem, guarded] at h
      · simp [loadLate] at h
    · rintro ⟨_, hb⟩; cases hb
  | mod a s items =>
    constructor
    · rintro ⟨g, h | h⟩
      · simp [loadItem] at h
      · simp [loadLate] at h
    · rintro ⟨_, hb⟩; cases hb
  | other a =>
    constructor
    · rintro ⟨g, h | h⟩
      · simp [loadItem] at h
      · simp [loadLate] at h
    · rintro ⟨_, hb⟩; cases hb

end Cbindgen
