import Verif.Lemmas.ConfigSections
import Verif.Spec.Builder

/-! # Lemmas for C83 -/

namespace Cbindgen
open FileSpec

/-! ## Changes of files -/

theorem mem_putKey {k k' : Str} {v w : Toml} : ∀ {es : List (Str × Toml)}, (es.map (·.1)).Nodup →
    ((k', w) ∈ putKey k v es ↔ (k' = k ∧ w = v) ∨ (k' ≠ k ∧ (k', w) ∈ es))
  | [], _ => by simp [putKey]
  | (k₁, v₁) :: es, h => by
    have h' := List.nodup_cons.1 h
    unfold putKey
    by_cases hk : k₁ = k
    · subst hk
      have hn : ∀ u, (k₁, u) ∉ es := fun u hu => h'.1 (List.mem_map.2 ⟨_, hu, rfl⟩)
      simp only [if_true, List.mem_cons, Prod.mk.injEq]
      constructor
      · rintro (h1 | h1)
        · exact .inl h1
        · refine .inr ⟨?_, .inr h1⟩
          rintro rfl
          exact hn _ h1
      · rintro (h1 | ⟨h1, h2 | h2⟩)
        · exact .inl h1
        · exact absurd h2.1 h1
        · exact .inr h2
    · rw [if_neg hk, List.mem_cons, mem_putKey h'.2, List.mem_cons]
      simp only [Prod.mk.injEq]
      constructor
      · rintro (⟨rfl, rfl⟩ | h1 | ⟨h1, h2⟩)
        · exact .inr ⟨hk, .inl ⟨rfl, rfl⟩⟩
        · exact .inl h1
        · exact .inr ⟨h1, .inr h2⟩
      · rintro (h1 | ⟨h1, h2 | h2⟩)
        · exact .inr (.inl h1)
        · exact .inl h2
        · exact .inr (.inr ⟨h1, h2⟩)

theorem putKey_keys {k : Str} {v : Toml} : ∀ {es : List (Str × Toml)}, (es.map (·.1)).Nodup → ((putKey k v es).map (·.1)).Nodup
  | [], _ => by simp [putKey]
  | (k₁, v₁) :: es, h => by
    have h' := List.nodup_cons.1 h
    unfold putKey
    by_cases hk : k₁ = k
    · subst hk
      simpa using h
    · rw [if_neg hk]
      refine List.nodup_cons.2 ⟨?_, putKey_keys h'.2⟩
      intro hm
      obtain ⟨⟨k₂, w⟩, h1, h2⟩ := List.mem_map.1 hm
      subst h2
      rcases (mem_putKey h'.2).1 h1 with ⟨h3, _⟩ | ⟨_, h3⟩
      · exact hk h3
      · exact h'.1 (List.mem_map.2 ⟨_, h3, rfl⟩)

/-- The value at a path. -/
def look : List Str → Option Toml → Option Toml
  | [], o => o
  | k :: p, some (.table es) => look p (es.lookup k)
  | _ :: _, _ => none

def WFo (o : Option Toml) : Prop := ∀ t, o = some t → WellFormed t

theorem wfo_lookup {es : List (Str × Toml)} (h : WFo (some (.table es))) (k : Str) : WFo (es.lookup k) := fun _ ht =>
  wf_inner (h _ rfl) (entry_mem ht)

theorem keys_of {es : List (Str × Toml)} (h : WFo (some (.table es))) : (es.map (·.1)).Nodup := h _ rfl [] es .here

theorem look_at : ∀ {p : List Str} {o : Option Toml} {v : Toml}, WFo o → (look p o = some v ↔ ∃ t, o = some t ∧ At t p v)
  | [], o, v, _ => by
    constructor
    · exact fun h => ⟨v, h, .here⟩
    · rintro ⟨t, rfl, ⟨⟩⟩
      rfl
  | k :: p, o, v, h => by
    cases o with
    | none => simp [look]
    | some t =>
      cases t with
      | table es =>
        simp only [look, Option.some.injEq, exists_eq_left', at_cons]
        rw [look_at (wfo_lookup h k)]
        simp only [entry_iff (keys_of h)]
      | _ =>
        simp only [look, reduceCtorEq, Option.some.injEq, exists_eq_left', false_iff]
        nofun

/-- The entries that a change starts with. -/
def entriesOf : Option Toml → List (Str × Toml)
  | some (.table es) => es
  | _ => []

theorem changeAt_cons (f : Option Toml → Toml) (k : Str) (p : List Str) (o : Option Toml) :
    changeAt f (k :: p) o = .table (putKey k (changeAt f p ((entriesOf o).lookup k)) (entriesOf o)) := by
  cases o with
  | none => rfl
  | some t => cases t <;> rfl

theorem look_cons (k : Str) (p : List Str) (o : Option Toml) : look (k :: p) o = look p ((entriesOf o).lookup k) := by
  have : look p none = none := by cases p <;> rfl
  cases o with
  | none => exact this.symm
  | some t => cases t <;> first | rfl | exact this.symm

theorem entries_keys {o : Option Toml} (h : WFo o) : ((entriesOf o).map (·.1)).Nodup := by
  cases o with
  | none => exact List.nodup_nil
  | some t =>
    cases t with
    | table es => exact keys_of h
    | _ => exact List.nodup_nil

theorem entries_wf {o : Option Toml} (h : WFo o) (k : Str) : WFo ((entriesOf o).lookup k) := by
  cases o with
  | none => nofun
  | some t =>
    cases t with
    | table es => exact wfo_lookup h k
    | _ => nofun

theorem entries_at {o : Option Toml} {k : Str} {q : List Str} {u : Toml} :
    (∃ t, o = some t ∧ At t (k :: q) u) ↔ ∃ w, (k, w) ∈ entriesOf o ∧ At w q u := by
  cases o with
  | none => simp [entriesOf]
  | some t =>
    simp only [Option.some.injEq, exists_eq_left']
    cases t with
    | table es => exact at_cons
    | _ =>
      simp only [entriesOf, List.not_mem_nil, false_and, exists_false, iff_false]
      nofun

theorem change_below {f : Option Toml → Toml} {r : List Str} {u : Toml} : ∀ {p : List Str} {o : Option Toml}, WFo o →
    (At (changeAt f p o) (p ++ r) u ↔ At (f (look p o)) r u)
  | [], o, _ => Iff.rfl
  | k :: p, o, h => by
    rw [changeAt_cons, look_cons, List.cons_append, at_cons, ← change_below (entries_wf h k)]
    simp only [mem_putKey (entries_keys h)]
    constructor
    · rintro ⟨w, ⟨_, rfl⟩ | ⟨h1, _⟩, h2⟩
      · exact h2
      · exact absurd rfl h1
    · exact fun h2 => ⟨_, .inl ⟨trivial, rfl⟩, h2⟩

theorem change_beside {f : Option Toml → Toml} {u : Toml} : ∀ {p q : List Str} {o : Option Toml}, WFo o → ¬ p <+: q → ¬ q <+: p →
    (At (changeAt f p o) q u ↔ ∃ t, o = some t ∧ At t q u)
  | [], q, o, _, h1, _ => absurd (List.nil_prefix) h1
  | k :: p, [], o, _, _, h2 => absurd (List.nil_prefix) h2
  | k :: p, k' :: q, o, h, h1, h2 => by
    rw [changeAt_cons, at_cons, entries_at]
    simp only [mem_putKey (entries_keys h)]
    by_cases hk : k' = k
    · subst hk
      have h1' : ¬ p <+: q := fun x => h1 (List.cons_prefix_cons.2 ⟨rfl, x⟩)
      have h2' : ¬ q <+: p := fun x => h2 (List.cons_prefix_cons.2 ⟨rfl, x⟩)
      have := change_beside (f := f) (u := u) (entries_wf h k') h1' h2'
      constructor
      · rintro ⟨w, ⟨_, rfl⟩ | ⟨h3, _⟩, h4⟩
        · obtain ⟨t, h5, h6⟩ := this.1 h4
          exact ⟨t, entry_mem h5, h6⟩
        · exact absurd rfl h3
      · rintro ⟨w, h3, h4⟩
        exact ⟨_, .inl ⟨rfl, rfl⟩, this.2 ⟨w, (entry_iff (entries_keys h)).2 h3, h4⟩⟩
    · constructor
      · rintro ⟨w, ⟨h3, _⟩ | ⟨_, h3⟩, h4⟩
        · exact absurd h3 hk
        · exact ⟨w, h3, h4⟩
      · rintro ⟨w, h3, h4⟩
        exact ⟨w, .inr ⟨hk, h3⟩, h4⟩

theorem change_above {f : Option Toml → Toml} {u : Toml} : ∀ {p q : List Str} {o : Option Toml}, WFo o → q <+: p → q ≠ p →
    At (changeAt f p o) q u → ∃ es, u = .table es
  | [], q, o, _, h1, h2, _ => absurd (List.prefix_nil.1 h1) h2
  | k :: p, [], o, _, _, _, h => by
    rw [changeAt_cons] at h
    cases h
    exact ⟨_, rfl⟩
  | k :: p, k' :: q, o, hw, h1, h2, h => by
    obtain ⟨rfl, h1'⟩ := List.cons_prefix_cons.1 h1
    rw [changeAt_cons, at_cons] at h
    simp only [mem_putKey (entries_keys hw)] at h
    obtain ⟨w, ⟨_, rfl⟩ | ⟨h3, _⟩, h4⟩ := h
    · exact change_above (entries_wf hw _) h1' (fun e => h2 (by rw [e])) h4
    · exact absurd rfl h3

theorem wf_table_of {es : List (Str × Toml)} (h : (es.map (·.1)).Nodup) (h' : ∀ k w, (k, w) ∈ es → WellFormed w) : WellFormed (.table es) := by
  intro p es' hp
  cases p with
  | nil =>
    cases hp
    exact h
  | cons k p =>
    obtain ⟨w, h1, h2⟩ := at_cons.1 hp
    exact h' k w h1 p es' h2

theorem change_wf {f : Option Toml → Toml} (hf : ∀ o, WFo o → WellFormed (f o)) : ∀ {p : List Str} {o : Option Toml}, WFo o →
    WellFormed (changeAt f p o)
  | [], o, h => hf o h
  | k :: p, o, h => by
    rw [changeAt_cons]
    refine wf_table_of (putKey_keys (entries_keys h)) fun k' w hw => ?_
    rcases (mem_putKey (entries_keys h)).1 hw with ⟨rfl, rfl⟩ | ⟨_, h1⟩
    · exact change_wf hf (entries_wf h _)
    · exact entries_wf h k' _ ((entry_iff (entries_keys h)).2 h1)

/-! ## Configurations -/

/-- No option is inside of another. -/
def Apart {σ : Type} (xs : List (Setting σ)) : Prop := (xs.map (·.path)).Nodup ∧ ∀ p ∈ xs.map (·.path), ∀ q ∈ xs.map (·.path), p <+: q → p = q

instance {σ : Type} (xs : List (Setting σ)) : Decidable (Apart xs) := by unfold Apart; infer_instance

def Unchanged {σ : Type} (s s' : σ) : List (Setting σ) → Prop
  | [] => True
  | x :: xs => x.get s' = x.get s ∧ Unchanged s s' xs

theorem Unchanged.mem {σ : Type} {s s' : σ} : ∀ {xs : List (Setting σ)}, Unchanged s s' xs → ∀ x ∈ xs, x.get s' = x.get s
  | x :: xs, ⟨h, h'⟩, y, hy => by
    rcases List.mem_cons.1 hy with rfl | hy
    · exact h
    · exact h'.mem y hy

/-- One option is changed, and no others. -/
def OnlyAt {σ : Type} (s s' : σ) (P : Setting σ → Prop) : Nat → List (Setting σ) → Prop
  | _, [] => False
  | 0, x :: xs => P x ∧ Unchanged s s' xs
  | n + 1, x :: xs => x.get s' = x.get s ∧ OnlyAt s s' P n xs

theorem OnlyAt.split {σ : Type} {s s' : σ} {P : Setting σ → Prop} : ∀ {n : Nat} {xs : List (Setting σ)}, OnlyAt s s' P n xs →
    ∃ a x b, xs = a ++ x :: b ∧ P x ∧ ∀ y ∈ a ++ b, y.get s' = y.get s
  | 0, x :: xs, ⟨h, h'⟩ => ⟨[], x, xs, rfl, h, h'.mem⟩
  | n + 1, x :: xs, ⟨h, h'⟩ => by
    obtain ⟨a, y, b, rfl, h1, h2⟩ := h'.split
    refine ⟨x :: a, y, b, rfl, h1, fun z hz => ?_⟩
    rcases List.mem_cons.1 hz with rfl | hz
    · exact h
    · exact h2 z hz

/-- What a change does to the value of an option. -/
structure Steps {σ : Type} (p : List Str) (f : Option Toml → Toml) (s s' : σ) (x : Setting σ) : Prop where
  path : x.path = p
  some_ : ∀ v, WellFormed v → x.means v (x.get s) → x.means (f (some v)) (x.get s')
  none_ : x.get s = x.dflt → x.means (f none) (x.get s')

theorem at_append {t v u : Toml} {p q : List Str} (h : At t p v) (h' : At v q u) : At t (p ++ q) u := by
  induction h with
  | here => exact h'
  | there h _ ih => exact .there h (ih h')

/-- Files with one option changed. -/
theorem reading_change {σ : Type} {xs : List (Setting σ)} {s s' : σ} {p : List Str} {f : Option Toml → Toml} {n : Nat} {t : Toml}
    (ha : Apart xs) (hs : OnlyAt s s' (Steps p f s s') n xs) (hw : WellFormed t) (hr : Reading xs t s) :
    Reading xs (changeAt f p (some t)) s' := by
  obtain ⟨a, x, b, e, ⟨hp, h1, h2⟩, ho⟩ := hs.split
  have hx : x ∈ xs := by rw [e]; simp
  have hwo : WFo (some t) := by rintro _ ⟨⟩; exact hw
  have hne : ∀ y ∈ a ++ b, y.path ≠ p := by
    intro y hy he
    have := ha.1
    rw [e, List.map_append, List.map_cons] at this
    have := (List.perm_middle.nodup_iff).1 this
    rw [← List.map_append] at this
    exact (List.nodup_cons.1 this).1 (List.mem_map.2 ⟨y, hy, by rw [he, hp]⟩)
  constructor
  · intro q u hu
    by_cases hpq : p <+: q
    · exact .inl ⟨x, hx, hp ▸ hpq⟩
    · by_cases hqp : q <+: p
      · refine .inr ⟨⟨x, hx, hp ▸ hqp⟩, change_above hwo hqp ?_ hu⟩
        rintro rfl
        exact hpq List.prefix_rfl
      · obtain ⟨_, ht, h⟩ := (change_beside hwo hpq hqp).1 hu
        cases ht
        exact hr.1 q u h
  · intro y hy
    rw [e] at hy
    have hy' : y = x ∨ y ∈ a ++ b := by
      simp only [List.mem_append, List.mem_cons] at hy ⊢
      rcases hy with h | rfl | h
      · exact .inr (.inl h)
      · exact .inl rfl
      · exact .inr (.inr h)
    rcases hy' with rfl | hy'
    · refine .inl ⟨f (look p (some t)), ?_, ?_⟩
      · have := (change_below (f := f) (r := []) (u := f (look p (some t))) (p := p) hwo).2 .here
        rw [List.append_nil] at this
        rw [hp]
        exact this
      · rcases hr.2 y hx with ⟨v, h3, h4⟩ | ⟨h3, h4⟩
        · rw [hp] at h3
          have hl := (look_at hwo).2 ⟨t, rfl, h3⟩
          rw [hl]
          exact h1 v (fun q es hq => hw (p ++ q) es (at_append h3 hq)) h4
        · have hl : look p (some t) = none := by
            cases hl : look p (some t) with
            | none => rfl
            | some v =>
              obtain ⟨_, ⟨⟩, h5⟩ := (look_at hwo).1 hl
              exact absurd (hp ▸ h5) (h3 v)
          rw [hl]
          exact h2 h4
    · have hym : y ∈ xs := by rw [e]; simp only [List.mem_append, List.mem_cons] at hy' ⊢; exact hy'.imp_right .inr
      have hmem : ∀ z ∈ xs, z.path ∈ xs.map (·.path) := fun z hz => List.mem_map.2 ⟨z, hz, rfl⟩
      have b1 : ¬ p <+: y.path := fun h => hne y hy' (ha.2 _ (hmem x hx) _ (hmem y hym) (hp ▸ h) ▸ hp)
      have b2 : ¬ y.path <+: p := fun h => hne y hy' ((ha.2 _ (hmem y hym) _ (hmem x hx) (hp ▸ h)).trans hp)
      unfold Setting.Reads Sets
      rw [ho y hy']
      have hat : ∀ u, At (changeAt f p (some t)) y.path u ↔ At t y.path u := by
        intro u
        rw [change_beside hwo b1 b2]
        simp
      simp only [hat]
      exact hr.2 y hym

end Cbindgen
