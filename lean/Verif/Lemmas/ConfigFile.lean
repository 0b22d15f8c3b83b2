import Verif.Spec.ConfigFile
import Verif.Lemmas.Sort

/-! # Lemmas for C81 -/

namespace Cbindgen
open FileSpec

/-! ## Tables -/

theorem at_key {es : List (Str × Toml)} {k : Str} {v : Toml} : At (.table es) [k] v ↔ (k, v) ∈ es := by
  constructor
  · rintro (_ | ⟨h, ⟨⟩⟩)
    exact h
  · exact fun h => .there h .here

theorem at_cons {es : List (Str × Toml)} {k : Str} {p : List Str} {v : Toml} :
    At (.table es) (k :: p) v ↔ ∃ w, (k, w) ∈ es ∧ At w p v := by
  constructor
  · rintro (_ | ⟨h, h'⟩)
    exact ⟨_, h, h'⟩
  · rintro ⟨w, h, h'⟩
    exact .there h h'

theorem wf_inner {es : List (Str × Toml)} {k : Str} {w : Toml} (hw : WellFormed (.table es)) (h : (k, w) ∈ es) : WellFormed w :=
  fun p es' hp => hw (k :: p) es' (.there h hp)

theorem entry_mem {α : Type _} {k : Str} {v : α} : ∀ {es : List (Str × α)}, es.lookup k = some v → (k, v) ∈ es
  | (k', v') :: es, h => by
    rw [List.lookup_cons] at h
    split at h
    next hk =>
      cases h
      rw [eq_of_beq hk]
      exact .head _
    · exact .tail _ (entry_mem h)

theorem entry_iff {α : Type _} {k : Str} {v : α} : ∀ {es : List (Str × α)}, (es.map (·.1)).Nodup → (es.lookup k = some v ↔ (k, v) ∈ es)
  | [], _ => by simp
  | (k', v') :: es, h => by
    have h' := List.nodup_cons.1 h
    rw [List.lookup_cons]
    constructor
    · intro hl
      split at hl
      next hk =>
        cases hl
        rw [eq_of_beq hk]
        exact .head _
      · exact .tail _ ((entry_iff h'.2).1 hl)
    · intro hm
      rcases List.mem_cons.1 hm with e | hm'
      · cases e
        simp
      · have : (k == k') = false := by
          rw [beq_eq_false_iff_ne]
          rintro rfl
          exact h'.1 (List.mem_map.2 ⟨_, hm', rfl⟩)
        rw [this]
        exact (entry_iff h'.2).2 hm'

theorem entry_none {α : Type _} {k : Str} {es : List (Str × α)} (h : (es.map (·.1)).Nodup) : es.lookup k = none ↔ ∀ v, (k, v) ∉ es := by
  constructor
  · intro hn v hv
    rw [(entry_iff h).2 hv] at hn
    cases hn
  · intro hn
    cases hl : es.lookup k with
    | none => rfl
    | some v => exact absurd ((entry_iff h).1 hl) (hn v)

/-! ## Values -/

/-- The decoder does what values mean. -/
def Dec {α : Type} (d : Toml → Option α) (m : Toml → α → Prop) : Prop := ∀ v a, d v = some a ↔ m v a

/-- The same for values without repeated keys. -/
def DecW {α : Type} (d : Toml → Option α) (m : Toml → α → Prop) : Prop := ∀ v a, WellFormed v → (d v = some a ↔ m v a)

theorem Dec.w {α : Type} {d : Toml → Option α} {m : Toml → α → Prop} (h : Dec d m) : DecW d m := fun v a _ => h v a

theorem dec_str : Dec decStr Text := by
  intro v a
  cases v <;> simp [decStr, Text]

theorem dec_bool : Dec decBool Flag := by
  intro v a
  cases v <;> simp [decBool, Flag]

theorem dec_usize : Dec decUsize Number := by
  intro v a
  cases v with
  | int n =>
    simp only [decUsize, Number, Toml.int.injEq]
    split
    · simp only [Option.some.injEq]
      omega
    · simp only [reduceCtorEq, false_iff]
      omega
  | _ => simp [decUsize, Number]

theorem dec_opt {α : Type} {d : Toml → Option α} {m : Toml → α → Prop} (h : Dec d m) : Dec (decOpt d) (Maybe m) := by
  intro v a
  simp only [decOpt, Maybe, Option.map_eq_some_iff]
  constructor
  · rintro ⟨b, hb, rfl⟩
    exact ⟨b, rfl, (h _ _).1 hb⟩
  · rintro ⟨b, rfl, hb⟩
    exact ⟨b, (h _ _).2 hb, rfl⟩

theorem dec_each {α : Type} {d : Toml → Option α} {m : Toml → α → Prop} (h : Dec d m) :
    ∀ (xs : List Toml) (as : List α), decEach d xs = some as ↔ Matched m xs as
  | [], as => by
    simp only [decEach, Option.some.injEq]
    constructor
    · rintro rfl
      exact .nil
    · rintro ⟨⟩
      rfl
  | x :: xs, as => by
    constructor
    · intro he
      rw [decEach] at he
      split at he
      next a as' h1 h2 =>
        cases he
        exact .cons ((h _ _).1 h1) ((dec_each h _ _).1 h2)
      · cases he
    · rintro (_ | ⟨h1, h2⟩)
      simp only [decEach, (h _ _).2 h1, (dec_each h _ _).2 h2]

theorem dec_list {α : Type} {d : Toml → Option α} {m : Toml → α → Prop} (h : Dec d m) : Dec (decList d) (Each m) := by
  intro v a
  cases v with
  | arr xs =>
    simp only [decList, Each, Toml.arr.injEq]
    rw [dec_each h]
    exact ⟨fun hm => ⟨_, rfl, hm⟩, fun ⟨_, e, hm⟩ => e ▸ hm⟩
  | _ => simp [decList, Each]

theorem dec_pairs {α : Type} {d : Toml → Option α} {m : Toml → α → Prop} (h : Dec d m) :
    ∀ (es : List (Str × Toml)) (as : List (Str × α)),
      decPairs d es = some as ↔ es.map (·.1) = as.map (·.1) ∧ Matched m (es.map (·.2)) (as.map (·.2))
  | [], as => by
    simp only [decPairs, Option.some.injEq]
    constructor
    · rintro rfl
      exact ⟨rfl, .nil⟩
    · rintro ⟨h, _⟩
      cases as
      · rfl
      · cases h
  | (k, x) :: xs, as => by
    constructor
    · intro he
      rw [decPairs] at he
      split at he
      next a as' h1 h2 =>
        cases he
        have := (dec_pairs h _ _).1 h2
        exact ⟨by simp [this.1], .cons ((h _ _).1 h1) this.2⟩
      · cases he
    · rintro ⟨h1, h2⟩
      cases as with
      | nil => cases h1
      | cons a as =>
        obtain ⟨k', a⟩ := a
        simp only [List.map_cons, List.cons.injEq] at h1
        obtain ⟨rfl, h1⟩ := h1
        simp only [List.map_cons] at h2
        cases h2 with
        | cons h2 h3 => simp only [decPairs, (h _ _).2 h2, (dec_pairs h _ _).2 ⟨h1, h3⟩]

theorem dec_map {α : Type} {d : Toml → Option α} {m : Toml → α → Prop} (h : Dec d m) : Dec (decMap d) (Entries m) := by
  intro v a
  cases v with
  | table es =>
    simp only [decMap, Entries, Toml.table.injEq]
    rw [dec_pairs h]
    exact ⟨fun hm => ⟨_, rfl, hm⟩, fun ⟨_, e, hm⟩ => e ▸ hm⟩
  | _ => simp [decMap, Entries]

theorem insertKey_perm {α : Type} (k : Str) (a : α) : ∀ xs : List (Str × α), (insertKey k a xs).Perm ((k, a) :: xs)
  | [] => .refl _
  | x :: xs => by
    rw [insertKey]
    split
    · exact .refl _
    · exact ((insertKey_perm k a xs).cons x).trans (.swap _ _ _)

theorem sortKeys_perm {α : Type} : ∀ xs : List (Str × α), (sortKeys xs).Perm xs
  | [] => .refl _
  | x :: xs => (insertKey_perm x.1 x.2 _).trans ((sortKeys_perm xs).cons x)

theorem insertKey_sorted {α : Type} {k : Str} {a : α} : ∀ {xs : List (Str × α)}, xs.Pairwise (fun a b => a.1 < b.1) →
    k ∉ xs.map (·.1) → (insertKey k a xs).Pairwise (fun a b => a.1 < b.1)
  | [], _, _ => List.pairwise_singleton ..
  | x :: xs, h, hk => by
    have h' := List.pairwise_cons.1 h
    rw [insertKey]
    split
    next hl =>
      rw [strLt_iff] at hl
      refine List.pairwise_cons.2 ⟨?_, h⟩
      intro y hy
      rcases List.mem_cons.1 hy with rfl | hy
      · exact hl
      · exact List.lt_trans hl (h'.1 y hy)
    next hl =>
      refine List.pairwise_cons.2 ⟨?_, insertKey_sorted h'.2 fun hm => hk (.tail _ hm)⟩
      intro y hy
      rcases List.mem_cons.1 ((insertKey_perm k a xs).mem_iff.1 hy) with rfl | hy
      · rcases strLt_total k x.1 with h | h | h
        · exact absurd h hl
        · exact absurd (h ▸ List.mem_cons_self) hk
        · exact (strLt_iff _ _).1 h
      · exact h'.1 y hy

theorem sortKeys_sorted {α : Type} : ∀ {xs : List (Str × α)}, (xs.map (·.1)).Nodup →
    (sortKeys xs).Pairwise (fun a b => a.1 < b.1)
  | [], _ => .nil
  | x :: xs, h => by
    have h' := List.nodup_cons.1 h
    exact insertKey_sorted (sortKeys_sorted h'.2) fun hm => h'.1 (((sortKeys_perm xs).map _).mem_iff.1 hm)

theorem keys_lt_irrefl (a : Str) : ¬ a < a := fun h => by
  have := (strLt_iff a a).2 h
  rw [strLt_irrefl] at this
  cases this

theorem sorted_keys_unique {α : Type} : ∀ {xs ys : List (Str × α)}, xs.Pairwise (fun a b => a.1 < b.1) →
    ys.Pairwise (fun a b => a.1 < b.1) → xs.Perm ys → xs = ys
  | [], ys, _, _, h => by rw [h.nil_eq]
  | x :: xs, [], _, _, h => by cases h.symm.nil_eq
  | x :: xs, y :: ys, hx, hy, h => by
    have hx' := List.pairwise_cons.1 hx
    have hy' := List.pairwise_cons.1 hy
    have e : x = y := by
      rcases List.mem_cons.1 (h.mem_iff.1 List.mem_cons_self) with e | h1
      · exact e
      · rcases List.mem_cons.1 (h.mem_iff.2 (List.mem_cons_self (a := y) (l := ys))) with e | h2
        · exact e.symm
        · exact absurd (List.lt_trans (hx'.1 y h2) (hy'.1 x h1)) (keys_lt_irrefl _)
    subst e
    rw [sorted_keys_unique hx'.2 hy'.2 (List.perm_cons x |>.1 h)]

theorem dec_sorted {α : Type} {d : Toml → Option α} {m : Toml → α → Prop} (h : Dec d m) : DecW (decSorted d) (Ordered m) := by
  intro v a hw
  simp only [decSorted, Ordered, Option.map_eq_some_iff]
  have nodup : ∀ {bs : List (Str × α)}, Entries m v bs → (bs.map (·.1)).Nodup := by
    rintro bs ⟨es, rfl, he, _⟩
    rw [← he]
    exact hw [] es .here
  constructor
  · rintro ⟨bs, hb, rfl⟩
    have := (dec_map h _ _).1 hb
    exact ⟨sortKeys_sorted (nodup this), bs, this, (sortKeys_perm bs).symm⟩
  · rintro ⟨hs, bs, hb, hp⟩
    refine ⟨bs, (dec_map h _ _).2 hb, ?_⟩
    exact sorted_keys_unique (sortKeys_sorted (nodup hb)) hs ((sortKeys_perm bs).trans hp)

/-- The words of a table of the code are those of a list of words. -/
def SameWords {α : Type} (table : List (Str × α)) (ws : List (α × List Str)) : Prop :=
  (table.map (·.1)).Nodup ∧ (∀ x ∈ table, ∃ w ∈ ws, w.1 = x.2 ∧ x.1 ∈ w.2) ∧ ∀ w ∈ ws, ∀ s ∈ w.2, (s, w.1) ∈ table

instance {α : Type} [DecidableEq α] (table : List (Str × α)) (ws : List (α × List Str)) : Decidable (SameWords table ws) :=
  inferInstanceAs (Decidable (_ ∧ _ ∧ _))

theorem SameWords.lookup {α : Type} {table : List (Str × α)} {ws : List (α × List Str)} (h : SameWords table ws) (s : Str) (a : α) :
    table.lookup s = some a ↔ ∃ l, (a, l) ∈ ws ∧ s ∈ l := by
  rw [entry_iff h.1]
  constructor
  · intro hm
    obtain ⟨⟨b, l⟩, hw, e, hs⟩ := h.2.1 _ hm
    simp only at e hs
    subst e
    exact ⟨l, hw, hs⟩
  · rintro ⟨l, hw, hs⟩
    exact h.2.2 _ hw s hs

theorem dec_word {α : Type} {table : List (Str × α)} {ws : List (α × List Str)} (h : SameWords table ws) : Dec (decWord table) (Word ws) := by
  intro v a
  cases v with
  | str s =>
    simp only [decWord, decFrom, Word, h.lookup]
    constructor
    · rintro ⟨l, h1, h2⟩
      exact ⟨s, l, rfl, h1, h2⟩
    · rintro ⟨_, l, ⟨⟩, h1, h2⟩
      exact ⟨l, h1, h2⟩
  | _ => simp [decWord, decFrom, Word]

theorem dec_lower {α : Type} {table : List (Str × α)} {ws : List (α × List Str)} (h : SameWords table ws) : Dec (decLower table) (AnyCase ws) := by
  intro v a
  cases v with
  | str s =>
    simp only [decLower, decFrom, AnyCase, h.lookup]
    constructor
    · rintro ⟨l, h1, h2⟩
      exact ⟨s, l, rfl, h1, h2⟩
    · rintro ⟨_, l, ⟨⟩, h1, h2⟩
      exact ⟨l, h1, h2⟩
  | _ => simp [decLower, decFrom, AnyCase]

theorem rule_words : SameWords renameRuleTable ruleWords := by decide +kernel

theorem dec_rule : Dec decRule Rule := by
  intro v a
  cases v with
  | str s =>
    simp only [decRule, decFrom, RenameRule.parse, Rule, Word]
    constructor
    · intro h
      split at h
      next r hr =>
        cases h
        obtain ⟨l, h1, h2⟩ := (rule_words.lookup _ _).1 hr
        exact .inl ⟨s, l, rfl, h1, h2⟩
      next hn =>
        split at h
        next hp =>
          cases h
          obtain ⟨t, ht⟩ := List.isPrefixOf_iff_prefix.1 hp
          refine .inr ⟨t, by rw [ht], ?_⟩
          rw [← ht]
          rfl
        · cases h
    · rintro (⟨_, l, ⟨⟩, h1, h2⟩ | ⟨p, h, rfl⟩)
      · rw [(rule_words.lookup _ _).2 ⟨l, h1, h2⟩]
      · cases h
        have hn : renameRuleTable.lookup (c!"prefix:" ++ p) = none := by
          simp [renameRuleTable, List.lookup]
        rw [hn]
        rfl
  | _ => simp [decRule, decFrom, Rule, Word]

/-! ## Fields and sections -/

theorem field_iff {α : Type} {es : List (Str × Toml)} {k : Str} {d : Toml → Option α} {m : Toml → α → Prop} {dflt a : α}
    (hw : WellFormed (.table es)) (h : DecW d m) : field es k d dflt = some a ↔ Sets (.table es) [k] m dflt a := by
  have hn := hw [] es .here
  unfold field Sets
  simp only [at_key]
  split
  next hl =>
    rw [entry_none hn] at hl
    simp only [Option.some.injEq]
    constructor
    · rintro rfl
      exact .inr ⟨hl, rfl⟩
    · rintro (⟨v, hv, _⟩ | ⟨_, rfl⟩)
      · exact absurd hv (hl v)
      · rfl
  next v hl =>
    rw [entry_iff hn] at hl
    rw [h _ _ (wf_inner hw hl)]
    constructor
    · exact fun hm => .inl ⟨v, hl, hm⟩
    · rintro (⟨v', hv, hm⟩ | ⟨hno, _⟩)
      · have := (entry_iff hn).2 hv
        rw [(entry_iff hn).2 hl] at this
        cases this
        exact hm
      · exact absurd hl (hno v)

theorem wf_empty : WellFormed (.table []) := by
  rintro p es h
  cases h with
  | here => exact .nil
  | there h _ => cases h

theorem wf_section {es es' : List (Str × Toml)} {k : Str} (hw : WellFormed (.table es)) (h : sectionOf es k = some es') :
    WellFormed (.table es') := by
  unfold sectionOf at h
  split at h
  · cases h
    exact wf_empty
  next hl =>
    cases h
    exact wf_inner hw (entry_mem hl)
  · cases h

/-- A section, or an empty one. -/
theorem at_section {es es' : List (Str × Toml)} {k k' : Str} {p : List Str} {v : Toml} (hw : WellFormed (.table es))
    (h : sectionOf es k = some es') : At (.table es) (k :: k' :: p) v ↔ At (.table es') (k' :: p) v := by
  have hn := hw [] es .here
  rw [at_cons]
  unfold sectionOf at h
  split at h
  next hl =>
    cases h
    rw [entry_none hn] at hl
    constructor
    · rintro ⟨w, h, _⟩
      exact absurd h (hl w)
    · rintro (_ | ⟨h, _⟩)
      cases h
  next hl =>
    cases h
    constructor
    · rintro ⟨w, h, ha⟩
      rw [(entry_iff hn).2 h] at hl
      cases hl
      exact ha
    · exact fun ha => ⟨_, entry_mem hl, ha⟩
  · cases h

theorem knownKeys_iff {ks : List Str} {es : List (Str × Toml)} {u : Unit} : knownKeys ks es = some u ↔ ∀ e ∈ es, e.1 ∈ ks := by
  unfold knownKeys
  split
  next h =>
    simp only [List.all_eq_true, List.contains_iff_mem] at h
    exact ⟨fun _ => h, fun _ => rfl⟩
  next h =>
    simp only [List.all_eq_true, List.contains_iff_mem] at h
    exact ⟨nofun, fun h' => absurd h' h⟩

/-- Settings that are keys of the table itself. -/
def Flat {σ : Type} (xs : List (Setting σ)) (ks : List Str) : Prop := xs.map (·.path) = ks.map fun k => [k]

theorem Flat.of_mem {σ : Type} {xs : List (Setting σ)} {ks : List Str} (h : Flat xs ks) {x : Setting σ} (hx : x ∈ xs) :
    ∃ k ∈ ks, x.path = [k] := by
  have : x.path ∈ xs.map (·.path) := List.mem_map.2 ⟨x, hx, rfl⟩
  rw [h] at this
  obtain ⟨k, hk, e⟩ := List.mem_map.1 this
  exact ⟨k, hk, e.symm⟩

theorem Flat.get {σ : Type} {xs : List (Setting σ)} {ks : List Str} (h : Flat xs ks) {k : Str} (hk : k ∈ ks) :
    ∃ x ∈ xs, x.path = [k] := by
  have : [k] ∈ ks.map fun k => [k] := List.mem_map.2 ⟨k, hk, rfl⟩
  rw [← h] at this
  obtain ⟨x, hx, e⟩ := List.mem_map.1 this
  exact ⟨x, hx, e⟩

theorem mem_group {σ : Type} {top : List (Setting σ)} {cs : List (Str × List (Setting σ))} {x : Setting σ} :
    x ∈ group top cs ↔ x ∈ top ∨ ∃ c ∈ cs, ∃ y ∈ c.2, y.under c.1 = x := by
  simp [group]

theorem sets_section {α : Type} {es es' : List (Str × Toml)} {k : Str} {p : List Str} {m : Toml → α → Prop} {dflt a : α}
    (hw : WellFormed (.table es)) (h : sectionOf es k = some es') (hp : p ≠ []) :
    Sets (.table es) (k :: p) m dflt a ↔ Sets (.table es') p m dflt a := by
  cases p with
  | nil => exact absurd rfl hp
  | cons k' p => simp only [Sets, at_section hw h]

theorem known_section {σ : Type} {top : List (Setting σ)} {ks : List Str} {cs : List (Str × List (Setting σ))} (hf : Flat top ks)
    (hd : (ks ++ cs.map (·.1)).Nodup) (hp : ∀ c ∈ cs, ∀ x ∈ c.2, x.path ≠ []) {es es' : List (Str × Toml)}
    {c : Str × List (Setting σ)} (hc : c ∈ cs) (hm : (c.1, Toml.table es') ∈ es) (hk : Known (group top cs) (.table es)) :
    Known c.2 (.table es') := by
  obtain ⟨hd1, hd2, hd3⟩ := List.nodup_append.1 hd
  have same : ∀ c' ∈ cs, c'.1 = c.1 → c' = c := by
    intro c' hc' e
    have := (entry_iff (v := c'.2) hd2).2 hc'
    rw [e, (entry_iff (v := c.2) hd2).2 hc] at this
    exact Prod.ext e (Option.some.inj this).symm
  intro p v ha
  rcases hk (c.1 :: p) v (.there hm ha) with ⟨x, hx, hpre⟩ | ⟨⟨x, hx, hpre⟩, ht⟩
  · rcases mem_group.1 hx with hx | ⟨c', hc', y, hy, rfl⟩
    · obtain ⟨k, hk', e⟩ := hf.of_mem hx
      rw [e, List.cons_prefix_cons] at hpre
      exact absurd hpre.1 (hd3 _ hk' _ (List.mem_map.2 ⟨c, hc, rfl⟩))
    · have hpre : c'.1 :: y.path <+: c.1 :: p := hpre
      rw [List.cons_prefix_cons] at hpre
      cases same _ hc' hpre.1
      exact .inl ⟨y, hy, hpre.2⟩
  · rcases mem_group.1 hx with hx | ⟨c', hc', y, hy, rfl⟩
    · obtain ⟨k, hk', e⟩ := hf.of_mem hx
      rw [e, List.cons_prefix_cons] at hpre
      exact absurd hpre.1.symm (hd3 _ hk' _ (List.mem_map.2 ⟨c, hc, rfl⟩))
    · have hpre : c.1 :: p <+: c'.1 :: y.path := hpre
      rw [List.cons_prefix_cons] at hpre
      cases same _ hc' hpre.1.symm
      exact .inr ⟨⟨y, hy, hpre.2⟩, ht⟩

theorem known_empty {σ : Type} {xs : List (Setting σ)} (h : xs ≠ []) : Known xs (.table []) := by
  rintro p v (_ | ⟨h', _⟩)
  · cases xs with
    | nil => exact absurd rfl h
    | cons x xs => exact .inr ⟨⟨x, List.mem_cons_self, List.nil_prefix⟩, _, rfl⟩
  · cases h'

/-- Reading a table with sections is reading its keys and each of the sections. -/
theorem reading_group {σ : Type} {top : List (Setting σ)} {ks : List Str} {cs : List (Str × List (Setting σ))} (hf : Flat top ks)
    (hd : (ks ++ cs.map (·.1)).Nodup) (hp : ∀ c ∈ cs, c.2 ≠ [] ∧ ∀ x ∈ c.2, x.path ≠ []) (hne : top ≠ [])
    {es : List (Str × Toml)} (hw : WellFormed (.table es)) {s : σ} :
    Reading (group top cs) (.table es) s ↔
      (∀ e ∈ es, e.1 ∈ ks ++ cs.map (·.1)) ∧ (∀ x ∈ top, x.Reads (.table es) s) ∧
        ∀ c ∈ cs, ∃ es', sectionOf es c.1 = some es' ∧ Reading c.2 (.table es') s := by
  have hn := hw [] es .here
  obtain ⟨hd1, hd2, hd3⟩ := List.nodup_append.1 hd
  constructor
  · rintro ⟨hk, hr⟩
    have tables : ∀ c ∈ cs, ∀ v, (c.1, v) ∈ es → ∃ es', v = .table es' := by
      intro c hc v hm
      rcases hk [c.1] v (at_key.2 hm) with ⟨x, hx, hpre⟩ | ⟨_, ht⟩
      · rcases mem_group.1 hx with hx | ⟨c', hc', y, hy, rfl⟩
        · obtain ⟨k, hk', e⟩ := hf.of_mem hx
          rw [e, List.cons_prefix_cons] at hpre
          exact absurd hpre.1 (hd3 _ hk' _ (List.mem_map.2 ⟨c, hc, rfl⟩))
        · have hpre : c'.1 :: y.path <+: c.1 :: [] := hpre
          rw [List.cons_prefix_cons, List.prefix_nil] at hpre
          exact absurd hpre.2 ((hp c' hc').2 y hy)
      · exact ht
    refine ⟨?_, fun x hx => hr x (mem_group.2 (.inl hx)), ?_⟩
    · rintro ⟨k, v⟩ hm
      have : ∃ x ∈ group top cs, ∃ q, x.path = k :: q := by
        rcases hk [k] v (at_key.2 hm) with ⟨x, hx, hpre⟩ | ⟨⟨x, hx, t, ht⟩, _⟩
        · refine ⟨x, hx, ?_⟩
          rcases mem_group.1 hx with hx | ⟨c', hc', y, hy, rfl⟩
          · obtain ⟨k', _, e⟩ := hf.of_mem hx
            rw [e, List.cons_prefix_cons] at hpre
            exact ⟨[], by rw [e, hpre.1]⟩
          · have hpre : c'.1 :: y.path <+: k :: [] := hpre
            rw [List.cons_prefix_cons] at hpre
            exact ⟨y.path, by rw [← hpre.1]; rfl⟩
        · exact ⟨x, hx, t, ht.symm⟩
      obtain ⟨x, hx, q, e⟩ := this
      rcases mem_group.1 hx with hx | ⟨c', hc', y, hy, rfl⟩
      · obtain ⟨k', hk', e'⟩ := hf.of_mem hx
        rw [e'] at e
        cases e
        exact List.mem_append_left _ hk'
      · cases e
        exact List.mem_append_right _ (List.mem_map.2 ⟨c', hc', rfl⟩)
    · intro c hc
      have reads : ∀ es', sectionOf es c.1 = some es' → ∀ x ∈ c.2, x.Reads (.table es') s := by
        intro es' hs x hx
        exact (sets_section hw hs ((hp c hc).2 x hx)).1 (hr (x.under c.1) (mem_group.2 (.inr ⟨c, hc, x, hx, rfl⟩)))
      cases hl : es.lookup c.1 with
      | none =>
        have hs : sectionOf es c.1 = some [] := by rw [sectionOf, hl]
        exact ⟨[], hs, known_empty (hp c hc).1, reads _ hs⟩
      | some v =>
        have hm := entry_mem hl
        obtain ⟨es', rfl⟩ := tables c hc v hm
        have hs : sectionOf es c.1 = some es' := by rw [sectionOf, hl]
        exact ⟨es', hs, known_section hf hd (fun c hc => (hp c hc).2) hc hm hk, reads _ hs⟩
  · rintro ⟨hk, ht, hc⟩
    refine ⟨?_, ?_⟩
    · intro p v ha
      cases ha with
      | here =>
        cases top with
        | nil => exact absurd rfl hne
        | cons x xs => exact .inr ⟨⟨x, mem_group.2 (.inl List.mem_cons_self), List.nil_prefix⟩, _, rfl⟩
      | there hm ha =>
        rename_i k w p
        rcases List.mem_append.1 (hk _ hm) with hk' | hk'
        · obtain ⟨x, hx, e⟩ := hf.get hk'
          exact .inl ⟨x, mem_group.2 (.inl hx), e ▸ List.cons_prefix_cons.2 ⟨rfl, List.nil_prefix⟩⟩
        · obtain ⟨c, hcm, e⟩ := List.mem_map.1 hk'
          simp only at e
          subst e
          obtain ⟨es', hs, hkn, _⟩ := hc c hcm
          have hl := (entry_iff hn).2 hm
          rw [sectionOf, hl] at hs
          cases w with
          | table es'' =>
            cases hs
            rcases hkn p v ha with ⟨x, hx, hpre⟩ | ⟨⟨x, hx, hpre⟩, hv⟩
            · exact .inl ⟨x.under c.1, mem_group.2 (.inr ⟨c, hcm, x, hx, rfl⟩), List.cons_prefix_cons.2 ⟨rfl, hpre⟩⟩
            · exact .inr ⟨⟨x.under c.1, mem_group.2 (.inr ⟨c, hcm, x, hx, rfl⟩), List.cons_prefix_cons.2 ⟨rfl, hpre⟩⟩, hv⟩
          | _ => cases hs
    · intro x hx
      rcases mem_group.1 hx with hx | ⟨c, hcm, y, hy, rfl⟩
      · exact ht x hx
      · obtain ⟨es', hs, _, hr⟩ := hc c hcm
        exact (sets_section hw hs ((hp c hcm).2 y hy)).2 (hr y hy)

theorem reading_flat {σ : Type} {xs : List (Setting σ)} {ks : List Str} (hf : Flat xs ks) (hd : ks.Nodup) (hne : xs ≠ [])
    {es : List (Str × Toml)} (hw : WellFormed (.table es)) {s : σ} {u : Unit} :
    Reading xs (.table es) s ↔ knownKeys ks es = some u ∧ ∀ x ∈ xs, x.Reads (.table es) s := by
  have h := reading_group (cs := []) (s := s) hf (by simpa using hd) nofun hne hw
  simp only [group, List.flatMap_nil, List.append_nil, List.map_nil, List.not_mem_nil, false_implies, implies_true, and_true] at h
  rw [h, knownKeys_iff]

end Cbindgen
