import Verif.Spec.StructLit
import Verif.Props.Constants
import Verif.Lemmas.Fields
import Verif.Props.Prim
import Verif.Props.RefCases

/-!
# C36: the order of initialisers
-/

namespace Cbindgen
open ConstSpec StructLitSpec OutSpec

theorem writes_append {c : WConfig} {a b : List WOp} {t : Str} (h : Writes c (a ++ b) t) :
    ∃ t1 t2, Writes c a t1 ∧ Writes c b t2 ∧ t = t1 ++ t2 := by
  obtain ⟨w, w', h⟩ := h
  obtain ⟨t1, w1, t2, h1, h2, rfl⟩ := exec_append_some.mp h
  exact ⟨t1, t2, ⟨_, _, h1⟩, ⟨_, _, h2⟩, rfl⟩

/-- The piece for one field. -/
def Piece (c : WConfig) (lab : Str → Str) (fields : List (Str × Init)) (k s : Str) : Prop :=
  ∃ ops cfg, fields.lookup k = some (ops, cfg) ∧ lab k <:+: s ∧ ∃ u, Writes c ops u ∧ u <:+: s

theorem writes_middle {c : WConfig} {a ops b : List WOp} {t : Str} (h : Writes c (a ++ ops ++ b) t) :
    ∃ u, Writes c ops u ∧ u <:+: t := by
  obtain ⟨t1, t2, h1, _, rfl⟩ := writes_append h
  obtain ⟨t3, t4, _, h4, rfl⟩ := writes_append h1
  exact ⟨t4, h4, ⟨t3, t2, rfl⟩⟩

theorem pieces_multi {c : OutConfig} {wc : WConfig} {fields : List (Str × Init)} :
    ∀ {keys : List Str} {t : Str}, Writes wc (initsMulti c fields keys) t →
      ∃ ts, t = ts.flatten ∧ TextsOf (Piece wc (fun k => c!"/* ." ++ k ++ c!" = */ ") fields)
        (keys.filter fun k => (fields.lookup k).isSome) ts
  | [], t, h => by
    obtain ⟨w, w', h⟩ := h
    simp only [initsMulti, exec_nil, Option.some.injEq, Prod.mk.injEq] at h
    exact ⟨[], h.1.symm, .nil⟩
  | k :: ks, t, h => by
    obtain ⟨t1, t2, h1, h2, rfl⟩ := writes_append h
    obtain ⟨ts, rfl, hts⟩ := pieces_multi h2
    cases hl : fields.lookup k with
    | none =>
      rw [hl] at h1
      obtain ⟨w, w', h1⟩ := h1
      simp only [initMulti, exec_nil, Option.some.injEq, Prod.mk.injEq] at h1
      exact ⟨ts, by simp [← h1.1], by simpa [hl] using hts⟩
    | some i =>
      obtain ⟨ops, cfg⟩ := i
      rw [hl] at h1
      have hk : (k :: ks).filter (fun k => (fields.lookup k).isSome) =
          k :: ks.filter fun k => (fields.lookup k).isSome := by simp [hl]
      rw [hk]
      refine ⟨t1 :: ts, by simp, .cons ⟨ops, cfg, hl, text_infix (by simp [initMulti]) h1, ?_⟩ hts⟩
      simp only [initMulti, List.append_assoc] at h1
      have : Writes wc ((.newLine :: (condBefore c (c.cond cfg) ++ [.text (c!"/* ." ++ k ++ c!" = */ ")])) ++ ops ++
          (onlyIf (!ks.isEmpty) [.text c!","] ++ condAfter c (c.cond cfg))) t1 := by simpa using h1
      exact writes_middle this

theorem pieces_single {c : OutConfig} {wc : WConfig} {fields : List (Str × Init)} :
    ∀ {keys : List Str} {first : Bool} {t : Str}, Writes wc (initsSingle c fields first keys) t →
      ∃ ts, t = ts.flatten ∧ TextsOf (Piece wc (initLabel c.language) fields)
        (keys.filter fun k => (fields.lookup k).isSome) ts
  | [], _, t, h => by
    obtain ⟨w, w', h⟩ := h
    simp only [initsSingle, exec_nil, Option.some.injEq, Prod.mk.injEq] at h
    exact ⟨[], h.1.symm, .nil⟩
  | k :: ks, first, t, h => by
    obtain ⟨t1, t2, h1, h2, rfl⟩ := writes_append h
    obtain ⟨ts, rfl, hts⟩ := pieces_single h2
    cases hl : fields.lookup k with
    | none =>
      rw [hl] at h1
      obtain ⟨w, w', h1⟩ := h1
      simp only [initSingle, exec_nil, Option.some.injEq, Prod.mk.injEq] at h1
      exact ⟨ts, by simp [← h1.1], by simpa [hl] using hts⟩
    | some i =>
      obtain ⟨ops, cfg⟩ := i
      rw [hl] at h1
      have hk : (k :: ks).filter (fun k => (fields.lookup k).isSome) =
          k :: ks.filter fun k => (fields.lookup k).isSome := by simp [hl]
      rw [hk]
      refine ⟨t1 :: ts, by simp, .cons ⟨ops, cfg, hl, text_infix (by simp [initSingle]) h1, ?_⟩ hts⟩
      have : Writes wc ((onlyIf (!first) [.text c!", "] ++ [.text (initLabel c.language k)]) ++ ops ++ []) t1 := by
        simpa [initSingle] using h1
      exact writes_middle this

theorem pieces_cython {wc : WConfig} {fields : List (Str × Init)} :
    ∀ {keys : List Str} {first : Bool} {t : Str}, Writes wc (initsCython fields first keys) t →
      ∃ ts, t = ts.flatten ∧ TextsOf (Piece wc (fun _ => []) fields)
        (keys.filter fun k => (fields.lookup k).isSome) ts
  | [], _, t, h => by
    obtain ⟨w, w', h⟩ := h
    simp only [initsCython, exec_nil, Option.some.injEq, Prod.mk.injEq] at h
    exact ⟨[], h.1.symm, .nil⟩
  | k :: ks, first, t, h => by
    unfold initsCython at h
    cases hl : fields.lookup k with
    | none =>
      rw [hl] at h
      obtain ⟨ts, rfl, hts⟩ := pieces_cython h
      exact ⟨ts, rfl, by simpa [hl] using hts⟩
    | some i =>
      obtain ⟨ops, cfg⟩ := i
      rw [hl] at h
      obtain ⟨t1, t2, h1, h2, rfl⟩ := writes_append h
      obtain ⟨ts, rfl, hts⟩ := pieces_cython h2
      have hk : (k :: ks).filter (fun k => (fields.lookup k).isSome) =
          k :: ks.filter fun k => (fields.lookup k).isSome := by simp [hl]
      rw [hk]
      refine ⟨t1 :: ts, by simp, .cons ⟨ops, cfg, hl, List.nil_infix, ?_⟩ hts⟩
      have : Writes wc (onlyIf (!first) [.text c!", "] ++ ops ++ []) t1 := by simpa using h1
      exact writes_middle this

theorem opsList_lookup (e : Env) : ∀ (fs : List LitField) {k : Str} {i : Init},
    (LitField.opsList e fs).lookup k = some i → ∃ v, LitField.mk k v i.2 ∈ fs ∧ i.1 = v.ops e
  | [], k, i, h => by simp [LitField.opsList] at h
  | .mk n v c :: fs, k, i, h => by
    rw [LitField.opsList, List.lookup_cons] at h
    split at h
    · rename_i hk
      injection h with h
      subst h
      have : k = n := by simpa using hk
      subst this
      exact ⟨v, by simp, rfl⟩
    · obtain ⟨v', hm, hv⟩ := opsList_lookup e fs h
      exact ⟨v', by simp [hm], hv⟩

theorem opsList_isSome (e : Env) : ∀ (fs : List LitField) (k : Str),
    ((LitField.opsList e fs).lookup k).isSome = true ↔ Given fs k
  | [], k => by simp [LitField.opsList, Given]
  | .mk n v c :: fs, k => by
    rw [LitField.opsList, List.lookup_cons]
    split
    · rename_i hk
      have : k = n := by simpa using hk
      subst this
      simpa using ⟨v, c, by simp⟩
    · rename_i hk
      have : k ≠ n := by simpa using hk
      rw [opsList_isSome e fs k]
      constructor
      · rintro ⟨v', c', h⟩; exact ⟨v', c', by simp [h]⟩
      · rintro ⟨v', c', h⟩
        rcases List.mem_cons.mp h with h | h
        · cases h; exact absurd rfl this
        · exact ⟨v', c', h⟩

theorem textsOf_mono {α : Type} {P Q : α → Str → Prop} (h : ∀ x s, P x s → Q x s) {xs : List α} {ts : List Str}
    (ht : TextsOf P xs ts) : TextsOf Q xs ts := by
  induction ht with
  | nil => exact .nil
  | cons h1 _ ih => exact .cons (h _ _ h1) ih

/-- In the text of a struct literal, the initialisers of the given fields are in the order of the list
of field names of the struct, each of them once and with its own value; nothing else depends on the
fields.  For all languages and both layouts. -/
theorem C36_order (e : Env) (p x : Str) (fs : List LitField) {t : Str}
    (h : Writes e.cfg.writer (Lit.ops e (.struct p x fs)) t) :
    ∃ written start ts stop,
      t = start ++ ts.flatten ++ stop ∧ TextsOf (Initialiser e fs) written ts ∧
      written.Sublist (e.fieldNames p) ∧ ∀ k, k ∈ written ↔ k ∈ e.fieldNames p ∧ Given fs k := by
  refine ⟨(e.fieldNames p).filter fun k => ((LitField.opsList e fs).lookup k).isSome, ?_⟩
  have hset : ∀ k, k ∈ (e.fieldNames p).filter (fun k => ((LitField.opsList e fs).lookup k).isSome) ↔
      k ∈ e.fieldNames p ∧ Given fs k := by
    intro k; rw [List.mem_filter, opsList_isSome]
  have hpiece : ∀ lab, (∀ k, label e.cfg.language k = lab k) → ∀ k s,
      Piece e.cfg.writer lab (LitField.opsList e fs) k s → Initialiser e fs k s := by
    rintro lab hlab k s ⟨ops, cfg, hl, h1, h2⟩
    obtain ⟨v, hm, hv⟩ := opsList_lookup e fs hl
    simp only at hv
    subst hv
    exact ⟨v, cfg, hm, by rw [hlab]; exact h1, h2⟩
  simp only [Lit.ops] at h
  unfold structLitOps at h
  cases hl : e.cfg.language with
  | cython =>
    rw [hl] at h
    simp only at h
    obtain ⟨t1, t2, h1, _, rfl⟩ := writes_append h
    obtain ⟨t3, t4, _, h4, rfl⟩ := writes_append h1
    obtain ⟨ts, rfl, hts⟩ := pieces_cython h4
    exact ⟨t3, ts, t2, rfl, textsOf_mono (hpiece _ fun k => by rw [hl]; rfl) hts, List.filter_sublist, hset⟩
  | c =>
    rw [hl] at h
    simp only at h
    have hm : multiLine e.cfg (Lit.canBeConstexpr (.struct p x fs)) = false := by simp [multiLine, hl]
    rw [hm] at h
    obtain ⟨t1, t2, h1, _, rfl⟩ := writes_append h
    obtain ⟨t3, t4, _, h4, rfl⟩ := writes_append h1
    simp only [Bool.false_eq_true, if_false] at h4
    obtain ⟨t5, t6, h5, _, rfl⟩ := writes_append h4
    obtain ⟨t7, t8, _, h8, rfl⟩ := writes_append h5
    obtain ⟨ts, rfl, hts⟩ := pieces_single h8
    refine ⟨t3 ++ t7, ts, t6 ++ t2, by simp, textsOf_mono (hpiece _ fun k => ?_) hts, List.filter_sublist, hset⟩
    rw [hl]; rfl
  | cxx =>
    rw [hl] at h
    simp only at h
    obtain ⟨t1, t2, h1, _, rfl⟩ := writes_append h
    obtain ⟨t3, t4, _, h4, rfl⟩ := writes_append h1
    split at h4
    · obtain ⟨t5, t6, h5, _, rfl⟩ := writes_append h4
      obtain ⟨t7, t8, _, h8, rfl⟩ := writes_append h5
      obtain ⟨ts, rfl, hts⟩ := pieces_multi h8
      refine ⟨t3 ++ t7, ts, t6 ++ t2, by simp, textsOf_mono (hpiece _ fun k => ?_) hts, List.filter_sublist, hset⟩
      rw [hl]; rfl
    · obtain ⟨t5, t6, h5, _, rfl⟩ := writes_append h4
      obtain ⟨t7, t8, _, h8, rfl⟩ := writes_append h5
      obtain ⟨ts, rfl, hts⟩ := pieces_single h8
      refine ⟨t3 ++ t7, ts, t6 ++ t2, by simp, textsOf_mono (hpiece _ fun k => ?_) hts, List.filter_sublist, hset⟩
      rw [hl]; rfl

/-! ## The list of field names -/

theorem filter_mem_of_sublist {xs ys : List Str} (hs : xs.Sublist ys) (hn : ys.Nodup) :
    ys.filter (fun y => decide (y ∈ xs)) = xs := by
  induction hs with
  | slnil => rfl
  | @cons l1 l2 a hs ih =>
    rw [List.nodup_cons] at hn
    rw [List.filter_cons_of_neg, ih hn.2]
    simpa using fun h => hn.1 (hs.subset h)
  | @cons_cons l1 l2 a hs ih =>
    rw [List.nodup_cons] at hn
    rw [List.filter_cons_of_pos (by simp)]
    congr 1
    rw [← ih hn.2]
    apply List.filter_congr
    intro y hy
    have : y ≠ a := fun h => hn.1 (h ▸ hy)
    simp [this, ih hn.2]

/-- Merging variants that have the same core. -/
theorem fold_core {core : List Str} : ∀ (vs done : List (List Str)) (M : List Str),
    M.Nodup → (∀ u ∈ done, u.Sublist M) → (∀ x ∈ M, ∃ u ∈ done, x ∈ u) →
    CommonCore core (done ++ vs) → (∀ v ∈ vs, v.Nodup) →
    (vs.foldl mergeFields M).Nodup ∧ ∀ u ∈ done ++ vs, u.Sublist (vs.foldl mergeFields M)
  | [], done, M, hM, hd, _, _, _ => by simpa [hM] using hd
  | v :: vs, done, M, hM, hd, hfrom, hc, hv => by
    have hcv : ∀ u ∈ done, u.filter (fun x => decide (x ∈ v)) = core ∧ v.filter (fun x => decide (x ∈ u)) = core := by
      intro u hu
      exact (List.pairwise_append.mp hc).2.2 u hu v (by simp)
    have hs : SameOrder v M := by
      unfold SameOrder
      cases done with
      | nil =>
        have : M = [] := by
          cases M with
          | nil => rfl
          | cons x xs => obtain ⟨u, hu, _⟩ := hfrom x (by simp); cases hu
        subst this
        simp
      | cons u us =>
        have hu := hcv u (by simp)
        have h1 : v.filter (fun x => decide (x ∈ M)) = core := by
          rw [← hu.2]
          apply List.filter_congr
          intro x hx
          rw [decide_eq_decide]
          constructor
          · intro hxM
            obtain ⟨u', hu', hxu'⟩ := hfrom x hxM
            have hxc : x ∈ core := by
              rw [← (hcv u' hu').2]
              exact List.mem_filter.mpr ⟨hx, by simpa using hxu'⟩
            rw [← hu.1] at hxc
            exact (List.mem_filter.mp hxc).1
          · exact fun hxu => (hd u (by simp)).subset hxu
        have h2 : core.Sublist (M.filter fun x => decide (x ∈ v)) := by
          rw [← hu.1]
          exact (hd u (by simp)).filter _
        have h3 : (M.filter fun x => decide (x ∈ v)).length ≤ core.length := by
          apply nodup_length_le (hM.filter _)
          intro x hx
          obtain ⟨hxM, hxv⟩ := List.mem_filter.mp hx
          obtain ⟨u', hu', hxu'⟩ := hfrom x hxM
          rw [← (hcv u' hu').1]
          exact List.mem_filter.mpr ⟨hxu', hxv⟩
        rw [h1]
        exact h2.eq_of_length_le h3
    obtain ⟨g1, g2, g3, g4⟩ := mergeFields_spec hM (hv v (by simp)) hs
    have := fold_core vs (done ++ [v]) (mergeFields M v) g1
      (by
        intro u hu
        rcases List.mem_append.mp hu with hu | hu
        · exact (hd u hu).trans g2
        · simp only [List.mem_singleton] at hu; subst hu; exact g3)
      (by
        intro x hx
        rcases g4 x hx with h | h
        · obtain ⟨u, hu, hxu⟩ := hfrom x h
          exact ⟨u, by simp [hu], hxu⟩
        · exact ⟨v, by simp, h⟩)
      (by simpa using hc) (fun u hu => hv u (by simp [hu]))
    simpa using this

/-- If any two variants of a struct have the same fields in common, in the same order, then the list of
field names has the fields of every variant in their order.  A struct with a single variant always does.
What is missing: other variants (see `C36_variants_refuted`). -/
theorem C36_variants_partial (e : Env) (p : Str) {core : List Str}
    (hc : CommonCore core (variantFields e.structs (e.resolve p)))
    (hn : ∀ v ∈ variantFields e.structs (e.resolve p), v.Nodup) :
    (e.fieldNames p).Nodup ∧ ∀ v ∈ variantFields e.structs (e.resolve p), v.Sublist (e.fieldNames p) := by
  unfold Env.fieldNames
  rw [fieldNamesAt_eq]
  have := fold_core (variantFields e.structs (e.resolve p)) [] [] .nil (by simp) (by simp) (by simpa using hc) hn
  simpa using this

/-- The same for the literal: among the initialisers that are written, those of the fields of a variant
are all those that are given, in the order in which the variant declares them. -/
theorem C36_declared_order_partial (e : Env) (p x : Str) (fs : List LitField) {core : List Str}
    (hc : CommonCore core (variantFields e.structs (e.resolve p)))
    (hn : ∀ v ∈ variantFields e.structs (e.resolve p), v.Nodup)
    {t : Str} (h : Writes e.cfg.writer (Lit.ops e (.struct p x fs)) t) :
    ∃ written start ts stop,
      t = start ++ ts.flatten ++ stop ∧ TextsOf (Initialiser e fs) written ts ∧ written.Nodup ∧
      ∀ s ∈ (e.structs.getItems (e.resolve p)).getD [],
        ∃ given : List Str, given.Sublist (s.fields.map Field.name) ∧
          (∀ k, k ∈ given ↔ k ∈ s.fields.map Field.name ∧ Given fs k) ∧
          written.filter (fun k => decide (k ∈ s.fields.map Field.name)) = given := by
  obtain ⟨hnd, hsub⟩ := C36_variants_partial e p hc hn
  obtain ⟨written, start, ts, stop, ht, hts, hw, hset⟩ := C36_order e p x fs h
  refine ⟨written, start, ts, stop, ht, hts, hw.nodup hnd, fun s hs => ⟨_, ?_, ?_, rfl⟩⟩
  · have hv := hsub (s.fields.map Field.name) (by
      unfold variantFields
      exact List.mem_map.mpr ⟨s, hs, rfl⟩)
    have := hw.filter fun k => decide (k ∈ s.fields.map Field.name)
    rwa [filter_mem_of_sublist hv hnd] at this
  · intro k
    have hv := hsub (s.fields.map Field.name) (by
      unfold variantFields
      exact List.mem_map.mpr ⟨s, hs, rfl⟩)
    rw [List.mem_filter, hset, decide_eq_true_eq]
    constructor
    · rintro ⟨⟨_, h1⟩, h2⟩; exact ⟨h2, h1⟩
    · rintro ⟨h1, h2⟩; exact ⟨⟨hv.subset h1, h2⟩, h1⟩

/-- With a single variant nothing has to be assumed but that its fields have different names, which Rust
demands (and see C50 for the names after renaming). -/
theorem C36_one_variant (e : Env) (p x : Str) (fs : List LitField) (s : StructItem)
    (hs : (e.structs.getItems (e.resolve p)).getD [] = [s]) (hn : (s.fields.map Field.name).Nodup)
    {t : Str} (h : Writes e.cfg.writer (Lit.ops e (.struct p x fs)) t) :
    ∃ written start ts stop,
      t = start ++ ts.flatten ++ stop ∧ TextsOf (Initialiser e fs) written ts ∧
      written.Sublist (s.fields.map Field.name) ∧
      ∀ k, k ∈ written ↔ k ∈ s.fields.map Field.name ∧ Given fs k := by
  have he : e.fieldNames p = s.fields.map Field.name := by
    unfold Env.fieldNames
    rw [fieldNamesAt_eq]
    simp only [variantFields, hs, List.map_cons, List.map_nil, List.foldl_cons, List.foldl_nil]
    exact mergeFields_nil hn
  have := C36_order e p x fs h
  rwa [he] at this

/-! ## The separators -/

theorem single_tail (c : OutConfig) (fields : List (Str × Init)) : ∀ keys : List Str,
    initsSingle c fields false keys =
      (keys.filter fun k => (fields.lookup k).isSome).flatMap fun k =>
        [.text c!", ", .text (initLabel c.language k)] ++ ((fields.lookup k).map (·.1)).getD []
  | [] => rfl
  | k :: ks => by
    rw [initsSingle, single_tail c fields ks]
    cases hl : fields.lookup k with
    | none => simp [initSingle, hl]
    | some i => obtain ⟨ops, cfg⟩ := i; simp [initSingle, hl, onlyIf]

theorem between_cons {α : Type} (sep x : List α) (xs : List (List α)) :
    between sep (x :: xs) = x ++ xs.flatMap (sep ++ ·) := by
  induction xs generalizing x with
  | nil => simp [between]
  | cons y ys ih => rw [between, ih y]; simp

/-- On one line, if the first field of the list has a value, there is a comma between any two
initialisers and nowhere else. -/
theorem C36_commas_partial (e : Env) (p x : Str) (fs : List LitField) {k : Str} {ks : List Str}
    (hl : e.cfg.language ≠ .cython) (hm : multiLine e.cfg (Lit.canBeConstexpr (.struct p x fs)) = false)
    (hk : e.fieldNames p = k :: ks) (hg : Given fs k) :
    Lit.ops e (.struct p x fs) =
      [.text (if e.cfg.language = .c then c!"(" ++ x ++ c!")" else x), .text c!"{", .text c!" "] ++
      between [.text c!", "]
        (((e.fieldNames p).filter fun k => ((LitField.opsList e fs).lookup k).isSome).map fun k =>
          [.text (initLabel e.cfg.language k)] ++ (((LitField.opsList e fs).lookup k).map (·.1)).getD []) ++
      [.text c!" ", .text c!"}"] := by
  rw [← opsList_isSome e] at hg
  obtain ⟨⟨ops, cfg⟩, hlk⟩ := Option.isSome_iff_exists.mp hg
  have hbody : initsSingle e.cfg (LitField.opsList e fs) true (e.fieldNames p) =
      between [.text c!", "]
        (((e.fieldNames p).filter fun k => ((LitField.opsList e fs).lookup k).isSome).map fun k =>
          [.text (initLabel e.cfg.language k)] ++ (((LitField.opsList e fs).lookup k).map (·.1)).getD []) := by
    rw [hk, initsSingle, single_tail, List.filter_cons_of_pos (by simp [hlk]), List.map_cons, between_cons]
    simp [initSingle, hlk, onlyIf, List.flatMap_map]
  simp only [Lit.ops, structLitOps, hm]
  cases hlang : e.cfg.language with
  | cython => exact absurd hlang hl
  | _ => all_goals simp [hbody, hlang]

/-! ## The cache of field names -/

/-- The caches that requests for field names can leave behind. -/
inductive Memo (sm : ItemMap StructItem) (tm : ItemMap TypedefItem) (n : Nat) : List (Str × List Str) → Prop
  | empty : Memo sm tm n []
  | ask {memo memo' : List (Str × List Str)} {p : Str} {fs : List Str} : Memo sm tm n memo →
      lookupFieldNames sm tm n memo p = some (fs, memo') → Memo sm tm n memo'

theorem resolved_again {m : ItemMap TypedefItem} {p q : Str} : ∀ {n : Nat},
    resolvedStructPath m n p = some q → resolvedStructPath m n q = some q := by
  intro n h
  induction n generalizing p with
  | zero => simp [resolvedStructPath] at h
  | succ n ih =>
    unfold resolvedStructPath at h ⊢
    cases ha : aliasStep m p with
    | none => rw [ha] at h; cases h; rw [ha]
    | some r =>
      rw [ha] at h
      have := ih h
      cases n with
      | zero => simp [resolvedStructPath] at this
      | succ n =>
        unfold resolvedStructPath at this
        cases hb : aliasStep m q with
        | none => rfl
        | some r' =>
          rw [hb] at this
          -- a path that an alias stands for has no end other than itself: impossible
          have hq := (C37_resolved m _ _ _ h).2 r'
          exact absurd ((aliasStep_iff m q r').mp hb) hq

theorem memo_entries {sm : ItemMap StructItem} {tm : ItemMap TypedefItem} {n : Nat} {memo : List (Str × List Str)}
    (h : Memo sm tm n memo) : ∀ e ∈ memo, (resolvedStructPath tm n e.1).map (fieldNamesAt sm) = some e.2 := by
  induction h with
  | empty => simp
  | @ask memo memo' p fs hm ha ih =>
    unfold lookupFieldNames at ha
    cases hl : memo.lookup p with
    | some fs' => rw [hl] at ha; cases ha; exact ih
    | none =>
      rw [hl] at ha
      cases hr : resolvedStructPath tm n p with
      | none => rw [hr] at ha; cases ha
      | some q =>
        rw [hr] at ha
        simp only [Option.some.injEq, Prod.mk.injEq] at ha
        obtain ⟨rfl, rfl⟩ := ha
        intro e he
        split at he
        · rcases List.mem_cons.mp he with rfl | he
          · simp [hr]
          · exact ih e he
        · rcases List.mem_cons.mp he with rfl | he
          · simp [resolved_again hr]
          · rcases List.mem_cons.mp he with rfl | he
            · simp [hr]
            · exact ih e he

/-- Whatever was asked before, the answer for a path is the same: that for the struct the path stands
for. -/
theorem C36_cache {sm : ItemMap StructItem} {tm : ItemMap TypedefItem} {n : Nat} {memo : List (Str × List Str)}
    (h : Memo sm tm n memo) (p : Str) :
    (lookupFieldNames sm tm n memo p).map (·.1) = (resolvedStructPath tm n p).map (fieldNamesAt sm) := by
  unfold lookupFieldNames
  cases hl : memo.lookup p with
  | some fs => simpa using (memo_entries h _ (mem_of_lookup hl)).symm
  | none => cases hr : resolvedStructPath tm n p <;> simp

/-! ## Refutations -/

namespace C36Cases

def i32 : Ty := .prim (.integer true true .b32)
def fld (n : Str) : Field := { name := n, ty := i32 }
def variant (fs : List Str) : StructItem := { path := c!"S", exportName := c!"S", fields := fs.map fld }
def env (vs : List StructItem) : Env :=
  { cfg := { language := .cxx, allowStaticConst := false, allowConstexpr := false },
    structs := [(c!"S", .cfg vs)] }
def val (n v : Str) : LitField := .mk n (.expr v) none

end C36Cases

open C36Cases in
/-- Three variants of a struct under different conditions, the fields of which are in the same order: the
initialisers of the third one are swapped, and in C++ the values with them. -/
theorem C36_variants_refuted : ∃ e : Env, ∃ p : Str,
    variantFields e.structs (e.resolve p) = [[c!"a"], [c!"b"], [c!"a", c!"b"]] ∧
    Writes e.cfg.writer (Lit.ops e (.struct p p [val c!"a" c!"1", val c!"b" c!"2"]))
      c!"S{ /* .b = */ 2, /* .a = */ 1 }" := by
  refine ⟨env [variant [c!"a"], variant [c!"b"], variant [c!"a", c!"b"]], c!"S", rfl, {}, _, rfl⟩

open C36Cases in
/-- `const K: S = S { a: 1, b: 2 };` -/
def renamedConst : ConstItem :=
  { path := c!"K", exportName := c!"K", ty := .path c!"S" c!"S" [] none,
    value := .struct c!"S" c!"S" [val c!"a" c!"1", val c!"b" c!"2"] }

open C36Cases in
/-- `struct S { a: i32, b: i32 }` and the constant. -/
def renamedLibrary : Library :=
  { constants := [(c!"K", .single renamedConst)], structs := [(c!"S", .single (variant [c!"a", c!"b"]))] }

open C36Cases in
/-- If fields are renamed, the literal keeps the names from the source and none of its values is
written. -/
theorem C36_renamed_refuted (f : CaseFns) : ∃ l',
    renamedLibrary.prepare { (plainConfig .cxx f) with renameFields := .prefixWith c!"m_" } id 1 = .ok l' ∧
    variantFields l'.structs c!"S" = [[c!"m_a", c!"m_b"]] ∧
    ∃ k ∈ l'.constants.toVec, ∃ fs, k.value = .struct c!"S" c!"S" fs ∧ Given fs c!"a" ∧ Given fs c!"b" ∧
      ∃ cfg : OutConfig, cfg.language = .cxx ∧
      Writes cfg.writer (k.value.ops { cfg := cfg, structs := l'.structs }) c!"S{  }" := by
  refine ⟨_, rfl, rfl, renamedConst, List.mem_cons_self .., [val c!"a" c!"1", val c!"b" c!"2"], rfl,
    ⟨_, _, List.mem_cons_self ..⟩, ⟨_, _, List.mem_cons_of_mem _ (List.mem_cons_self ..)⟩,
    { language := .cxx, allowStaticConst := false, allowConstexpr := false }, rfl, {}, _, rfl⟩

open C36Cases in
/-- If the first field has no value, the list of initialisers starts with a comma. -/
theorem C36_comma_refuted : ∃ e : Env, ∃ p : Str,
    Writes e.cfg.writer (Lit.ops e (.struct p p [val c!"b" c!"2"])) c!"S{ , /* .b = */ 2 }" := by
  refine ⟨env [variant [c!"a", c!"b"]], c!"S", {}, _, rfl⟩

/-! ## Cases -/

open C36Cases in
example : CommonCore [c!"x", c!"y"] (variantFields (env [variant [c!"x", c!"l", c!"y"],
      variant [c!"w", c!"x", c!"y"], variant [c!"x", c!"y"]]).structs c!"S") ∧
    (env [variant [c!"x", c!"l", c!"y"], variant [c!"w", c!"x", c!"y"], variant [c!"x", c!"y"]]).fieldNames
      c!"S" = [c!"w", c!"x", c!"l", c!"y"] := by
  refine ⟨?_, by decide +kernel⟩
  unfold CommonCore
  decide +kernel

open C36Cases in
example : Writes (env [variant [c!"a", c!"b", c!"c"]]).cfg.writer
    (Lit.ops (env [variant [c!"a", c!"b", c!"c"]]) (.struct c!"S" c!"S" [val c!"c" c!"3", val c!"a" c!"1"]))
    c!"S{ /* .a = */ 1, /* .c = */ 3 }" := ⟨{}, _, rfl⟩

end Cbindgen
