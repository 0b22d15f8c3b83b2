import Verif.Spec.Determinism
import Verif.Model.Emission
import Verif.Props.Transfer
import Verif.Props.Library
import Verif.Props.RefCases

/-!
# C52: two runs on the same input write the same header
-/

namespace Cbindgen.DetSpec

/-! ## The parts of a literal -/

theorem opsList_eq (e : Env) : ∀ fs : List LitField, LitField.opsList e fs =
    fs.map fun f => match f with | .mk n v c => (n, v.ops e, c)
  | [] => rfl
  | .mk n v c :: fs => by simp only [LitField.opsList, List.map_cons, opsList_eq e fs]

theorem opsItems_eq (e : Env) : ∀ vs : List Lit, Lit.opsItems e vs = vs.flatMap fun v => v.ops e ++ [.text c!", "]
  | [] => rfl
  | v :: vs => by simp only [Lit.opsItems, List.flatMap_cons, opsItems_eq e vs, List.append_assoc]

theorem anyList_eq (f : Lit → Bool) : ∀ fs : List LitField, LitField.anyList f fs = fs.any fun x => (fieldValue x).any f
  | [] => rfl
  | .mk n v c :: fs => by simp only [LitField.anyList, List.any_cons, anyList_eq f fs, fieldValue]

theorem anyItems_eq (f : Lit → Bool) : ∀ vs : List Lit, Lit.anyList f vs = vs.any fun v => v.any f
  | [] => rfl
  | v :: vs => by simp only [Lit.anyList, List.any_cons, anyItems_eq f vs]

theorem allValid_eq (e : Env) : ∀ vs : List Lit, Lit.allValid e vs = vs.all fun v => v.isValid e
  | [] => rfl
  | v :: vs => by simp only [Lit.allValid, List.all_cons, allValid_eq e vs]

theorem perm_any {α : Type} {f : α → Bool} {xs ys : List α} (h : xs.Perm ys) : xs.any f = ys.any f := by
  rw [Bool.eq_iff_iff]
  simp only [List.any_eq_true, h.mem_iff]

theorem perm_lookup {β : Type} {xs ys : List (Str × β)} (h : xs.Perm ys) (hn : (xs.map (·.1)).Nodup) (k : Str) :
    xs.lookup k = ys.lookup k := by
  induction h with
  | nil => rfl
  | cons x _ ih =>
    obtain ⟨a, b⟩ := x
    simp only [List.lookup_cons]
    rw [ih (by simp only [List.map_cons, List.nodup_cons] at hn; exact hn.2)]
  | swap x y l =>
    obtain ⟨a, b⟩ := x
    obtain ⟨a', b'⟩ := y
    simp only [List.map_cons, List.nodup_cons, List.mem_cons, not_or] at hn
    simp only [List.lookup_cons]
    have h1 : a' ≠ a := hn.1.1
    by_cases h2 : k = a
    · subst h2
      have : (k == a') = false := by simp only [beq_eq_false_iff_ne]; exact fun h => h1 h.symm
      simp [this]
    · have : (k == a) = false := by simp only [beq_eq_false_iff_ne]; exact h2
      simp only [this]
  | trans h1 _ ih1 ih2 => rw [ih1 hn, ih2 ((h1.map _).nodup_iff.mp hn)]

/-- Functions that do not look at the fields of a struct literal. -/
def TopOnly (f : Lit → Bool) : Prop := ∀ l l', Reordered l l' → f l = f l'

theorem reordered_any {f : Lit → Bool} (hf : TopOnly f) {l l' : Lit} (h : Reordered l l') : l.any f = l'.any f := by
  induction h with
  | refl l => rfl
  | trans _ _ ih1 ih2 => exact ih1.trans ih2
  | fields p x hp hn =>
    simp only [Lit.any, anyList_eq, hf _ _ (.fields p x hp hn), perm_any hp]
  | inField p x n c fs gs h ih =>
    simp only [Lit.any, anyList_eq, hf _ _ (.inField p x n c fs gs h), List.any_append, List.any_cons, fieldValue, ih]
  | unary o h ih => simp only [Lit.any, hf _ _ (.unary o h), ih]
  | left o r h ih => simp only [Lit.any, hf _ _ (.left o r h), ih]
  | right l o h ih => simp only [Lit.any, hf _ _ (.right l o h), ih]
  | base n h ih => simp only [Lit.any, hf _ _ (.base n h), ih]
  | cast t h ih => simp only [Lit.any, hf _ _ (.cast t h), ih]
  | item vs ws h ih => simp only [Lit.any, anyItems_eq, hf _ _ (.item vs ws h), List.any_append, List.any_cons, ih]

theorem ptrCast_top : TopOnly Lit.isPtrCast := by
  intro l l' h
  induction h with
  | trans _ _ ih1 ih2 => exact ih1.trans ih2
  | _ => rfl

theorem needsType_top : TopOnly Lit.needsType := by
  intro l l' h
  induction h with
  | trans _ _ ih1 ih2 => exact ih1.trans ih2
  | _ => rfl

theorem reordered_valid {e : Env} {l l' : Lit} (h : Reordered l l') : l.isValid e = l'.isValid e := by
  induction h with
  | refl l => rfl
  | trans _ _ ih1 ih2 => exact ih1.trans ih2
  | fields p x hp hn => simp only [Lit.isValid]
  | inField p x n c fs gs h ih => simp only [Lit.isValid]
  | unary o h ih => simp only [Lit.isValid, ih]
  | left o r h ih => simp only [Lit.isValid, ih]
  | right l o h ih => simp only [Lit.isValid, ih]
  | base n h ih => simp only [Lit.isValid, ih]
  | cast t h ih => simp only [Lit.isValid, ih]
  | item vs ws h ih => simp only [Lit.isValid, allValid_eq, List.all_append, List.all_cons, ih]

theorem constexpr_same {l l' : Lit} (h : Reordered l l') : l.canBeConstexpr = l'.canBeConstexpr := by
  simp only [Lit.canBeConstexpr, reordered_any ptrCast_top h]

theorem initsMulti_lookup {c : OutConfig} {xs ys : List (Str × Init)} (h : ∀ k, xs.lookup k = ys.lookup k) :
    ∀ ks, initsMulti c xs ks = initsMulti c ys ks
  | [] => rfl
  | k :: ks => by simp only [initsMulti, h k, initsMulti_lookup h ks]

theorem initsSingle_lookup {c : OutConfig} {xs ys : List (Str × Init)} (h : ∀ k, xs.lookup k = ys.lookup k) :
    ∀ (b : Bool) ks, initsSingle c xs b ks = initsSingle c ys b ks
  | _, [] => rfl
  | b, k :: ks => by simp only [initsSingle, h k, initsSingle_lookup h false ks]

theorem initsCython_lookup {xs ys : List (Str × Init)} (h : ∀ k, xs.lookup k = ys.lookup k) :
    ∀ (b : Bool) ks, initsCython xs b ks = initsCython ys b ks
  | _, [] => rfl
  | b, k :: ks => by simp only [initsCython, h k, initsCython_lookup h b ks, initsCython_lookup h false ks]

theorem structLitOps_lookup {e : Env} {b : Bool} {p x : Str} {xs ys : List (Str × Init)}
    (h : ∀ k, xs.lookup k = ys.lookup k) : structLitOps e b p x xs = structLitOps e b p x ys := by
  unfold structLitOps
  simp only [initsMulti_lookup h, initsSingle_lookup h, initsCython_lookup h]

/-- The text of a literal is the same in both runs. -/
theorem reordered_ops {e : Env} {l l' : Lit} (h : Reordered l l') : l.ops e = l'.ops e := by
  induction h with
  | refl l => rfl
  | trans _ _ ih1 ih2 => exact ih1.trans ih2
  | fields p x hp hn =>
    simp only [Lit.ops, constexpr_same (.fields p x hp hn)]
    refine structLitOps_lookup fun k => ?_
    rw [opsList_eq, opsList_eq]
    refine perm_lookup (hp.map _) ?_ k
    rw [List.map_map]
    have : ((fun x : Str × Init => x.1) ∘ fun f => match f with | LitField.mk n v c => (n, Lit.ops e v, c)) = fieldName := by
      funext f; cases f; rfl
    rw [this]; exact hn
  | inField p x n c fs gs h ih =>
    simp only [Lit.ops, constexpr_same (.inField p x n c fs gs h), opsList_eq, List.map_append, List.map_cons, ih]
  | unary o h ih => simp only [Lit.ops, ih]
  | left o r h ih => simp only [Lit.ops, ih]
  | right l o h ih => simp only [Lit.ops, ih]
  | base n h ih => simp only [Lit.ops, ih]
  | cast t h ih => simp only [Lit.ops, ih]
  | item vs ws h ih => simp only [Lit.ops, opsItems_eq, List.flatMap_append, List.flatMap_cons, ih]

/-! ## Transparent structs -/

theorem peel_other {tr : Str → Bool} {l : Lit} (h : ∀ p x fs, l ≠ .struct p x fs) : l.peel tr = some l := by
  cases l with
  | struct p x fs => exact absurd rfl (h p x fs)
  | _ => rfl

theorem peel_struct {tr : Str → Bool} {p x : Str} {fs : List LitField} (h : tr p = false) :
    (Lit.struct p x fs).peel tr = some (.struct p x fs) := by
  simp only [Lit.peel, h]

/-- What is left of both literals is the same up to the order. -/
def SameRest (a b : Option Lit) : Prop := ∃ v w, a = some v ∧ b = some w ∧ Reordered v w

theorem struct_of {p x : Str} {fs : List LitField} {l : Lit} (h : Reordered (.struct p x fs) l) :
    ∃ gs, l = .struct p x gs ∧ gs.length = fs.length := by
  generalize hl : Lit.struct p x fs = l0 at h
  induction h generalizing fs with
  | refl l => exact ⟨fs, hl.symm, rfl⟩
  | trans _ _ ih1 ih2 =>
    obtain ⟨gs, rfl, h1⟩ := ih1 hl
    obtain ⟨hs, rfl, h2⟩ := ih2 rfl
    exact ⟨hs, rfl, h2.trans h1⟩
  | fields p x hp hn => cases hl; exact ⟨_, rfl, hp.length_eq.symm⟩
  | inField p x n c fs gs h ih => cases hl; exact ⟨_, rfl, by simp⟩
  | _ => cases hl

theorem not_struct {l l' : Lit} (h : Reordered l l') (hl : ∀ p x fs, l ≠ .struct p x fs) : ∀ p x fs, l' ≠ .struct p x fs := by
  induction h with
  | refl l => exact hl
  | trans _ _ ih1 ih2 => exact ih2 (ih1 hl)
  | fields p x hp hn => exact absurd rfl (hl _ _ _)
  | inField p x n c fs gs h ih => exact absurd rfl (hl _ _ _)
  | _ => intro p x fs h; cases h

theorem single_of {p x n : Str} {c : Option Cfg} {v : Lit} {l : Lit} (h : Reordered (.struct p x [.mk n v c]) l) :
    ∃ v', l = .struct p x [.mk n v' c] ∧ Reordered v v' := by
  generalize hl : Lit.struct p x [.mk n v c] = l0 at h
  induction h generalizing v with
  | refl l => exact ⟨v, hl.symm, .refl _⟩
  | trans _ _ ih1 ih2 =>
    obtain ⟨v1, rfl, h1⟩ := ih1 hl
    obtain ⟨v2, rfl, h2⟩ := ih2 rfl
    exact ⟨v2, rfl, h1.trans h2⟩
  | fields p x hp hn =>
    cases hl
    rw [List.singleton_perm.mp hp |>.symm]
    exact ⟨v, rfl, .refl _⟩
  | inField p x n' c' fs gs h ih =>
    rename_i w w'
    simp only [Lit.struct.injEq] at hl
    obtain ⟨rfl, rfl, h2⟩ := hl
    cases fs with
    | cons f fs => simp at h2
    | nil =>
      simp only [List.nil_append, List.cons.injEq, LitField.mk.injEq] at h2
      obtain ⟨⟨rfl, rfl, rfl⟩, rfl⟩ := h2
      exact ⟨w', rfl, h⟩
  | _ => cases hl

theorem reordered_peel {tr : Str → Bool} {l l' : Lit} (h : Reordered l l') (hl : Lone tr l) :
    SameRest (l.peel tr) (l'.peel tr) := by
  induction hl generalizing l' with
  | other hn => rw [peel_other hn, peel_other (not_struct h hn)]; exact ⟨_, _, rfl, rfl, h⟩
  | struct p x fs ht =>
    obtain ⟨gs, rfl, -⟩ := struct_of h
    rw [peel_struct ht, peel_struct ht]
    exact ⟨_, _, rfl, rfl, h⟩
  | single p x n c hv ih =>
    obtain ⟨v', rfl, h1⟩ := single_of h
    simp only [Lit.peel, LitField.peelHead]
    cases tr p with
    | true => exact ih h1
    | false => exact ⟨_, _, rfl, rfl, h⟩

/-! ## One constant -/

theorem constOps_same {e : Env} {k k' : ConstItem} (h : SameConst k k') (hl : Lone e.transparent k.value) (s : Option StructItem) :
    k.ops e s = k'.ops e s := by
  obtain ⟨h1, h2⟩ := h
  rw [h1]
  obtain ⟨v, w, e1, e2, h3⟩ := reordered_peel h2 hl
  unfold ConstItem.ops ConstItem.bodyOps
  simp only [← reordered_valid h2, e1, e2, ← constexpr_same h2]
  have hw : ConstItem.writtenName e.cfg { k with value := k'.value } s = ConstItem.writtenName e.cfg k s := rfl
  rw [hw]
  cases ConstItem.writtenName e.cfg k s with
  | none => rfl
  | some name => simp only [reordered_ops h3]

theorem onlyPrimitive_same {k k' : ConstItem} (h : SameConst k k') : k.onlyPrimitive = k'.onlyPrimitive := by
  obtain ⟨h1, h2⟩ := h
  rw [h1]
  simp only [ConstItem.onlyPrimitive, Lit.onlyPrimitive, reordered_any needsType_top h2]

theorem constantsOps_same {e : Env} {p : Bool} {ks ks' : List ConstItem} (h : Both SameConst ks ks')
    (hl : ∀ k ∈ ks, Lone e.transparent k.value) : constantsOps e p ks = constantsOps e p ks' := by
  induction h with
  | nil => rfl
  | cons h1 _ ih =>
    have h2 := ih fun k hk => hl k (by simp [hk])
    unfold constantsOps at h2 ⊢
    simp only [List.filter_cons, onlyPrimitive_same h1]
    split
    · rw [List.flatMap_cons, List.flatMap_cons, constOps_same h1 (hl _ (by simp)), h2]
    · exact h2

theorem Both.isEmpty {α β : Type} {R : α → β → Prop} {xs : List α} {ys : List β} (h : Both R xs ys) :
    xs.isEmpty = ys.isEmpty := by
  cases h <;> rfl

/-- The text is the same when the constants differ in the order of fields only. -/
theorem headerText_same {e : Env} {b b' : Bindings} (h : Both SameConst b.constants b'.constants)
    (hl : ∀ k ∈ b.constants, Lone e.transparent k.value) (h1 : b'.globals = b.globals) (h2 : b'.items = b.items)
    (h3 : b'.functions = b.functions) : headerText e b' = headerText e b := by
  have e1 := constantsOps_same (p := true) h hl
  have e2 := constantsOps_same (p := false) h hl
  have e3 := h.isEmpty
  obtain ⟨ks, gs, is, fs⟩ := b
  obtain ⟨ks', gs', is', fs'⟩ := b'
  simp only at h1 h2 h3 e1 e2 e3
  subst h1 h2 h3
  have e4 : functionsOps e.cfg ⟨ks', gs', is', fs'⟩ = functionsOps e.cfg ⟨ks, gs', is', fs'⟩ := by
    simp only [functionsOps, Bindings.hasLinkage, e3]
  have e5 : globalsOps e.cfg ⟨ks', gs', is', fs'⟩ = globalsOps e.cfg ⟨ks, gs', is', fs'⟩ := by
    simp only [globalsOps, Bindings.hasLinkage]
  unfold headerText bindingsOps
  rw [e4, e5]
  simp only [e1, e2]

/-! ## The names of types in a literal -/

mutual
theorem typeNames_eq : ∀ l : Lit, typeNames l = l.depPaths
  | .expr _ => rfl
  | .path none _ => rfl
  | .path (some (_, _)) _ => rfl
  | .unary _ v => by simp only [typeNames, Lit.depPaths, typeNames_eq v]
  | .binop l _ r => by simp only [typeNames, Lit.depPaths, typeNames_eq l, typeNames_eq r]
  | .field b _ => by simp only [typeNames, Lit.depPaths, typeNames_eq b]
  | .struct p _ fs => by simp only [typeNames, Lit.depPaths, typeNamesOf_eq fs]
  | .cast _ v => by simp only [typeNames, Lit.depPaths, typeNames_eq v]
  | .array vs => by simp only [typeNames, Lit.depPaths, typeNamesIn_eq vs]
theorem typeNamesOf_eq : ∀ fs : List LitField, typeNamesOf fs = LitField.depPathsList fs
  | [] => rfl
  | .mk _ v _ :: fs => by
    simp only [typeNamesOf, LitField.depPathsList, LitField.depPaths, typeNames_eq v, typeNamesOf_eq fs]
theorem typeNamesIn_eq : ∀ vs : List Lit, typeNamesIn vs = Lit.depPathsList vs
  | [] => rfl
  | v :: vs => by simp only [typeNamesIn, Lit.depPathsList, typeNames_eq v, typeNamesIn_eq vs]
end

theorem typeNamesOf_flat : ∀ fs : List LitField, typeNamesOf fs = fs.flatMap fun f => typeNames (fieldValue f)
  | [] => rfl
  | .mk n v c :: fs => by simp only [typeNamesOf, List.flatMap_cons, typeNamesOf_flat fs, fieldValue]

theorem typeNamesIn_flat : ∀ vs : List Lit, typeNamesIn vs = vs.flatMap typeNames
  | [] => rfl
  | v :: vs => by simp only [typeNamesIn, List.flatMap_cons, typeNamesIn_flat vs]

theorem flatMap_filter {α : Type} (f : α → List Str) : ∀ xs : List α,
    xs.flatMap f = (xs.filter fun x => !(f x).isEmpty).flatMap f
  | [] => rfl
  | x :: xs => by
    simp only [List.flatMap_cons, List.filter_cons, flatMap_filter f xs]
    cases hx : f x with
    | nil => simp
    | cons a as => simp [hx]

theorem perm_sole {α : Type} {f : α → List Str} {xs ys : List α} (h : xs.Perm ys)
    (hs : (xs.filter fun x => !(f x).isEmpty).length ≤ 1) : xs.flatMap f = ys.flatMap f := by
  rw [flatMap_filter f xs, flatMap_filter f ys]
  have hp := h.filter fun x => !(f x).isEmpty
  generalize (xs.filter fun x => !(f x).isEmpty) = as at hs hp
  cases as with
  | nil => rw [List.nil_perm.mp hp]
  | cons a as =>
    cases as with
    | nil => rw [List.singleton_perm.mp hp]
    | cons b as => simp at hs

/-- The names are the same up to their order. -/
theorem reordered_names {l l' : Lit} (h : Reordered l l') : ∀ n, n ∈ typeNames l ↔ n ∈ typeNames l' := by
  induction h with
  | refl l => exact fun n => Iff.rfl
  | trans _ _ ih1 ih2 => exact fun n => (ih1 n).trans (ih2 n)
  | fields p x hp hn =>
    intro n
    simp only [typeNames, typeNamesOf_flat, List.mem_cons, List.mem_flatMap, hp.mem_iff]
  | inField p x n c fs gs h ih =>
    intro m
    simp only [typeNames, typeNamesOf_flat, List.mem_cons, List.flatMap_append, List.flatMap_cons, List.mem_append, fieldValue,
      ih m]
  | unary o h ih => exact ih
  | left o r h ih => intro n; simp only [typeNames, List.mem_append, ih n]
  | right l o h ih => intro n; simp only [typeNames, List.mem_append, ih n]
  | base n h ih => exact ih
  | cast t h ih => exact ih
  | item vs ws h ih =>
    intro n
    simp only [typeNames, typeNamesIn_flat, List.flatMap_append, List.flatMap_cons, List.mem_append, ih n]

/-- With at most one field that names types, the order is the same too. -/
theorem reordered_sole {l l' : Lit} (h : Reordered l l') : Sole l → typeNames l = typeNames l' ∧ Sole l' := by
  induction h with
  | refl l => exact fun h => ⟨rfl, h⟩
  | trans _ _ ih1 ih2 =>
    intro h
    have h1 := ih1 h
    have h2 := ih2 h1.2
    exact ⟨h1.1.trans h2.1, h2.2⟩
  | fields p x hp hn =>
    intro h
    cases h with
    | struct p x h1 h2 =>
      refine ⟨?_, .struct p x (fun f hf => h1 f (hp.mem_iff.mpr hf)) ?_⟩
      · simp only [typeNames, typeNamesOf_flat]
        rw [perm_sole hp h2]
      · rw [← (hp.filter _).length_eq]; exact h2
  | inField p x n c fs gs h ih =>
    rename_i v v'
    intro hs
    cases hs with
    | struct p x h1 h2 =>
      have hv := ih (h1 (.mk n v c) (by simp))
      refine ⟨?_, .struct p x (fun f hf => ?_) ?_⟩
      · simp only [typeNames, typeNamesOf_flat, List.flatMap_append, List.flatMap_cons, fieldValue, hv.1]
      · simp only [List.mem_append, List.mem_cons] at hf
        rcases hf with hf | rfl | hf
        · exact h1 f (by simp [hf])
        · exact hv.2
        · exact h1 f (by simp [hf])
      · have e1 : (!(typeNames (fieldValue (.mk n v' c))).isEmpty) = !(typeNames (fieldValue (.mk n v c))).isEmpty := by
          simp only [fieldValue, hv.1]
        rw [List.filter_append, List.filter_cons, List.length_append] at h2 ⊢
        rw [e1]
        revert h2
        cases (!(typeNames (fieldValue (.mk n v c))).isEmpty) <;> exact id
  | unary o h ih => intro hs; cases hs with | unary o h1 => exact ⟨(ih h1).1, .unary o (ih h1).2⟩
  | left o r h ih =>
    intro hs
    cases hs with
    | binop o h1 h2 => exact ⟨by simp only [typeNames, (ih h1).1], .binop o (ih h1).2 h2⟩
  | right l o h ih =>
    intro hs
    cases hs with
    | binop o h1 h2 => exact ⟨by simp only [typeNames, (ih h2).1], .binop o h1 (ih h2).2⟩
  | base n h ih => intro hs; cases hs with | field n h1 => exact ⟨(ih h1).1, .field n (ih h1).2⟩
  | cast t h ih => intro hs; cases hs with | cast t h1 => exact ⟨(ih h1).1, .cast t (ih h1).2⟩
  | item vs ws h ih =>
    intro hs
    cases hs with
    | array h1 =>
      have hv := ih (h1 _ (by simp))
      refine ⟨by simp only [typeNames, typeNamesIn_flat, List.flatMap_append, List.flatMap_cons, hv.1], .array fun w hw => ?_⟩
      simp only [List.mem_append, List.mem_cons] at hw
      rcases hw with hw | rfl | hw
      · exact h1 w (by simp [hw])
      · exact hv.2
      · exact h1 w (by simp [hw])

/-! ## Renaming -/

theorem renameList_eq (r : Str → Str) : ∀ fs : List LitField, LitField.renameList r fs = fs.map (LitField.rename r)
  | [] => rfl
  | f :: fs => by simp only [LitField.renameList, List.map_cons, renameList_eq r fs]

theorem renameItems_eq (r : Str → Str) : ∀ vs : List Lit, Lit.renameList r vs = vs.map (Lit.rename r)
  | [] => rfl
  | v :: vs => by simp only [Lit.renameList, List.map_cons, renameItems_eq r vs]

theorem fieldName_rename (r : Str → Str) (f : LitField) : fieldName (f.rename r) = fieldName f := by
  cases f; rfl

theorem fieldValue_rename (r : Str → Str) (f : LitField) : fieldValue (f.rename r) = (fieldValue f).rename r := by
  cases f; rfl

theorem reordered_rename (r : Str → Str) {l l' : Lit} (h : Reordered l l') : Reordered (l.rename r) (l'.rename r) := by
  induction h with
  | refl l => exact .refl _
  | trans _ _ ih1 ih2 => exact ih1.trans ih2
  | fields p x hp hn =>
    simp only [Lit.rename, renameList_eq]
    refine .fields _ _ (hp.map _) ?_
    rw [List.map_map]
    have : (fieldName ∘ LitField.rename r) = fieldName := funext (fieldName_rename r)
    rw [this]; exact hn
  | inField p x n c fs gs h ih =>
    simp only [Lit.rename, renameList_eq, List.map_append, List.map_cons, LitField.rename]
    exact .inField _ _ _ _ _ _ ih
  | unary o h ih => exact .unary _ ih
  | left o r h ih => exact .left _ _ ih
  | right l o h ih => exact .right _ _ ih
  | base n h ih => exact .base _ ih
  | cast t h ih => exact .cast _ ih
  | item vs ws h ih =>
    simp only [Lit.rename, renameItems_eq, List.map_append, List.map_cons]
    exact .item _ _ ih

mutual
theorem names_rename (r : Str → Str) : ∀ l : Lit, typeNames (l.rename r) = typeNames l
  | .expr _ => rfl
  | .path none _ => rfl
  | .path (some (_, _)) _ => rfl
  | .unary _ v => by simp only [typeNames, Lit.rename, names_rename r v]
  | .binop l _ w => by simp only [typeNames, Lit.rename, names_rename r l, names_rename r w]
  | .field b _ => by simp only [typeNames, Lit.rename, names_rename r b]
  | .struct p _ fs => by simp only [typeNames, Lit.rename, namesOf_rename r fs]
  | .cast _ v => by simp only [typeNames, Lit.rename, names_rename r v]
  | .array vs => by simp only [typeNames, Lit.rename, namesIn_rename r vs]
theorem namesOf_rename (r : Str → Str) : ∀ fs : List LitField, typeNamesOf (LitField.renameList r fs) = typeNamesOf fs
  | [] => rfl
  | .mk _ v _ :: fs => by
    simp only [typeNamesOf, LitField.renameList, LitField.rename, names_rename r v, namesOf_rename r fs]
theorem namesIn_rename (r : Str → Str) : ∀ vs : List Lit, typeNamesIn (Lit.renameList r vs) = typeNamesIn vs
  | [] => rfl
  | v :: vs => by simp only [typeNamesIn, Lit.renameList, names_rename r v, namesIn_rename r vs]
end

theorem sole_rename (r : Str → Str) {l : Lit} (h : Sole l) : Sole (l.rename r) := by
  induction h with
  | expr s => exact .expr s
  | path a n =>
    cases a with
    | none => exact .path _ _
    | some a => exact .path _ _
  | unary o _ ih => exact .unary o ih
  | binop o _ _ ih1 ih2 => exact .binop o ih1 ih2
  | field n _ ih => exact .field n ih
  | cast t _ ih => exact .cast _ ih
  | array _ ih =>
    simp only [Lit.rename, renameItems_eq]
    refine .array fun v hv => ?_
    obtain ⟨w, hw, rfl⟩ := List.mem_map.mp hv
    exact ih w hw
  | struct p x _ h2 ih =>
    simp only [Lit.rename, renameList_eq]
    refine .struct _ _ (fun f hf => ?_) ?_
    · obtain ⟨g, hg, rfl⟩ := List.mem_map.mp hf
      rw [fieldValue_rename]; exact ih g hg
    · rw [List.filter_map, List.length_map]
      have : ((fun f => !(typeNames (fieldValue f)).isEmpty) ∘ LitField.rename r)
          = fun f => !(typeNames (fieldValue f)).isEmpty := by
        funext f
        simp only [Function.comp, fieldValue_rename, names_rename]
      rw [this]; exact h2

/-! ## Tables -/

section Tables

variable {α β γ δ : Type} {R : α → β → Prop} {S : γ → δ → Prop}

theorem Both.append {xs xs' : List α} {ys ys' : List β} (h : Both R xs ys) (h' : Both R xs' ys') :
    Both R (xs ++ xs') (ys ++ ys') := by
  induction h with
  | nil => exact h'
  | cons h1 _ ih => exact .cons h1 ih

theorem Both.map {f : α → γ} {g : β → δ} (hf : ∀ a b, R a b → S (f a) (g b)) {xs : List α} {ys : List β} (h : Both R xs ys) :
    Both S (xs.map f) (ys.map g) := by
  induction h with
  | nil => exact .nil
  | cons h1 _ ih => exact .cons (hf _ _ h1) ih

theorem Both.flatMap {f : α → List γ} {g : β → List δ} (hf : ∀ a b, R a b → Both S (f a) (g b)) {xs : List α} {ys : List β}
    (h : Both R xs ys) : Both S (xs.flatMap f) (ys.flatMap g) := by
  induction h with
  | nil => exact .nil
  | cons h1 _ ih => simp only [List.flatMap_cons]; exact (hf _ _ h1).append ih

theorem Both.filter {p : α → Bool} {q : β → Bool} (hp : ∀ a b, R a b → p a = q b) {xs : List α} {ys : List β} (h : Both R xs ys) :
    Both R (xs.filter p) (ys.filter q) := by
  induction h with
  | nil => exact .nil
  | cons h1 _ ih =>
    simp only [List.filter_cons, hp _ _ h1]
    split
    · exact .cons h1 ih
    · exact ih

theorem Both.mono {R' : α → β → Prop} (hr : ∀ a b, R a b → R' a b) {xs : List α} {ys : List β} (h : Both R xs ys) :
    Both R' xs ys := by
  induction h with
  | nil => exact .nil
  | cons h1 _ ih => exact .cons (hr _ _ h1) ih

theorem Both.flatEq {f : α → List γ} {g : β → List γ} (hf : ∀ a b, R a b → f a = g b) {xs : List α} {ys : List β}
    (h : Both R xs ys) : xs.flatMap f = ys.flatMap g := by
  induction h with
  | nil => rfl
  | cons h1 _ ih => simp only [List.flatMap_cons, hf _ _ h1, ih]

theorem Both.left {xs : List α} {ys : List β} (h : Both R xs ys) : ∀ a ∈ xs, ∃ b ∈ ys, R a b := by
  induction h with
  | nil => simp
  | cons h1 _ ih =>
    intro a ha
    rcases List.mem_cons.mp ha with rfl | ha
    · exact ⟨_, by simp, h1⟩
    · obtain ⟨b, hb, h2⟩ := ih a ha
      exact ⟨b, by simp [hb], h2⟩

theorem Both.right {xs : List α} {ys : List β} (h : Both R xs ys) : ∀ b ∈ ys, ∃ a ∈ xs, R a b := by
  induction h with
  | nil => simp
  | cons h1 _ ih =>
    intro b hb
    rcases List.mem_cons.mp hb with rfl | hb
    · exact ⟨_, by simp, h1⟩
    · obtain ⟨a, ha, h2⟩ := ih b hb
      exact ⟨a, by simp [ha], h2⟩

/-- Two related lists are the two sides of a list of pairs. -/
theorem Both.zip {xs : List α} {ys : List β} (h : Both R xs ys) :
    ∃ zs : List (α × β), xs = zs.map (·.1) ∧ ys = zs.map (·.2) ∧ ∀ z ∈ zs, R z.1 z.2 := by
  induction h with
  | nil => exact ⟨[], rfl, rfl, by simp⟩
  | cons h1 _ ih =>
    obtain ⟨zs, rfl, rfl, h2⟩ := ih
    refine ⟨(_, _) :: zs, rfl, rfl, fun z hz => ?_⟩
    rcases List.mem_cons.mp hz with rfl | hz
    · exact h1
    · exact h2 z hz

theorem Both.of_zip {zs : List (α × β)} (h : ∀ z ∈ zs, R z.1 z.2) : Both R (zs.map (·.1)) (zs.map (·.2)) := by
  induction zs with
  | nil => exact .nil
  | cons z zs ih => exact .cons (h z (by simp)) (ih fun w hw => h w (by simp [hw]))

theorem Both.mergeSort {le : α → α → Bool} {le' : β → β → Bool} {xs : List α} {ys : List β} (h : Both R xs ys)
    (hle : ∀ a b a' b', R a b → R a' b' → le a a' = le' b b') : Both R (xs.mergeSort le) (ys.mergeSort le') := by
  obtain ⟨zs, rfl, rfl, hz⟩ := h.zip
  have e1 : (zs.map (·.1)).mergeSort le = (zs.mergeSort fun z w => le z.1 w.1).map (·.1) :=
    (List.map_mergeSort (f := fun z : α × β => z.1) (r := fun z w => le z.1 w.1) fun a _ b _ => rfl).symm
  have e2 : (zs.map (·.2)).mergeSort le' = (zs.mergeSort fun z w => le z.1 w.1).map (·.2) :=
    (List.map_mergeSort (f := fun z : α × β => z.2) (r := fun z w => le z.1 w.1)
      fun a ha b hb => hle _ _ _ _ (hz a ha) (hz b hb)).symm
  rw [e1, e2]
  exact .of_zip fun z h => hz z ((List.mergeSort_perm _ _).mem_iff.mp h)

end Tables

/-- What the stages need to know of a relation between the constants of two runs. -/
structure Stable (c : LibConfig) (R : ConstItem → ConstItem → Prop) : Prop where
  path : ∀ a b, R a b → a.path = b.path
  cfg : ∀ a b, R a b → a.cfg = b.cfg
  rename : ∀ a b, R a b → R (a.renameFor c) (b.renameFor c)

variable {c : LibConfig} {R : ConstItem → ConstItem → Prop}

theorem items_same {v w : ItemValue ConstItem} (h : SameValue R v w) : Both R v.items w.items := by
  cases h with
  | cfg h => exact h
  | single h => exact .cons h .nil

theorem toVec_same {m m' : ItemMap ConstItem} (h : SameTable R m m') : Both R m.toVec m'.toVec :=
  Both.flatMap (fun _ _ h => items_same h.2) h

theorem mapValue_same (hs : Stable c R) {v w : ItemValue ConstItem} (h : SameValue R v w) :
    SameValue R (ItemMap.mapValue (ConstItem.renameFor c) v) (ItemMap.mapValue (ConstItem.renameFor c) w) := by
  cases h with
  | cfg h => exact .cfg (h.map hs.rename)
  | single h => exact .single (hs.rename _ _ h)

theorem mapItems_same (hs : Stable c R) {m m' : ItemMap ConstItem} (h : SameTable R m m') :
    SameTable R (m.mapItems (ConstItem.renameFor c)) (m'.mapItems (ConstItem.renameFor c)) := by
  exact Both.map (fun a b h => ⟨h.1, mapValue_same hs h.2⟩) h

theorem filterValue_same {drop : ConstItem → Bool} (hd : ∀ a b, R a b → drop a = drop b) {v w : ItemValue ConstItem}
    (h : SameValue R v w) : (ItemMap.filterValue drop v = none ∧ ItemMap.filterValue drop w = none) ∨
      ∃ v' w', ItemMap.filterValue drop v = some v' ∧ ItemMap.filterValue drop w = some w' ∧ SameValue R v' w' := by
  cases h with
  | cfg h =>
    have h1 : Both R _ _ := h.filter (p := fun x => !drop x) (q := fun x => !drop x) fun a b h => by rw [hd a b h]
    simp only [ItemMap.filterValue, h1.isEmpty]
    split
    · exact .inl ⟨rfl, rfl⟩
    · exact .inr ⟨_, _, rfl, rfl, .cfg h1⟩
  | single h =>
    simp only [ItemMap.filterValue, hd _ _ h]
    split
    · exact .inl ⟨rfl, rfl⟩
    · exact .inr ⟨_, _, rfl, rfl, .single h⟩

theorem filter_same {drop : ConstItem → Bool} (hd : ∀ a b, R a b → drop a = drop b) {m m' : ItemMap ConstItem}
    (h : SameTable R m m') : SameTable R (m.filter drop) (m'.filter drop) := by
  unfold SameTable at h ⊢
  induction h with
  | nil => exact .nil
  | cons h1 _ ih =>
    simp only [ItemMap.filter, List.filterMap_cons] at ih ⊢
    rcases filterValue_same hd h1.2 with ⟨e1, e2⟩ | ⟨v, w, e1, e2, h2⟩
    · rw [e1, e2]; exact ih
    · rw [e1, e2]; exact .cons ⟨h1.1, h2⟩ ih

theorem push_same {p : Str} {x y : ConstItem} (hx : R x y) {m m' : ItemMap ConstItem} (h : SameTable R m m') :
    SameTable R (m.push p x) (m'.push p y) := by
  unfold SameTable at h ⊢
  induction h with
  | nil => exact .nil
  | cons h1 h2 ih =>
    rename_i a b as bs
    obtain ⟨k, v⟩ := a
    obtain ⟨k', w⟩ := b
    obtain ⟨h3, h4⟩ := h1
    simp only at h3 h4
    subst h3
    simp only [ItemMap.push]
    split
    · cases h4 with
      | cfg h => exact .cons ⟨rfl, .cfg (h.append (.cons hx .nil))⟩ h2
      | single h => exact .cons ⟨rfl, .single h⟩ h2
    · exact .cons ⟨rfl, h4⟩ ih

theorem lookup_same {m m' : ItemMap ConstItem} (h : SameTable R m m') (p : Str) :
    (m.lookup p = none ∧ m'.lookup p = none) ∨
      ∃ v w, m.lookup p = some v ∧ m'.lookup p = some w ∧ SameValue R v w := by
  unfold SameTable at h
  induction h with
  | nil => exact .inl ⟨rfl, rfl⟩
  | @cons a b as bs h1 _ ih =>
    obtain ⟨k, v⟩ := a
    obtain ⟨k', w⟩ := b
    obtain ⟨h3, h4⟩ := h1
    simp only at h3 h4
    subst h3
    simp only [List.lookup_cons]
    cases p == k with
    | true => exact .inr ⟨v, w, rfl, rfl, h4⟩
    | false => exact ih

theorem tryInsert_same (hs : Stable c R) {x y : ConstItem} (hx : R x y) {m m' : ItemMap ConstItem} (h : SameTable R m m') :
    SameTable R (m.tryInsert x).1 (m'.tryInsert y).1 := by
  have hp : Item.path y = Item.path x := (hs.path _ _ hx).symm
  have hc : Item.cfg y = Item.cfg x := (hs.cfg _ _ hx).symm
  unfold ItemMap.tryInsert
  rw [hp, hc]
  rcases lookup_same h (Item.path x) with ⟨e1, e2⟩ | ⟨v, w, e1, e2, h1⟩
  · rw [e1, e2]
    cases (Item.cfg x).isSome with
    | true => exact Both.append h (.cons ⟨rfl, .cfg (.cons hx .nil)⟩ .nil)
    | false => exact Both.append h (.cons ⟨rfl, .single hx⟩ .nil)
  · rw [e1, e2]
    cases (Item.cfg x).isSome <;> cases h1
    · exact h
    · exact h
    · exact push_same hx h
    · exact h

theorem insertAll_same (hs : Stable c R) {xs ys : List ConstItem} (hx : Both R xs ys) : ∀ {m m' : ItemMap ConstItem},
    SameTable R m m' → SameTable R (m.insertAll xs) (m'.insertAll ys) := by
  induction hx with
  | nil => exact fun h => h
  | cons h1 _ ih => exact fun h => ih (tryInsert_same hs h1 h)

theorem rebuild_same (hs : Stable c R) {m m' : ItemMap ConstItem} (h : SameTable R m m') : SameTable R m.rebuild m'.rebuild :=
  insertAll_same hs (toVec_same h) .nil

/-! ## The stages -/

/-- What `Library::generate` does to the table of constants before the collection of dependencies. -/
def finishConsts (c : LibConfig) (m : ItemMap ConstItem) : ItemMap ConstItem :=
  ((m.filter fun x => c.export_.exclude.contains x.path).mapItems (ConstItem.renameFor c)).rebuild

theorem finishConsts_same (hs : Stable c R) {m m' : ItemMap ConstItem} (h : SameTable R m m') :
    SameTable R (finishConsts c m) (finishConsts c m') :=
  rebuild_same hs (mapItems_same hs (filter_same (fun a b h => by rw [hs.path a b h]) h))

theorem giveOne_consts (l : Library) (cs : ItemMap ConstItem) (pa : Str × Annotations) :
    ({ l with constants := cs } : Library).giveOne pa = { l.giveOne pa with constants := cs } := by
  unfold Library.giveOne
  dsimp only
  split
  · rfl
  split
  · rfl
  split
  · rfl
  split
  · rfl
  · rfl

theorem giveOne_keeps (l : Library) (pa : Str × Annotations) : (l.giveOne pa).constants = l.constants := by
  unfold Library.giveOne
  dsimp only
  split
  · rfl
  split
  · rfl
  split
  · rfl
  split
  · rfl
  · rfl

theorem giveAll_consts (cs : ItemMap ConstItem) : ∀ (ps : List (Str × Annotations)) (l : Library),
    ps.foldl Library.giveOne { l with constants := cs } = { ps.foldl Library.giveOne l with constants := cs }
  | [], _ => rfl
  | p :: ps, l => by simp only [List.foldl_cons, giveOne_consts, giveAll_consts cs ps]

theorem giveAll_keeps : ∀ (ps : List (Str × Annotations)) (l : Library), (ps.foldl Library.giveOne l).constants = l.constants
  | [], _ => rfl
  | p :: ps, l => by rw [List.foldl_cons, giveAll_keeps ps, giveOne_keeps]

theorem transfer_consts (o : List (Str × Annotations) → List (Str × Annotations)) (l : Library) (cs : ItemMap ConstItem) :
    ({ l with constants := cs } : Library).transferAnnotations o = { l.transferAnnotations o with constants := cs } :=
  giveAll_consts cs (o (l.typedefs.mapAccum TypedefItem.takeAnnotations []).1)
    { l with typedefs := (l.typedefs.mapAccum TypedefItem.takeAnnotations []).2 }

theorem transfer_keeps (o : List (Str × Annotations) → List (Str × Annotations)) (l : Library) :
    (l.transferAnnotations o).constants = l.constants :=
  giveAll_keeps _ _

theorem expand_consts {fuel : Nat} {l l1 : Library} (cs : ItemMap ConstItem) (h : l.expand c fuel = .ok l1) :
    ({ l with constants := cs } : Library).expand c fuel = .ok { l1 with constants := cs } ∧ l1.constants = l.constants := by
  unfold Library.expand at h ⊢
  split at h
  · rename_i hc
    cases h
    rw [if_pos hc]
    exact ⟨rfl, rfl⟩
  · rename_i hc
    rw [if_neg hc]
    simp only [Library.instantiateMonomorphs, bind, Except.bind, pure, Except.pure] at h ⊢
    have hm : ({ l with constants := cs } : Library).monoUses = l.monoUses := rfl
    have hg : ({ l with constants := cs } : Library).getItems c = l.getItems c := rfl
    rw [hm, hg]
    revert h
    cases followAll (follow c (l.getItems c) fuel) l.monoUses {} with
    | error e => intro h; cases h
    | ok m => intro h; cases h; exact ⟨rfl, rfl⟩

theorem renameItems_consts {l l1 : Library} (cs : ItemMap ConstItem) (h : l.renameItems c = some l1) :
    ({ l with constants := cs } : Library).renameItems c =
      some { l1 with constants := (cs.mapItems (ConstItem.renameFor c)).rebuild } ∧
    l1.constants = (l.constants.mapItems (ConstItem.renameFor c)).rebuild := by
  simp only [Library.renameItems, bind, Option.bind, pure] at h ⊢
  revert h
  cases l.structs.mapItemsM (StructItem.renameFor c) with
  | none => intro h; cases h
  | some a =>
    cases l.unions.mapItemsM (UnionItem.renameFor c) with
    | none => intro h; cases h
    | some b =>
      cases l.enums.mapItemsM (EnumItem.renameFor c) with
      | none => intro h; cases h
      | some d =>
        cases l.functions.mapM (FuncItem.renameFor c) with
        | none => intro h; cases h
        | some f => intro h; cases h; exact ⟨rfl, rfl⟩

theorem finish_consts {l l1 : Library} (cs : ItemMap ConstItem) (h : l.finish c = some l1) :
    ({ l with constants := cs } : Library).finish c = some { l1 with constants := finishConsts c cs } ∧
      l1.constants = finishConsts c l.constants := by
  unfold Library.finish at h ⊢
  dsimp only at h ⊢
  by_cases hc : c.language = .c
  · simp only [hc, if_true] at h ⊢
    unfold Library.resolveDeclTypes at h ⊢
    by_cases hg : c.generateTag = true
    · simp only [hg, if_true] at h ⊢
      have := renameItems_consts (cs.filter fun x => c.export_.exclude.contains x.path) h
      exact this
    · simp only [hg] at h ⊢
      exact renameItems_consts (cs.filter fun x => c.export_.exclude.contains x.path) h
  · simp only [hc] at h ⊢
    exact renameItems_consts (cs.filter fun x => c.export_.exclude.contains x.path) h

theorem prepare_consts {o : List (Str × Annotations) → List (Str × Annotations)} {fuel : Nat} {l l2 : Library}
    (cs : ItemMap ConstItem) (h : l.prepare c o fuel = .ok l2) :
    ({ l with constants := cs } : Library).prepare c o fuel = .ok { l2 with constants := finishConsts c cs } ∧
      l2.constants = finishConsts c l.constants := by
  unfold Library.prepare at h ⊢
  rw [transfer_consts]
  revert h
  have hk : (((l.transferAnnotations o).simplify c).sortFunctions c).constants = l.constants := transfer_keeps o l
  have he : ((({ l.transferAnnotations o with constants := cs } : Library).simplify c).sortFunctions c)
      = { ((l.transferAnnotations o).simplify c).sortFunctions c with constants := cs } := rfl
  rw [he]
  generalize (((l.transferAnnotations o).simplify c).sortFunctions c) = l0 at hk
  cases h1 : l0.expand c fuel with
  | error e => intro h; cases h
  | ok l1 =>
    obtain ⟨e1, e2⟩ := expand_consts cs h1
    rw [e1]
    dsimp only
    cases h2 : l1.finish c with
    | none => intro h; cases h
    | some l3 =>
      intro h
      cases h
      obtain ⟨e3, e4⟩ := finish_consts cs h2
      rw [e3]
      exact ⟨rfl, by rw [e4, e2, hk]⟩

theorem stable_same : Stable c SameConst where
  path a b h := by rw [h.1]
  cfg a b h := by rw [h.1]
  rename a b h := ⟨by rw [h.1]; rfl, reordered_rename _ h.2⟩

/-- Related constants with at most one field that names types. -/
def SoleConst (k k' : ConstItem) : Prop := SameConst k k' ∧ Sole k.value

theorem stable_sole : Stable c SoleConst where
  path a b h := stable_same (c := c).path a b h.1
  cfg a b h := stable_same (c := c).cfg a b h.1
  rename a b h := ⟨stable_same.rename a b h.1, sole_rename _ h.2⟩

theorem depPaths_sole {k k' : ConstItem} (h : SoleConst k k') : k.depPaths = k'.depPaths := by
  obtain ⟨⟨h1, h2⟩, h3⟩ := h
  rw [h1]
  simp only [ConstItem.depPaths, ← typeNames_eq, (reordered_sole h2 h3).1]

theorem depPaths_mem {k k' : ConstItem} (h : SameConst k k') (p : Str) : p ∈ k.depPaths ↔ p ∈ k'.depPaths := by
  obtain ⟨h1, h2⟩ := h
  rw [h1]
  simp only [ConstItem.depPaths, ← typeNames_eq, List.mem_append, reordered_names h2 p]

theorem sortIf_same (hs : Stable c R) (k : SortKey) {xs ys : List ConstItem} (h : Both R xs ys) :
    Both R (sortIf k ConstItem.path xs) (sortIf k ConstItem.path ys) := by
  cases k with
  | name => exact h.mergeSort fun a b a' b' h1 h2 => by rw [hs.path _ _ h1, hs.path _ _ h2]
  | none => exact h

theorem Both.sole {xs ys : List ConstItem} (h : Both SameConst xs ys) (hs : ∀ k ∈ xs, Sole k.value) : Both SoleConst xs ys := by
  induction h with
  | nil => exact .nil
  | cons h1 _ ih => exact .cons ⟨h1, hs _ (by simp)⟩ (ih fun k hk => hs k (by simp [hk]))

theorem SameTable.sole {m m' : ItemMap ConstItem} (h : SameTable SameConst m m') (hs : ∀ k ∈ m.toVec, Sole k.value) :
    SameTable SoleConst m m' := by
  unfold SameTable at h ⊢
  induction h with
  | nil => exact .nil
  | @cons a b as bs h1 _ ih =>
    simp only [ItemMap.toVec, List.flatMap_cons, List.mem_append] at hs ih
    refine .cons ⟨h1.1, ?_⟩ (ih fun k hk => hs k (.inr hk))
    obtain ⟨k, v⟩ := a
    obtain ⟨k', w⟩ := b
    obtain ⟨-, h2⟩ := h1
    have h3 : ∀ k ∈ v.items, Sole k.value := fun k hk => hs k (.inl hk)
    simp only at h2 ⊢
    cases h2 with
    | cfg h => exact .cfg (h.sole h3)
    | single h => exact .single ⟨h, h3 _ (by simp [ItemValue.items])⟩

end Cbindgen.DetSpec

namespace Cbindgen

open DetSpec

/-- The bindings of a library for the items found. -/
def DetSpec.bindingsOf (c : LibConfig) (l : Library) (items : List Container) : Bindings :=
  { constants := if c.export_.shouldGenerate .constants then
      sortIf (c.constantSortBy.getD c.sortBy) ConstItem.path l.constants.toVec else []
    globals := if c.export_.shouldGenerate .globals then
      sortIf (c.constantSortBy.getD c.sortBy) StaticItem.path l.globals.toVec else []
    items := items
    functions := if c.export_.shouldGenerate .functions then l.functions else [] }

theorem DetSpec.collect_of {c : LibConfig} {l : Library} {d : Deps}
    (h : Deps.addAll (l.getItems c) (l.depth + 1) (l.rootPaths c) {} = some d) :
    l.collect c = some (bindingsOf c l (sortItems d.order)) := by
  unfold Library.collect
  rw [h]
  rfl

theorem DetSpec.constants_same {c : LibConfig} {R : ConstItem → ConstItem → Prop} (hs : Stable c R) {l : Library}
    {cs : ItemMap ConstItem} (h : Both R l.constants.toVec cs.toVec) (is is' : List Container) :
    Both R (bindingsOf c l is).constants (bindingsOf c { l with constants := cs } is').constants := by
  unfold bindingsOf
  dsimp only
  split
  · exact sortIf_same hs _ h
  · exact .nil

/-- **C52.** (partial) A run with other orders of the hash maps, of the annotations that aliases give away and of the fields of
the struct literals of constants, ends with a header of the same text.  The two conditions are that in every
struct literal at most one field names types, and that the literal of a transparent struct has one field.
Missing: struct literals in associated constants and in the discriminants of enums; the parser, which only makes the
tables; and without the conditions the claim is false, see `C52_order_refuted` and `C52_transparent_refuted`. -/
theorem C52_header_partial {c : LibConfig} {o o' : List (Str × Annotations) → List (Str × Annotations)} {fuel : Nat}
    {l : Library} {cs : ItemMap ConstItem} {b : Bindings} {e : Env} (ho : ∀ xs, (o xs).Perm xs) (ho' : ∀ xs, (o' xs).Perm xs)
    (h : SameTable SameConst l.constants cs) (hs : ∀ k ∈ l.constants.toVec, Sole k.value)
    (hg : l.generate c o fuel = .ok b) (hl : ∀ k ∈ b.constants, Lone e.transparent k.value) :
    ∃ b', ({ l with constants := cs } : Library).generate c o' fuel = .ok b' ∧ headerText e b' = headerText e b := by
  rw [C34_generate c fuel { l with constants := cs } o' o ho' ho]
  obtain ⟨l', h1, h2⟩ := Library.generate_ok hg
  obtain ⟨e1, e2⟩ := prepare_consts cs h1
  have h3 : SameTable SoleConst l'.constants (finishConsts c cs) := by
    rw [e2]; exact finishConsts_same stable_sole (h.sole hs)
  have h4 := toVec_same h3
  have hr : ({ l' with constants := finishConsts c cs } : Library).rootPaths c = l'.rootPaths c := by
    simp only [Library.rootPaths, h4.flatEq fun a b h => depPaths_sole h]
  cases h5 : Deps.addAll (l'.getItems c) (l'.depth + 1) (l'.rootPaths c) {} with
  | none => unfold Library.collect at h2; rw [h5] at h2; cases h2
  | some d =>
    rw [collect_of h5] at h2
    simp only [Option.some.injEq] at h2
    subst h2
    refine ⟨_, Library.generate_of e1 (collect_of (d := d) (by rw [hr]; exact h5)), ?_⟩
    exact headerText_same ((constants_same stable_sole h4 _ _).mono fun a b h => h.1) hl rfl rfl rfl

theorem rootPaths_same {c : LibConfig} {l : Library} {cs : ItemMap ConstItem} (h : SameTable SameConst l.constants cs) (p : Str) :
    p ∈ ({ l with constants := cs } : Library).rootPaths c ↔ p ∈ l.rootPaths c := by
  have h4 := toVec_same h
  have : (∃ k ∈ cs.toVec, p ∈ k.depPaths) ↔ ∃ k ∈ l.constants.toVec, p ∈ k.depPaths := by
    constructor
    · rintro ⟨k, hk, hp⟩
      obtain ⟨k', hk', h5⟩ := h4.right k hk
      exact ⟨k', hk', (depPaths_mem h5 p).mpr hp⟩
    · rintro ⟨k, hk, hp⟩
      obtain ⟨k', hk', h5⟩ := h4.left k hk
      exact ⟨k', hk', (depPaths_mem h5 p).mp hp⟩
  simp only [Library.rootPaths, List.mem_append, List.mem_flatMap, this]

/-- **C52.** Without any condition the runs give the same functions and statics, the same constants up to the order in
their values, and the same types, possibly in another order. -/
theorem C52_items {c : LibConfig} {o o' : List (Str × Annotations) → List (Str × Annotations)} {fuel : Nat}
    {l : Library} {cs : ItemMap ConstItem} {b : Bindings} (ho : ∀ xs, (o xs).Perm xs) (ho' : ∀ xs, (o' xs).Perm xs)
    (h : SameTable SameConst l.constants cs) (hg : l.generate c o fuel = .ok b) :
    ∃ b', ({ l with constants := cs } : Library).generate c o' fuel = .ok b' ∧ b'.functions = b.functions ∧
      b'.globals = b.globals ∧ Both SameConst b.constants b'.constants ∧ b'.items.Perm b.items := by
  rw [C34_generate c fuel { l with constants := cs } o' o ho' ho]
  obtain ⟨l', h1, h2⟩ := Library.generate_ok hg
  obtain ⟨e1, e2⟩ := prepare_consts cs h1
  have h3 : SameTable SameConst l'.constants (finishConsts c cs) := by
    rw [e2]; exact finishConsts_same stable_same h
  have h4 := toVec_same h3
  obtain ⟨ps, d, hd, hord, hnd, hmem, -⟩ := Deps.addAll_spec (l'.getItems c) l'.keys
    (fun p hp => Library.getItems_key hp) (l'.rootPaths c) (l'.depth + 1) (by rw [Library.keys_length])
  obtain ⟨ps', d', hd', hord', hnd', hmem', -⟩ := Deps.addAll_spec (l'.getItems c) l'.keys
    (fun p hp => Library.getItems_key hp) (({ l' with constants := finishConsts c cs } : Library).rootPaths c)
    (l'.depth + 1) (by rw [Library.keys_length])
  have hp : ps'.Perm ps := by
    refine (List.perm_ext_iff_of_nodup hnd' hnd).mpr fun p => ?_
    rw [hmem, hmem']
    simp only [rootPaths_same h3]
  rw [collect_of hd] at h2
  simp only [Option.some.injEq] at h2
  subst h2
  refine ⟨_, Library.generate_of e1 (collect_of hd'), rfl, rfl, constants_same stable_same h4 _ _, ?_⟩
  refine (C12_permutation _).trans (List.Perm.trans ?_ (C12_permutation _).symm)
  rw [hord, hord']
  exact hp.flatMap_right _

/-! ## Where the order of a hash map is seen -/

namespace DetCases

def holder (n : Str) (f : List Field) : Str × ItemValue StructItem := (n, .single { path := n, exportName := n, fields := f })

def int : Ty := .prim (.integer true true .b32)

/-- Case functions; the cases rename nothing. -/
def plainFns : CaseFns := ⟨id, id, id, id, id, id⟩

def constant (t : Str) (v : Lit) : ItemMap ConstItem :=
  [(c!"K", .single { path := c!"K", exportName := c!"K", ty := .path t t [] none, value := v })]

/-- `struct S { a: i32, b: i32 }`, `struct Foo { x: i32 }`, `struct Bar { x: i32 }`, the last two with an associated constant,
and `const K: S = S { a: Foo::X, b: Bar::X };` -/
def pair (fs : List LitField) : Library :=
  { constants := constant c!"S" (.struct c!"S" c!"S" fs)
    structs := [holder c!"S" [⟨c!"a", int, none, {}, []⟩, ⟨c!"b", int, none, {}, []⟩],
      holder c!"Foo" [⟨c!"x", int, none, {}, []⟩], holder c!"Bar" [⟨c!"x", int, none, {}, []⟩]] }

def fieldA : LitField := .mk c!"a" (.path (some (c!"Foo", c!"Foo")) c!"X") none
def fieldB : LitField := .mk c!"b" (.path (some (c!"Bar", c!"Bar")) c!"X") none

/-- `#[repr(transparent)] struct W { v: i32, p: PhantomData<u8> }` and `const K: W = W { v: 1, p: PhantomData };` -/
def wrapped (fs : List LitField) : Library :=
  { constants := constant c!"W" (.struct c!"W" c!"W" fs)
    structs := [(c!"W", .single { path := c!"W", exportName := c!"W", fields := [⟨c!"v", int, none, {}, []⟩],
                                  isTransparent := true })] }

def fieldV : LitField := .mk c!"v" (.expr c!"1") none
def fieldP : LitField := .mk c!"p" (.path none c!"PhantomData") none

theorem swapped {t n : Str} {a b : LitField} (hn : fieldName a ≠ fieldName b) :
    SameTable SameConst (constant t (.struct n n [a, b])) (constant t (.struct n n [b, a])) := by
  refine .cons ⟨rfl, .single ⟨rfl, .fields n n (List.Perm.swap _ _ _) ?_⟩⟩ .nil
  simp [hn]

def env (l : Library) : Env := { cfg := { language := .c }, structs := l.structs }

end DetCases

open DetCases

def DetCases.isStruct : Container → Bool
  | .struct _ => true
  | _ => false

/-- Structs stay in the order in which they are found. -/
theorem DetCases.sortItems_structs {xs : List Container} (hs : xs.all isStruct = true) : sortItems xs = xs := by
  have h : ∀ x ∈ xs, x.layer = .other := by
    intro x hx
    have := List.all_eq_true.mp hs x hx
    cases x <;> first | rfl | cases this
  unfold sortItems
  refine List.mergeSort_of_pairwise ?_
  refine List.Pairwise.imp_of_mem (R := fun _ _ => True) ?_ (List.pairwise_of_forall fun _ _ => trivial)
  intro a b ha hb _
  rw [h a ha, h b hb]
  rfl

theorem DetCases.texts {e : Env} {b b' : Bindings} (h : ((headerText e b).isSome && (headerText e b').isSome) = true)
    (hn : (headerText e b == headerText e b') = false) :
    ∃ t t', headerText e b = some t ∧ headerText e b' = some t' ∧ t ≠ t' := by
  cases h1 : headerText e b with
  | none => rw [h1] at h; cases h
  | some t =>
    cases h2 : headerText e b' with
    | none => rw [h1, h2] at h; cases h
    | some t' =>
      refine ⟨t, t', rfl, rfl, fun he => ?_⟩
      rw [h1, h2, he] at hn
      simp at hn

/-- **C52** is false: the values of two fields name types that nothing else names, and the hash map decides which of them
is defined first. -/
theorem C52_order_refuted : ∃ (l : Library) (cs : ItemMap ConstItem) (b b' : Bindings), SameTable SameConst l.constants cs ∧
    l.generate (plainConfig .c plainFns) id 1 = .ok b ∧
    ({ l with constants := cs } : Library).generate (plainConfig .c plainFns) id 1 = .ok b' ∧
    ∃ t t', headerText (env l) b = some t ∧ headerText (env l) b' = some t' ∧ t ≠ t' := by
  refine ⟨pair [fieldA, fieldB], (pair [fieldB, fieldA]).constants, _, _, swapped (by decide),
    Library.generate_of (l' := _) rfl (collect_of rfl), Library.generate_of (l' := _) rfl (collect_of rfl), ?_⟩
  rw [sortItems_structs (by decide +kernel), sortItems_structs (by decide +kernel)]
  exact texts (by decide +kernel) (by decide +kernel)

/-- **C52** is false: of the literal of a transparent struct, the first field in the hash map is the value. -/
theorem C52_transparent_refuted : ∃ (l : Library) (cs : ItemMap ConstItem) (b b' : Bindings),
    SameTable SameConst l.constants cs ∧ l.generate (plainConfig .c plainFns) id 1 = .ok b ∧
    ({ l with constants := cs } : Library).generate (plainConfig .c plainFns) id 1 = .ok b' ∧
    ∃ t t', headerText (env l) b = some t ∧ headerText (env l) b' = some t' ∧ t ≠ t' := by
  refine ⟨wrapped [fieldV, fieldP], (wrapped [fieldP, fieldV]).constants, _, _, swapped (by decide),
    Library.generate_of (l' := _) rfl (collect_of rfl), Library.generate_of (l' := _) rfl (collect_of rfl), ?_⟩
  rw [sortItems_structs (by decide +kernel), sortItems_structs (by decide +kernel)]
  exact texts (by decide +kernel) (by decide +kernel)

/-- A case of `C52_header_partial`: a struct in a struct, with two fields each. -/
example : SameTable SameConst
    (constant c!"S" (.struct c!"S" c!"S" [.mk c!"a" (.struct c!"R" c!"R" [.mk c!"x" (.expr c!"1") none, .mk c!"y" (.expr c!"2") none]) none,
      .mk c!"b" (.expr c!"3") none]))
    (constant c!"S" (.struct c!"S" c!"S" [.mk c!"b" (.expr c!"3") none,
      .mk c!"a" (.struct c!"R" c!"R" [.mk c!"y" (.expr c!"2") none, .mk c!"x" (.expr c!"1") none]) none])) ∧
    Sole (.struct c!"S" c!"S" [.mk c!"a" (.struct c!"R" c!"R" [.mk c!"x" (.expr c!"1") none, .mk c!"y" (.expr c!"2") none]) none,
      .mk c!"b" (.expr c!"3") none]) := by
  constructor
  · refine .cons ⟨rfl, .single ⟨rfl, ?_⟩⟩ .nil
    refine .trans (.inField _ _ _ _ [] _ (.fields _ _ (List.Perm.swap _ _ _) (by decide))) ?_
    exact .fields _ _ (List.Perm.swap _ _ _) (by decide)
  · refine .struct _ _ (fun f hf => ?_) (by decide)
    simp only [List.mem_cons, List.not_mem_nil, or_false] at hf
    rcases hf with rfl | rfl
    · refine .struct _ _ (fun f hf => ?_) (by decide)
      simp only [List.mem_cons, List.not_mem_nil, or_false] at hf
      rcases hf with rfl | rfl <;> exact .expr _
    · exact .expr _

end Cbindgen
