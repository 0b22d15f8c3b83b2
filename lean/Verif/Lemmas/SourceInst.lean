import Verif.Lemmas.SourceGenericFns

/-!
# The types of instances (C71)
-/

namespace Cbindgen
open CSpec MonoSpec
open SrcSpec hiding Reaches Given Plain

/-! ## Looking up parameters -/

theorem firstType_type {σ : List (Str × GArg)} {n : Str} {t : Ty} (h : σ.lookup n = some (.type t)) : firstType σ n = some t := by
  induction σ with
  | nil => cases h
  | cons p σ ih =>
    obtain ⟨p, v⟩ := p
    rw [List.lookup_cons] at h
    by_cases hp : n = p
    · subst hp
      simp only [BEq.rfl] at h
      cases h
      simp [firstType]
    · have : (n == p) = false := by simp [hp]
      rw [this] at h
      cases v with
      | type t' => rw [firstType, if_neg hp, ih h]
      | const x => rw [firstType, ih h]

theorem first_none {σ : List (Str × GArg)} {n : Str} (h : σ.lookup n = none) : firstType σ n = none ∧ firstConst σ n = none := by
  induction σ with
  | nil => exact ⟨rfl, rfl⟩
  | cons p σ ih =>
    obtain ⟨p, v⟩ := p
    rw [List.lookup_cons] at h
    by_cases hp : n = p
    · subst hp
      simp at h
    · have : (n == p) = false := by simp [hp]
      rw [this] at h
      have hp' : p ≠ n := fun h => hp h.symm
      cases v with
      | type t' => exact ⟨by rw [firstType, if_neg hp, (ih h).1], by rw [firstConst, if_neg hp', (ih h).2]⟩
      | const x => exact ⟨by rw [firstType, (ih h).1], by rw [firstConst, if_neg hp', (ih h).2]⟩

theorem firstConst_const {σ : List (Str × GArg)} {n : Str} {x : CExpr} (h : σ.lookup n = some (.const x)) : firstConst σ n = some x := by
  induction σ with
  | nil => cases h
  | cons p σ ih =>
    obtain ⟨p, v⟩ := p
    rw [List.lookup_cons] at h
    by_cases hp : n = p
    · subst hp
      simp only [BEq.rfl] at h
      cases h
      simp [firstConst]
    · have : (n == p) = false := by simp [hp]
      rw [this] at h
      have hp' : p ≠ n := fun h => hp h.symm
      cases v with
      | type t' => rw [firstConst, if_neg hp', ih h]
      | const y => rw [firstConst, if_neg hp', ih h]

/-- The list that parameters are looked up in says the same as `B`. -/
structure Agrees (B : Binding) (σ : List (Str × GArg)) (o : Option Str) : Prop where
  type : ∀ p t, B.type p = some t → ∃ ty, t.load = .ok (some ty) ∧ σ.lookup p = some (.type (ty.shape o))
  const : ∀ p e, B.const p = some e → ∃ x, e.loadConst = .ok x ∧ σ.lookup p = some (.const x)
  free : ∀ p, B.Free p → σ.lookup p = none

section
variable {B : Binding} {σ : List (Str × GArg)} {o : Option Str}

/-- The loaded type `ty` of a definition is `ty'` in an instance. -/
structure InstTy (B : Binding) (σ : List (Str × GArg)) (o : Option Str) (t : SynTy) (ty ty' : Ty) : Prop where
  eq : (ty.shape o).specialize σ = ty'.shape o
  single : ∀ n e k, ty.shape o = .path n e [] k → ∀ x, σ.lookup n ≠ some (.const x)
  bare : ∀ n e gs k, ty.shape o = .path n e gs k → σ.lookup n ≠ none → Bare B t

inductive InstLoad (B : Binding) (σ : List (Str × GArg)) (o : Option Str) (t : SynTy) : Option Ty → Option Ty → Prop
  | none : InstLoad B σ o t none none
  | some {ty ty'} : InstTy B σ o t ty ty' → InstLoad B σ o t (some ty) (some ty')

theorem InstTy.of_ne {t : SynTy} {ty ty' : Ty} (h : (ty.shape o).specialize σ = ty'.shape o) (hn : ∀ n e gs k, ty.shape o ≠ .path n e gs k) :
    InstTy B σ o t ty ty' := ⟨h, fun n e k h => absurd h (hn _ _ _ _), fun n e gs k h => absurd h (hn _ _ _ _)⟩

theorem InstTy.free {t : SynTy} {ty ty' : Ty} (h : (ty.shape o).specialize σ = ty'.shape o)
    (hn : ∀ n e gs k, ty.shape o = .path n e gs k → σ.lookup n = none) : InstTy B σ o t ty ty' :=
  ⟨h, fun n e k h x hx => (by rw [hn _ _ _ _ h] at hx; cases hx), fun n e gs k h hx => absurd (hn _ _ _ _ h) hx⟩

theorem specialize_free {n e : Str} {gs : List GArg} {k : Option DeclKind} (h : σ.lookup n = none) :
    (Ty.path n e gs k).specialize σ = .newPath n (GArg.specializeList σ gs) := by
  rw [Ty.specialize, specializePath, (first_none h).1]

/-- A type as a generic argument. -/
theorem typeArg {s : Ty} (h : ∀ n e k, s = .path n e [] k → ∀ x, σ.lookup n ≠ some (.const x)) :
    (GArg.type s).specialize σ = .type (s.specialize σ) := by
  rw [GArg.specialize, specializeTypeArg]
  match s with
  | .path n e [] k =>
    simp only [Ty.singleIdent]
    cases hl : σ.lookup n with
    | none => rfl
    | some v =>
      cases v with
      | const x => exact absurd hl (h n e k rfl x)
      | type t => rw [Ty.specialize, specializePath, firstType_type hl]
  | .path n e (g :: gs) k => rfl
  | .ptr .. => rfl
  | .prim _ => rfl
  | .array .. => rfl
  | .fnptr .. => rfl

/-- Nothing but a path becomes something of another kind. -/
theorem specialize_nullable {s : Ty} (h : ∀ n e gs k, s = .path n e gs k → σ.lookup n = none) :
    (s.specialize σ).makeNullable = s.makeNullable.map (Ty.specialize σ) := by
  match s with
  | .path n e gs k => rw [specialize_free (h n e gs k rfl)]; rfl
  | .ptr t c nl r => cases nl <;> rfl
  | .prim p => rfl
  | .array .. => rfl
  | .fnptr r as nl nr => cases nl <;> rfl

theorem specialize_zeroable {s : Ty} (b : Bool) (h : ∀ n e gs k, s = .path n e gs k → σ.lookup n = none) :
    (s.specialize σ).makeZeroable b = (s.makeZeroable b).map (Ty.specialize σ) := by
  match s with
  | .path n e gs k => rw [specialize_free (h n e gs k rfl)]; rfl
  | .ptr t c nl r => rfl
  | .prim p =>
    rw [Ty.specialize]
    cases p with
    | integer z s k =>
      simp only [Ty.makeZeroable]
      split <;> rfl
    | _ => rfl
  | .array .. => rfl
  | .fnptr r as nl nr => rfl

theorem specialize_wrapper {w : Str} {s : Ty} (h : w ∈ freeWrappers ∨ ∀ n e gs k, s = .path n e gs k → σ.lookup n = none) :
    simplifyWrapper .c w (s.specialize σ) = (simplifyWrapper .c w s).map (Ty.specialize σ) := by
  unfold simplifyWrapper
  rcases h with h | h
  · have h1 : w ≠ c!"Option" := by rintro rfl; revert h; decide
    have h2 : w ≠ c!"NonZero" := by rintro rfl; revert h; decide
    rw [if_neg h1, if_neg h1]
    repeat' split
    all_goals first
      | rfl
      | (exfalso; exact h2 (by assumption))
  · rw [specialize_nullable h, specialize_zeroable _ h, specialize_zeroable _ h]
    split
    · cases s.makeNullable <;> rfl
    · repeat' split
      all_goals rfl

/-- What a wrapper makes of a path. -/
theorem wrapper_path {w : Str} {t : Ty} {n e : Str} {gs : List GArg} {k : Option DeclKind}
    (h : simplifyWrapper .c w t = some (.path n e gs k)) : w ∈ cellWrappers ∧ t = .path n e gs k := by
  unfold simplifyWrapper at h
  split at h
  · split at h
    · rename_i s' hs
      cases h
      cases t with
      | ptr t c nl r => cases nl <;> simp [Ty.makeNullable] at hs
      | fnptr r as nl nr => cases nl <;> simp [Ty.makeNullable] at hs
      | _ => simp [Ty.makeNullable] at hs
    · cases t with
      | prim p => cases p <;> simp [Ty.makeZeroable] at h
      | _ => simp [Ty.makeZeroable] at h
  · repeat' split at h
    all_goals first
      | (cases h; done)
      | (cases h; refine ⟨?_, rfl⟩; simp only [cellWrappers, List.mem_cons]; grind)
      | (cases t with
        | prim p => cases p <;> simp [Ty.makeZeroable] at h
        | _ => simp [Ty.makeZeroable] at h)

/-! ## Loading -/

theorem load_plain {n : Str} {as : SynArgs} (ha : NoArgs as) {r : Option Ty} (h : (SynTy.path n as).load = .ok r) :
    r = none ∨ (∃ p, r = some (.prim p)) ∨ r = some (.newPath (unraw n) []) := by
  simp only [SynTy.load] at h
  split at h
  · cases h; exact .inl rfl
  simp only [load_noArgs ha, bind, Except.bind, typeOfPath] at h
  split at h
  · cases h; exact .inl rfl
  split at h
  · rw [if_pos trivial] at h
    cases h
    exact .inr (.inl ⟨_, rfl⟩)
  · cases h; exact .inr (.inr rfl)

theorem lengthInst_ok (hA : Agrees B σ o) : ∀ {e e' : SynExpr}, LengthInst B e e' → ∀ {x'}, e'.loadConst = .ok x' →
    ∃ x, e.loadConst = .ok x ∧ x.specialize σ = x' := by
  intro e e' h
  induction h with
  | @lit l =>
    intro x' hx
    refine ⟨x', hx, ?_⟩
    simp only [SynExpr.loadConst] at hx
    cases l <;> simp only [constLit] at hx <;> cases hx <;> rfl
  | @path i n hf =>
    intro x' hx
    refine ⟨x', hx, ?_⟩
    have : x' = .path (unraw n) (unraw n) := by
      simp only [SynExpr.loadConst] at hx
      split at hx
      · cases hx; rfl
      · simp only [SynArgs.load, bind, Except.bind] at hx
        cases hx; rfl
    subst this
    rw [CExpr.specialize, (first_none (hA.free _ hf)).2]
    rfl
  | @param i n e hn he =>
    intro x' hx
    obtain ⟨x, h1, h2⟩ := hA.const _ _ he
    rw [hx] at h1
    cases h1
    refine ⟨.path (unraw n) (unraw n), by simp only [SynExpr.loadConst, hn, if_false, SynArgs.load, bind, Except.bind], ?_⟩
    rw [CExpr.specialize, firstConst_const h2]
    rfl
  | cast _ ih =>
    intro x' hx
    simp only [SynExpr.loadConst] at hx ⊢
    exact ih hx

theorem specializeFArgs_map (σ : List (Str × GArg)) : ∀ as : List FArg, FArg.specializeList σ as = as.map (FArg.specialize σ)
  | [] => rfl
  | a :: as => by rw [FArg.specializeList, specializeFArgs_map σ as]; rfl

theorem specializeGArgs_map (σ : List (Str × GArg)) : ∀ as : List GArg, GArg.specializeList σ as = as.map (GArg.specialize σ)
  | [] => rfl
  | a :: as => by rw [GArg.specializeList, specializeGArgs_map σ as]; rfl

theorem freeWrappers_sub : ∀ w ∈ freeWrappers, w ∈ wrapperNames := by decide
theorem optionWrappers_sub : ∀ w ∈ [c!"Option", c!"NonZero"], w ∈ wrapperNames := by decide

/-- A wrapper of an instance. -/
theorem wrap_inst (hA : Agrees B σ o) {w : Str} {t t' u u' : SynTy} (hw : w ∈ wrapperNames) (hf : B.Free w) (hu : Wrap w t u)
    (hu' : Wrap w t' u') (hs : w ∈ freeWrappers ∨ ¬ Bare B t)
    (ih : ∀ {r'}, t'.load = .ok r' → ∃ r, t.load = .ok r ∧ InstLoad B σ o t r r') {r' : Option Ty} (h : u'.load = .ok r') :
    ∃ r, u.load = .ok r ∧ InstLoad B σ o u r r' := by
  rw [wrapperNames_eq] at hw
  obtain ⟨rt', h1, rfl⟩ := load_wrap_ok hu' hw h
  have hself := (wrappers_plain w hw).2.2.1
  obtain ⟨rt, h2, h3⟩ := ih h1
  refine ⟨_, load_wrap_of hu hw h2, ?_⟩
  cases h3 with
  | none =>
    refine .some (.free ?_ ?_)
    · simp only [Option.map, Option.toList]
      rw [shape_named hself, Ty.newPath, specialize_free (hA.free _ hf)]
      rfl
    · simp only [Option.map, Option.toList]
      rw [shape_named hself]
      intro n e gs k h
      cases h
      exact hA.free _ hf
  | @some ty ty' h3 =>
    simp only [Option.map, Option.toList]
    have hsw := specialize_wrapper (σ := σ) (w := w) (s := ty.shape o) (by
      rcases hs with hs | hs
      · exact .inl hs
      · refine .inr fun n e gs k hx => ?_
        by_cases hl : σ.lookup n = none
        · exact hl
        · exact absurd (h3.bare _ _ _ _ hx hl) hs)
    rw [h3.eq] at hsw
    cases hx : simplifyWrapper .c w (ty.shape o) with
    | none =>
      rw [hx] at hsw
      refine .some (.free ?_ ?_)
      · rw [shape_wrapped hself, shape_wrapped hself, hx, hsw]
        show Ty.specialize σ (.path w w [.type (ty.shape o)] none) = .path w w [.type (ty'.shape o)] none
        rw [specialize_free (hA.free _ hf), GArg.specializeList, GArg.specializeList, typeArg h3.single, h3.eq]
        rfl
      · rw [shape_wrapped hself, hx]
        intro n e gs k h
        cases h
        exact hA.free _ hf
    | some s =>
      rw [hx] at hsw
      have he : (Ty.newPath w [.type ty]).shape o = s := by rw [shape_wrapped hself, hx]; rfl
      have he' : (Ty.newPath w [.type ty']).shape o = s.specialize σ := by rw [shape_wrapped hself, hsw]; rfl
      refine .some ⟨by rw [he, he'], ?_, ?_⟩
      · rw [he]
        rintro n e k rfl
        exact h3.single n e k (wrapper_path hx).2
      · rw [he]
        rintro n e gs k rfl hl
        obtain ⟨j1, j2⟩ := wrapper_path hx
        exact .wrapped j1 hu (h3.bare n e gs k j2 hl)

theorem loadList_cons {a : SynGArg} {as : List SynGArg} {gs : List GArg} (h : SynGArg.loadList (a :: as) = .ok gs) :
    ∃ x xs, a.load = .ok x ∧ SynGArg.loadList as = .ok xs ∧ gs = consOpt x xs := by
  simp only [SynGArg.loadList, bind, Except.bind] at h
  split at h
  · cases h
  rename_i x hx
  split at h
  · cases h
  rename_i xs hxs
  cases h
  exact ⟨x, xs, hx, hxs, rfl⟩

theorem loadList_of {a : SynGArg} {as : List SynGArg} {x : Option GArg} {xs : List GArg} (h : a.load = .ok x)
    (hs : SynGArg.loadList as = .ok xs) : SynGArg.loadList (a :: as) = .ok (consOpt x xs) := by
  simp only [SynGArg.loadList, h, hs, bind, Except.bind]

theorem InstLoad.toVoid {t : SynTy} {r r' : Option Ty} (h : InstLoad B σ o t r r') :
    ((orVoid r).shape o).specialize σ = (orVoid r').shape o := by
  cases h with
  | none => rw [orVoid, shape_prim]; rfl
  | some h => exact h.eq

variable (hA : Agrees B σ o)
include hA

mutual
theorem inst_ok : ∀ {t t' : SynTy}, Inst B t t' → ∀ {r'}, t'.load = .ok r' → ∃ r, t.load = .ok r ∧ InstLoad B σ o t r r'
  | _, _, .nothing hn, r', h => by
    rw [load_nothing hn] at h
    cases h
    exact ⟨none, load_nothing hn, .none⟩
  | _, _, .param (n := n) (as := as) ha ht hb, r', h => by
    obtain ⟨ty, h1, h2⟩ := hA.type _ _ ht
    rw [h] at h1
    cases h1
    refine ⟨_, load_inst hb (load_noArgs ha), .some ⟨?_, ?_, ?_⟩⟩
    · rw [shape_named (not_self hb), Ty.newPath, Ty.specialize, specializePath, firstType_type h2]
    · rw [shape_named (not_self hb)]
      intro n' e k h x hx
      cases h
      rw [h2] at hx
      cases hx
    · intro n' e gs k h hx
      exact .param (by rw [ht]; nofun)
  | _, _, .plain (n := n) ha hf hs, r', h => by
    refine ⟨r', h, ?_⟩
    rcases load_plain ha h with rfl | ⟨p, rfl⟩ | rfl
    · exact .none
    · exact .some (.of_ne (by rw [shape_prim]; rfl) (by rw [shape_prim]; exact fun _ _ _ _ => nofun))
    · refine .some (.free ?_ ?_)
      · rw [shape_named hs, Ty.newPath, specialize_free (hA.free _ hf)]
        rfl
      · rw [shape_named hs]
        intro n' e gs k h
        cases h
        exact hA.free _ hf
  | _, _, .generic (n := n) (as := as) (as' := as') hf hb hw ha, r', h => by
    have hg : ∃ gs', SynGArg.loadList as' = .ok gs' := by
      cases hx : SynGArg.loadList as' with
      | ok gs' => exact ⟨gs', rfl⟩
      | error x =>
        have h1 : unraw n ≠ c!"PhantomData" := by intro h'; rw [h'] at hb; exact hb builtin_phantom.1
        simp only [SynTy.load, h1, if_false, SynArgs.load, hx, bind, Except.bind] at h
        cases h
    obtain ⟨gs', hg⟩ := hg
    rw [load_inst hb (as := .angle as') (gs := gs') (by rw [SynArgs.load, hg])] at h
    cases h
    obtain ⟨gs, h1, h2⟩ := gargsInst_ok ha hg
    refine ⟨_, load_inst hb (as := .angle as) (gs := gs) (by rw [SynArgs.load, h1]), .some (.free ?_ ?_)⟩
    · rw [shape_inst (not_self hb) hw, shape_inst (not_self hb) hw, Ty.newPath, specialize_free (hA.free _ hf), h2]
    · rw [shape_inst (not_self hb) hw]
      intro n' e gs k h
      cases h
      exact hA.free _ hf
  | _, _, .wrapped hw hf hu hr hu', r', h =>
    wrap_inst hA (freeWrappers_sub _ hw) hf hu hu' (.inl hw) (fun h => inst_ok hr h) h
  | _, _, .option hw hf hu hb hr hu', r', h =>
    wrap_inst hA (optionWrappers_sub _ hw) hf hu hu' (.inr hb) (fun h => inst_ok hr h) h
  | _, _, .raw (m := m) (t' := t') hr, r', h => by
    simp only [SynTy.load, bind, Except.bind] at h
    split at h
    · cases h
    rename_i rt' h1
    cases h
    obtain ⟨rt, h2, h3⟩ := inst_ok hr h1
    refine ⟨some (.ptr (orVoid rt) m true false), by simp only [SynTy.load, h2, bind, Except.bind], .some (.of_ne ?_ ?_)⟩
    · rw [shape_ptr, shape_ptr, Ty.specialize, h3.toVoid]
    · rw [shape_ptr]; exact fun _ _ _ _ => nofun
  | _, _, .reference (m := m) (t' := t') hr, r', h => by
    simp only [SynTy.load, bind, Except.bind] at h
    split at h
    · cases h
    rename_i rt' h1
    cases h
    obtain ⟨rt, h2, h3⟩ := inst_ok hr h1
    refine ⟨some (.ptr (orVoid rt) (!m) false false), by simp only [SynTy.load, h2, bind, Except.bind], .some (.of_ne ?_ ?_)⟩
    · rw [shape_ptr, shape_ptr, Ty.specialize, h3.toVoid]
    · rw [shape_ptr]; exact fun _ _ _ _ => nofun
  | _, _, .array (t' := t') (e' := e') hr he, r', h => by
    simp only [SynTy.load, bind, Except.bind] at h
    split at h
    · cases h
    rename_i rt' h1
    split at h
    · cases h
    rename_i ty'
    split at h
    · cases h
    rename_i x' hx'
    cases h
    obtain ⟨rt, h2, h3⟩ := inst_ok hr h1
    obtain ⟨x, h4, h5⟩ := lengthInst_ok hA he hx'
    cases h3 with | @some ty _ h3 =>
    refine ⟨some (.array ty x), by simp only [SynTy.load, h2, h4, bind, Except.bind], .some (.of_ne ?_ ?_)⟩
    · rw [shape_array, shape_array, Ty.specialize, h3.eq, h5]
    · rw [shape_array]; exact fun _ _ _ _ => nofun
  | _, _, .function (ins' := ins') (v := v) (out' := out') ha hr, r', h => by
    simp only [SynTy.load, bind, Except.bind] at h
    split at h
    · cases h
    rename_i as' h1
    split at h
    · cases h
    rename_i p h2
    obtain ⟨ty', nr⟩ := p
    cases h
    obtain ⟨as, h3, h4⟩ := fnArgsInst_ok ha h1
    obtain ⟨ty, h6, h7⟩ := retInst_ok hr h2
    refine ⟨some (.fnptr ty (as ++ variadicArg v) false nr), by simp only [SynTy.load, h3, h6, bind, Except.bind],
      .some (.of_ne ?_ ?_)⟩
    · rw [shape_fnptr, shape_fnptr, Ty.specialize, h7, List.map_append, List.map_append, specializeFArgs_map, List.map_append,
        ← specializeFArgs_map, h4, farg_shape_fin]
      congr 2
      cases v <;> rfl
    · rw [shape_fnptr]; exact fun _ _ _ _ => nofun
theorem gargsInst_ok : ∀ {as as' : List SynGArg}, GArgsInst B as as' → ∀ {gs'}, SynGArg.loadList as' = .ok gs' →
    ∃ gs, SynGArg.loadList as = .ok gs ∧ GArg.specializeList σ (gs.map (GArg.shape o)) = gs'.map (GArg.shape o)
  | _, _, .nil, gs', h => by cases h; exact ⟨[], rfl, rfl⟩
  | _, _, .lifetime hr, gs', h => by
    obtain ⟨x, xs, h1, h2, rfl⟩ := loadList_cons h
    cases h1
    obtain ⟨gs, h3, h4⟩ := gargsInst_ok hr h2
    exact ⟨_, loadList_of rfl h3, h4⟩
  | _, _, .type (t := t) (t' := t') ht hr, gs', h => by
    obtain ⟨x, xs, h1, h2, rfl⟩ := loadList_cons h
    simp only [SynGArg.load, bind, Except.bind] at h1
    split at h1
    · cases h1
    rename_i r' hr'
    cases h1
    obtain ⟨gs, h3, h4⟩ := gargsInst_ok hr h2
    obtain ⟨r, h5, h6⟩ := inst_ok ht hr'
    refine ⟨_, loadList_of (x := r.map GArg.type) (by simp only [SynGArg.load, h5, bind, Except.bind]) h3, ?_⟩
    cases h6 with
    | none => exact h4
    | some h6 =>
      simp only [Option.map, consOpt, List.map_cons, GArg.shape, GArg.specializeList]
      rw [typeArg h6.single, h6.eq, h4]
  | _, _, .lit (l := l) hr, gs', h => by
    obtain ⟨x, xs, h1, h2, rfl⟩ := loadList_cons h
    obtain ⟨gs, h3, h4⟩ := gargsInst_ok hr h2
    refine ⟨_, loadList_of h1 h3, ?_⟩
    simp only [SynGArg.load, bind, Except.bind] at h1
    split at h1
    · cases h1
    cases h1
    simp only [consOpt, List.map_cons, GArg.shape, GArg.specializeList, h4, GArg.specialize]
  | _, _, .const (n := n) ha he hb hr, gs', h => by
    obtain ⟨x, xs, h1, h2, rfl⟩ := loadList_cons h
    obtain ⟨gs, h3, h4⟩ := gargsInst_ok hr h2
    obtain ⟨v, h5, h6⟩ := hA.const _ _ he
    simp only [SynGArg.load, h5, bind, Except.bind] at h1
    cases h1
    refine ⟨_, loadList_of (x := some (.type (.newPath (unraw n) []))) (by
      simp only [SynGArg.load, load_inst hb (load_noArgs ha), bind, Except.bind, Option.map]) h3, ?_⟩
    simp only [consOpt, List.map_cons, GArg.shape, GArg.specializeList, h4]
    rw [shape_named (not_self hb), GArg.specialize, specializeTypeArg]
    simp only [Ty.newPath, Ty.singleIdent, h6]
theorem fnArgsInst_ok : ∀ {as as' : List SynFnArg}, FnArgsInst B as as' → ∀ {k xs'}, SynFnArg.loadList k as' = .ok xs' →
    ∃ xs, SynFnArg.loadList k as = .ok xs ∧ FArg.specializeList σ (xs.map (FArg.shape o)) = xs'.map (FArg.shape o)
  | _, _, .nil, k, xs', h => by cases h; exact ⟨[], rfl, rfl⟩
  | _, _, .cons (n := n) ht hr, k, xs', h => by
    simp only [SynFnArg.loadList, bind, Except.bind] at h
    split at h
    · cases h
    rename_i r' hr'
    obtain ⟨r, h1, h2⟩ := inst_ok ht hr'
    cases h2 with
    | none =>
      obtain ⟨xs, h3, h4⟩ := fnArgsInst_ok hr h
      exact ⟨xs, by simp only [SynFnArg.loadList, h1, h3, bind, Except.bind], h4⟩
    | some h2 =>
      simp only at h
      split at h
      · cases h
      rename_i ys hys
      cases h
      obtain ⟨xs, h3, h4⟩ := fnArgsInst_ok hr hys
      refine ⟨_, by simp only [SynFnArg.loadList, h1, h3, bind, Except.bind]; rfl, ?_⟩
      simp only [List.map_cons, FArg.specializeList, h4, FArg.shape, FArg.specialize, h2.eq]
theorem retInst_ok : ∀ {r r' : SynRet}, RetInst B r r' → ∀ {ty' nr}, r'.load = .ok (ty', nr) →
    ∃ ty, r.load = .ok (ty, nr) ∧ (ty.shape o).specialize σ = ty'.shape o
  | _, _, .default, ty', nr, h => by
    cases h
    exact ⟨_, rfl, by rw [shape_prim]; rfl⟩
  | _, _, .never, ty', nr, h => by
    cases h
    exact ⟨_, rfl, by rw [shape_prim]; rfl⟩
  | _, _, .type (t := t) (t' := t') ht, ty', nr, h => by
    have key : ∀ {s : SynTy}, s ≠ .never → (SynRet.type s).load = (do let t ← s.load; .ok (orVoid t, false)) := by
      intro s hs
      cases s <;> first | rfl | exact absurd rfl hs
    have hn' : t' ≠ .never := by
      rintro rfl
      cases ht with
      | nothing h => cases h
      | param _ h =>
        obtain ⟨ty, h1, -⟩ := hA.type _ _ h
        cases h1
      | wrapped _ _ _ _ h => cases h
      | option _ _ _ _ _ h => cases h
    have hn : t ≠ .never := by
      rintro rfl
      cases ht with
      | nothing h => exact hn' rfl
      | wrapped _ _ h => cases h
      | option _ _ h => cases h
    rw [key hn'] at h
    simp only [bind, Except.bind] at h
    split at h
    · cases h
    rename_i rt' h1
    cases h
    obtain ⟨rt, h2, h3⟩ := inst_ok ht h1
    exact ⟨orVoid rt, by rw [key hn]; simp only [h2, bind, Except.bind], h3.toVoid⟩
end

end

/-! ## Arguments for parameters -/

theorem callParams_none : callParams [] [] = some [] := rfl

theorem mapM_map_option {α β γ : Type} (f : α → β) (g : β → Option γ) : ∀ xs : List α, (xs.map f).mapM g = xs.mapM fun x => g (f x)
  | [] => rfl
  | x :: xs => by simp only [List.map_cons, List.mapM_cons, mapM_map_option f g xs]

theorem callParams_arg (p : GParam) (ps : List GParam) (a : GArg) (as : List GArg) :
    callParams (p :: ps) (a :: as) = (callParams ps as).map ((p.name, a) :: ·) := by
  unfold callParams
  by_cases h : ps.length < as.length
  · rw [if_pos (by simpa using h), if_pos h]; rfl
  rw [if_neg (by simpa using h), if_neg h, List.length_cons, List.range_succ_eq_map, List.zip_cons_cons, List.mapM_cons, List.zip_map_left,
    mapM_map_option]
  simp only [List.getElem?_cons_zero, bind, Option.bind, Prod.map_fst, Prod.map_snd, id_eq, Nat.succ_eq_add_one, List.getElem?_cons_succ]
  split
  · rename_i h1; rw [h1]; rfl
  · rename_i h1; rw [h1]; rfl

theorem callParams_default (p : GParam) (ps : List GParam) {d : GArg} (hd : p.default = some d) :
    callParams (p :: ps) [] = (callParams ps []).map ((p.name, d) :: ·) := by
  unfold callParams
  rw [if_neg (by simp), if_neg (by simp), List.length_cons, List.range_succ_eq_map, List.zip_cons_cons, List.mapM_cons, List.zip_map_left,
    mapM_map_option]
  simp only [List.getElem?_nil, hd, Option.map, bind, Option.bind, Prod.map_fst, Prod.map_snd, id_eq]
  split
  · rename_i h1; rw [h1]
  · rename_i h1; rw [h1]; rfl

theorem load_solid {t : SynTy} (hs : Solid t) {r : Option Ty} (h : t.load = .ok r) : ∃ ty, r = some ty := by
  cases t with
  | path n as =>
    simp only [SynTy.load, if_neg hs.1, bind, Except.bind] at h
    split at h
    · cases h
    simp only [typeOfPath, hs.1, hs.2, or_self, if_false] at h
    split at h
    · split at h
      · cases h; exact ⟨_, rfl⟩
      · cases h
    · cases h; exact ⟨_, rfl⟩
  | tuple ts => exact hs.elim
  | reference m t =>
    simp only [SynTy.load, bind, Except.bind] at h
    split at h <;> cases h
    exact ⟨_, rfl⟩
  | ptr m t =>
    simp only [SynTy.load, bind, Except.bind] at h
    split at h <;> cases h
    exact ⟨_, rfl⟩
  | array t e =>
    simp only [SynTy.load, bind, Except.bind] at h
    split at h
    · cases h
    split at h
    · cases h
    split at h <;> cases h
    exact ⟨_, rfl⟩
  | fnptr a v r =>
    simp only [SynTy.load, bind, Except.bind] at h
    split at h
    · cases h
    split at h
    · cases h
    cases h
    exact ⟨_, rfl⟩
  | never => cases h
  | dots => cases h; exact ⟨_, rfl⟩
  | other => cases h

theorem lookup_cons_ne {α : Type} {p n : Str} (h : p ≠ n) (a : α) (xs : List (Str × α)) :
    ((n, a) :: xs).lookup p = xs.lookup p := by
  rw [List.lookup_cons, show (p == n) = false by simpa using h]

theorem lookup_cons_self' {α : Type} (n : Str) (a : α) (xs : List (Str × α)) : ((n, a) :: xs).lookup n = some a := by
  rw [List.lookup_cons, show (n == n) = true by simp]

theorem Agrees.withType {B : Binding} {σ : List (Str × GArg)} {o : Option Str} (h : Agrees B σ o) {n : Str} {t : SynTy} {ty : Ty}
    (hf : B.Free n) (ht : t.load = .ok (some ty)) : Agrees (B.withType n t) ((n, .type (ty.shape o)) :: σ) o where
  type p t' h' := by
    simp only [Binding.withType] at h'
    split at h'
    · subst_vars
      cases h'
      exact ⟨ty, ht, lookup_cons_self' _ _ _⟩
    · rename_i hp
      rw [lookup_cons_ne hp]
      exact h.type p t' h'
  const p e h' := by
    replace h' : B.const p = some e := h'
    by_cases hp : p = n
    · subst hp; rw [hf.2] at h'; cases h'
    · rw [lookup_cons_ne hp]
      exact h.const p e h'
  free p h' := by
    obtain ⟨h1, h2⟩ := h'
    simp only [Binding.withType] at h1
    split at h1
    · cases h1
    · rename_i hp
      rw [lookup_cons_ne hp]
      exact h.free p ⟨h1, h2⟩

theorem Agrees.withConst {B : Binding} {σ : List (Str × GArg)} {o : Option Str} (h : Agrees B σ o) {n : Str} {e : SynExpr} {x : CExpr}
    (hf : B.Free n) (he : e.loadConst = .ok x) : Agrees (B.withConst n e) ((n, .const x) :: σ) o where
  const p t' h' := by
    simp only [Binding.withConst] at h'
    split at h'
    · subst_vars
      cases h'
      exact ⟨x, he, lookup_cons_self' _ _ _⟩
    · rename_i hp
      rw [lookup_cons_ne hp]
      exact h.const p t' h'
  type p e h' := by
    replace h' : B.type p = some e := h'
    by_cases hp : p = n
    · subst hp; rw [hf.1] at h'; cases h'
    · rw [lookup_cons_ne hp]
      exact h.type p e h'
  free p h' := by
    obtain ⟨h1, h2⟩ := h'
    simp only [Binding.withConst] at h2
    split at h2
    · cases h2
    · rename_i hp
      rw [lookup_cons_ne hp]
      exact h.free p ⟨h1, h2⟩

theorem option_map_some {α β : Type} {f : α → β} {x : Option α} {y : β} (h : x.map f = some y) : ∃ a, x = some a ∧ f a = y := by
  cases x with
  | none => cases h
  | some a => cases h; exact ⟨a, rfl, rfl⟩

/-- The arguments of a use give the parameters what they stand for. -/
theorem binds_agrees {o : Option Str} {ps : List SynGenericParam} {as : List SynGArg} {B : Binding} (h : Binds ps as B) :
    ∀ {params gs σ}, loadParams ps = .ok params → SynGArg.loadList as = .ok gs →
      callParams params (gs.map (GArg.shape o)) = some σ → Agrees B σ o := by
  induction h with
  | nil =>
    rintro params gs σ h1 h2 h3
    cases h1; cases h2; cases h3
    exact ⟨nofun, nofun, fun _ _ => rfl⟩
  | skipParam _ ih =>
    intro params gs σ h1 h2 h3
    obtain ⟨r, ys, h4, h5, rfl⟩ := trySkip_cons h1
    cases h4
    exact ih h5 h2 h3
  | skipArg _ ih =>
    intro params gs σ h1 h2 h3
    obtain ⟨r, ys, h4, h5, rfl⟩ := loadList_cons h2
    cases h4
    exact ih h1 h5 h3
  | @type n d t ps as B _ hf ht ih =>
    intro params gs σ h1 h2 h3
    obtain ⟨r, ys, h4, h5, rfl⟩ := trySkip_cons h1
    obtain ⟨x, xs, h6, h7, rfl⟩ := loadList_cons h2
    simp only [SynGArg.load, bind, Except.bind] at h6
    split at h6
    · cases h6
    rename_i rt hrt
    obtain ⟨ty, rfl⟩ := load_solid ht hrt
    cases h6
    have hp : ∃ p : GParam, r = some p ∧ p.name = unraw n := by
      simp only [SynGenericParam.load, bind, Except.bind] at h4
      split at h4
      · cases h4; exact ⟨_, rfl, rfl⟩
      · split at h4
        · cases h4
        · cases h4; exact ⟨_, rfl, rfl⟩
    obtain ⟨p, rfl, hp⟩ := hp
    simp only [Option.toList, List.singleton_append, Option.map, consOpt, List.map_cons, GArg.shape] at h3
    rw [callParams_arg] at h3
    obtain ⟨σ', h8, rfl⟩ := option_map_some h3
    rw [hp]
    exact (ih h5 h7 h8).withType hf hrt
  | @default n d no ps B _ hf hno hd ht ih =>
    intro params gs σ h1 h2 h3
    cases h2
    obtain ⟨r, ys, h4, h5, rfl⟩ := trySkip_cons h1
    simp only [SynGenericParam.load, bind, Except.bind] at h4
    split at h4
    · cases h4
    rename_i rt hrt
    obtain ⟨ty, rfl⟩ := load_solid ht hrt
    cases h4
    simp only [Option.toList, List.singleton_append, List.map_nil] at h3
    rw [callParams_default _ _ rfl] at h3
    obtain ⟨σ', h8, rfl⟩ := option_map_some h3
    have : ty.shape o = ty := by
      rcases load_plain hno hrt with h | ⟨p, h⟩ | h
      · cases h
      · cases h; rw [shape_prim]
      · cases h; rw [shape_named hd]
    have h9 := (ih h5 rfl h8).withType hf hrt
    rw [this] at h9
    exact h9
  | @const n t d e ps as B _ hf ih =>
    intro params gs σ h1 h2 h3
    obtain ⟨r, ys, h4, h5, rfl⟩ := trySkip_cons h1
    obtain ⟨x, xs, h6, h7, rfl⟩ := loadList_cons h2
    simp only [SynGArg.load, bind, Except.bind] at h6
    split at h6
    · cases h6
    rename_i v hv
    cases h6
    have hp : ∃ p : GParam, r = some p ∧ p.name = unraw n := by
      simp only [SynGenericParam.load, bind, Except.bind] at h4
      split at h4
      · cases h4
      · split at h4
        · cases h4
        · split at h4
          · cases h4; exact ⟨_, rfl, rfl⟩
          · split at h4
            · cases h4
            · cases h4; exact ⟨_, rfl, rfl⟩
    obtain ⟨p, rfl, hp⟩ := hp
    simp only [Option.toList, List.singleton_append, consOpt, List.map_cons, GArg.shape] at h3
    rw [callParams_arg] at h3
    obtain ⟨σ', h8, rfl⟩ := option_map_some h3
    rw [hp]
    exact (ih h5 h7 h8).withConst hf hv

end Cbindgen
