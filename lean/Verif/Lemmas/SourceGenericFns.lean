import Verif.Lemmas.SourceGenerics
import Verif.Lemmas.SourceUses
import Verif.Lemmas.Loaded
import Verif.Props.Source
import Verif.Props.Monomorphs

/-!
# The functions of sources with generic uses (C71)
-/

namespace Cbindgen
open MonoSpec
open SrcSpec hiding Reaches Given Plain

/-! ## Signatures -/

section
variable {name : Str → List GArg → Option Str} {K : Str → Prop} {o : Option Str} {I : Str → SynArgs → Str → Prop}

/-- The parameters `args` are `args'` after their uses are replaced by names. -/
structure SameArgs (name : Str → List GArg → Option Str) (K : Str → Prop) (o : Option Str) (args args' : List FnArg) : Prop where
  eq : args.map (FnArg.mapTy fun t => replaced name (t.shape o)) = args'.map (FnArg.mapTy fun t => t.shape o)
  uses : ∀ a ∈ args, ∀ n gs, Uses (a.ty.shape o) n gs → K n

theorem SameArgs.cons {args args' : List FnArg} (h : SameArgs name K o args args') {n : Option Str} {ty ty' : Ty}
    (ht : SameTy name K o ty ty') : SameArgs name K o ({ name := n, ty := ty } :: args) ({ name := n, ty := ty' } :: args') where
  eq := by simp only [List.map_cons, h.eq, FnArg.mapTy, ht.eq]
  uses a ha := by
    rcases List.mem_cons.1 ha with rfl | ha
    · exact ht.uses
    · exact h.uses a ha

theorem typedParam_same {n : Option Str} {ty ty' : Ty} (h : SameTy name K o ty ty') {r : Option FnArg} (h' : typedParam n ty' = .ok r) :
    r = some { name := n, ty := ty' } ∧ typedParam n ty = .ok (some { name := n, ty := ty }) := by
  refine ⟨typedParam_some h', ?_⟩
  cases hty : ty with
  | array e l =>
    obtain ⟨e', l', rfl⟩ := h.array e l hty
    cases h'
  | _ => rfl

theorem trySkip_cons {α β : Type} {f : α → LoadM (Option β)} {x : α} {xs : List α} {ys : List β}
    (h : trySkipMap f (x :: xs) = .ok ys) : ∃ r ys', f x = .ok r ∧ trySkipMap f xs = .ok ys' ∧ ys = r.toList ++ ys' := by
  simp only [trySkipMap, bind, Except.bind] at h
  split at h
  · cases h
  rename_i r hr
  split at h
  · cases h
  rename_i ys' hys
  refine ⟨r, ys', hr, hys, ?_⟩
  cases r <;> (cases h; rfl)

/-- Parameters without generic arguments. -/
theorem paramsOut_ok (hI : ∀ n as m, I n as m → ∃ gs, as.load = .ok gs ∧ gs ≠ [] ∧ name n (gs.map (GArg.shape o)) = some m ∧ K n)
    {ps ps' : List SynParam} (h : ParamsOut I ps ps') : ∀ {args'}, trySkipMap SynParam.load ps' = .ok args' →
    (∀ a ∈ args', (a.ty.shape o).Clean) → ∃ args, trySkipMap SynParam.load ps = .ok args ∧ SameArgs name K o args args' := by
  induction h with
  | nil => rintro _ ⟨⟩ _; exact ⟨[], rfl, rfl, by simp⟩
  | @receiver r ps ps' _ ih =>
    intro args' h hc
    obtain ⟨x, ys, h1, h2, rfl⟩ := trySkip_cons h
    have h1' := h1
    simp only [SynParam.load, bind, Except.bind] at h1'
    split at h1'
    · cases h1'
    cases h1'
    simp only [Option.toList, List.singleton_append, List.mem_cons, forall_eq_or_imp] at hc
    obtain ⟨args, h3, h4⟩ := ih h2 hc.2
    exact ⟨_, trySkipMap_some h1 h3, h4.cons (.of_clean hc.1)⟩
  | @wild t t' ps ps' ht _ ih =>
    intro args' h hc
    obtain ⟨x, ys, h1, h2, rfl⟩ := trySkip_cons h
    simp only [SynParam.load, bind, Except.bind] at h1
    split at h1
    · cases h1
    rename_i rt' hrt
    split at h1
    · cases h1
      obtain ⟨rt, h3, h4⟩ := writtenOut_ok hI ht hrt nofun
      cases h4
      obtain ⟨args, h5, h6⟩ := ih h2 hc
      exact ⟨args, trySkipMap_none (by simp only [SynParam.load, h3, bind, Except.bind]) h5, h6⟩
    · rename_i ty'
      have := typedParam_some h1
      subst this
      simp only [Option.toList, List.singleton_append, List.mem_cons, forall_eq_or_imp] at hc
      obtain ⟨rt, h3, h4⟩ := writtenOut_ok hI ht hrt (by rintro ty h; cases h; exact hc.1)
      cases h4 with | @some ty _ h4 =>
      obtain ⟨args, h5, h6⟩ := ih h2 hc.2
      exact ⟨_, trySkipMap_some (by simp only [SynParam.load, h3, bind, Except.bind, (typedParam_same h4 h1).2]) h5, h6.cons h4⟩
  | @ident n t t' ps ps' ht _ ih =>
    intro args' h hc
    obtain ⟨x, ys, h1, h2, rfl⟩ := trySkip_cons h
    simp only [SynParam.load, bind, Except.bind] at h1
    split at h1
    · cases h1
    rename_i rt' hrt
    split at h1
    · cases h1
      obtain ⟨rt, h3, h4⟩ := writtenOut_ok hI ht hrt nofun
      cases h4
      obtain ⟨args, h5, h6⟩ := ih h2 hc
      exact ⟨args, trySkipMap_none (by simp only [SynParam.load, h3, bind, Except.bind]) h5, h6⟩
    · rename_i ty'
      have := typedParam_some h1
      subst this
      simp only [Option.toList, List.singleton_append, List.mem_cons, forall_eq_or_imp] at hc
      obtain ⟨rt, h3, h4⟩ := writtenOut_ok hI ht hrt (by rintro ty h; cases h; exact hc.1)
      cases h4 with | @some ty _ h4 =>
      obtain ⟨args, h5, h6⟩ := ih h2 hc.2
      have h7 := (typedParam_same h4 h1).2
      have hva : (if ty = .prim .vaList then none else some (unraw n)) = if ty' = .prim .vaList then none else some (unraw n) := by
        by_cases hv : ty = .prim .vaList
        · rw [if_pos hv, if_pos (h4.vaList.1 hv)]
        · rw [if_neg hv, if_neg fun h => hv (h4.vaList.2 h)]
      exact ⟨_, trySkipMap_some (by simp only [SynParam.load, h3, bind, Except.bind, hva, h7]) h5, h6.cons h4⟩
  | @pattern t t' ps ps' ht _ ih =>
    intro args' h hc
    obtain ⟨x, ys, h1, h2, rfl⟩ := trySkip_cons h
    simp only [SynParam.load, bind, Except.bind] at h1
    split at h1
    · cases h1
    rename_i rt' hrt
    split at h1
    · cases h1
      obtain ⟨rt, h3, h4⟩ := writtenOut_ok hI ht hrt nofun
      cases h4
      obtain ⟨args, h5, h6⟩ := ih h2 hc
      exact ⟨args, trySkipMap_none (by simp only [SynParam.load, h3, bind, Except.bind]) h5, h6⟩
    · cases h1

/-- The function `f` is `f'` after its uses are replaced by names. -/
structure SameFn (name : Str → List GArg → Option Str) (K : Str → Prop) (f f' : FuncItem) : Prop where
  eq : (f.mapTys (Ty.simplify .c)).mapTys (replaced name) = f'.mapTys (Ty.simplify .c)
  uses : ∀ n gs, FuncUses (f.mapTys (Ty.simplify .c)) n gs → K n

/-- Signatures without generic arguments. -/
theorem sigOut_ok (hI : ∀ n as m, I n as m → ∃ gs, as.load = .ok gs ∧ gs ≠ [] ∧ name n (gs.map (GArg.shape o)) = some m ∧ K n)
    {s s' : SynSig} (h : SigOut I s s') {path : Str} {ext : Bool} {attrs : List SAttr} {m : Option Cfg} {f' : FuncItem}
    (hf : s'.load path o ext attrs m = .ok f') (hr : (f'.ret.simplify .c).Clean) (ha : ∀ a ∈ f'.args, (a.ty.simplify .c).Clean) :
    ∃ f, s.load path o ext attrs m = .ok f ∧ SameFn name K f f' := by
  simp only [SynSig.load, bind, Except.bind] at hf
  split at hf
  · cases hf
  rename_i args' hargs
  split at hf
  · cases hf
  rename_i r hret
  obtain ⟨ty', nr⟩ := r
  split at hf
  · cases hf
  rename_i an han
  cases hf
  obtain ⟨args, h1, h2⟩ := paramsOut_ok hI h.inputs hargs (by
    intro a haa
    exact ha _ (List.mem_map.2 ⟨a, List.mem_append.2 (Or.inl haa), rfl⟩))
  obtain ⟨ty, h3, h4⟩ := retOut_ok hI h.output hret hr
  have hva : SameArgs name K o (if s.variadic = true then [({ name := none, ty := .prim .vaList } : FnArg)] else [])
      (if s.variadic = true then [({ name := none, ty := .prim .vaList } : FnArg)] else []) := by
    split
    · exact SameArgs.cons ⟨rfl, by simp⟩ (.of_clean (by rw [shape_prim]; trivial))
    · exact ⟨rfl, by simp⟩
  refine ⟨_, by simp only [SynSig.load, h1, h3, han, bind, Except.bind]; rfl, ?_, ?_⟩
  · have e1 := h2.eq
    have e2 := hva.eq
    have e3 : (args ++ if s.variadic = true then [({ name := none, ty := .prim .vaList } : FnArg)] else []).map
        (FnArg.mapTy fun t => replaced name (t.shape o)) =
        (args' ++ if s.variadic = true then [({ name := none, ty := .prim .vaList } : FnArg)] else []).map (FnArg.mapTy fun t => t.shape o) := by
      rw [List.map_append, List.map_append, e1, e2]
    simp only [FuncItem.mapTys, List.map_map, h.variadic]
    congr 1
    exact h4.eq
  · intro n gs hu
    rcases hu with hu | ⟨a, haa, hu⟩
    · exact h4.uses n gs hu
    · simp only [FuncItem.mapTys, List.map_map, List.mem_map] at haa
      obtain ⟨b, hb, rfl⟩ := haa
      rcases List.mem_append.1 hb with hb | hb
      · exact h2.uses b hb n gs hu
      · exact hva.uses b hb n gs hu

end

/-! ## The library stage -/

/-- The name of a use of a definition that is known. -/
def fullName (c : LibConfig) : Str → List GArg → Option Str := fun n gs => some (c.manglePath n gs)

section
variable {c : LibConfig} {order : List (Str × Annotations) → List (Str × Annotations)} {fuel : Nat} {l : Library}

/-- The tables that generic uses are followed in. -/
def Library.before (c : LibConfig) (order : List (Str × Annotations) → List (Str × Annotations)) (l : Library) : Library :=
  ((l.transferAnnotations order).simplify c).sortFunctions c

theorem before_plain (hp : l.Plain) : (l.before c order).Every (before RefSpec.Plain c) :=
  (((hp.every c).transferAnnotations (before_ignores _ c) order).simplify (before_mapTys (plain_simplify c.language) c)).sortFunctions

theorem before_bodies (hb : l.BodiesPlain) : (l.before c order).BodiesPlain := by
  have hb' : l.Every plainBodies :=
    ⟨fun _ _ => trivial, fun _ _ => trivial, hb, fun _ _ => trivial, fun _ _ => trivial,
      fun _ _ => trivial, fun _ _ => trivial, fun _ _ => trivial⟩
  exact (((hb'.transferAnnotations ⟨fun _ _ h => h, fun _ _ _ => trivial, fun _ _ _ => trivial,
    fun _ _ _ => trivial, fun _ _ _ => trivial⟩ order).simplify (plainBodies_mapTys _)).sortFunctions).enums

/-- What is found is mangled, and is an instance. -/
theorem find_mangled (hc : c.language ≠ .cxx) (hwf : l.WF) (hp : l.Every (before RefSpec.Plain c)) {m : Monos}
    (hm : followAll (follow c (l.getItems c) fuel) l.monoUses {} = .ok m) {n : Str} {gs : List GArg} {p : Str}
    (hf : m.find (Ty.newPath n gs) = some p) : p = c.manglePath n gs := by
  have hd := Library.definitions hc hwf hp
  obtain ⟨hg, _⟩ := followAll_grows hd (hp.monoUses (before_mono hc)) hm
  have hmem : (Ty.newPath n gs, p) ∈ m.repl := by
    unfold Monos.find at hf
    rw [List.lookup_eq_some_iff] at hf
    obtain ⟨a, b, e, _⟩ := hf
    rw [e]; simp
  rcases hg.entries _ hmem with h | ⟨x, gs', y, h1, h2, _⟩
  · simp at h
  simp only [Ty.newPath, Prod.mk.injEq, Ty.path.injEq] at h2
  obtain ⟨⟨rfl, _, rfl, _⟩, rfl⟩ := h2
  obtain ⟨m', _, e⟩ := h1.eq
  rw [e, Container.specialize_path]

/-- A use of a known definition is found. -/
theorem handled_find (hc : c.language ≠ .cxx) (hwf : l.WF) (hp : l.Every (before RefSpec.Plain c)) {m : Monos}
    (hm : followAll (follow c (l.getItems c) fuel) l.monoUses {} = .ok m) {u : GUse} (hu : PlainUse u)
    (hh : Handled (l.getItems c) u m) (hk : l.getItems c u.1 ≠ none) :
    m.find (Ty.newPath u.1 u.2.2.1) = fullName c u.1 u.2.2.1 := by
  rcases hh with hh | hh
  · rw [hu.ty_eq] at hh
    cases hf : m.find (Ty.newPath u.1 u.2.2.1) with
    | none => rw [hf] at hh; cases hh
    | some p => rw [find_mangled hc hwf hp hm hf]; rfl
  · exact absurd hh hk

theorem use_find (hc : c.language ≠ .cxx) (hwf : l.WF) (hp : l.Every (before RefSpec.Plain c)) {m : Monos}
    (hm : followAll (follow c (l.getItems c) fuel) l.monoUses {} = .ok m) {u : GUse} (hu : u ∈ l.monoUses)
    (hk : l.getItems c u.1 ≠ none) : m.find (Ty.newPath u.1 u.2.2.1) = fullName c u.1 u.2.2.1 :=
  handled_find hc hwf hp hm (hp.monoUses (before_mono hc) u hu)
    ((followAll_grows (Library.definitions hc hwf hp) (hp.monoUses (before_mono hc)) hm).2 u hu) hk

theorem FuncItem.mapTys_congr {g g' : Ty → Ty} {f : FuncItem} (hr : g f.ret = g' f.ret) (ha : ∀ a ∈ f.args, g a.ty = g' a.ty) :
    f.mapTys g = f.mapTys g' := by
  simp only [FuncItem.mapTys, hr]
  congr 1
  apply List.map_congr_left
  intro a haa
  simp only [FnArg.mapTy, ha a haa]

/-- A function after all steps is the one without generic arguments after all steps. -/
theorem SameFn.final (hc : c.language = .c) (hwf : l.WF) (hp : l.Plain) {m : Monos}
    (hm : followAll (follow c ((l.before c order).getItems c) fuel) (l.before c order).monoUses {} = .ok m)
    {f f' : FuncItem} (hf : f ∈ l.functions) (h : SameFn (fullName c) (fun n => (l.getItems c n).isSome = true) f f')
    (hr : (f'.ret.simplify .c).Clean) (ha : ∀ a ∈ f'.args, (a.ty.simplify .c).Clean) (tag : Str → Option DeclKind) :
    f.final c m.find tag = f'.final c m.find tag := by
  have hcx : c.language ≠ .cxx := by rw [hc]; decide
  have hwf₀ : (l.before c order).WF := (l.simplified_shape c order).wf hwf
  have hp₀ : (l.before c order).Every (Cbindgen.before RefSpec.Plain c) := before_plain hp
  have hmem : f.mapTys (Ty.simplify .c) ∈ (l.before c order).functions := by
    show f.mapTys (Ty.simplify .c) ∈ sortIf _ FuncItem.path ((l.transferAnnotations order).functions.map _)
    rw [mem_sortIf, (transferAnnotations_other order l).1, hc]
    exact List.mem_map.2 ⟨f, hf, rfl⟩
  have key : (f.mapTys (Ty.simplify .c)).mapTys (Ty.manglePaths m.find) = (f'.mapTys (Ty.simplify .c)).mapTys (Ty.manglePaths m.find) := by
    have e1 : (f.mapTys (Ty.simplify .c)).mapTys (Ty.manglePaths m.find) = (f.mapTys (Ty.simplify .c)).mapTys (replaced (fullName c)) := by
      rw [funcMapTys_congr (c := c) (manglePaths_eq m.find) (hp₀.functions _ hmem)]
      have hn : ∀ n gs, FuncUses (f.mapTys (Ty.simplify .c)) n gs → m.find (Ty.newPath n gs) = fullName c n gs := by
        intro n gs hu
        obtain ⟨e, k, hmu⟩ := funcUses_monoUses hu
        refine use_find hcx hwf₀ hp₀ hm (monoUses_func hmem hmu) ?_
        have := h.uses n gs hu
        rw [← (l.simplified_shape c order).getItems c n] at this
        intro hno
        rw [show (((l.transferAnnotations order).simplify c).sortFunctions c).getItems c n = none from hno] at this
        cases this
      exact FuncItem.mapTys_congr (replaced_congr _ fun n gs hu => hn n gs (Or.inl hu))
        fun a haa => replaced_congr _ fun n gs hu => hn n gs (Or.inr ⟨a, haa, hu⟩)
    have e2 : (f'.mapTys (Ty.simplify .c)).mapTys (Ty.manglePaths m.find) = f'.mapTys (Ty.simplify .c) := by
      have : f'.mapTys (Ty.simplify .c) = (f'.mapTys (Ty.simplify .c)).mapTys id := by
        simp [FuncItem.mapTys, FnArg.mapTy, Function.comp_def]
      refine Eq.trans ?_ this.symm
      refine FuncItem.mapTys_congr (clean_mangle _ _ hr) ?_
      intro a haa
      obtain ⟨b, hb, rfl⟩ := List.mem_map.1 haa
      exact clean_mangle _ _ (ha b hb)
    rw [e1, e2, h.eq]
  simp only [FuncItem.final, hc, key]

end

end Cbindgen
