import Verif.Lemmas.SourceTypes
import Verif.Spec.SourceGenerics
import Verif.Spec.Mono

/-!
# The types of sources with generic uses (C71)
-/

namespace Cbindgen
open MonoSpec SrcSpec

/-! ## Simplification -/

theorem wrapperNames_eq : wrapperNames = wrappers := rfl

theorem simplifyWrapper_simplified {lang : Language} {n : Str} {t s : Ty} (h : simplifyWrapper lang n t = some s)
    (ht : t.simplified lang = none) : s.simplified lang = none := by
  unfold simplifyWrapper at h
  split at h
  · split at h
    · rename_i s' hs
      cases h
      cases t with
      | ptr t c nl r => cases nl <;> simp [Ty.makeNullable] at hs; subst hs; rfl
      | fnptr r as nl nr => cases nl <;> simp [Ty.makeNullable] at hs; subst hs; rfl
      | _ => simp [Ty.makeNullable] at hs
    · cases t with
      | prim p => cases p <;> simp [Ty.makeZeroable] at h; rw [← h.2]; rfl
      | _ => simp [Ty.makeZeroable] at h
  · repeat' split at h
    all_goals first
      | (cases h; done)
      | (cases h; rfl)
      | (cases h; exact ht)
      | (cases t with
        | prim p => cases p <;> simp [Ty.makeZeroable] at h; rw [← h.2]; rfl
        | _ => simp [Ty.makeZeroable] at h)

/-- What is simplified is not simplified further. -/
theorem simplify_fixed (lang : Language) : ∀ t : Ty, (t.simplify lang).simplified lang = none
  | .ptr .. => rfl
  | .prim _ => rfl
  | .array .. => rfl
  | .fnptr .. => rfl
  | .path n e [] k => rfl
  | .path n e [.const c] k => rfl
  | .path n e [.type t] k => by
    have ih := simplify_fixed lang t
    have h1 : ∀ e k, (Ty.path n e [.type (t.simplify lang)] k).simplified lang = simplifyWrapper lang n (t.simplify lang) := by
      intro e k
      simp only [Ty.simplified, GArg.simplifiedList, List.isEmpty_nil, if_true, GArg.simplified, ih, Option.getD_none]
    simp only [Ty.simplify, GArg.simplifyList, GArg.simplify, Ty.simplifyTop, h1]
    cases hs : simplifyWrapper lang n (t.simplify lang) with
    | none => rw [Option.getD_none, h1, hs]
    | some s => exact simplifyWrapper_simplified hs ih
  | .path n e (g :: g' :: gs) k => by
    simp [Ty.simplify, GArg.simplifyList, Ty.simplifyTop, Ty.simplified, GArg.simplifiedList]

/-- A generic argument of a loaded item after the simplification of standard types. -/
def GArg.shape (o : Option Str) : GArg → GArg
  | .type t => .type (t.shape o)
  | .const c => .const c

theorem gsimplifyList_map (lang : Language) : ∀ as : List GArg, GArg.simplifyList lang as = as.map (GArg.simplify lang)
  | [] => rfl
  | a :: as => by rw [GArg.simplifyList, gsimplifyList_map lang as]; rfl
theorem greplaceSelfList_map (p : Str) : ∀ as : List GArg, GArg.replaceSelfList p as = as.map (GArg.replaceSelf p)
  | [] => rfl
  | a :: as => by rw [GArg.replaceSelfList, greplaceSelfList_map p as]; rfl

theorem shape_path {o : Option Str} {n : Str} (h : n ≠ c!"Self") (gs : List GArg) :
    (Ty.newPath n gs).shape o = (Ty.path n n (gs.map (GArg.shape o)) none).simplifyTop .c := by
  cases o with
  | none =>
    simp only [Ty.shape, Ty.replaceSelfOpt, Ty.newPath, Ty.simplify, gsimplifyList_map]
    congr 2
    apply List.map_congr_left
    rintro (t | c) - <;> rfl
  | some p =>
    simp only [Ty.shape, Ty.replaceSelfOpt, Ty.newPath, Ty.replaceSelf, replaceSelfName, if_neg h, Ty.simplify,
      gsimplifyList_map, greplaceSelfList_map, List.map_map]
    congr 2
    apply List.map_congr_left
    rintro (t | c) - <;> rfl

theorem shape_fixed (o : Option Str) (t : Ty) : (t.shape o).simplified .c = none := simplify_fixed _ _

/-- A wrapper around any type. -/
theorem shape_wrapped {o : Option Str} {w : Str} (h : w ≠ c!"Self") (t : Ty) : (Ty.newPath w [.type t]).shape o =
    (simplifyWrapper .c w (t.shape o)).getD (.path w w [.type (t.shape o)] none) := by
  rw [shape_path h]
  simp only [List.map_cons, List.map_nil, GArg.shape, Ty.simplifyTop, Ty.simplified, GArg.simplifiedList, List.isEmpty_nil,
    if_true, GArg.simplified, shape_fixed, Option.getD_none]

theorem simplifyWrapper_none {lang : Language} {n : Str} (h : n ∉ wrapperNames) (t : Ty) : simplifyWrapper lang n t = none := by
  simp only [wrapperNames, List.mem_cons, List.not_mem_nil, or_false, not_or] at h
  simp [simplifyWrapper, h]

/-- Any other path. -/
theorem shape_inst {o : Option Str} {n : Str} (h : n ≠ c!"Self") (hw : n ∉ wrapperNames) (gs : List GArg) :
    (Ty.newPath n gs).shape o = .newPath n (gs.map (GArg.shape o)) := by
  rw [shape_path h]
  match gs with
  | [] => rfl
  | [.const _] => rfl
  | [.type t] =>
    simp only [List.map_cons, List.map_nil, GArg.shape, Ty.simplifyTop, Ty.simplified, GArg.simplifiedList, List.isEmpty_nil,
      if_true, GArg.simplified, simplifyWrapper_none hw, Option.getD_none, Ty.newPath]
  | a :: b :: gs => rfl

/-! ## Wrappers -/

theorem wrapper_clean {w : Str} {t s : Ty} (h : simplifyWrapper .c w t = some s) : s.Clean ↔ t.Clean := by
  unfold simplifyWrapper at h
  split at h
  · split at h
    · rename_i s' hs
      cases h
      cases t with
      | ptr t c nl r => cases nl <;> simp [Ty.makeNullable] at hs; subst hs; exact Iff.rfl
      | fnptr r as nl nr => cases nl <;> simp [Ty.makeNullable] at hs; subst hs; exact Iff.rfl
      | _ => simp [Ty.makeNullable] at hs
    · cases t with
      | prim p => cases p <;> simp [Ty.makeZeroable] at h; rw [← h.2]; exact Iff.rfl
      | _ => simp [Ty.makeZeroable] at h
  · repeat' split at h
    all_goals first
      | (cases h; done)
      | (cases h; exact Iff.rfl)
      | (cases t with
        | prim p => cases p <;> simp [Ty.makeZeroable] at h; rw [← h.2]; exact Iff.rfl
        | _ => simp [Ty.makeZeroable] at h)

section
variable (name : Str → List GArg → Option Str)

theorem replaced_makeNullable (t : Ty) : (replaced name t).makeNullable = t.makeNullable.map (replaced name) := by
  match t with
  | .ptr t c nl r => cases nl <;> rfl
  | .fnptr r as nl nr => cases nl <;> rfl
  | .prim p => rfl
  | .array t l => rfl
  | .path n e [] k => rfl
  | .path n e (g :: gs) k =>
    rw [replaced]
    cases name n (g :: gs) <;> rfl

theorem replaced_makeZeroable (b : Bool) (t : Ty) : (replaced name t).makeZeroable b = (t.makeZeroable b).map (replaced name) := by
  match t with
  | .ptr t c nl r => rfl
  | .fnptr r as nl nr => rfl
  | .prim p =>
    rw [replaced]
    cases p with
    | integer z s k =>
      simp only [Ty.makeZeroable]
      split <;> rfl
    | _ => rfl
  | .array t l => rfl
  | .path n e [] k => rfl
  | .path n e (g :: gs) k =>
    rw [replaced]
    cases name n (g :: gs) <;> rfl

theorem replaced_wrapper (w : Str) (t : Ty) :
    simplifyWrapper .c w (replaced name t) = (simplifyWrapper .c w t).map (replaced name) := by
  unfold simplifyWrapper
  rw [replaced_makeNullable, replaced_makeZeroable, replaced_makeZeroable]
  split
  · cases t.makeNullable <;> rfl
  · repeat' split
    all_goals rfl

theorem replacedArgs_map : ∀ as : List FArg, replacedArgs name as = as.map fun a => match a with | .mk n t => .mk n (replaced name t)
  | [] => rfl
  | .mk n t :: as => by rw [replacedArgs, replacedArgs_map as]; rfl

theorem replacedArgs_append (as bs : List FArg) : replacedArgs name (as ++ bs) = replacedArgs name as ++ replacedArgs name bs := by
  simp only [replacedArgs_map, List.map_append]

end

theorem uses_wrapper {w : Str} {t s : Ty} (h : simplifyWrapper .c w t = some s) {n : Str} {gs : List GArg} (hu : Uses s n gs) :
    Uses t n gs := by
  unfold simplifyWrapper at h
  split at h
  · split at h
    · rename_i s' hs
      cases h
      cases t with
      | ptr t c nl r =>
        cases nl <;> simp [Ty.makeNullable] at hs
        subst hs
        cases hu with | ptr hu => exact .ptr hu
      | fnptr r as nl nr =>
        cases nl <;> simp [Ty.makeNullable] at hs
        subst hs
        cases hu with
        | ret hu => exact .ret hu
        | arg ha hu => exact .arg ha hu
      | _ => simp [Ty.makeNullable] at hs
    · cases t with
      | prim p => cases p <;> simp [Ty.makeZeroable] at h; rw [← h.2] at hu; cases hu
      | _ => simp [Ty.makeZeroable] at h
  · repeat' split at h
    all_goals first
      | (cases h; done)
      | (cases h; cases hu with | ptr hu => exact hu)
      | (cases h; exact hu)
      | (cases t with
        | prim p => cases p <;> simp [Ty.makeZeroable] at h; rw [← h.2] at hu; cases hu
        | _ => simp [Ty.makeZeroable] at h)

mutual
theorem clean_replaced (name : Str → List GArg → Option Str) : ∀ t : Ty, t.Clean → replaced name t = t
  | .ptr t c n r, h => by rw [replaced, clean_replaced name t h]
  | .path n e gs k, h => by obtain ⟨rfl, -⟩ := h; rw [replaced]
  | .prim _, _ => rfl
  | .array t l, h => by rw [replaced, clean_replaced name t h]
  | .fnptr r as n nr, h => by rw [replaced, clean_replaced name r h.1, clean_replacedArgs name as h.2]
theorem clean_replacedArgs (name : Str → List GArg → Option Str) : ∀ as : List FArg, FArg.CleanList as → replacedArgs name as = as
  | [], _ => rfl
  | .mk n t :: as, h => by rw [replacedArgs, clean_replaced name t h.1, clean_replacedArgs name as h.2]
end

theorem clean_uses {t : Ty} {n : Str} {gs : List GArg} (hu : Uses t n gs) : ¬ t.Clean := by
  induction hu with
  | here h => exact fun hc => h hc.1
  | ptr _ ih => exact ih
  | array _ ih => exact ih
  | ret _ ih => exact fun hc => ih hc.1
  | @arg r t as nl nr a n gs ha _ ih =>
    intro hc
    have hl := hc.2
    clear hc
    induction as with
    | nil => simp at ha
    | cons b bs ihb =>
      rcases List.mem_cons.1 ha with rfl | ha
      · exact ih hl.1
      · exact ihb ha hl.2

mutual
theorem replaced_congr {name name' : Str → List GArg → Option Str} : ∀ t : Ty,
    (∀ n gs, Uses t n gs → name n gs = name' n gs) → replaced name t = replaced name' t
  | .ptr t c n r, h => by rw [replaced, replaced, replaced_congr t fun n gs hu => h n gs (.ptr hu)]
  | .path n e [] k, _ => by rw [replaced, replaced]
  | .path n e (g :: gs) k, h => by rw [replaced, replaced, h n (g :: gs) (.here (by simp))]
  | .prim _, _ => rfl
  | .array t l, h => by rw [replaced, replaced, replaced_congr t fun n gs hu => h n gs (.array hu)]
  | .fnptr r as n nr, h => by
    rw [replaced, replaced, replaced_congr r fun n gs hu => h n gs (.ret hu),
      replacedArgs_congr as fun a t ha n gs hu => h n gs (.arg ha hu)]
theorem replacedArgs_congr {name name' : Str → List GArg → Option Str} : ∀ as : List FArg,
    (∀ a t, FArg.mk a t ∈ as → ∀ n gs, Uses t n gs → name n gs = name' n gs) → replacedArgs name as = replacedArgs name' as
  | [], _ => rfl
  | .mk m t :: as, h => by
    rw [replacedArgs, replacedArgs, replaced_congr t fun n gs hu => h m t (by simp) n gs hu,
      replacedArgs_congr as fun a t ha => h a t (by simp [ha])]
end

/-! ## Types without generic arguments -/

section
variable (name : Str → List GArg → Option Str) (K : Str → Prop) (o : Option Str)

/-- The loaded type `ty` is `ty'` after its uses are replaced by names. -/
structure SameTy (ty ty' : Ty) : Prop where
  eq : replaced name (ty.shape o) = ty'.shape o
  uses : ∀ n gs, Uses (ty.shape o) n gs → K n
  vaList : ty = .prim .vaList ↔ ty' = .prim .vaList
  array : ∀ e l, ty = .array e l → ∃ e' l', ty' = .array e' l'

inductive SameLoad : Option Ty → Option Ty → Prop
  | none : SameLoad none none
  | some {ty ty'} : SameTy name K o ty ty' → SameLoad (some ty) (some ty')

variable {name K o}

theorem SameTy.of_clean {ty : Ty} (h : (ty.shape o).Clean) : SameTy name K o ty ty :=
  ⟨clean_replaced name _ h, fun _ _ hu => absurd h (clean_uses hu), Iff.rfl, fun e l h => ⟨e, l, h⟩⟩

theorem SameLoad.of_clean {r : Option Ty} (h : ∀ ty, r = Option.some ty → (ty.shape o).Clean) : SameLoad name K o r r := by
  cases r with
  | none => exact .none
  | some ty => exact .some (.of_clean (h ty rfl))

theorem SameLoad.toVoid {r r' : Option Ty} (h : SameLoad name K o r r') : SameTy name K o (orVoid r) (orVoid r') := by
  cases h with
  | none => exact .of_clean (by rw [orVoid, shape_prim]; trivial)
  | some h => exact h

theorem load_inst {n : Str} {as : SynArgs} {gs : List GArg} (h : unraw n ∉ builtin) (ha : as.load = .ok gs) :
    (SynTy.path n as).load = .ok (some (.newPath (unraw n) gs)) := by
  have h1 : unraw n ≠ c!"PhantomData" := by intro h'; rw [h'] at h; exact h builtin_phantom.1
  have h2 : unraw n ≠ c!"PhantomPinned" := by intro h'; rw [h'] at h; exact h builtin_phantom.2.1
  have h3 : Prim.maybe (unraw n) = none := by
    cases hx : Prim.maybe (unraw n) with
    | none => rfl
    | some p => exact absurd (known_prim _ (by simp [hx])) h
  simp only [SynTy.load, h1, if_false, ha, bind, Except.bind, typeOfPath, h2, or_self, h3]

theorem not_self {n : Str} (h : n ∉ builtin) : n ≠ c!"Self" := by
  rintro rfl; exact h builtin_phantom.2.2

/-- What loading of `w<t>` needs. -/
theorem load_wrap_ok {w : Str} {t u : SynTy} (h : Wrap w t u) (hw : w ∈ wrappers) {r : Option Ty} (hl : u.load = .ok r) :
    ∃ rt, t.load = .ok rt ∧ r = some (.newPath w (rt.map GArg.type).toList) := by
  obtain ⟨h⟩ := h
  obtain ⟨h1, h2, -, h4⟩ := wrappers_plain w hw
  cases ht : t.load with
  | error e => simp [SynTy.load, h, h1, SynArgs.load, SynGArg.loadList, SynGArg.load, ht, bind, Except.bind] at hl
  | ok rt =>
    refine ⟨rt, rfl, ?_⟩
    simp only [SynTy.load, h, h1, if_false, SynArgs.load, SynGArg.loadList, SynGArg.load, ht, bind, Except.bind, typeOfPath, h2,
      or_self, h4, Except.ok.injEq] at hl
    rw [← hl]
    cases rt <;> rfl

theorem load_wrap_of {w : Str} {t u : SynTy} (h : Wrap w t u) (hw : w ∈ wrappers) {r : Option Ty} (ht : t.load = .ok r) :
    u.load = .ok (some (.newPath w (r.map GArg.type).toList)) := by
  obtain ⟨h⟩ := h
  obtain ⟨h1, h2, -, h4⟩ := wrappers_plain w hw
  simp only [SynTy.load, h, h1, if_false, SynArgs.load, SynGArg.loadList, SynGArg.load, ht, bind, Except.bind, typeOfPath, h2,
    or_self, h4]
  cases r <;> rfl

variable {I : Str → SynArgs → Str → Prop}
  (hI : ∀ n as m, I n as m → ∃ gs, as.load = .ok gs ∧ gs ≠ [] ∧ name n (gs.map (GArg.shape o)) = some m ∧ K n)

include hI

mutual
theorem writtenOut_ok : ∀ {t t' : SynTy}, WrittenOut I t t' → ∀ {r'}, t'.load = .ok r' →
    (∀ ty, r' = some ty → (ty.shape o).Clean) → ∃ r, t.load = .ok r ∧ SameLoad name K o r r'
  | _, _, .nothing hn, r', h, hc => ⟨r', h, .of_clean hc⟩
  | _, _, .plain _, r', h, hc => ⟨r', h, .of_clean hc⟩
  | _, _, .inst (n := n) (as := as) (m := m) hi hb hw hm hmb, r', h, hc => by
    obtain ⟨gs, h1, h2, h3, h4⟩ := hI _ _ _ hi
    have hl : (SynTy.path m .none).load = .ok (some (.newPath m [])) := by
      have := load_inst (n := m) (as := .none) (gs := []) (by rw [hm]; exact hmb) rfl
      rwa [hm] at this
    rw [hl] at h
    cases h
    refine ⟨_, load_inst hb h1, .some ⟨?_, ?_, ?_, nofun⟩⟩
    · rw [shape_inst (not_self hb) hw, shape_named (not_self hmb)]
      cases gs with
      | nil => exact absurd rfl h2
      | cons g gs =>
        rw [List.map_cons] at h3 ⊢
        simp only [Ty.newPath, replaced, h3]
    · rw [shape_inst (not_self hb) hw]
      intro n' gs' hu
      cases hu
      exact h4
    · constructor <;> exact nofun
  | _, _, .wrapped (w := w) (t := t) (t' := t') hw ho hr ho', r', h, hc => by
    rw [wrapperNames_eq] at hw
    obtain ⟨rt', h1, rfl⟩ := load_wrap_ok ho' hw h
    have hself := (wrappers_plain w hw).2.2.1
    have hva : ∀ gs, Ty.newPath w gs ≠ .prim .vaList := fun _ => nofun
    have hc' : ∀ ty, rt' = some ty → (ty.shape o).Clean := by
      rintro ty rfl
      have := hc _ rfl
      simp only [Option.map, Option.toList] at this
      rw [shape_wrapped hself] at this
      cases hs : simplifyWrapper .c w (ty.shape o) with
      | none =>
        rw [hs] at this
        exact absurd this.1 (by simp)
      | some s =>
        rw [hs] at this
        exact (wrapper_clean hs).1 this
    obtain ⟨rt, h2, h3⟩ := writtenOut_ok hr h1 hc'
    refine ⟨_, load_wrap_of ho hw h2, ?_⟩
    cases h3 with
    | none => exact .of_clean hc
    | @some ty ty' h3 =>
      have hc1 := hc _ rfl
      simp only [Option.map, Option.toList] at hc1 ⊢
      rw [shape_wrapped hself] at hc1
      cases hs' : simplifyWrapper .c w (ty'.shape o) with
      | none =>
        rw [hs'] at hc1
        exact absurd hc1.1 (by simp)
      | some s' =>
        have hrw := replaced_wrapper name w (ty.shape o)
        rw [h3.eq, hs'] at hrw
        cases hs : simplifyWrapper .c w (ty.shape o) with
        | none => rw [hs] at hrw; cases hrw
        | some s =>
          rw [hs] at hrw
          simp only [Option.map, Option.some.injEq] at hrw
          refine .some ⟨?_, ?_, ⟨fun h => absurd h (hva _), fun h => absurd h (hva _)⟩, nofun⟩
          · rw [shape_wrapped hself, shape_wrapped hself, hs, hs', Option.getD_some, Option.getD_some, hrw]
          · rw [shape_wrapped hself, hs, Option.getD_some]
            exact fun n gs hu => h3.uses n gs (uses_wrapper hs hu)
  | _, _, .raw (m := m) (t' := t') hr, r', h, hc => by
    simp only [SynTy.load, bind, Except.bind] at h
    split at h
    · cases h
    rename_i rt' h1
    cases h
    have hc1 := hc _ rfl
    rw [shape_ptr] at hc1
    obtain ⟨rt, h2, h3⟩ := writtenOut_ok hr h1 (by rintro ty rfl; exact hc1)
    refine ⟨some (.ptr (orVoid rt) m true false), by simp only [SynTy.load, h2, bind, Except.bind], .some ⟨?_, ?_, ?_, nofun⟩⟩
    · rw [shape_ptr, shape_ptr, replaced, h3.toVoid.eq]
    · rw [shape_ptr]
      intro n gs hu
      cases hu with | ptr hu => exact h3.toVoid.uses n gs hu
    · constructor <;> exact nofun
  | _, _, .reference (m := m) (t' := t') hr, r', h, hc => by
    simp only [SynTy.load, bind, Except.bind] at h
    split at h
    · cases h
    rename_i rt' h1
    cases h
    have hc1 := hc _ rfl
    rw [shape_ptr] at hc1
    obtain ⟨rt, h2, h3⟩ := writtenOut_ok hr h1 (by rintro ty rfl; exact hc1)
    refine ⟨some (.ptr (orVoid rt) (!m) false false), by simp only [SynTy.load, h2, bind, Except.bind], .some ⟨?_, ?_, ?_, nofun⟩⟩
    · rw [shape_ptr, shape_ptr, replaced, h3.toVoid.eq]
    · rw [shape_ptr]
      intro n gs hu
      cases hu with | ptr hu => exact h3.toVoid.uses n gs hu
    · constructor <;> exact nofun
  | _, _, .array (t' := t') (e := e) hr, r', h, hc => by
    simp only [SynTy.load, bind, Except.bind] at h
    split at h
    · cases h
    rename_i rt' h1
    split at h
    · cases h
    rename_i ty'
    split at h
    · cases h
    rename_i x hx
    cases h
    have hc1 := hc _ rfl
    rw [shape_array] at hc1
    obtain ⟨rt, h2, h3⟩ := writtenOut_ok hr h1 (by rintro ty h; cases h; exact hc1)
    cases h3 with | @some ty _ h3 =>
    refine ⟨some (.array ty x), by simp only [SynTy.load, h2, hx, bind, Except.bind], .some ⟨?_, ?_, ?_, fun _ _ _ => ⟨_, _, rfl⟩⟩⟩
    · rw [shape_array, shape_array, replaced, h3.eq]
    · rw [shape_array]
      intro n gs hu
      cases hu with | array hu => exact h3.uses n gs hu
    · constructor <;> exact nofun
  | _, _, .function (ins' := ins') (v := v) (out' := out') ha hr, r', h, hc => by
    simp only [SynTy.load, bind, Except.bind] at h
    split at h
    · cases h
    rename_i as' h1
    split at h
    · cases h
    rename_i p h2
    obtain ⟨ty', nr⟩ := p
    cases h
    have hc1 := hc _ rfl
    rw [shape_fnptr, List.map_append] at hc1
    obtain ⟨as, h3, h4, h5⟩ := argsOut_ok ha h1 (cleanList_append.1 hc1.2).1
    obtain ⟨ty, h6, h7⟩ := retOut_ok hr h2 hc1.1
    refine ⟨some (.fnptr ty (as ++ variadicArg v) false nr), by simp only [SynTy.load, h3, h6, bind, Except.bind],
      .some ⟨?_, ?_, ?_, nofun⟩⟩
    · rw [shape_fnptr, shape_fnptr, replaced, h7.eq, List.map_append, List.map_append, replacedArgs_append, h4, farg_shape_fin,
        clean_replacedArgs name _ (variadic_clean v)]
    · rw [shape_fnptr]
      intro n gs hu
      cases hu with
      | ret hu => exact h7.uses n gs hu
      | arg hm hu =>
        rw [List.map_append, farg_shape_fin, List.mem_append] at hm
        rcases hm with hm | hm
        · exact h5 _ _ hm n gs hu
        · cases v with
          | false => simp [variadicArg] at hm
          | true => simp [variadicArg] at hm; rw [hm.2] at hu; cases hu
    · constructor <;> exact nofun
theorem argsOut_ok : ∀ {k : Nat} {as as' : List SynFnArg}, ArgsOut I as as' → ∀ {fs'}, SynFnArg.loadList k as' = .ok fs' →
    FArg.CleanList (fs'.map (FArg.shape o)) → ∃ fs, SynFnArg.loadList k as = .ok fs ∧
      replacedArgs name (fs.map (FArg.shape o)) = fs'.map (FArg.shape o) ∧
      ∀ a t, FArg.mk a t ∈ fs.map (FArg.shape o) → ∀ n gs, Uses t n gs → K n
  | k, _, _, .nil, fs', h, _ => by
    cases h
    exact ⟨[], rfl, rfl, by simp⟩
  | k, _, _, .cons (n := n) (t' := t') (as' := as') hr ha, fs', h, hc => by
    simp only [SynFnArg.loadList, bind, Except.bind] at h
    split at h
    · cases h
    rename_i rt' h1
    split at h
    · obtain ⟨rt, h2, h3⟩ := writtenOut_ok hr h1 nofun
      cases h3
      obtain ⟨fs, h4, h5⟩ := argsOut_ok ha h hc
      exact ⟨fs, by simp only [SynFnArg.loadList, h2, h4, bind, Except.bind], h5⟩
    · rename_i ty'
      split at h
      · cases h
      rename_i fs' hfs
      cases h
      rw [List.map_cons] at hc
      obtain ⟨rt, h2, h3⟩ := writtenOut_ok hr h1 (by rintro ty h; cases h; exact hc.1)
      cases h3 with | @some ty _ h3 =>
      obtain ⟨fs, h4, h5, h6⟩ := argsOut_ok ha hfs hc.2
      refine ⟨.mk (fnptrArgName k n).1 ty :: fs, by simp only [SynFnArg.loadList, h2, h4, bind, Except.bind], ?_, ?_⟩
      · simp only [List.map_cons, FArg.shape, replacedArgs, h3.eq, h5]
      · intro a t hm n gs hu
        rw [List.map_cons, List.mem_cons] at hm
        rcases hm with hm | hm
        · simp only [FArg.shape, FArg.mk.injEq] at hm
          rw [hm.2] at hu
          exact h3.uses n gs hu
        · exact h6 a t hm n gs hu
theorem retOut_ok : ∀ {r r' : SynRet}, RetOut I r r' → ∀ {ty' nr}, r'.load = .ok (ty', nr) → (ty'.shape o).Clean →
    ∃ ty, r.load = .ok (ty, nr) ∧ SameTy name K o ty ty'
  | _, _, .default, ty', nr, h, hc => ⟨ty', h, .of_clean hc⟩
  | _, _, .never, ty', nr, h, hc => ⟨ty', h, .of_clean hc⟩
  | _, _, .type (t := t) (t' := t') hr, ty', nr, h, hc => by
    have key : ∀ {s : SynTy}, s ≠ .never → (SynRet.type s).load = (do let t ← s.load; .ok (orVoid t, false)) := by
      intro s hs
      cases s <;> first | rfl | exact absurd rfl hs
    have hn' : t' ≠ .never := by
      rintro rfl
      cases hr with
      | nothing h => cases h
      | wrapped _ _ _ h => cases h
    have hn : t ≠ .never := by
      rintro rfl
      cases hr with
      | nothing h => exact hn' rfl
      | wrapped _ h => cases h
    rw [key hn'] at h
    simp only [bind, Except.bind] at h
    split at h
    · cases h
    rename_i rt' h1
    cases h
    obtain ⟨rt, h2, h3⟩ := writtenOut_ok hr h1 (by rintro ty rfl; exact hc)
    exact ⟨orVoid rt, by rw [key hn]; simp only [h2, bind, Except.bind], h3.toVoid⟩
end

end

end Cbindgen
