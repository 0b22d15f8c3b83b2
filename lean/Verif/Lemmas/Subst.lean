import Verif.Model.TyOps
import Verif.Spec.Subst

/-!
# Substitution in types
-/

namespace Cbindgen

open SubstSpec

/-- The names of the parameters. -/
abbrev paramNames (m : List (Str × GArg)) : List Str := m.map Prod.fst

theorem lookup_none {m : List (Str × GArg)} {n : Str} : m.lookup n = none ↔ n ∉ paramNames m := by
  induction m with
  | nil => simp
  | cons p ps ih =>
    obtain ⟨q, g⟩ := p
    by_cases h : n = q
    · simp [List.lookup, h]
    · have : (n == q) = false := by simpa using h
      simp only [List.lookup, this, ih, paramNames, List.map_cons, List.mem_cons, not_or]
      simp [h]

theorem firstType_eq {m : List (Str × GArg)} (hd : (paramNames m).Nodup) (n : Str) :
    firstType m n = match m.lookup n with
      | some (.type t) => some t
      | _ => none := by
  induction m with
  | nil => simp [firstType]
  | cons p ps ih =>
    obtain ⟨q, g⟩ := p
    simp only [paramNames, List.map_cons, List.nodup_cons] at hd
    by_cases h : n = q
    · subst h
      cases g with
      | type t => simp [firstType, List.lookup]
      | const c =>
        have h2 := lookup_none.mpr hd.1
        simp [firstType, List.lookup, ih hd.2, h2]
    · have h' : (n == q) = false := by simpa using h
      cases g <;> simp [firstType, List.lookup, h, h', ih hd.2]

/-- A generic argument where a constant is expected. -/
def GArg.asConst : GArg → Option CExpr
  | .type t => t.singleIdent.map fun p => .path p.1 p.2
  | .const c => some c

theorem firstConst_eq {m : List (Str × GArg)} (hd : (paramNames m).Nodup) (n : Str) :
    firstConst m n = (m.lookup n).bind GArg.asConst := by
  induction m with
  | nil => simp [firstConst]
  | cons p ps ih =>
    obtain ⟨q, g⟩ := p
    simp only [paramNames, List.map_cons, List.nodup_cons] at hd
    by_cases h : n = q
    · subst h
      have h2 := lookup_none.mpr hd.1
      cases g with
      | type t =>
        cases hs : t.singleIdent <;> simp [firstConst, List.lookup, hs, GArg.asConst, ih hd.2, h2]
      | const c => simp [firstConst, List.lookup, GArg.asConst]
    · have h' : (n == q) = false := by simpa using h
      have h'' : ¬ q = n := fun e => h e.symm
      cases g <;> simp [firstConst, List.lookup, h', h'', ih hd.2]

section
variable {D K : Type} (A : Domain D K)

theorem typeArg_noParams (t : Ty) (d : D) : typeArg (noParams : Env D K) t d = .inl d := by
  cases t <;> simp [typeArg, argNamed, noParams]

theorem evalConst_specialize {m : List (Str × GArg)} (hd : (paramNames m).Nodup) (l : CExpr) :
    evalConst A noParams (l.specialize m) = evalConst A (values A m) l := by
  cases l with
  | value s => rfl
  | path n e =>
    have h0 : CExpr.specialize m (.path n e) = (firstConst m n).getD (.path n e) := rfl
    rw [h0, firstConst_eq hd]
    cases hl : m.lookup n with
    | none => simp [evalConst, constNamed, values, hl, noParams]
    | some g =>
      cases g with
      | const c => simp [GArg.asConst, evalConst, constNamed, values, hl, argValue]
      | type t =>
        cases t with
        | path m' e' gs k =>
          cases gs <;>
            simp [GArg.asConst, Ty.singleIdent, evalConst, constNamed, values, hl, argValue, noParams]
        | _ =>
          simp [GArg.asConst, Ty.singleIdent, evalConst, constNamed, values, hl, argValue, noParams]

theorem eval_specializePath {m : List (Str × GArg)} (hd : (paramNames m).Nodup) (n : Str)
    (gs : List GArg) (xs : List (D ⊕ K)) (h : evalArgs A noParams gs = xs) :
    eval A noParams (specializePath m n gs) = typeNamed A (values A m) n xs := by
  have h0 : specializePath m n gs = match firstType m n with
      | some t => t
      | none => Ty.newPath n gs := rfl
  rw [h0, firstType_eq hd]
  cases hl : m.lookup n with
  | none => simp [Ty.newPath, eval, typeNamed, noParams, values, hl, h]
  | some g =>
    cases g with
    | type t => simp [typeNamed, values, hl, argValue]
    | const c => simp [Ty.newPath, eval, typeNamed, noParams, values, hl, argValue, h]

theorem evalArg_type (t : Ty) : evalArg A noParams (.type t) = .inl (eval A noParams t) := by
  simp only [evalArg, typeArg_noParams]

/-- `GenericArgument::specialize` for a type, given that `Type::specialize` is right. -/
theorem evalArg_specializeTypeArg (m : List (Str × GArg)) (t : Ty)
    (h : eval A noParams (t.specialize m) = eval A (values A m) t) :
    evalArg A noParams (specializeTypeArg m t (t.specialize m)) =
      typeArg (values A m) t (eval A (values A m) t) := by
  have h1 : ∀ u, specializeTypeArg m t (t.specialize m) = .type u →
      u = t.specialize m → evalArg A noParams (specializeTypeArg m t (t.specialize m)) =
        .inl (eval A (values A m) t) := by
    intro u hu e
    rw [hu, evalArg_type, e, h]
  cases t with
  | path n e gs k =>
    cases gs with
    | nil =>
      cases hl : m.lookup n with
      | none =>
        rw [h1 _ (by simp only [specializeTypeArg, Ty.singleIdent, hl]) rfl]
        simp [typeArg, argNamed, values, hl]
      | some g =>
        have h2 : specializeTypeArg m (.path n e [] k) (Ty.specialize m (.path n e [] k)) = g := by
          simp only [specializeTypeArg, Ty.singleIdent, hl]
        rw [h2]
        cases g with
        | type u => rw [evalArg_type]; simp [typeArg, argNamed, values, argValue, hl]
        | const c => simp [evalArg, typeArg, argNamed, values, argValue, hl]
    | cons g gs =>
      rw [h1 _ (by simp only [specializeTypeArg, Ty.singleIdent]) rfl]
      simp [typeArg, argNamed]
  | _ => rw [h1 _ (by simp only [specializeTypeArg, Ty.singleIdent]) rfl]; simp only [typeArg]

theorem evalConst_notParam {m : List (Str × GArg)} {n e : Str} (h : n ∉ paramNames m) :
    evalConst A noParams (.path n e) = evalConst A (values A m) (.path n e) := by
  simp [evalConst, constNamed, values, lookup_none.mpr h, noParams]

mutual
theorem eval_specialize {m : List (Str × GArg)} (hd : (paramNames m).Nodup) :
    ∀ t, Loaded (paramNames m) t → eval A noParams (t.specialize m) = eval A (values A m) t
  | .ptr t c n r, h => by simp only [Ty.specialize, eval]; rw [eval_specialize hd t h]
  | .path n e gs k, h => by
    simp only [Ty.specialize, eval]
    exact eval_specializePath A hd n _ _ (evalArgs_specialize hd gs h.2)
  | .prim p, _ => by simp only [Ty.specialize, eval]
  | .array t l, h => by
    simp only [Ty.specialize, eval]; rw [eval_specialize hd t h, evalConst_specialize A hd]
  | .fnptr r as n nr, h => by
    simp only [Ty.specialize, eval]
    rw [eval_specialize hd r h.1, evalParams_specialize hd as h.2]
theorem evalArg_specialize {m : List (Str × GArg)} (hd : (paramNames m).Nodup) :
    ∀ g, LoadedArg (paramNames m) g → evalArg A noParams (g.specialize m) = evalArg A (values A m) g
  | .type t, h => by
    simp only [GArg.specialize]
    rw [evalArg_specializeTypeArg A m t (eval_specialize hd t h)]
    simp only [evalArg]
  | .const (.path n e), h => by
    simp only [GArg.specialize, evalArg]; rw [evalConst_notParam A h]
  | .const (.value s), _ => by simp only [GArg.specialize, evalArg, evalConst]
theorem evalArgs_specialize {m : List (Str × GArg)} (hd : (paramNames m).Nodup) :
    ∀ gs, LoadedArgs (paramNames m) gs →
      evalArgs A noParams (GArg.specializeList m gs) = evalArgs A (values A m) gs
  | [], _ => by simp only [GArg.specializeList, evalArgs]
  | g :: gs, h => by
    simp only [GArg.specializeList, evalArgs]
    rw [evalArg_specialize hd g h.1, evalArgs_specialize hd gs h.2]
theorem evalParams_specialize {m : List (Str × GArg)} (hd : (paramNames m).Nodup) :
    ∀ as, LoadedFArgs (paramNames m) as →
      evalParams A noParams (FArg.specializeList m as) = evalParams A (values A m) as
  | [], _ => by simp only [FArg.specializeList, evalParams]
  | .mk n t :: as, h => by
    simp only [FArg.specializeList, FArg.specialize, evalParams]
    rw [eval_specialize hd t h.1, evalParams_specialize hd as h.2]
end

end

/-! ## Nothing to substitute -/

theorem CExpr.specialize_notParam {m : List (Str × GArg)} (hd : (paramNames m).Nodup) (n e : Str)
    (h : n ∉ paramNames m) : (CExpr.path n e).specialize m = .path n e := by
  have h0 : CExpr.specialize m (.path n e) = (firstConst m n).getD (.path n e) := rfl
  rw [h0, firstConst_eq hd, lookup_none.mpr h]; rfl

theorem specializePath_notParam {m : List (Str × GArg)} (hd : (paramNames m).Nodup) (n : Str)
    (gs : List GArg) (h : n ∉ paramNames m) : specializePath m n gs = Ty.newPath n gs := by
  simp only [specializePath, firstType_eq hd, lookup_none.mpr h]

theorem specializeTypeArg_notParam {m : List (Str × GArg)} (t u : Ty)
    (h : ∀ n, Occurs t n → n ∉ paramNames m) : specializeTypeArg m t u = .type u := by
  simp only [specializeTypeArg]
  split
  · rename_i n e hs
    cases t with
    | path a b gs k =>
      cases gs with
      | nil =>
        simp only [Ty.singleIdent, Option.some.injEq, Prod.mk.injEq] at hs
        obtain ⟨rfl, rfl⟩ := hs
        rw [lookup_none.mpr (h _ (.here _ _ _ _))]
      | cons g gs => simp [Ty.singleIdent] at hs
    | _ => simp [Ty.singleIdent] at hs
  · rfl

mutual
theorem Ty.specialize_id {m : List (Str × GArg)} (hd : (paramNames m).Nodup) :
    ∀ t, Fresh t → (∀ n, Occurs t n → n ∉ paramNames m) → t.specialize m = t
  | .ptr t c n r, hf, h => by
    simp only [Ty.specialize]; rw [Ty.specialize_id hd t hf fun n hn => h n (.ptr hn)]
  | .path n e gs k, hf, h => by
    simp only [Ty.specialize]
    rw [specializePath_notParam hd n _ (h n (.here _ _ _ _)),
      GArg.specializeList_id hd gs hf.2.2 (fun t ht x hx => h x (.generic ht hx))]
    simp [Ty.newPath, hf.1, hf.2.1]
  | .prim p, _, _ => by simp only [Ty.specialize]
  | .array t l, hf, h => by
    simp only [Ty.specialize]
    rw [Ty.specialize_id hd t hf fun n hn => h n (.array hn)]
    cases l with
    | value s => rfl
    | path n e => rw [CExpr.specialize_notParam hd n e (h n .len)]
  | .fnptr r as n nr, hf, h => by
    simp only [Ty.specialize]
    rw [Ty.specialize_id hd r hf.1 fun n hn => h n (.ret hn),
      FArg.specializeList_id hd as hf.2 fun a t ht x hx => h x (.arg ht hx)]
theorem GArg.specialize_id {m : List (Str × GArg)} (hd : (paramNames m).Nodup) :
    ∀ g, FreshArg g → (∀ t, g = .type t → ∀ n, Occurs t n → n ∉ paramNames m) → g.specialize m = g
  | .type t, hf, h => by
    simp only [GArg.specialize]
    rw [specializeTypeArg_notParam t _ (h t rfl), Ty.specialize_id hd t hf (h t rfl)]
  | .const c, _, _ => by simp only [GArg.specialize]
theorem GArg.specializeList_id {m : List (Str × GArg)} (hd : (paramNames m).Nodup) :
    ∀ gs, FreshArgs gs → (∀ t, GArg.type t ∈ gs → ∀ n, Occurs t n → n ∉ paramNames m) →
      GArg.specializeList m gs = gs
  | [], _, _ => by simp only [GArg.specializeList]
  | g :: gs, hf, h => by
    simp only [GArg.specializeList]
    rw [GArg.specialize_id hd g hf.1 (fun t ht => h t (by simp [ht])),
      GArg.specializeList_id hd gs hf.2 fun t ht => h t (by simp [ht])]
theorem FArg.specializeList_id {m : List (Str × GArg)} (hd : (paramNames m).Nodup) :
    ∀ as, FreshFArgs as → (∀ a t, FArg.mk a t ∈ as → ∀ n, Occurs t n → n ∉ paramNames m) →
      FArg.specializeList m as = as
  | [], _, _ => by simp only [FArg.specializeList]
  | .mk a t :: as, hf, h => by
    simp only [FArg.specializeList, FArg.specialize]
    rw [Ty.specialize_id hd t hf.1 (h a t (by simp)),
      FArg.specializeList_id hd as hf.2 fun a t ht => h a t (by simp [ht])]
end

/-! ## The names of an instance -/

/-- Where a name of an instance comes from: it is a name of the generic type and not a parameter, or
it is in the argument of a parameter that is used. -/
def Origin (occ : Str → Prop) (m : List (Str × GArg)) (n : Str) : Prop :=
  (occ n ∧ n ∉ paramNames m) ∨ ∃ p g, occ p ∧ m.lookup p = some g ∧ ArgOccurs g n

theorem Origin.imp {o o' : Str → Prop} {m : List (Str × GArg)} {n : Str} (h : ∀ x, o x → o' x) :
    Origin o m n → Origin o' m n
  | .inl ⟨a, b⟩ => .inl ⟨h _ a, b⟩
  | .inr ⟨p, g, a, b, c⟩ => .inr ⟨p, g, h _ a, b, c⟩

theorem lookup_mem {m : List (Str × GArg)} {p : Str} {g : GArg} (h : m.lookup p = some g) :
    (p, g) ∈ m := by
  induction m with
  | nil => simp at h
  | cons x xs ih =>
    obtain ⟨q, y⟩ := x
    by_cases hq : p = q
    · subst hq; simp [List.lookup] at h; simp [h]
    · have : (p == q) = false := by simpa using hq
      simp only [List.lookup, this] at h
      exact List.mem_cons_of_mem _ (ih h)

/-- A length after substitution. -/
theorem CExpr.specialize_origin {m : List (Str × GArg)} (hd : (paramNames m).Nodup) {n e x y : Str}
    (hl : ∀ g, m.lookup n = some g → CanBeLen g)
    (h : (CExpr.path n e).specialize m = .path x y) : Origin (· = n) m x := by
  have h0 : CExpr.specialize m (.path n e) = (firstConst m n).getD (.path n e) := rfl
  rw [h0, firstConst_eq hd] at h
  cases hg : m.lookup n with
  | none =>
    rw [hg] at h
    simp at h
    exact .inl ⟨h.1.symm, h.1 ▸ lookup_none.mp hg⟩
  | some g =>
    rw [hg] at h
    have hc := hl g hg
    refine .inr ⟨n, g, rfl, hg, ?_⟩
    cases g with
    | const c =>
      simp [GArg.asConst] at h
      subst h; exact .const _ _
    | type t =>
      cases t with
      | path a b gs k =>
        cases gs with
        | nil =>
          simp [GArg.asConst, Ty.singleIdent] at h
          obtain ⟨rfl, rfl⟩ := h
          exact .type (.here _ _ _ _)
        | cons g gs => simp [CanBeLen] at hc
      | _ => simp [CanBeLen] at hc

theorem specializePath_origin {m : List (Str × GArg)} (hd : (paramNames m).Nodup)
    (ha : AllTypes m) {n x : Str} {gs : List GArg}
    (h : Occurs (specializePath m n gs) x) :
    Origin (· = n) m x ∨ ∃ g ∈ gs, ArgOccurs g x := by
  simp only [specializePath, firstType_eq hd] at h
  cases hg : m.lookup n with
  | none =>
    rw [hg] at h
    simp only [Ty.newPath] at h
    cases h with
    | here => exact .inl (.inl ⟨rfl, lookup_none.mp hg⟩)
    | generic h1 h2 => exact .inr ⟨_, h1, .type h2⟩
    | constant h1 => exact .inr ⟨_, h1, .const _ _⟩
  | some g =>
    obtain ⟨t, ht⟩ := ha _ (lookup_mem hg)
    simp only at ht
    subst ht
    rw [hg] at h
    exact .inl (.inr ⟨n, _, rfl, hg, .type h⟩)

theorem specializeTypeArg_origin {m : List (Str × GArg)} {t u : Ty} {x : Str}
    (h : ArgOccurs (specializeTypeArg m t u) x) (hu : Occurs u x → Origin (Occurs t) m x) :
    Origin (Occurs t) m x := by
  have h1 : ∀ v, v = GArg.type u → ArgOccurs v x → Origin (Occurs t) m x := by
    intro v hv hx
    subst hv
    cases hx with
    | type hx => exact hu hx
  cases t with
  | path n e gs k =>
    cases gs with
    | nil =>
      cases hl : m.lookup n with
      | none => exact h1 _ (by simp only [specializeTypeArg, Ty.singleIdent, hl]) h
      | some g =>
        have h2 : specializeTypeArg m (.path n e [] k) u = g := by
          simp only [specializeTypeArg, Ty.singleIdent, hl]
        rw [h2] at h
        exact .inr ⟨n, g, .here _ _ _ _, hl, h⟩
    | cons g gs => exact h1 _ (by simp only [specializeTypeArg, Ty.singleIdent]) h
  | _ => exact h1 _ (by simp only [specializeTypeArg, Ty.singleIdent]) h

/-- The parameters used as array lengths have arguments that can be lengths. -/
def LensFit (m : List (Str × GArg)) (t : Ty) : Prop :=
  ∀ n, LenOccurs t n → ∀ g, m.lookup n = some g → CanBeLen g

mutual
theorem Ty.specialize_origin {m : List (Str × GArg)} (hd : (paramNames m).Nodup) (ha : AllTypes m) :
    ∀ t, Loaded (paramNames m) t → LensFit m t → ∀ x, Occurs (t.specialize m) x →
      Origin (Occurs t) m x
  | .ptr t c n r, hl, hf, x, h => by
    simp only [Ty.specialize] at h
    cases h with
    | ptr h =>
      exact (Ty.specialize_origin hd ha t hl (fun n hn => hf n (.ptr hn)) x h).imp fun _ => .ptr
  | .path n e gs k, hl, hf, x, h => by
    simp only [Ty.specialize] at h
    rcases specializePath_origin hd ha h with h | ⟨g, hg, hx⟩
    · exact h.imp fun y hy => by subst hy; exact .here _ _ _ _
    · obtain ⟨g', hg', ho⟩ := GArg.specializeList_origin hd ha gs hl.2
        (fun t ht n hn => hf n (.generic ht hn)) x g hg hx
      refine ho.imp fun y hy => ?_
      cases hy with
      | type hy => exact .generic hg' hy
      | const => exact .constant hg'
  | .prim p, _, _, x, h => by
    simp only [Ty.specialize] at h; cases h
  | .array t l, hl, hf, x, h => by
    simp only [Ty.specialize] at h
    generalize hc : CExpr.specialize m l = l' at h
    cases h with
    | array h =>
      exact (Ty.specialize_origin hd ha t hl (fun n hn => hf n (.array hn)) x h).imp fun _ => .array
    | len =>
      cases l with
      | value s => simp [CExpr.specialize] at hc
      | path a b =>
        exact (CExpr.specialize_origin hd (hf a .here) hc).imp fun y hy => by subst hy; exact .len
  | .fnptr r as n nr, hl, hf, x, h => by
    simp only [Ty.specialize] at h
    cases h with
    | ret h =>
      exact (Ty.specialize_origin hd ha r hl.1 (fun n hn => hf n (.ret hn)) x h).imp fun _ => .ret
    | arg h1 h2 =>
      obtain ⟨b, u, hu, ho⟩ := FArg.specializeList_origin hd ha as hl.2
        (fun a t ht n hn => hf n (.arg ht hn)) x _ _ h1 h2
      exact ho.imp fun y hy => .arg hu hy
theorem GArg.specialize_origin {m : List (Str × GArg)} (hd : (paramNames m).Nodup)
    (ha : AllTypes m) :
    ∀ g, LoadedArg (paramNames m) g → (∀ t, g = .type t → LensFit m t) → ∀ x,
      ArgOccurs (g.specialize m) x → Origin (ArgOccurs g) m x
  | .type t, hl, hf, x, h => by
    simp only [GArg.specialize] at h
    exact (specializeTypeArg_origin h (Ty.specialize_origin hd ha t hl (hf t rfl) x)).imp
      fun _ => .type
  | .const (.path n e), hl, _, x, h => by
    simp only [GArg.specialize] at h
    cases h
    exact .inl ⟨.const _ _, hl⟩
  | .const (.value s), _, _, x, h => by
    simp only [GArg.specialize] at h; cases h
theorem GArg.specializeList_origin {m : List (Str × GArg)} (hd : (paramNames m).Nodup)
    (ha : AllTypes m) :
    ∀ gs, LoadedArgs (paramNames m) gs → (∀ t, GArg.type t ∈ gs → LensFit m t) →
      ∀ x, ∀ g ∈ GArg.specializeList m gs, ArgOccurs g x →
        ∃ g' ∈ gs, Origin (ArgOccurs g') m x
  | [], _, _, x, g, hg, _ => by simp [GArg.specializeList] at hg
  | g0 :: gs, hl, hf, x, g, hg, h => by
    simp only [GArg.specializeList, List.mem_cons] at hg
    rcases hg with rfl | hg
    · exact ⟨g0, by simp, GArg.specialize_origin hd ha g0 hl.1
        (fun t ht => hf t (by simp [ht])) x h⟩
    · obtain ⟨g', h1, h2⟩ := GArg.specializeList_origin hd ha gs hl.2
        (fun t ht => hf t (by simp [ht])) x g hg h
      exact ⟨g', by simp [h1], h2⟩
theorem FArg.specializeList_origin {m : List (Str × GArg)} (hd : (paramNames m).Nodup)
    (ha : AllTypes m) :
    ∀ as, LoadedFArgs (paramNames m) as → (∀ a t, FArg.mk a t ∈ as → LensFit m t) →
      ∀ x a t, FArg.mk a t ∈ FArg.specializeList m as → Occurs t x →
        ∃ a' t', FArg.mk a' t' ∈ as ∧ Origin (Occurs t') m x
  | [], _, _, x, a, t, hg, _ => by simp [FArg.specializeList] at hg
  | .mk a0 t0 :: as, hl, hf, x, a, t, hg, h => by
    simp only [FArg.specializeList, FArg.specialize, List.mem_cons, FArg.mk.injEq] at hg
    rcases hg with ⟨rfl, rfl⟩ | hg
    · exact ⟨a, t0, by simp, Ty.specialize_origin hd ha t0 hl.1 (hf a t0 (by simp)) x h⟩
    · obtain ⟨a', t', h1, h2⟩ := FArg.specializeList_origin hd ha as hl.2
        (fun a t ht => hf a t (by simp [ht])) x a t hg h
      exact ⟨a', t', by simp [h1], h2⟩
end

end Cbindgen
