import Verif.Lemmas.MonoOnce
import Verif.Lemmas.Shape
import Verif.Props.Monomorphs
import Verif.Props.Generics

/-!
# Finitely many uses
-/

namespace Cbindgen

open RefSpec MonoSpec SubstSpec

/-! ## Uses after substitution -/

theorem uses_specialize {m : List (Str × GArg)} {n : Str} {gs' : List GArg} {t' : Ty}
    (h : Uses t' n gs') : ∀ t : Ty, t' = t.specialize m →
      (∃ gs, Uses t n gs ∧ gs' = GArg.specializeList m gs) ∨
        ∃ p u, firstType m p = some u ∧ Uses u n gs' := by
  have hpath : ∀ {t' : Ty}, Uses t' n gs' → ∀ (q e : Str) (gs : List GArg) (k : Option DeclKind),
      t' = (Ty.path q e gs k).specialize m → (∃ gs0, Uses (Ty.path q e gs k) n gs0 ∧
        gs' = GArg.specializeList m gs0) ∨ ∃ p u, firstType m p = some u ∧ Uses u n gs' := by
    intro t' h q e gs k ht
    simp only [Ty.specialize, specializePath] at ht
    cases hf : firstType m q with
    | some u =>
      simp only [hf] at ht
      subst ht
      exact .inr ⟨q, _, hf, h⟩
    | none =>
      simp only [hf, Ty.newPath] at ht
      subst ht
      cases h with
      | here hne =>
        refine .inl ⟨gs, .here ?_, rfl⟩
        intro e
        exact hne (by rw [e]; simp only [GArg.specializeList])
  induction h with
  | here hne =>
    intro t ht
    cases t with
    | path q e gs k => exact hpath (.here hne) q e gs k ht
    | _ => simp [Ty.specialize] at ht
  | ptr hu ih =>
    intro t ht
    cases t with
    | path q e gs k => exact hpath (.ptr hu) q e gs k ht
    | ptr t _ _ _ =>
      simp only [Ty.specialize, Ty.ptr.injEq] at ht
      rcases ih hpath t ht.1 with ⟨gs, h1, h2⟩ | h
      · exact .inl ⟨gs, .ptr h1, h2⟩
      · exact .inr h
    | _ => simp [Ty.specialize] at ht
  | array hu ih =>
    intro t ht
    cases t with
    | path q e gs k => exact hpath (.array hu) q e gs k ht
    | array t _ =>
      simp only [Ty.specialize, Ty.array.injEq] at ht
      rcases ih hpath t ht.1 with ⟨gs, h1, h2⟩ | h
      · exact .inl ⟨gs, .array h1, h2⟩
      · exact .inr h
    | _ => simp [Ty.specialize] at ht
  | ret hu ih =>
    intro t ht
    cases t with
    | path q e gs k => exact hpath (.ret hu) q e gs k ht
    | fnptr t _ _ _ =>
      simp only [Ty.specialize, Ty.fnptr.injEq] at ht
      rcases ih hpath t ht.1 with ⟨gs, h1, h2⟩ | h
      · exact .inl ⟨gs, .ret h1, h2⟩
      · exact .inr h
    | _ => simp [Ty.specialize] at ht
  | arg ha hu ih =>
    intro t ht
    cases t with
    | path q e gs k => exact hpath (.arg ha hu) q e gs k ht
    | fnptr r as _ _ =>
      simp only [Ty.specialize, Ty.fnptr.injEq] at ht
      rw [ht.2.1] at ha
      have hl : FArg.specializeList m as = as.map (FArg.specialize m) := by
        clear ht ha
        induction as with
        | nil => simp [FArg.specializeList]
        | cons a as ih => simp [FArg.specializeList, ih]
      rw [hl] at ha
      obtain ⟨⟨a, t⟩, ha, e⟩ := List.mem_map.1 ha
      simp only [FArg.specialize, FArg.mk.injEq] at e
      rcases ih hpath t e.2.symm with ⟨gs, h1, h2⟩ | h
      · exact .inl ⟨gs, .arg ha h1, h2⟩
      · exact .inr h
    | _ => simp [Ty.specialize] at ht

theorem firstType_mem {m : List (Str × GArg)} {p : Str} {u : Ty} (h : firstType m p = some u) :
    (p, GArg.type u) ∈ m := by
  induction m with
  | nil => simp [firstType] at h
  | cons x xs ih =>
    obtain ⟨q, g⟩ := x
    cases g with
    | const c => simp only [firstType] at h; simp [ih h]
    | type t =>
      simp only [firstType] at h
      split at h
      · rename_i e
        simp only [Option.some.injEq] at h
        subst e; subst h; simp
      · simp [ih h]

/-! ## All generic types that occur, at any depth -/

mutual
def Ty.allUses : Ty → List (Str × List GArg)
  | .ptr t _ _ _ => t.allUses
  | .path n _ gs _ => (n, gs) :: GArg.allUsesList gs
  | .prim _ => []
  | .array t _ => t.allUses
  | .fnptr r as _ _ => r.allUses ++ FArg.allUsesList as
def GArg.allUses : GArg → List (Str × List GArg)
  | .type t => t.allUses
  | .const _ => []
def FArg.allUses : FArg → List (Str × List GArg)
  | .mk _ t => t.allUses
def GArg.allUsesList : List GArg → List (Str × List GArg)
  | [] => []
  | g :: gs => g.allUses ++ GArg.allUsesList gs
def FArg.allUsesList : List FArg → List (Str × List GArg)
  | [] => []
  | a :: as => a.allUses ++ FArg.allUsesList as
end

theorem GArg.allUsesList_eq (gs : List GArg) : GArg.allUsesList gs = gs.flatMap GArg.allUses := by
  induction gs with
  | nil => simp [GArg.allUsesList]
  | cons g gs ih => simp [GArg.allUsesList, ih]

theorem FArg.allUsesList_eq (as : List FArg) : FArg.allUsesList as = as.flatMap FArg.allUses := by
  induction as with
  | nil => simp [FArg.allUsesList]
  | cons a as ih => simp [FArg.allUsesList, ih]

theorem uses_allUses {t : Ty} {n : Str} {gs : List GArg} (h : Uses t n gs) : (n, gs) ∈ t.allUses := by
  induction h with
  | here _ => simp [Ty.allUses]
  | ptr _ ih => simpa [Ty.allUses] using ih
  | array _ ih => simpa [Ty.allUses] using ih
  | ret _ ih => simp [Ty.allUses, ih]
  | arg ha _ ih =>
    simp only [Ty.allUses, List.mem_append, FArg.allUsesList_eq, List.mem_flatMap]
    exact .inr ⟨_, ha, by simpa [FArg.allUses] using ih⟩

mutual
theorem allUses_trans {n : Str} {gs : List GArg} {g : GArg} (hg : g ∈ gs) :
    ∀ t : Ty, (n, gs) ∈ t.allUses → ∀ q ∈ g.allUses, q ∈ t.allUses
  | .ptr t _ _ _, h => by simp only [Ty.allUses] at h ⊢; exact allUses_trans hg t h
  | .path p e ps k, h => by
    intro q hq
    simp only [Ty.allUses, List.mem_cons] at h ⊢
    rcases h with h | h
    · simp only [Prod.mk.injEq] at h
      obtain ⟨_, rfl⟩ := h
      rw [GArg.allUsesList_eq, List.mem_flatMap]
      exact .inr ⟨g, hg, hq⟩
    · exact .inr (allUses_transList hg ps h q hq)
  | .prim _, h => by simp [Ty.allUses] at h
  | .array t _, h => by simp only [Ty.allUses] at h ⊢; exact allUses_trans hg t h
  | .fnptr r as _ _, h => by
    intro q hq
    simp only [Ty.allUses, List.mem_append] at h ⊢
    rcases h with h | h
    · exact .inl (allUses_trans hg r h q hq)
    · exact .inr (allUses_transFArgs hg as h q hq)
theorem allUses_transArg {n : Str} {gs : List GArg} {g : GArg} (hg : g ∈ gs) :
    ∀ a : GArg, (n, gs) ∈ a.allUses → ∀ q ∈ g.allUses, q ∈ a.allUses
  | .type t, h => by simp only [GArg.allUses] at h ⊢; exact allUses_trans hg t h
  | .const _, h => by simp [GArg.allUses] at h
theorem allUses_transList {n : Str} {gs : List GArg} {g : GArg} (hg : g ∈ gs) :
    ∀ as : List GArg, (n, gs) ∈ GArg.allUsesList as → ∀ q ∈ g.allUses, q ∈ GArg.allUsesList as
  | [], h => by simp [GArg.allUsesList] at h
  | a :: as, h => by
    intro q hq
    simp only [GArg.allUsesList, List.mem_append] at h ⊢
    rcases h with h | h
    · exact .inl (allUses_transArg hg a h q hq)
    · exact .inr (allUses_transList hg as h q hq)
theorem allUses_transFArgs {n : Str} {gs : List GArg} {g : GArg} (hg : g ∈ gs) :
    ∀ as : List FArg, (n, gs) ∈ FArg.allUsesList as → ∀ q ∈ g.allUses, q ∈ FArg.allUsesList as
  | [], h => by simp [FArg.allUsesList] at h
  | .mk a t :: as, h => by
    intro q hq
    simp only [FArg.allUsesList, FArg.allUses, List.mem_append] at h ⊢
    rcases h with h | h
    · exact .inl (allUses_trans hg t h q hq)
    · exact .inr (allUses_transFArgs hg as h q hq)
end

/-- All lists of a given length. -/
def tuples {α : Type} (xs : List α) : Nat → List (List α)
  | 0 => [[]]
  | k + 1 => xs.flatMap fun x => (tuples xs k).map (x :: ·)

theorem mem_tuples {α : Type} {xs : List α} : ∀ {ys : List α}, (∀ y ∈ ys, y ∈ xs) →
    ys ∈ tuples xs ys.length
  | [], _ => by simp [tuples]
  | y :: ys, h => by
    simp only [List.length_cons, tuples, List.mem_flatMap, List.mem_map]
    exact ⟨y, h y (by simp), ys, mem_tuples fun z hz => h z (by simp [hz]), rfl⟩

theorem of_mem_tuples {α : Type} {xs : List α} : ∀ {k : Nat} {ys : List α}, ys ∈ tuples xs k →
    ys.length = k ∧ ∀ y ∈ ys, y ∈ xs
  | 0, ys, h => by simp [tuples] at h; subst h; simp
  | k + 1, ys, h => by
    simp only [tuples, List.mem_flatMap, List.mem_map] at h
    obtain ⟨x, hx, zs, hzs, rfl⟩ := h
    obtain ⟨h1, h2⟩ := of_mem_tuples hzs
    refine ⟨by simp [h1], ?_⟩
    intro y hy
    rcases List.mem_cons.1 hy with rfl | hy
    · exact hx
    · exact h2 y hy

/-! ## The uses of a library -/

/-- The types of an item without data of variants. -/
def Container.tys : Container → List Ty
  | .struct x => x.fields.map (·.ty)
  | .union x => x.fields.map (·.ty)
  | .typedef x => [x.aliased]
  | .opaque _ => []
  | .enum _ => []

/-- The declared defaults of the parameters. -/
def Container.defaults (x : Container) : List GArg := x.params.filterMap (·.default)

/-- All generic types in the uses to follow, in the known definitions and in the defaults. -/
def usesOf (us : List GUse) (xs : List Container) : List (Str × List GArg) :=
  us.flatMap (fun u => (u.1, u.2.2.1) :: GArg.allUsesList u.2.2.1) ++
    (xs.flatMap fun x => x.tys.flatMap Ty.allUses ++ x.defaults.flatMap GArg.allUses)

/-- All the arguments in them, and the defaults. -/
def argsOf (us : List GUse) (xs : List Container) : List GArg :=
  (usesOf us xs).flatMap Prod.snd ++ xs.flatMap Container.defaults

/-- All combinations. -/
def finiteUses (us : List GUse) (xs : List Container) : List Ty :=
  (usesOf us xs).flatMap fun p =>
    if p.2.isEmpty then [] else (tuples (argsOf us xs) p.2.length).map (Ty.newPath p.1)

theorem mem_finiteUses {us : List GUse} {xs : List Container} {n : Str} {gs gs0 : List GArg}
    (h0 : (n, gs0) ∈ usesOf us xs) (hl : gs.length = gs0.length) (hne : gs ≠ [])
    (hg : ∀ g ∈ gs, g ∈ argsOf us xs) : Ty.newPath n gs ∈ finiteUses us xs := by
  unfold finiteUses
  rw [List.mem_flatMap]
  refine ⟨_, h0, ?_⟩
  have : gs0.isEmpty = false := by
    cases gs0 with
    | nil => simp at hl; exact absurd hl hne
    | cons _ _ => rfl
  simp only [this, Bool.false_eq_true, if_false]
  rw [List.mem_map]
  exact ⟨gs, by rw [← hl]; exact mem_tuples hg, rfl⟩

theorem of_mem_finiteUses {us : List GUse} {xs : List Container} {u : GUse}
    (h : u.ty ∈ finiteUses us xs) : u.2.2.1 ≠ [] ∧ ∀ g ∈ u.2.2.1, g ∈ argsOf us xs := by
  unfold finiteUses at h
  rw [List.mem_flatMap] at h
  obtain ⟨⟨n, gs0⟩, _, h⟩ := h
  split at h
  · simp at h
  · rename_i hne
    rw [List.mem_map] at h
    obtain ⟨gs, hgs, e⟩ := h
    obtain ⟨n', e', gs', k'⟩ := u
    simp only [Ty.newPath, GUse.ty, Ty.path.injEq] at e
    obtain ⟨_, _, rfl, _⟩ := e
    obtain ⟨h1, h2⟩ := of_mem_tuples hgs
    refine ⟨?_, h2⟩
    rintro rfl
    simp at h1 hne
    exact hne (List.length_eq_zero_iff.1 h1.symm)

theorem usesOf_trans {us : List GUse} {xs : List Container} {n : Str} {gs : List GArg} {g : GArg}
    (h : (n, gs) ∈ usesOf us xs) (hg : g ∈ gs) : ∀ q ∈ g.allUses, q ∈ usesOf us xs := by
  intro q hq
  unfold usesOf at h ⊢
  simp only [List.mem_append, List.mem_flatMap] at h ⊢
  rcases h with ⟨u, hu, h⟩ | ⟨x, hx, ⟨t, ht, h⟩ | ⟨d, hd, h⟩⟩
  · refine .inl ⟨u, hu, ?_⟩
    rcases List.mem_cons.1 h with h | h
    · simp only [Prod.mk.injEq] at h
      obtain ⟨_, rfl⟩ := h
      refine List.mem_cons_of_mem _ ?_
      rw [GArg.allUsesList_eq, List.mem_flatMap]
      exact ⟨g, hg, hq⟩
    · exact List.mem_cons_of_mem _ (allUses_transList hg _ h q hq)
  · exact .inr ⟨x, hx, .inl ⟨t, ht, allUses_trans hg t h q hq⟩⟩
  · exact .inr ⟨x, hx, .inr ⟨d, hd, allUses_transArg hg d h q hq⟩⟩

/-- What occurs in an argument is among the uses. -/
theorem argsOf_trans {us : List GUse} {xs : List Container} {g : GArg} (h : g ∈ argsOf us xs) :
    ∀ q ∈ g.allUses, q ∈ usesOf us xs := by
  unfold argsOf at h
  rcases List.mem_append.1 h with h | h
  · obtain ⟨⟨n, gs⟩, h1, h2⟩ := List.mem_flatMap.1 h
    exact usesOf_trans h1 h2
  · obtain ⟨x, hx, h⟩ := List.mem_flatMap.1 h
    intro q hq
    unfold usesOf
    simp only [List.mem_append, List.mem_flatMap]
    exact .inr ⟨x, hx, .inr ⟨g, h, hq⟩⟩

theorem usesOf_args {us : List GUse} {xs : List Container} {n : Str} {gs : List GArg}
    (h : (n, gs) ∈ usesOf us xs) : ∀ g ∈ gs, g ∈ argsOf us xs := by
  intro g hg
  unfold argsOf
  exact List.mem_append_left _ (List.mem_flatMap.2 ⟨_, h, hg⟩)

theorem field_monoUses {c : LibConfig} {gs : List GArg} {m : List (Str × GArg)} {x : Container}
    (hp : x.parts = [x]) {w : GUse} (hw : w ∈ (x.specialize c gs m).monoUses) :
    ∃ t ∈ x.tys, Uses (t.specialize m) w.1 w.2.2.1 := by
  have hfs : ∀ fs : List Field, w ∈ (fs.map (Field.mapTy (Ty.specialize m))).flatMap
      (fun f => f.ty.genericUses) → ∃ t ∈ fs.map (·.ty), Uses (t.specialize m) w.1 w.2.2.1 := by
    intro fs h
    obtain ⟨f, hf, h⟩ := List.mem_flatMap.1 h
    obtain ⟨f', hf', rfl⟩ := List.mem_map.1 hf
    refine ⟨f'.ty, List.mem_map.2 ⟨f', hf', rfl⟩, (mem_genericUses _).1 ⟨w.2.1, w.2.2.2, h⟩⟩
  cases x with
  | struct x =>
    simp only [Container.specialize, Container.monoUses, StructItem.monoUses] at hw
    split at hw
    · exact hfs _ hw
    · simp at hw
  | union x =>
    simp only [Container.specialize, Container.monoUses, UnionItem.monoUses] at hw
    split at hw
    · exact hfs _ hw
    · simp at hw
  | typedef x =>
    simp only [Container.specialize, Container.monoUses, TypedefItem.monoUses] at hw
    split at hw
    · exact ⟨x.aliased, by simp [Container.tys], (mem_genericUses _).1 ⟨w.2.1, w.2.2.2, hw⟩⟩
    · simp at hw
  | «opaque» x => simp [Container.specialize, Container.monoUses] at hw
  | enum x =>
    exfalso
    have hb : x.bodies = [] := by
      simp only [Container.parts] at hp
      have := congrArg List.length hp
      simp only [List.length_append, List.length_map, List.length_cons, List.length_nil] at this
      exact List.length_eq_zero_iff.1 (by omega)
    simp only [Container.specialize, Container.monoUses, EnumItem.monoUses] at hw
    split at hw
    · obtain ⟨v, hv, hw⟩ := List.mem_flatMap.1 hw
      obtain ⟨v', hv', rfl⟩ := List.mem_map.1 hv
      cases hvb : v'.body with
      | empty a => simp [EnumVariant.specialize, EnumVariant.monoUses, EnumVariant.new,
          VBody.specialize, hvb] at hw
      | body n b i ic =>
        have : b ∈ x.bodies := List.mem_filterMap.2 ⟨v', hv', by simp [hvb]⟩
        simp [hb] at this
    · simp at hw

end Cbindgen
