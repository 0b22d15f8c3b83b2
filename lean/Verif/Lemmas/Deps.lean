import Verif.Lemmas.Dfs
import Verif.Lemmas.Sort
import Verif.Lemmas.ItemMap

/-!
# References and the order of definitions
-/

namespace Cbindgen

open LibSpec

/-! ## The calls of `Dependencies::add` are the references -/

theorem hasParam_iff (params : List GParam) (n : Str) :
    hasParam params n = true ↔ IsParam params n := by
  unfold hasParam IsParam
  simp

theorem GArg.depPathsList_eq (params : List GParam) : ∀ gs : List GArg,
    GArg.depPathsList params gs = gs.flatMap (GArg.depPaths params)
  | [] => by simp [GArg.depPathsList]
  | g :: gs => by simp [GArg.depPathsList, GArg.depPathsList_eq params gs]

theorem FArg.depPathsList_eq (params : List GParam) : ∀ gs : List FArg,
    FArg.depPathsList params gs = gs.flatMap (FArg.depPaths params)
  | [] => by simp [FArg.depPathsList]
  | g :: gs => by simp [FArg.depPathsList, FArg.depPathsList_eq params gs]

mutual
theorem Ty.uses_of_mem (params : List GParam) (n : Str) : ∀ t : Ty, n ∈ t.depPaths params →
    TyUses t n ∧ hasParam params n = false
  | .ptr t _ _ _, h => by
    rw [Ty.depPaths] at h
    have := Ty.uses_of_mem params n t h
    exact ⟨.ptr this.1, this.2⟩
  | .path m e gs k, h => by
    rw [Ty.depPaths, List.mem_append] at h
    rcases h with h | h
    · obtain ⟨t, ht, hu, hp⟩ := GArg.uses_of_mem params n gs h
      exact ⟨.generic ht hu, hp⟩
    · by_cases hm : hasParam params m = true
      · simp [hm] at h
      · simp only [hm, Bool.false_eq_true, ↓reduceIte, List.mem_singleton] at h
        subst h
        exact ⟨.here _ _ _ _, by simpa using hm⟩
  | .prim p, h => by simp [Ty.depPaths] at h
  | .array t _, h => by
    rw [Ty.depPaths] at h
    have := Ty.uses_of_mem params n t h
    exact ⟨.array this.1, this.2⟩
  | .fnptr r as _ _, h => by
    rw [Ty.depPaths, List.mem_append] at h
    rcases h with h | h
    · have := Ty.uses_of_mem params n r h
      exact ⟨.ret this.1, this.2⟩
    · obtain ⟨a, t, ht, hu, hp⟩ := FArg.uses_of_mem params n as h
      exact ⟨.arg ht hu, hp⟩
theorem GArg.uses_of_mem (params : List GParam) (n : Str) : ∀ gs : List GArg,
    n ∈ GArg.depPathsList params gs →
    ∃ t, GArg.type t ∈ gs ∧ TyUses t n ∧ hasParam params n = false
  | [], h => by simp [GArg.depPathsList] at h
  | .type t :: gs, h => by
    rw [GArg.depPathsList, GArg.depPaths, List.mem_append] at h
    rcases h with h | h
    · have := Ty.uses_of_mem params n t h
      exact ⟨t, by simp, this⟩
    · obtain ⟨t', ht, hu⟩ := GArg.uses_of_mem params n gs h
      exact ⟨t', by simp [ht], hu⟩
  | .const c :: gs, h => by
    rw [GArg.depPathsList, GArg.depPaths, List.nil_append] at h
    obtain ⟨t', ht, hu⟩ := GArg.uses_of_mem params n gs h
    exact ⟨t', by simp [ht], hu⟩
theorem FArg.uses_of_mem (params : List GParam) (n : Str) : ∀ as : List FArg,
    n ∈ FArg.depPathsList params as →
    ∃ a t, FArg.mk a t ∈ as ∧ TyUses t n ∧ hasParam params n = false
  | [], h => by simp [FArg.depPathsList] at h
  | .mk a t :: as, h => by
    rw [FArg.depPathsList, FArg.depPaths, List.mem_append] at h
    rcases h with h | h
    · have := Ty.uses_of_mem params n t h
      exact ⟨a, t, by simp, this⟩
    · obtain ⟨a', t', ht, hu⟩ := FArg.uses_of_mem params n as h
      exact ⟨a', t', by simp [ht], hu⟩
end

theorem Ty.mem_of_uses {params : List GParam} {n : Str} (hp : hasParam params n = false) {t : Ty}
    (h : TyUses t n) : n ∈ t.depPaths params := by
  induction h with
  | here n e gs k => simp [Ty.depPaths, hp]
  | generic hg _ ih =>
    rw [Ty.depPaths, List.mem_append, GArg.depPathsList_eq, List.mem_flatMap]
    exact .inl ⟨_, hg, ih hp⟩
  | ptr _ ih => exact ih hp
  | array _ ih => exact ih hp
  | ret _ ih =>
    rw [Ty.depPaths, List.mem_append]
    exact .inl (ih hp)
  | arg ha _ ih =>
    rw [Ty.depPaths, List.mem_append, FArg.depPathsList_eq, List.mem_flatMap]
    exact .inr ⟨_, ha, ih hp⟩

theorem Ty.mem_depPaths (params : List GParam) (n : Str) (t : Ty) :
    n ∈ t.depPaths params ↔ TyUses t n ∧ ¬ IsParam params n := by
  constructor
  · intro h
    have := Ty.uses_of_mem params n t h
    refine ⟨this.1, ?_⟩
    rw [← hasParam_iff, this.2]
    simp
  · rintro ⟨hu, hp⟩
    rw [← hasParam_iff] at hp
    exact Ty.mem_of_uses (by simpa using hp) hu

theorem Ty.mem_depPaths_nil (n : Str) (t : Ty) : n ∈ t.depPaths [] ↔ TyUses t n := by
  rw [Ty.mem_depPaths]
  simp [IsParam]

theorem Lit.depPathsList_eq : ∀ is : List Lit, Lit.depPathsList is = is.flatMap Lit.depPaths
  | [] => by simp [Lit.depPathsList]
  | i :: is => by simp [Lit.depPathsList, Lit.depPathsList_eq is]

theorem LitField.depPathsList_eq : ∀ fs : List LitField,
    LitField.depPathsList fs = fs.flatMap LitField.depPaths
  | [] => by simp [LitField.depPathsList]
  | i :: is => by simp [LitField.depPathsList, LitField.depPathsList_eq is]

mutual
theorem Lit.uses_of_mem (n : Str) : ∀ l : Lit, n ∈ l.depPaths → LitUses l n
  | .expr _, h => by simp [Lit.depPaths] at h
  | .path none _, h => by simp [Lit.depPaths] at h
  | .path (some (p, e)) m, h => by
    simp only [Lit.depPaths, List.mem_singleton] at h
    subst h
    exact .assoc _ _ _
  | .unary op v, h => .unary (Lit.uses_of_mem n v (by simpa [Lit.depPaths] using h))
  | .binop l op r, h => by
    rw [Lit.depPaths, List.mem_append] at h
    rcases h with h | h
    · exact .left (Lit.uses_of_mem n l h)
    · exact .right (Lit.uses_of_mem n r h)
  | .field b f, h => .base (Lit.uses_of_mem n b (by simpa [Lit.depPaths] using h))
  | .struct p e fs, h => by
    rw [Lit.depPaths, List.mem_cons] at h
    rcases h with rfl | h
    · exact .struct _ _ _
    · obtain ⟨f, v, c, hm, hu⟩ := LitField.uses_of_mem n fs h
      exact .field hm hu
  | .cast t v, h => .cast (Lit.uses_of_mem n v (by simpa [Lit.depPaths] using h))
  | .array is, h => by
    obtain ⟨i, hi, hu⟩ := Lit.uses_of_mem_list n is (by simpa [Lit.depPaths] using h)
    exact .item hi hu
theorem LitField.uses_of_mem (n : Str) : ∀ fs : List LitField, n ∈ LitField.depPathsList fs →
    ∃ f v c, LitField.mk f v c ∈ fs ∧ LitUses v n
  | [], h => by simp [LitField.depPathsList] at h
  | .mk f v c :: fs, h => by
    rw [LitField.depPathsList, LitField.depPaths, List.mem_append] at h
    rcases h with h | h
    · exact ⟨f, v, c, by simp, Lit.uses_of_mem n v h⟩
    · obtain ⟨f', v', c', hm, hu⟩ := LitField.uses_of_mem n fs h
      exact ⟨f', v', c', by simp [hm], hu⟩
theorem Lit.uses_of_mem_list (n : Str) : ∀ is : List Lit, n ∈ Lit.depPathsList is →
    ∃ i ∈ is, LitUses i n
  | [], h => by simp [Lit.depPathsList] at h
  | i :: is, h => by
    rw [Lit.depPathsList, List.mem_append] at h
    rcases h with h | h
    · exact ⟨i, by simp, Lit.uses_of_mem n i h⟩
    · obtain ⟨j, hj, hu⟩ := Lit.uses_of_mem_list n is h
      exact ⟨j, by simp [hj], hu⟩
end

theorem Lit.mem_of_uses {n : Str} {l : Lit} (h : LitUses l n) : n ∈ l.depPaths := by
  induction h with
  | assoc => simp [Lit.depPaths]
  | struct => simp [Lit.depPaths]
  | field hm _ ih =>
    rw [Lit.depPaths, LitField.depPathsList_eq, List.mem_cons, List.mem_flatMap]
    exact .inr ⟨_, hm, ih⟩
  | unary _ ih => simpa [Lit.depPaths] using ih
  | left _ ih => simp [Lit.depPaths, ih]
  | right _ ih => simp [Lit.depPaths, ih]
  | base _ ih => simpa [Lit.depPaths] using ih
  | cast _ ih => simpa [Lit.depPaths] using ih
  | item hm _ ih =>
    rw [Lit.depPaths, Lit.depPathsList_eq, List.mem_flatMap]
    exact ⟨_, hm, ih⟩

theorem Lit.mem_depPaths (n : Str) (l : Lit) : n ∈ l.depPaths ↔ LitUses l n :=
  ⟨Lit.uses_of_mem n l, Lit.mem_of_uses⟩

theorem ConstItem.mem_depPaths (n : Str) (x : ConstItem) : n ∈ x.depPaths ↔ ConstUses x n := by
  unfold ConstItem.depPaths ConstUses
  rw [List.mem_append, Ty.mem_depPaths_nil, Lit.mem_depPaths]

theorem StaticItem.mem_depPaths (n : Str) (x : StaticItem) : n ∈ x.depPaths ↔ TyUses x.ty n := by
  unfold StaticItem.depPaths
  rw [Ty.mem_depPaths_nil]

theorem FuncItem.mem_depPaths (n : Str) (x : FuncItem) : n ∈ x.depPaths ↔ FuncUses x n := by
  unfold FuncItem.depPaths FuncUses
  simp only [List.mem_append, List.mem_flatMap, Ty.mem_depPaths_nil]

theorem StructItem.mem_depPaths (n : Str) (x : StructItem) : n ∈ x.depPaths ↔ StructUses x n := by
  unfold StructItem.depPaths StructUses StructItem.ownFields
  simp only [List.mem_append, List.mem_flatMap, Ty.mem_depPaths, ConstItem.mem_depPaths]
  cases x.hasTagField <;> simp

theorem Container.mem_depPaths (n : Str) (x : Container) : n ∈ x.depPaths ↔ ItemUses x n := by
  cases x with
  | struct x => exact StructItem.mem_depPaths n x
  | union x =>
    simp only [Container.depPaths, UnionItem.depPaths, ItemUses, List.mem_flatMap, Ty.mem_depPaths]
  | «opaque» x => simp [Container.depPaths, ItemUses]
  | typedef x => simp only [Container.depPaths, TypedefItem.depPaths, ItemUses, Ty.mem_depPaths]
  | enum x =>
    simp only [Container.depPaths, EnumItem.depPaths, ItemUses, List.mem_flatMap,
      EnumVariant.depPaths, List.mem_append]
    constructor
    · rintro ⟨v, hv, h | h⟩
      · refine ⟨v, hv, .inl ?_⟩
        cases hb : v.body with
        | empty a => rw [hb] at h; simp [VBody.depPaths] at h
        | body m b i ic =>
          rw [hb] at h
          exact ⟨m, b, i, ic, rfl, (StructItem.mem_depPaths n b).1 h⟩
      · refine ⟨v, hv, .inr ?_⟩
        cases hd : v.disc with
        | none => rw [hd] at h; simp [optLitDepPaths] at h
        | some d =>
          rw [hd] at h
          exact ⟨d, rfl, (Lit.mem_depPaths n d).1 h⟩
    · rintro ⟨v, hv, ⟨m, b, i, ic, hb, hu⟩ | ⟨d, hd, hu⟩⟩
      · refine ⟨v, hv, .inl ?_⟩
        rw [hb]
        exact (StructItem.mem_depPaths n b).2 hu
      · refine ⟨v, hv, .inr ?_⟩
        rw [hd]
        exact (Lit.mem_depPaths n d).2 hu

/-! ## `Dependencies::add` is a depth-first search -/

/-- The definitions of a name. -/
def itemsAt (get : Str → Option (List Container)) (p : Str) : List Container := (get p).getD []

/-- The names to which the definitions of a name refer. -/
def succOf (get : Str → Option (List Container)) (p : Str) : List Str :=
  (itemsAt get p).flatMap Container.depPaths

/-- A state of the search as a state of the code. -/
def toDeps (get : Str → Option (List Container)) (s : List Str × List Str) : Deps :=
  { order := s.2.flatMap (itemsAt get), items := s.1 }

theorem foldlM_map_state {σ τ β : Type} (h : σ → τ) (f : σ → β → Option σ) (g : τ → β → Option τ)
    (hfg : ∀ s b, g (h s) b = (f s b).map h) : ∀ (bs : List β) (s : σ),
    bs.foldlM g (h s) = (bs.foldlM f s).map h
  | [], s => rfl
  | b :: bs, s => by
    rw [List.foldlM_cons, List.foldlM_cons, hfg]
    cases f s b with
    | none => rfl
    | some s' => exact foldlM_map_state h f g hfg bs s'

theorem Deps.add_eq_dfs (get : Str → Option (List Container)) : ∀ (n : Nat) (p : Str)
    (s : List Str × List Str),
    Deps.add get n p (toDeps get s) =
      (Dfs.dfs (fun q => (get q).isSome) (succOf get) n p s).map (toDeps get)
  | 0, p, s => rfl
  | n + 1, p, s => by
    unfold Deps.add Dfs.dfs
    cases hg : get p with
    | none => simp
    | some items =>
      simp only [Option.isSome_some, ↓reduceIte]
      by_cases hv : p ∈ s.1
      · simp [toDeps, hv]
      · have hv' : p ∉ (toDeps get s).items := hv
        rw [if_neg hv', if_neg hv]
        have hsucc : succOf get p = items.flatMap Container.depPaths := by
          simp [succOf, itemsAt, hg]
        have hst : ({ (toDeps get s) with items := p :: (toDeps get s).items } : Deps) =
            toDeps get (p :: s.1, s.2) := rfl
        rw [hst, hsucc,
          foldlM_map_state (toDeps get) (fun s q => Dfs.dfs _ (succOf get) n q s)
            (fun d q => Deps.add get n q d) (fun s q => Deps.add_eq_dfs get n q s)]
        rw [Option.map_map, Option.map_map]
        congr 1
        funext s'
        simp [toDeps, itemsAt, hg]

theorem Deps.addAll_eq_dfs (get : Str → Option (List Container)) (n : Nat) (ps : List Str)
    (s : List Str × List Str) :
    Deps.addAll get n ps (toDeps get s) =
      (ps.foldlM (fun s q => Dfs.dfs (fun q => (get q).isSome) (succOf get) n q s) s).map
        (toDeps get) :=
  foldlM_map_state (toDeps get) _ _ (fun s q => Deps.add_eq_dfs get n q s) ps s

theorem path_iff_reaches (get : Str → Option (List Container)) (p q : Str) :
    Dfs.Path (fun q => (get q).isSome) (succOf get) p q ↔ Reaches get p q := by
  constructor
  · intro h
    induction h with
    | refl => exact .refl _
    | @step y z _ hs hk ih =>
      unfold succOf itemsAt at hs
      cases hg : get y with
      | none => rw [hg] at hs; simp at hs
      | some items =>
        rw [hg, Option.getD_some, List.mem_flatMap] at hs
        obtain ⟨x, hx, hu⟩ := hs
        exact ih.step hg hx ((Container.mem_depPaths _ _).1 hu) hk
  · intro h
    induction h with
    | refl => exact .refl _
    | step _ hg hx hu hk ih =>
      refine ih.step ?_ hk
      unfold succOf itemsAt
      rw [hg, Option.getD_some, List.mem_flatMap]
      exact ⟨_, hx, (Container.mem_depPaths _ _).2 hu⟩

/-- The collection of dependencies, from its beginning. -/
theorem Deps.addAll_spec (get : Str → Option (List Container)) (K : List Str)
    (hK : ∀ p, (get p).isSome = true → p ∈ K) (roots : List Str) (n : Nat) (hn : n = K.length + 1) :
    ∃ ps d, Deps.addAll get n roots {} = some d ∧ d.order = ps.flatMap (itemsAt get) ∧ ps.Nodup ∧
      (∀ p, p ∈ ps ↔ ∃ r ∈ roots, (get r).isSome ∧ Reaches get r p) ∧
      (∀ a p b, ps = a ++ p :: b → ∀ x ∈ itemsAt get p, ∀ q, ItemUses x q → (get q).isSome →
        q ∈ a ∨ Reaches get q p) := by
  subst hn
  obtain ⟨v, f, e, hnd, hmem, hord⟩ :=
    Dfs.dfs_top (known := fun q => (get q).isSome) (succ := succOf get) K hK roots
  refine ⟨f, toDeps get (v, f), ?_, rfl, hnd, ?_, ?_⟩
  · have := Deps.addAll_eq_dfs get (K.length + 1) roots ([], [])
    rw [e] at this
    exact this
  · intro p
    rw [hmem]
    simp only [path_iff_reaches]
  · intro a p b hab x hx q hq hk
    have := hord a p b hab q (by
      unfold succOf
      rw [List.mem_flatMap]
      exact ⟨x, hx, (Container.mem_depPaths _ _).2 hq⟩) hk
    rwa [path_iff_reaches] at this

end Cbindgen
