import Verif.Spec.Refs
import Verif.Lemmas.Every
import Verif.Lemmas.Subst

/-!
# Types whose names were not changed yet
-/

namespace Cbindgen

open RefSpec LibSpec

theorem plainArgs_iff {gs : List GArg} : PlainArgs gs ↔ ∀ g ∈ gs, PlainArg g := by
  induction gs with
  | nil => simp [PlainArgs]
  | cons g gs ih => simp [PlainArgs, ih]

theorem plainFArgs_iff {as : List FArg} : PlainFArgs as ↔ ∀ n t, FArg.mk n t ∈ as → Plain t := by
  induction as with
  | nil => simp [PlainFArgs]
  | cons a as ih =>
    obtain ⟨n, t⟩ := a
    simp only [PlainFArgs, ih, List.mem_cons]
    constructor
    · rintro ⟨h1, h2⟩ n' t' (h | h)
      · cases h; exact h1
      · exact h2 _ _ h
    · intro h
      exact ⟨h n t (.inl rfl), fun n' t' h' => h n' t' (.inr h')⟩

/-- Nothing but the name itself is written in a plain type. -/
theorem Plain.mentions {t : Ty} {n e : Str} (h : Mentions t n e) : Plain t → e = n := by
  induction h with
  | here n e gs k => intro h; exact h.1
  | generic hg _ ih => intro h; exact ih (plainArgs_iff.1 h.2.2 _ hg)
  | constant hg => intro h; exact plainArgs_iff.1 h.2.2 _ hg
  | ptr _ ih => intro h; exact ih h
  | array _ ih => intro h; exact ih h.1
  | len => intro h; exact h.2
  | ret _ ih => intro h; exact ih h.1
  | arg ha _ ih => intro h; exact ih (plainFArgs_iff.1 h.2 _ _ ha)

theorem plain_newPath {n : Str} {gs : List GArg} (h : PlainArgs gs) : Plain (Ty.newPath n gs) :=
  ⟨rfl, rfl, h⟩

/-! ## Simplification -/

theorem plain_simplifyWrapper {lang : Language} {n : Str} {t u : Ty} (h : Plain t)
    (hs : simplifyWrapper lang n t = some u) : Plain u := by
  have hn : ∀ u, t.makeNullable = some u → Plain u := by
    intro u hu
    unfold Ty.makeNullable at hu
    split at hu <;> simp only [Option.some.injEq, reduceCtorEq] at hu
    · subst hu; exact h
    · subst hu; exact h
  have hz : ∀ b u, t.makeZeroable b = some u → Plain u := by
    intro b u hu
    unfold Ty.makeZeroable at hu
    split at hu
    · split at hu <;> simp only [Option.some.injEq, reduceCtorEq] at hu
      subst hu; trivial
    · simp at hu
  unfold simplifyWrapper at hs
  split at hs
  · split at hs
    · rename_i w hw
      simp only [Option.some.injEq] at hs
      subst hs
      exact hn _ hw
    · exact hz _ _ hs
  · split at hs
    · simp only [Option.some.injEq] at hs; subst hs; exact h
    · split at hs
      · exact hz _ _ hs
      · split at hs
        · simp only [Option.some.injEq] at hs; subst hs; exact h
        · split at hs
          · simp only [Option.some.injEq] at hs; subst hs; exact h
          · split at hs
            · simp only [Option.some.injEq] at hs; subst hs; exact h
            · simp at hs

mutual
theorem plain_simplified (lang : Language) : ∀ t u, Plain t → t.simplified lang = some u → Plain u
  | .path n e gs k, u, h, hs => by
    simp only [Ty.simplified] at hs
    exact plain_simplifiedList lang n gs u h.2.2 hs
  | .ptr .., u, _, hs => by simp [Ty.simplified] at hs
  | .prim _, u, _, hs => by simp [Ty.simplified] at hs
  | .array .., u, _, hs => by simp [Ty.simplified] at hs
  | .fnptr .., u, _, hs => by simp [Ty.simplified] at hs
theorem plain_simplifiedList (lang : Language) (n : Str) : ∀ gs u, PlainArgs gs →
    GArg.simplifiedList lang n gs = some u → Plain u
  | [], u, _, hs => by simp [GArg.simplifiedList] at hs
  | g :: gs, u, h, hs => by
    simp only [GArg.simplifiedList] at hs
    split at hs
    · exact plain_simplifiedArg lang n g u h.1 hs
    · simp at hs
theorem plain_simplifiedArg (lang : Language) (n : Str) : ∀ g u, PlainArg g →
    GArg.simplified lang n g = some u → Plain u
  | .const _, u, _, hs => by simp [GArg.simplified] at hs
  | .type t, u, h, hs => by
    simp only [GArg.simplified] at hs
    refine plain_simplifyWrapper ?_ hs
    cases ht : t.simplified lang with
    | none => exact h
    | some w => exact plain_simplified lang t w h ht
end

theorem plain_simplifyTop {lang : Language} {t : Ty} (h : Plain t) : Plain (t.simplifyTop lang) := by
  unfold Ty.simplifyTop
  cases ht : t.simplified lang with
  | none => exact h
  | some w => exact plain_simplified lang t w h ht

mutual
theorem plain_simplify (lang : Language) : ∀ t, Plain t → Plain (t.simplify lang)
  | .ptr t _ _ _, h => by simp only [Ty.simplify]; exact plain_simplify lang t h
  | .path n e gs k, h => by
    simp only [Ty.simplify]
    exact plain_simplifyTop ⟨h.1, h.2.1, plain_simplifyList lang gs h.2.2⟩
  | .prim _, _ => by simp only [Ty.simplify]; trivial
  | .array t l, h => by simp only [Ty.simplify]; exact ⟨plain_simplify lang t h.1, h.2⟩
  | .fnptr r as _ _, h => by
    simp only [Ty.simplify]
    exact ⟨plain_simplify lang r h.1, plain_simplifyFArgs lang as h.2⟩
theorem plain_simplifyArg (lang : Language) : ∀ g, PlainArg g → PlainArg (g.simplify lang)
  | .type t, h => by simp only [GArg.simplify]; exact plain_simplify lang t h
  | .const c, h => by simp only [GArg.simplify]; exact h
theorem plain_simplifyList (lang : Language) : ∀ gs, PlainArgs gs → PlainArgs (GArg.simplifyList lang gs)
  | [], _ => by simp only [GArg.simplifyList]; trivial
  | g :: gs, h => by
    simp only [GArg.simplifyList]
    exact ⟨plain_simplifyArg lang g h.1, plain_simplifyList lang gs h.2⟩
theorem plain_simplifyFArgs (lang : Language) : ∀ as, PlainFArgs as →
    PlainFArgs (FArg.simplifyList lang as)
  | [], _ => by simp only [FArg.simplifyList]; trivial
  | .mk n t :: as, h => by
    simp only [FArg.simplifyList, FArg.simplify]
    exact ⟨plain_simplify lang t h.1, plain_simplifyFArgs lang as h.2⟩
end

/-! ## Substitution -/

/-- All arguments are plain. -/
def PlainMap (m : List (Str × GArg)) : Prop := ∀ p ∈ m, PlainArg p.2

theorem plain_firstType {m : List (Str × GArg)} (hm : PlainMap m) {n : Str} {t : Ty}
    (h : firstType m n = some t) : Plain t := by
  induction m with
  | nil => simp [firstType] at h
  | cons p ps ih =>
    obtain ⟨q, g⟩ := p
    have ih := ih fun r hr => hm r (by simp [hr])
    cases g with
    | type u =>
      simp only [firstType] at h
      split at h
      · simp only [Option.some.injEq] at h
        subst h
        exact hm (q, .type u) (by simp)
      · exact ih h
    | const c => exact ih (by simpa [firstType] using h)

theorem plain_firstConst {m : List (Str × GArg)} (hm : PlainMap m) {n : Str} {l : CExpr}
    (h : firstConst m n = some l) : PlainConst l := by
  induction m with
  | nil => simp [firstConst] at h
  | cons p ps ih =>
    obtain ⟨q, g⟩ := p
    have ih := ih fun r hr => hm r (by simp [hr])
    cases g with
    | type u =>
      simp only [firstConst] at h
      split at h
      · split at h
        · rename_i a b hs
          simp only [Option.some.injEq] at h
          subst h
          have hp : Plain u := hm (q, .type u) (by simp)
          unfold Ty.singleIdent at hs
          split at hs <;> simp only [Option.some.injEq, Prod.mk.injEq, reduceCtorEq] at hs
          obtain ⟨rfl, rfl⟩ := hs
          exact hp.1
        · exact ih h
      · exact ih h
    | const c =>
      simp only [firstConst] at h
      split at h
      · simp only [Option.some.injEq] at h
        subst h
        exact hm (q, .const c) (by simp)
      · exact ih h

theorem plain_constSpecialize {m : List (Str × GArg)} (hm : PlainMap m) (l : CExpr)
    (h : PlainConst l) : PlainConst (l.specialize m) := by
  cases l with
  | value s => trivial
  | path n e =>
    have h0 : CExpr.specialize m (.path n e) = (firstConst m n).getD (.path n e) := rfl
    rw [h0]
    cases hf : firstConst m n with
    | none => exact h
    | some l => exact plain_firstConst hm hf

theorem plain_specializePath {m : List (Str × GArg)} (hm : PlainMap m) (n : Str) (gs : List GArg)
    (h : PlainArgs gs) : Plain (specializePath m n gs) := by
  unfold specializePath
  split
  · rename_i t ht
    exact plain_firstType hm ht
  · exact plain_newPath h

theorem lookup_mem_pair {β : Type} {m : List (Str × β)} {n : Str} {v : β} (h : m.lookup n = some v) :
    (n, v) ∈ m := by
  rw [List.lookup_eq_some_iff] at h
  obtain ⟨a, b, e, _⟩ := h
  rw [e]; simp

theorem plain_specializeTypeArg {m : List (Str × GArg)} (hm : PlainMap m) (t u : Ty) (h : Plain u) :
    PlainArg (specializeTypeArg m t u) := by
  unfold specializeTypeArg
  split
  · split
    · rename_i v hv
      exact hm _ (lookup_mem_pair hv)
    · exact h
  · exact h

mutual
theorem plain_specialize {m : List (Str × GArg)} (hm : PlainMap m) : ∀ t, Plain t → Plain (t.specialize m)
  | .ptr t _ _ _, h => by simp only [Ty.specialize]; exact plain_specialize hm t h
  | .path n e gs k, h => by
    simp only [Ty.specialize]
    exact plain_specializePath hm n _ (plain_specializeList hm gs h.2.2)
  | .prim _, _ => by simp only [Ty.specialize]; trivial
  | .array t l, h => by
    simp only [Ty.specialize]
    exact ⟨plain_specialize hm t h.1, plain_constSpecialize hm l h.2⟩
  | .fnptr r as _ _, h => by
    simp only [Ty.specialize]
    exact ⟨plain_specialize hm r h.1, plain_specializeFArgs hm as h.2⟩
theorem plain_specializeArg {m : List (Str × GArg)} (hm : PlainMap m) : ∀ g, PlainArg g →
    PlainArg (g.specialize m)
  | .type t, h => by
    simp only [GArg.specialize]
    exact plain_specializeTypeArg hm t _ (plain_specialize hm t h)
  | .const c, h => by simp only [GArg.specialize]; exact h
theorem plain_specializeList {m : List (Str × GArg)} (hm : PlainMap m) : ∀ gs, PlainArgs gs →
    PlainArgs (GArg.specializeList m gs)
  | [], _ => by simp only [GArg.specializeList]; trivial
  | g :: gs, h => by
    simp only [GArg.specializeList]
    exact ⟨plain_specializeArg hm g h.1, plain_specializeList hm gs h.2⟩
theorem plain_specializeFArgs {m : List (Str × GArg)} (hm : PlainMap m) : ∀ as, PlainFArgs as →
    PlainFArgs (FArg.specializeList m as)
  | [], _ => by simp only [FArg.specializeList]; trivial
  | .mk n t :: as, h => by
    simp only [FArg.specializeList, FArg.specialize]
    exact ⟨plain_specialize hm t h.1, plain_specializeFArgs hm as h.2⟩
end

theorem callParams_mem {params : List GParam} {args : List GArg} {m : List (Str × GArg)}
    (h : callParams params args = some m) : ∀ q ∈ m, ∃ p ∈ params, q.1 = p.name ∧
      (q.2 ∈ args ∨ p.default = some q.2) := by
  unfold callParams at h
  split at h
  · simp at h
  · intro q hq
    obtain ⟨⟨i, p⟩, hp, e⟩ := ItemMap.mapM_some_mem h q hq
    refine ⟨p, (List.of_mem_zip hp).2, ?_⟩
    simp only at e
    cases ha : args[i]? with
    | some a =>
      simp only [ha, Option.some.injEq] at e
      subst e
      exact ⟨rfl, .inl (List.mem_of_getElem? ha)⟩
    | none =>
      simp only [ha, Option.map_eq_some_iff] at e
      obtain ⟨d, hd, rfl⟩ := e
      exact ⟨rfl, .inr hd⟩

theorem plain_callParams {params : List GParam} {args : List GArg} {m : List (Str × GArg)}
    (hp : PlainParams params) (ha : PlainArgs args) (h : callParams params args = some m) :
    PlainMap m := by
  intro q hq
  obtain ⟨p, hpm, _, h | h⟩ := callParams_mem h q hq
  · exact plainArgs_iff.1 ha _ h
  · exact hp p hpm _ h

/-! ## Mangled paths -/

mutual
theorem plain_manglePaths (find : Ty → Option Str) : ∀ t, Plain t → Plain (t.manglePaths find)
  | .ptr t _ _ _, h => by simp only [Ty.manglePaths]; exact plain_manglePaths find t h
  | .path n e gs k, h => by
    simp only [Ty.manglePaths]
    split
    · exact h
    · unfold manglePath
      split
      · exact plain_newPath trivial
      · exact h
  | .prim _, _ => by simp only [Ty.manglePaths]; trivial
  | .array t l, h => by simp only [Ty.manglePaths]; exact ⟨plain_manglePaths find t h.1, h.2⟩
  | .fnptr r as _ _, h => by
    simp only [Ty.manglePaths]
    exact ⟨plain_manglePaths find r h.1, plain_mangleFArgs find as h.2⟩
theorem plain_mangleFArgs (find : Ty → Option Str) : ∀ as, PlainFArgs as →
    PlainFArgs (FArg.manglePathsList find as)
  | [], _ => by simp only [FArg.manglePathsList]; trivial
  | .mk n t :: as, h => by
    simp only [FArg.manglePathsList, FArg.manglePaths]
    exact ⟨plain_manglePaths find t h.1, plain_mangleFArgs find as h.2⟩
end

/-! ## Generic uses -/

/-- A generic use whose names were not changed. -/
def PlainUse (u : GUse) : Prop := u.2.1 = u.1 ∧ u.2.2.2 = none ∧ PlainArgs u.2.2.1

mutual
theorem plain_genericUses : ∀ t, Plain t → ∀ u ∈ t.genericUses, PlainUse u
  | .ptr t _ _ _, h, u, hu => by
    simp only [Ty.genericUses] at hu; exact plain_genericUses t h u hu
  | .path n e gs k, h, u, hu => by
    simp only [Ty.genericUses] at hu
    split at hu
    · simp at hu
    · simp only [List.mem_singleton] at hu
      subst hu
      exact h
  | .prim _, _, u, hu => by simp [Ty.genericUses] at hu
  | .array t l, h, u, hu => by
    simp only [Ty.genericUses] at hu; exact plain_genericUses t h.1 u hu
  | .fnptr r as _ _, h, u, hu => by
    simp only [Ty.genericUses, List.mem_append] at hu
    rcases hu with hu | hu
    · exact plain_genericUses r h.1 u hu
    · exact plain_genericUsesList as h.2 u hu
theorem plain_genericUsesList : ∀ as, PlainFArgs as → ∀ u ∈ FArg.genericUsesList as, PlainUse u
  | [], _, u, hu => by simp [FArg.genericUsesList] at hu
  | .mk n t :: as, h, u, hu => by
    simp only [FArg.genericUsesList, FArg.genericUses, List.mem_append] at hu
    rcases hu with hu | hu
    · exact plain_genericUses t h.1 u hu
    · exact plain_genericUsesList as h.2 u hu
end

/-! ## Declaration keywords and names -/

theorem FArg.resolveList_eq (find : Str → Option DeclKind) (as : List FArg) :
    FArg.resolveList find as = as.map (FArg.resolve find) := by
  induction as with
  | nil => simp [FArg.resolveList]
  | cons a as ih => simp [FArg.resolveList, ih]

/-- Declaration keywords do not change names. -/
theorem mentions_resolve (find : Str → Option DeclKind) {t t' : Ty} {n e : Str} (h : Mentions t' n e) :
    t' = t.resolve find → Mentions t n e := by
  induction h generalizing t with
  | here n e gs k =>
    intro ht; cases t <;> simp only [Ty.resolve, Ty.path.injEq, reduceCtorEq] at ht
    obtain ⟨rfl, rfl, rfl, _⟩ := ht; exact .here _ _ _ _
  | generic hg hm ih =>
    intro ht; cases t <;> simp only [Ty.resolve, Ty.path.injEq, reduceCtorEq] at ht
    obtain ⟨rfl, rfl, rfl, _⟩ := ht; exact .generic hg hm
  | constant hg =>
    intro ht; cases t <;> simp only [Ty.resolve, Ty.path.injEq, reduceCtorEq] at ht
    obtain ⟨rfl, rfl, rfl, _⟩ := ht; exact .constant hg
  | ptr _ ih =>
    intro ht; cases t <;> simp only [Ty.resolve, Ty.ptr.injEq, reduceCtorEq] at ht
    exact .ptr (ih ht.1)
  | array _ ih =>
    intro ht; cases t <;> simp only [Ty.resolve, Ty.array.injEq, reduceCtorEq] at ht
    exact .array (ih ht.1)
  | len =>
    intro ht; cases t <;> simp only [Ty.resolve, Ty.array.injEq, reduceCtorEq] at ht
    obtain ⟨_, rfl⟩ := ht; exact .len
  | ret _ ih =>
    intro ht; cases t <;> simp only [Ty.resolve, Ty.fnptr.injEq, reduceCtorEq] at ht
    exact .ret (ih ht.1)
  | arg ha _ ih =>
    intro ht; cases t <;> simp only [Ty.resolve, Ty.fnptr.injEq, reduceCtorEq] at ht
    obtain ⟨_, h2, _⟩ := ht
    rw [h2, FArg.resolveList_eq] at ha
    obtain ⟨⟨a, t⟩, ha, e⟩ := List.mem_map.1 ha
    simp only [FArg.resolve, FArg.mk.injEq] at e
    exact .arg ha (ih e.2.symm)

/-- Keywords are what the resolver says. -/
theorem writes_resolve (find : Str → Option DeclKind) {t t' : Ty} {n : Str} {k : Option DeclKind}
    (h : Writes t' n k) : t' = t.resolve find → k = find n := by
  induction h generalizing t with
  | here n e gs k =>
    intro ht; cases t <;> simp only [Ty.resolve, Ty.path.injEq, reduceCtorEq] at ht
    obtain ⟨rfl, _, _, rfl⟩ := ht; rfl
  | ptr _ ih =>
    intro ht; cases t <;> simp only [Ty.resolve, Ty.ptr.injEq, reduceCtorEq] at ht
    exact ih ht.1
  | array _ ih =>
    intro ht; cases t <;> simp only [Ty.resolve, Ty.array.injEq, reduceCtorEq] at ht
    exact ih ht.1
  | ret _ ih =>
    intro ht; cases t <;> simp only [Ty.resolve, Ty.fnptr.injEq, reduceCtorEq] at ht
    exact ih ht.1
  | arg ha _ ih =>
    intro ht; cases t <;> simp only [Ty.resolve, Ty.fnptr.injEq, reduceCtorEq] at ht
    obtain ⟨_, h2, _⟩ := ht
    rw [h2, FArg.resolveList_eq] at ha
    obtain ⟨⟨a, t⟩, ha, e⟩ := List.mem_map.1 ha
    simp only [FArg.resolve, FArg.mk.injEq] at e
    exact ih e.2.symm

theorem GArg.renameList_eq (ren : Str → Str) (ps : List GParam) (gs : List GArg) :
    GArg.renameList ren ps gs = gs.map (GArg.rename ren ps) := by
  induction gs with
  | nil => simp [GArg.renameList]
  | cons a as ih => simp [GArg.renameList, ih]

theorem FArg.renameList_eq (ren : Str → Str) (ps : List GParam) (as : List FArg) :
    FArg.renameList ren ps as = as.map (FArg.rename ren ps) := by
  induction as with
  | nil => simp [FArg.renameList]
  | cons a as ih => simp [FArg.renameList, ih]

/-- The name written after renaming. -/
def newName (ren : Str → Str) (ps : List GParam) (n e : Str) : Str :=
  if hasParam ps n then e else ren e

theorem constRename_path {ren : Str → Str} {ps : List GParam} {l : CExpr} {n e : Str}
    (h : CExpr.path n e = l.rename ren ps) : ∃ e₀, l = .path n e₀ ∧ e = newName ren ps n e₀ := by
  cases l with
  | value s => simp [CExpr.rename] at h
  | path a b =>
    simp only [CExpr.rename, CExpr.path.injEq] at h
    obtain ⟨rfl, rfl⟩ := h
    exact ⟨b, rfl, rfl⟩

/-- What is mentioned after renaming was mentioned before. -/
theorem mentions_rename (ren : Str → Str) (ps : List GParam) {t t' : Ty} {n e : Str}
    (h : Mentions t' n e) : t' = t.rename ren ps → ∃ e₀, Mentions t n e₀ ∧ e = newName ren ps n e₀ := by
  induction h generalizing t with
  | here n e gs k =>
    intro ht; cases t <;> simp only [Ty.rename, Ty.path.injEq, reduceCtorEq] at ht
    obtain ⟨rfl, rfl, _, _⟩ := ht; exact ⟨_, .here _ _ _ _, rfl⟩
  | generic hg hm ih =>
    intro ht; cases t <;> simp only [Ty.rename, Ty.path.injEq, reduceCtorEq] at ht
    obtain ⟨rfl, _, h3, _⟩ := ht
    rw [h3, GArg.renameList_eq] at hg
    obtain ⟨g, hg, e⟩ := List.mem_map.1 hg
    cases g with
    | const c => simp [GArg.rename] at e
    | type u =>
      simp only [GArg.rename, GArg.type.injEq] at e
      obtain ⟨e₀, he, h⟩ := ih e.symm
      exact ⟨e₀, .generic hg he, h⟩
  | constant hg =>
    intro ht; cases t <;> simp only [Ty.rename, Ty.path.injEq, reduceCtorEq] at ht
    obtain ⟨rfl, _, h3, _⟩ := ht
    rw [h3, GArg.renameList_eq] at hg
    obtain ⟨g, hg, e⟩ := List.mem_map.1 hg
    cases g with
    | type u => simp [GArg.rename] at e
    | const c =>
      simp only [GArg.rename, GArg.const.injEq] at e
      obtain ⟨e₀, rfl, he⟩ := constRename_path e.symm
      exact ⟨e₀, .constant hg, he⟩
  | ptr _ ih =>
    intro ht; cases t <;> simp only [Ty.rename, Ty.ptr.injEq, reduceCtorEq] at ht
    obtain ⟨e₀, he, h⟩ := ih ht.1
    exact ⟨e₀, .ptr he, h⟩
  | array _ ih =>
    intro ht; cases t <;> simp only [Ty.rename, Ty.array.injEq, reduceCtorEq] at ht
    obtain ⟨e₀, he, h⟩ := ih ht.1
    exact ⟨e₀, .array he, h⟩
  | len =>
    intro ht; cases t <;> simp only [Ty.rename, Ty.array.injEq, reduceCtorEq] at ht
    obtain ⟨e₀, rfl, he⟩ := constRename_path ht.2
    exact ⟨e₀, .len, he⟩
  | ret _ ih =>
    intro ht; cases t <;> simp only [Ty.rename, Ty.fnptr.injEq, reduceCtorEq] at ht
    obtain ⟨e₀, he, h⟩ := ih ht.1
    exact ⟨e₀, .ret he, h⟩
  | arg ha _ ih =>
    intro ht; cases t <;> simp only [Ty.rename, Ty.fnptr.injEq, reduceCtorEq] at ht
    obtain ⟨_, h2, _⟩ := ht
    rw [h2, FArg.renameList_eq] at ha
    obtain ⟨⟨a, u⟩, ha, e⟩ := List.mem_map.1 ha
    simp only [FArg.rename, FArg.mk.injEq] at e
    obtain ⟨e₀, he, h⟩ := ih e.2.symm
    exact ⟨e₀, .arg ha he, h⟩

/-- Renaming does not change keywords. -/
theorem writes_rename (ren : Str → Str) (ps : List GParam) {t t' : Ty} {n : Str}
    {k : Option DeclKind} (h : Writes t' n k) : t' = t.rename ren ps → Writes t n k := by
  induction h generalizing t with
  | here n e gs k =>
    intro ht; cases t <;> simp only [Ty.rename, Ty.path.injEq, reduceCtorEq] at ht
    obtain ⟨rfl, _, _, rfl⟩ := ht; exact .here _ _ _ _
  | ptr _ ih =>
    intro ht; cases t <;> simp only [Ty.rename, Ty.ptr.injEq, reduceCtorEq] at ht
    exact .ptr (ih ht.1)
  | array _ ih =>
    intro ht; cases t <;> simp only [Ty.rename, Ty.array.injEq, reduceCtorEq] at ht
    exact .array (ih ht.1)
  | ret _ ih =>
    intro ht; cases t <;> simp only [Ty.rename, Ty.fnptr.injEq, reduceCtorEq] at ht
    exact .ret (ih ht.1)
  | arg ha _ ih =>
    intro ht; cases t <;> simp only [Ty.rename, Ty.fnptr.injEq, reduceCtorEq] at ht
    obtain ⟨_, h2, _⟩ := ht
    rw [h2, FArg.renameList_eq] at ha
    obtain ⟨⟨a, u⟩, ha, e⟩ := List.mem_map.1 ha
    simp only [FArg.rename, FArg.mk.injEq] at e
    exact .arg ha (ih e.2.symm)

theorem LitField.renameList_eq (ren : Str → Str) (fs : List LitField) :
    LitField.renameList ren fs = fs.map (LitField.rename ren) := by
  induction fs with
  | nil => simp [LitField.renameList]
  | cons a as ih => simp [LitField.renameList, ih]

theorem Lit.renameList_eq (ren : Str → Str) (is : List Lit) :
    Lit.renameList ren is = is.map (Lit.rename ren) := by
  induction is with
  | nil => simp [Lit.renameList]
  | cons a as ih => simp [Lit.renameList, ih]

theorem litRename_path {ren : Str → Str} {l : Lit} {p e n : Str}
    (h : Lit.path (some (p, e)) n = l.rename ren) :
    ∃ e₀, l = .path (some (p, e₀)) n ∧ e = ren e₀ := by
  cases l with
  | path a m =>
    cases a with
    | none => simp [Lit.rename] at h
    | some pe =>
      obtain ⟨q, e₀⟩ := pe
      simp only [Lit.rename, Lit.path.injEq, Option.some.injEq, Prod.mk.injEq] at h
      obtain ⟨⟨rfl, rfl⟩, rfl⟩ := h
      exact ⟨e₀, rfl, rfl⟩
  | _ => simp [Lit.rename] at h

/-- What is mentioned by a literal after renaming was mentioned before. -/
theorem litMentions_rename (ren : Str → Str) {l l' : Lit} {n e : Str} (h : LitMentions l' n e) :
    l' = l.rename ren → ∃ e₀, LitMentions l n e₀ ∧ e = ren e₀ := by
  have nopath : ∀ (a : Option (Str × Str)) (m : Str), ∃ a' m', Lit.rename ren (.path a m) = .path a' m' := by
    intro a m
    cases a with
    | none => exact ⟨_, _, rfl⟩
    | some pe => obtain ⟨p, e⟩ := pe; exact ⟨_, _, rfl⟩
  induction h generalizing l with
  | assoc p e n =>
    intro ht
    obtain ⟨e₀, rfl, he⟩ := litRename_path ht
    exact ⟨e₀, .assoc _ _ _, he⟩
  | struct p e fs =>
    intro ht
    cases l with
    | path a m => obtain ⟨a', m', h⟩ := nopath a m; rw [h] at ht; simp at ht
    | struct q f gs =>
      simp only [Lit.rename, Lit.struct.injEq] at ht
      obtain ⟨rfl, rfl, _⟩ := ht
      exact ⟨f, .struct _ _ _, rfl⟩
    | _ => simp [Lit.rename] at ht
  | castTo hm =>
    intro ht
    cases l with
    | path a m => obtain ⟨a', m', h⟩ := nopath a m; rw [h] at ht; simp at ht
    | cast t v =>
      simp only [Lit.rename, Lit.cast.injEq] at ht
      obtain ⟨e₀, he, h⟩ := mentions_rename ren [] hm ht.1
      exact ⟨e₀, .castTo he, by simpa [newName, hasParam] using h⟩
    | _ => simp [Lit.rename] at ht
  | field hf _ ih =>
    intro ht
    cases l with
    | path a m => obtain ⟨a', m', h⟩ := nopath a m; rw [h] at ht; simp at ht
    | struct q f gs =>
      simp only [Lit.rename, Lit.struct.injEq] at ht
      obtain ⟨_, _, h3⟩ := ht
      rw [h3, LitField.renameList_eq] at hf
      obtain ⟨⟨g, v, c⟩, hg, e⟩ := List.mem_map.1 hf
      simp only [LitField.rename, LitField.mk.injEq] at e
      obtain ⟨e₀, he, h⟩ := ih e.2.1.symm
      exact ⟨e₀, .field hg he, h⟩
    | _ => simp [Lit.rename] at ht
  | unary _ ih =>
    intro ht
    cases l with
    | path a m => obtain ⟨a', m', h⟩ := nopath a m; rw [h] at ht; simp at ht
    | unary op v =>
      simp only [Lit.rename, Lit.unary.injEq] at ht
      obtain ⟨e₀, he, h⟩ := ih ht.2
      exact ⟨e₀, .unary he, h⟩
    | _ => simp [Lit.rename] at ht
  | left _ ih =>
    intro ht
    cases l with
    | path a m => obtain ⟨a', m', h⟩ := nopath a m; rw [h] at ht; simp at ht
    | binop a op b =>
      simp only [Lit.rename, Lit.binop.injEq] at ht
      obtain ⟨e₀, he, h⟩ := ih ht.1
      exact ⟨e₀, .left he, h⟩
    | _ => simp [Lit.rename] at ht
  | right _ ih =>
    intro ht
    cases l with
    | path a m => obtain ⟨a', m', h⟩ := nopath a m; rw [h] at ht; simp at ht
    | binop a op b =>
      simp only [Lit.rename, Lit.binop.injEq] at ht
      obtain ⟨e₀, he, h⟩ := ih ht.2.2
      exact ⟨e₀, .right he, h⟩
    | _ => simp [Lit.rename] at ht
  | base _ ih =>
    intro ht
    cases l with
    | path a m => obtain ⟨a', m', h⟩ := nopath a m; rw [h] at ht; simp at ht
    | field b f =>
      simp only [Lit.rename, Lit.field.injEq] at ht
      obtain ⟨e₀, he, h⟩ := ih ht.1
      exact ⟨e₀, .base he, h⟩
    | _ => simp [Lit.rename] at ht
  | cast _ ih =>
    intro ht
    cases l with
    | path a m => obtain ⟨a', m', h⟩ := nopath a m; rw [h] at ht; simp at ht
    | cast t v =>
      simp only [Lit.rename, Lit.cast.injEq] at ht
      obtain ⟨e₀, he, h⟩ := ih ht.2
      exact ⟨e₀, .cast he, h⟩
    | _ => simp [Lit.rename] at ht
  | item hi _ ih =>
    intro ht
    cases l with
    | path a m => obtain ⟨a', m', h⟩ := nopath a m; rw [h] at ht; simp at ht
    | array is =>
      simp only [Lit.rename, Lit.array.injEq] at ht
      rw [ht, Lit.renameList_eq] at hi
      obtain ⟨i, hi, e⟩ := List.mem_map.1 hi
      obtain ⟨e₀, he, h⟩ := ih e.symm
      exact ⟨e₀, .item hi he, h⟩
    | _ => simp [Lit.rename] at ht

mutual
/-- The constants mentioned are renamed one by one. -/
theorem constNames_rename (ren : Str → Str) : ∀ l : Lit, constNames (l.rename ren) = (constNames l).map ren
  | .expr s => by simp [Lit.rename, constNames]
  | .path none n => by simp [Lit.rename, constNames]
  | .path (some (p, e)) n => by simp [Lit.rename, constNames]
  | .unary op v => by simp [Lit.rename, constNames, constNames_rename ren v]
  | .binop l op r => by
    simp [Lit.rename, constNames, constNames_rename ren l, constNames_rename ren r]
  | .field b f => by simp [Lit.rename, constNames, constNames_rename ren b]
  | .struct p e fs => by simp [Lit.rename, constNames, constNamesFields_rename ren fs]
  | .cast t v => by simp [Lit.rename, constNames, constNames_rename ren v]
  | .array is => by simp [Lit.rename, constNames, constNamesList_rename ren is]
theorem constNamesFields_rename (ren : Str → Str) : ∀ fs : List LitField,
    constNamesFields (LitField.renameList ren fs) = (constNamesFields fs).map ren
  | [] => by simp [LitField.renameList, constNamesFields]
  | .mk g v c :: fs => by
    simp [LitField.renameList, LitField.rename, constNamesFields, constNames_rename ren v,
      constNamesFields_rename ren fs]
theorem constNamesList_rename (ren : Str → Str) : ∀ is : List Lit,
    constNamesList (Lit.renameList ren is) = (constNamesList is).map ren
  | [] => by simp [Lit.renameList, constNamesList]
  | i :: is => by
    simp [Lit.renameList, constNamesList, constNames_rename ren i, constNamesList_rename ren is]
end

end Cbindgen
