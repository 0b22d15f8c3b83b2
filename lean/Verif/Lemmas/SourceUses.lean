import Verif.Spec.SourceDefs
import Verif.Lemmas.SourceRuns
import Verif.Lemmas.Deps

/-!
# The types that a source type mentions are dependencies of the loaded type (C64)
-/

namespace Cbindgen
open CSpec SrcSpec LibSpec

/-! ## Simplification -/


theorem wrapper_std {w : Str} (h : w ∉ stdNames) (t : Ty) : simplifyWrapper .c w t = none := by
  have hn : ∀ s ∈ stdNames, w ≠ s := fun s hs e => h (e ▸ hs)
  unfold simplifyWrapper
  rw [if_neg (hn _ (by decide)), if_neg (hn _ (by decide)), if_neg (hn _ (by decide)),
    if_neg (fun e => hn _ (by decide) e.1), if_neg (by simp [hn c!"SyncUnsafeCell" (by decide), hn c!"UnsafeCell" (by decide), hn c!"Cell" (by decide)]),
    if_neg (by simp [hn c!"ManuallyDrop" (by decide), hn c!"MaybeUninit" (by decide), hn c!"Pin" (by decide)])]

theorem nullable_uses {t r : Ty} {x : Str} (h : t.makeNullable = some r) (hu : TyUses t x) : TyUses r x := by
  unfold Ty.makeNullable at h
  split at h
  · cases h
    cases hu with | ptr h => exact .ptr h
  · cases h
    cases hu with
    | ret h => exact .ret h
    | arg h h' => exact .arg h h'
  · cases h

theorem zeroable_uses {t r : Ty} {b : Bool} {x : Str} (h : t.makeZeroable b = some r) (hu : TyUses t x) : TyUses r x := by
  unfold Ty.makeZeroable at h
  split at h
  · cases hu
  · cases h

theorem wrapper_uses {w : Str} {t r : Ty} {x : Str} (h : simplifyWrapper .c w t = some r) (hu : TyUses t x) : TyUses r x := by
  unfold simplifyWrapper at h
  split at h
  · split at h
    · rename_i s hs
      cases h
      exact nullable_uses hs hu
    · exact zeroable_uses h hu
  · split at h
    · cases h; exact .ptr hu
    · split at h
      · exact zeroable_uses h hu
      · split at h
        · cases h; exact .ptr hu
        · split at h
          · cases h; exact hu
          · split at h
            · cases h; exact hu
            · cases h

/-- What is at the top of a simplified type, from its argument. -/
theorem wrapper_top {w e : Str} {k : Option DeclKind} {t : Ty} {x : Str} (hu : TyUses t x) :
    TyUses ((simplifyWrapper .c w t).getD (.path w e [.type t] k)) x := by
  cases h : simplifyWrapper .c w t with
  | none => exact .generic (by simp) hu
  | some r => exact wrapper_uses h hu

theorem simplified_uses {x : Str} (hx : x ∉ stdNames) {s : Ty} (h : TyUses s x) : TyUses ((s.simplified .c).getD s) x := by
  induction h with
  | here n e gs k =>
    cases gs with
    | nil => exact .here ..
    | cons g gs =>
      cases gs with
      | cons => exact .here ..
      | nil =>
        cases g with
        | const => exact .here ..
        | type t =>
          simp only [Ty.simplified, GArg.simplifiedList, GArg.simplified, List.isEmpty_nil, if_true, wrapper_std hx, Option.getD_none]
          exact .here ..
  | @generic m e gs k t n hg hu ih =>
    cases gs with
    | nil => simp at hg
    | cons g gs =>
      cases gs with
      | cons => exact .generic hg hu
      | nil =>
        obtain rfl := List.mem_singleton.1 hg
        simp only [Ty.simplified, GArg.simplifiedList, GArg.simplified, List.isEmpty_nil, if_true]
        cases h : simplifyWrapper .c m ((t.simplified .c).getD t) with
        | none => exact .generic hg hu
        | some r => exact wrapper_uses h (ih hx)
  | ptr h => exact .ptr h
  | array h => exact .array h
  | ret h => exact .ret h
  | arg h h' => exact .arg h h'

theorem shape_generic {o : Option Str} {w : Str} {t : Ty} (h : w ≠ c!"Self") :
    (Ty.newPath w [.type t]).shape o = (Ty.path w w [.type (t.shape o)] none).simplifyTop .c := by
  cases o with
  | none => rfl
  | some p =>
    simp only [Ty.shape, Ty.replaceSelfOpt, Ty.newPath, Ty.replaceSelf, replaceSelfName, if_neg h]
    rfl

/-! ## Loading -/

theorem not_builtin {n : Str} (h : n ∉ builtin) :
    n ≠ c!"PhantomData" ∧ n ≠ c!"PhantomPinned" ∧ n ≠ c!"Self" ∧ Prim.maybe n = none := by
  refine ⟨?_, ?_, ?_, ?_⟩
  · rintro rfl; exact h builtin_phantom.1
  · rintro rfl; exact h builtin_phantom.2.1
  · rintro rfl; exact h builtin_phantom.2.2
  · cases hp : Prim.maybe n with
    | none => rfl
    | some p => exact absurd (known_prim n (by simp [hp])) h

theorem mem_loadList {a : Option Str} {t : SynTy} (hn : ∀ r, t.load = .ok r → ∃ ty, r = some ty) :
    ∀ {k : Nat} {as : List SynFnArg} {fs : List FArg}, SynFnArg.loadList k as = .ok fs → SynFnArg.mk a t ∈ as →
    ∃ n ty, t.load = .ok (some ty) ∧ FArg.mk n ty ∈ fs
  | k, [], fs, h, hm => by simp at hm
  | k, .mk b u :: as, fs, h, hm => by
    simp only [SynFnArg.loadList, bind, Except.bind] at h
    split at h
    · cases h
    rename_i r hr
    rcases List.mem_cons.1 hm with hm | hm
    · obtain ⟨rfl, rfl⟩ := SynFnArg.mk.inj hm
      obtain ⟨ty, rfl⟩ := hn r hr
      dsimp only at h
      split at h
      · cases h
      · cases h
        exact ⟨(fnptrArgName k a).1, ty, hr, by simp⟩
    · split at h
      · exact mem_loadList hn h hm
      · split at h
        · cases h
        · rename_i fs' hfs
          cases h
          obtain ⟨n, ty, h1, h2⟩ := mem_loadList hn hfs hm
          exact ⟨n, ty, h1, by simp [h2]⟩


/-- A type that a source type mentions is used by the loaded type. -/
theorem mentions_uses {o : Option Str} {t : SynTy} {x : Str} (hx : x ∉ stdNames) (h : Mentions o t x) :
    ∀ r, t.load = .ok r → ∃ ty, r = some ty ∧ TyUses (ty.shape o) x := by
  induction h with
  | @named n as h1 h2 =>
    intro r hr
    obtain ⟨k1, k2, k3, k4⟩ := not_builtin h1
    rw [load_named h2 k1 k2 k4] at hr
    cases hr
    exact ⟨_, rfl, by rw [shape_named k3]; exact .here ..⟩
  | @self n as p h1 h2 h3 =>
    intro r hr
    subst h3
    rw [load_named h2 (by rw [h1]; decide) (by rw [h1]; decide) (by rw [h1]; exact maybe_phantom.2.2), h1] at hr
    cases hr
    exact ⟨_, rfl, by rw [shape_self]; exact .here ..⟩
  | @wrapped n t x h1 h2 ih =>
    intro r hr
    obtain ⟨k1, k2, k3, k4⟩ := not_builtin h1
    cases ht : t.load with
    | error e => simp [SynTy.load, k1, SynArgs.load, SynGArg.loadList, SynGArg.load, ht, bind, Except.bind] at hr
    | ok r' =>
      obtain ⟨ty, rfl, hu⟩ := ih hx r' ht
      simp only [SynTy.load, k1, SynArgs.load, SynGArg.loadList, SynGArg.load, ht, bind, Except.bind, consOpt, Option.map,
        typeOfPath, k2, or_self, if_false, k4] at hr
      cases hr
      refine ⟨_, rfl, ?_⟩
      rw [shape_generic k3, Ty.simplifyTop]
      simp only [Ty.simplified, GArg.simplifiedList, GArg.simplified, List.isEmpty_nil, if_true]
      cases h : simplifyWrapper .c (unraw n) (((ty.shape o).simplified .c).getD (ty.shape o)) with
      | none => exact .generic (by simp) hu
      | some r => exact wrapper_uses h (simplified_uses hx hu)
  | @raw m t x h ih =>
    intro r hr
    cases ht : t.load with
    | error e => simp [SynTy.load, ht, bind, Except.bind] at hr
    | ok r' =>
      obtain ⟨ty, rfl, hu⟩ := ih hx r' ht
      simp only [SynTy.load, ht, bind, Except.bind] at hr
      cases hr
      exact ⟨_, rfl, by rw [shape_ptr]; exact .ptr hu⟩
  | @reference m t x h ih =>
    intro r hr
    cases ht : t.load with
    | error e => simp [SynTy.load, ht, bind, Except.bind] at hr
    | ok r' =>
      obtain ⟨ty, rfl, hu⟩ := ih hx r' ht
      simp only [SynTy.load, ht, bind, Except.bind] at hr
      cases hr
      exact ⟨_, rfl, by rw [shape_ptr]; exact .ptr hu⟩
  | @array t e x h ih =>
    intro r hr
    cases ht : t.load with
    | error e => simp [SynTy.load, ht, bind, Except.bind] at hr
    | ok r' =>
      obtain ⟨ty, rfl, hu⟩ := ih hx r' ht
      simp only [SynTy.load, ht, bind, Except.bind] at hr
      split at hr
      · cases hr
      · cases hr
        exact ⟨_, rfl, by rw [shape_array]; exact .array hu⟩
  | @param ins v out a t x hm h ih =>
    intro r hr
    simp only [SynTy.load, bind, Except.bind] at hr
    split at hr
    · cases hr
    rename_i fs hfs
    split at hr
    · cases hr
    cases hr
    obtain ⟨n, ty, h1, h2⟩ := mem_loadList (fun r hr => let ⟨ty, e, _⟩ := ih hx r hr; ⟨ty, e⟩) hfs hm
    obtain ⟨ty', e, hu⟩ := ih hx _ h1
    cases e
    refine ⟨_, rfl, ?_⟩
    rw [shape_fnptr]
    exact .arg (a := n) (List.mem_map.2 ⟨_, List.mem_append.2 (Or.inl h2), rfl⟩) hu
  | @output ins v t x h ih =>
    intro r hr
    simp only [SynTy.load, bind, Except.bind] at hr
    split at hr
    · cases hr
    rename_i fs hfs
    split at hr
    · cases hr
    rename_i p hp
    cases hr
    refine ⟨_, rfl, ?_⟩
    rw [shape_fnptr]
    cases ht : t.load with
    | error e =>
      exfalso
      cases t <;> first | (cases h; done) | (simp only [SynRet.load, ht, bind, Except.bind] at hp; cases hp)
    | ok r' =>
      obtain ⟨ty, rfl, hu⟩ := ih hx r' ht
      have : (SynRet.type t).load = .ok (ty, false) := by
        cases t <;> first | (simp only [SynRet.load, ht, bind, Except.bind]; rfl) | (cases h)
      rw [this] at hp
      cases hp
      exact .ret hu

/-! ## After loading -/

theorem mem_resolveList (tag : Str → Option DeclKind) {a : FArg} : ∀ {as : List FArg}, a ∈ as → a.resolve tag ∈ FArg.resolveList tag as
  | b :: as, h => by
    rw [FArg.resolveList]
    rcases List.mem_cons.1 h with rfl | h
    · simp
    · exact List.mem_cons.2 (Or.inr (mem_resolveList tag h))
theorem mem_renameList (ren : Str → Str) (ps : List GParam) {a : FArg} : ∀ {as : List FArg}, a ∈ as → a.rename ren ps ∈ FArg.renameList ren ps as
  | b :: as, h => by
    rw [FArg.renameList]
    rcases List.mem_cons.1 h with rfl | h
    · simp
    · exact List.mem_cons.2 (Or.inr (mem_renameList ren ps h))
theorem mem_renameGList (ren : Str → Str) (ps : List GParam) {a : GArg} : ∀ {as : List GArg}, a ∈ as → a.rename ren ps ∈ GArg.renameList ren ps as
  | b :: as, h => by
    rw [GArg.renameList]
    rcases List.mem_cons.1 h with rfl | h
    · simp
    · exact List.mem_cons.2 (Or.inr (mem_renameGList ren ps h))

theorem resolve_uses (tag : Str → Option DeclKind) {t : Ty} {x : Str} (h : TyUses t x) : TyUses (t.resolve tag) x := by
  induction h with
  | here n e gs k => exact .here ..
  | generic hg hu ih => exact .generic hg hu
  | ptr h ih => exact .ptr ih
  | array h ih => exact .array ih
  | ret h ih => exact .ret ih
  | arg hm h ih => exact .arg (mem_resolveList tag hm) ih

theorem rename_uses (ren : Str → Str) (ps : List GParam) {t : Ty} {x : Str} (h : TyUses t x) : TyUses (t.rename ren ps) x := by
  induction h with
  | here n e gs k => exact .here ..
  | generic hg hu ih => exact .generic (mem_renameGList ren ps hg) ih
  | ptr h ih => exact .ptr ih
  | array h ih => exact .array ih
  | ret h ih => exact .ret ih
  | arg hm h ih => exact .arg (mem_renameList ren ps hm) ih

/-- A clean type at the end of the library stage. -/
theorem end_uses {c : LibConfig} {find : Ty → Option Str} {tag : Str → Option DeclKind} {t : Ty} (hc : (t.simplify .c).Clean)
    {x : Str} (h : TyUses (t.simplify .c) x) :
    TyUses (((if c.generateTag then Ty.resolve tag else id) ((t.simplify .c).manglePaths find)).rename c.ren []) x := by
  rw [clean_mangle find _ hc]
  refine rename_uses _ _ ?_
  cases c.generateTag
  · exact h
  · exact resolve_uses tag h

/-! ## Functions -/

theorem mem_trySkip {α β : Type} {f : α → LoadM (Option β)} : ∀ {xs : List α} {ys : List β} {x : α}, trySkipMap f xs = .ok ys →
    x ∈ xs → ∃ r, f x = .ok r ∧ ∀ y, r = some y → y ∈ ys
  | [], _, _, _, h => by simp at h
  | a :: xs, ys, x, h, hm => by
    simp only [trySkipMap, bind, Except.bind] at h
    split at h
    · cases h
    rename_i r hr
    split at h
    · cases h
    rename_i ys' hys
    rcases List.mem_cons.1 hm with rfl | hm
    · refine ⟨r, hr, ?_⟩
      rintro y rfl
      cases h
      simp
    · obtain ⟨r', h1, h2⟩ := mem_trySkip hys hm
      refine ⟨r', h1, fun y hy => ?_⟩
      have := h2 y hy
      cases r <;> (cases h; simp [this])

theorem typedParam_some {n : Option Str} {t : Ty} {r : Option FnArg} (h : typedParam n t = .ok r) : r = some { name := n, ty := t } := by
  cases t <;> simp [typedParam, loadErr] at h <;> exact h.symm

/-- A type that a signature mentions is used by the loaded function. -/
theorem sig_uses {o : Option Str} {s : SynSig} {x : Str} (hx : x ∉ stdNames) (h : SigMentions o s x) {path : Str} {ext : Bool}
    {attrs : List SAttr} {m : Option Cfg} {f : FuncItem} (hf : s.load path o ext attrs m = .ok f) :
    TyUses (f.ret.simplify .c) x ∨ ∃ a ∈ f.args, TyUses (a.ty.simplify .c) x := by
  simp only [SynSig.load, bind, Except.bind] at hf
  split at hf
  · cases hf
  rename_i args hargs
  split at hf
  · cases hf
  rename_i r hr
  split at hf
  · cases hf
  cases hf
  have key : ∀ p a, p ∈ s.inputs → p.load = .ok (some a) → TyUses (a.ty.shape o) x →
      TyUses ((r.1.replaceSelfOpt o).simplify .c) x ∨
        ∃ a ∈ (args ++ if s.variadic = true then [({ name := none, ty := .prim .vaList } : FnArg)] else []).map
          fun a => ({ a with ty := a.ty.replaceSelfOpt o } : FnArg), TyUses (a.ty.simplify .c) x := by
    intro p a hp ha hu
    obtain ⟨r', h1, h2⟩ := mem_trySkip hargs hp
    rw [ha] at h1
    cases h1
    exact Or.inr ⟨_, List.mem_map.2 ⟨a, List.mem_append.2 (Or.inl (h2 a rfl)), rfl⟩, hu⟩
  have typed : ∀ p t, p ∈ s.inputs → Mentions o t x →
      (∀ ty, t.load = .ok (some ty) → ∃ n, p.load = typedParam n ty) → (∀ e, t.load = .error e → p.load = .error e) →
      TyUses ((r.1.replaceSelfOpt o).simplify .c) x ∨
        ∃ a ∈ (args ++ if s.variadic = true then [({ name := none, ty := .prim .vaList } : FnArg)] else []).map
          fun a => ({ a with ty := a.ty.replaceSelfOpt o } : FnArg), TyUses (a.ty.simplify .c) x := by
    intro p t hp hm h1 h2
    obtain ⟨r', h3, h4⟩ := mem_trySkip hargs hp
    cases ht : t.load with
    | error e => rw [h2 e ht] at h3; cases h3
    | ok rt =>
      obtain ⟨ty, rfl, hu⟩ := mentions_uses hx hm rt ht
      obtain ⟨n, hn⟩ := h1 ty ht
      have := typedParam_some (hn ▸ h3)
      subst this
      exact key p _ hp h3 hu
  cases h with
  | value hm ho =>
    subst ho
    exact key _ _ hm rfl (by rw [selfTy, shape_self]; exact .here ..)
  | reference hm ho =>
    subst ho
    exact key _ _ hm rfl (by rw [selfTy, shape_ptr, shape_self]; exact .ptr (.here ..))
  | @wild t hm h =>
    exact typed _ t hm h (fun ty ht => ⟨none, by simp only [SynParam.load, ht, bind, Except.bind]⟩)
      (fun e ht => by simp only [SynParam.load, ht, bind, Except.bind])
  | @ident n t hm h =>
    exact typed _ t hm h (fun ty ht => ⟨_, by simp only [SynParam.load, ht, bind, Except.bind]; rfl⟩)
      (fun e ht => by simp only [SynParam.load, ht, bind, Except.bind])
  | @output t he h =>
    left
    rw [he] at hr
    cases ht : t.load with
    | error e =>
      exfalso
      cases t <;> first | (cases h; done) | (simp only [SynRet.load, ht, bind, Except.bind] at hr; cases hr)
    | ok r' =>
      obtain ⟨ty, rfl, hu⟩ := mentions_uses hx h r' ht
      have : (SynRet.type t).load = .ok (ty, false) := by
        cases t <;> first | (simp only [SynRet.load, ht, bind, Except.bind]; rfl) | (cases h)
      rw [this] at hr
      cases hr
      exact hu

end Cbindgen
