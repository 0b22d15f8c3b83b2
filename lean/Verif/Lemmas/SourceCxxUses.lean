import Verif.Lemmas.SourceCxx
import Verif.Lemmas.SourceDefs
import Verif.Spec.SourceCxxDefs

/-!
# The types that a source type mentions are dependencies of the loaded type, in C++ (C76)
-/

namespace Cbindgen
open CSpec LibSpec HeadSpec LexSpec
open SrcSpec hiding Reaches Given Plain

theorem wrapper_usesX {w : Str} {t r : Ty} {x : Str} (h : simplifyWrapper .cxx w t = some r) (hu : TyUses t x) : TyUses r x := by
  unfold simplifyWrapper at h
  split at h
  · split at h
    · rename_i s hs
      cases h
      exact nullable_uses hs hu
    · exact zeroable_uses h hu
  · split at h
    · cases h; exact .ptr hu
    · split at h
      · exact zeroable_uses h hu
      · split at h
        · cases h; exact .ptr hu
        · split at h
          · cases h; exact hu
          · split at h
            · cases h; exact hu
            · cases h

theorem mem_loadGList {t : SynTy} (hn : ∀ r, t.load = .ok r → ∃ ty, r = some ty) :
    ∀ {as : List SynGArg} {gs : List GArg}, SynGArg.loadList as = .ok gs → SynGArg.type t ∈ as →
    ∃ ty, t.load = .ok (some ty) ∧ GArg.type ty ∈ gs
  | [], gs, h, hm => by simp at hm
  | a :: as, gs, h, hm => by
    simp only [SynGArg.loadList, bind, Except.bind] at h
    split at h
    · cases h
    rename_i r hr
    split at h
    · cases h
    rename_i gs' hgs
    cases h
    rcases List.mem_cons.1 hm with rfl | hm
    · simp only [SynGArg.load, bind, Except.bind] at hr
      split at hr
      · cases hr
      rename_i r' hr'
      cases hr
      obtain ⟨ty, rfl⟩ := hn r' hr'
      exact ⟨ty, hr', by simp [consOpt]⟩
    · obtain ⟨ty, h1, h2⟩ := mem_loadGList hn hgs hm
      exact ⟨ty, h1, by cases r <;> simp [consOpt, h2]⟩

/-- What an argument uses is used by the type. -/
theorem shapeX_argument {o : Option Str} {n : Str} (h : n ≠ c!"Self") {gs : List GArg} {t : Ty} (hg : GArg.type t ∈ gs) {x : Str}
    (hu : TyUses (t.shapeX o) x) : TyUses ((Ty.newPath n gs).shapeX o) x := by
  have hm : GArg.type (t.shapeX o) ∈ gs.map (GArg.shapeX o) := List.mem_map.2 ⟨_, hg, rfl⟩
  match gs, hg, hm with
  | [.type t'], hg, hm =>
    obtain rfl : t = t' := by simpa using hg
    rw [shapeX_wrapped h]
    cases hw : simplifyWrapper .cxx n (t.shapeX o) with
    | none => exact .generic (by simp) hu
    | some r => exact wrapper_usesX hw hu
  | [.const e], hg, hm => simp at hg
  | a :: b :: gs, hg, hm =>
    rw [shapeX_path h]
    exact .generic hm hu

/-- A type that a source type mentions is used by the loaded type. -/
theorem mentions_usesX {o : Option Str} {t : SynTy} {x : Str} (h : CxxMentions o t x) :
    ∀ r, t.load = .ok r → ∃ ty, r = some ty ∧ TyUses (ty.shapeX o) x := by
  induction h with
  | @named n as h1 h2 =>
    intro r hr
    obtain ⟨k1, k2, k3, k4⟩ := not_builtin h1
    rw [load_named h2 k1 k2 k4] at hr
    cases hr
    exact ⟨_, rfl, by rw [shapeX_named k3]; exact .here ..⟩
  | @self n as p h1 h2 h3 =>
    intro r hr
    subst h3
    rw [load_named h2 (by rw [h1]; decide) (by rw [h1]; decide) (by rw [h1]; exact maybe_phantom.2.2), h1] at hr
    cases hr
    exact ⟨_, rfl, by rw [shapeX_self]; exact .here ..⟩
  | @template n as h1 h2 =>
    intro r hr
    obtain ⟨k1, k2, k3, k4⟩ := not_builtin h1
    simp only [SynTy.load, k1, if_false, SynArgs.load, bind, Except.bind] at hr
    split at hr
    · cases hr
    rename_i gs hgs
    simp only [typeOfPath, k1, k2, or_self, if_false, k4] at hr
    cases hr
    exact ⟨_, rfl, by rw [shapeX_inst k3 h2]; exact .here ..⟩
  | @argument n t as x h1 h2 _ ih =>
    intro r hr
    obtain ⟨k1, k2, k3, k4⟩ := not_builtin h1
    simp only [SynTy.load, k1, if_false, SynArgs.load, bind, Except.bind] at hr
    split at hr
    · cases hr
    rename_i gs hgs
    simp only [typeOfPath, k1, k2, or_self, if_false, k4] at hr
    cases hr
    obtain ⟨ty, h3, h4⟩ := mem_loadGList (fun r hr => let ⟨ty, e, _⟩ := ih r hr; ⟨ty, e⟩) hgs h2
    obtain ⟨ty', e, hu⟩ := ih _ h3
    cases e
    exact ⟨_, rfl, shapeX_argument k3 h4 hu⟩
  | @raw m t x h ih =>
    intro r hr
    cases ht : t.load with
    | error e => simp [SynTy.load, ht, bind, Except.bind] at hr
    | ok r' =>
      obtain ⟨ty, rfl, hu⟩ := ih r' ht
      simp only [SynTy.load, ht, bind, Except.bind] at hr
      cases hr
      exact ⟨_, rfl, by rw [shapeX_ptr]; exact .ptr hu⟩
  | @reference m t x h ih =>
    intro r hr
    cases ht : t.load with
    | error e => simp [SynTy.load, ht, bind, Except.bind] at hr
    | ok r' =>
      obtain ⟨ty, rfl, hu⟩ := ih r' ht
      simp only [SynTy.load, ht, bind, Except.bind] at hr
      cases hr
      exact ⟨_, rfl, by rw [shapeX_ptr]; exact .ptr hu⟩
  | @array t e x h ih =>
    intro r hr
    cases ht : t.load with
    | error e => simp [SynTy.load, ht, bind, Except.bind] at hr
    | ok r' =>
      obtain ⟨ty, rfl, hu⟩ := ih r' ht
      simp only [SynTy.load, ht, bind, Except.bind] at hr
      split at hr
      · cases hr
      · cases hr
        exact ⟨_, rfl, by rw [shapeX_array]; exact .array hu⟩
  | @param ins v out a t x hm h ih =>
    intro r hr
    simp only [SynTy.load, bind, Except.bind] at hr
    split at hr
    · cases hr
    rename_i fs hfs
    split at hr
    · cases hr
    cases hr
    obtain ⟨n, ty, h1, h2⟩ := mem_loadList (fun r hr => let ⟨ty, e, _⟩ := ih r hr; ⟨ty, e⟩) hfs hm
    obtain ⟨ty', e, hu⟩ := ih _ h1
    cases e
    refine ⟨_, rfl, ?_⟩
    rw [shapeX_fnptr]
    exact .arg (a := n) (List.mem_map.2 ⟨_, List.mem_append.2 (Or.inl h2), rfl⟩) hu
  | @output ins v t x h ih =>
    intro r hr
    simp only [SynTy.load, bind, Except.bind] at hr
    split at hr
    · cases hr
    rename_i fs hfs
    split at hr
    · cases hr
    rename_i p hp
    cases hr
    refine ⟨_, rfl, ?_⟩
    rw [shapeX_fnptr]
    cases ht : t.load with
    | error e =>
      exfalso
      cases t <;> first | (cases h; done) | (simp only [SynRet.load, ht, bind, Except.bind] at hp; cases hp)
    | ok r' =>
      obtain ⟨ty, rfl, hu⟩ := ih r' ht
      have : (SynRet.type t).load = .ok (ty, false) := by
        cases t <;> first | (simp only [SynRet.load, ht, bind, Except.bind]; rfl) | (cases h)
      rw [this] at hp
      cases hp
      exact .ret hu

/-- A type that a signature mentions is used by the loaded function. -/
theorem sig_usesX {o : Option Str} {s : SynSig} {x : Str} (h : CxxSigMentions o s x) {path : Str} {ext : Bool}
    {attrs : List SAttr} {m : Option Cfg} {f : FuncItem} (hf : s.load path o ext attrs m = .ok f) :
    TyUses (f.ret.simplify .cxx) x ∨ ∃ a ∈ f.args, TyUses (a.ty.simplify .cxx) x := by
  simp only [SynSig.load, bind, Except.bind] at hf
  split at hf
  · cases hf
  rename_i args hargs
  split at hf
  · cases hf
  rename_i r hr
  split at hf
  · cases hf
  cases hf
  have key : ∀ p a, p ∈ s.inputs → p.load = .ok (some a) → TyUses (a.ty.shapeX o) x →
      TyUses ((r.1.replaceSelfOpt o).simplify .cxx) x ∨
        ∃ a ∈ (args ++ if s.variadic = true then [({ name := none, ty := .prim .vaList } : FnArg)] else []).map
          fun a => ({ a with ty := a.ty.replaceSelfOpt o } : FnArg), TyUses (a.ty.simplify .cxx) x := by
    intro p a hp ha hu
    obtain ⟨r', h1, h2⟩ := mem_trySkip hargs hp
    rw [ha] at h1
    cases h1
    exact Or.inr ⟨_, List.mem_map.2 ⟨a, List.mem_append.2 (Or.inl (h2 a rfl)), rfl⟩, hu⟩
  have typed : ∀ p t, p ∈ s.inputs → CxxMentions o t x →
      (∀ ty, t.load = .ok (some ty) → ∃ n, p.load = typedParam n ty) → (∀ e, t.load = .error e → p.load = .error e) →
      TyUses ((r.1.replaceSelfOpt o).simplify .cxx) x ∨
        ∃ a ∈ (args ++ if s.variadic = true then [({ name := none, ty := .prim .vaList } : FnArg)] else []).map
          fun a => ({ a with ty := a.ty.replaceSelfOpt o } : FnArg), TyUses (a.ty.simplify .cxx) x := by
    intro p t hp hm h1 h2
    obtain ⟨r', h3, h4⟩ := mem_trySkip hargs hp
    cases ht : t.load with
    | error e => rw [h2 e ht] at h3; cases h3
    | ok rt =>
      obtain ⟨ty, rfl, hu⟩ := mentions_usesX hm rt ht
      obtain ⟨n, hn⟩ := h1 ty ht
      have := typedParam_some (hn ▸ h3)
      subst this
      exact key p _ hp h3 hu
  cases h with
  | value hm ho =>
    subst ho
    exact key _ _ hm rfl (by rw [selfTy, shapeX_self]; exact .here ..)
  | reference hm ho =>
    subst ho
    exact key _ _ hm rfl (by rw [selfTy, shapeX_ptr, shapeX_self]; exact .ptr (.here ..))
  | @wild t hm h =>
    exact typed _ t hm h (fun ty ht => ⟨none, by simp only [SynParam.load, ht, bind, Except.bind]⟩)
      (fun e ht => by simp only [SynParam.load, ht, bind, Except.bind])
  | @ident n t hm h =>
    exact typed _ t hm h (fun ty ht => ⟨_, by simp only [SynParam.load, ht, bind, Except.bind]; rfl⟩)
      (fun e ht => by simp only [SynParam.load, ht, bind, Except.bind])
  | @output t he h =>
    left
    rw [he] at hr
    cases ht : t.load with
    | error e =>
      exfalso
      cases t <;> first | (cases h; done) | (simp only [SynRet.load, ht, bind, Except.bind] at hr; cases hr)
    | ok r' =>
      obtain ⟨ty, rfl, hu⟩ := mentions_usesX h r' ht
      have : (SynRet.type t).load = .ok (ty, false) := by
        cases t <;> first | (simp only [SynRet.load, ht, bind, Except.bind]; rfl) | (cases h)
      rw [this] at hr
      cases hr
      exact hu

/-- What a field mentions is used by a loaded field. -/
theorem fields_usesX {x : Str} {o : Str} {k : Option Nat} {f : SynField} {fs : List SynField} {fields : List Field}
    (h : loadFields o k fs = .ok fields) (hf : f ∈ fs) (hm : CxxMentions (some o) f.ty x) :
    ∃ g ∈ fields, TyUses (g.ty.simplify .cxx) x := by
  have key : ∃ r, f.ty.load = .ok r ∧ ∀ ty, r = some ty → ∃ g ∈ fields, g.ty = ty.replaceSelf o := by
    cases k with
    | some k => exact mem_tupleFields h hf
    | none =>
      obtain ⟨r, h1, h2⟩ := mem_trySkip h hf
      simp only [SynField.load, bind, Except.bind] at h1
      split at h1
      · cases h1
      rename_i r' hr
      split at h1
      · exact ⟨_, hr, nofun⟩
      · split at h1
        · cases h1
        split at h1
        · cases h1
        cases h1
        refine ⟨_, hr, ?_⟩
        rintro ty e
        cases e
        exact ⟨_, h2 _ rfl, rfl⟩
  obtain ⟨r, h1, h2⟩ := key
  obtain ⟨ty, rfl, hu⟩ := mentions_usesX hm r h1
  obtain ⟨g, hg, e⟩ := h2 ty rfl
  exact ⟨g, hg, by rw [e]; exact hu⟩

end Cbindgen
