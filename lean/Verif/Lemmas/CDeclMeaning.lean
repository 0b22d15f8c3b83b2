import Verif.Lemmas.CDecl

/-!
# The declaration built for a type denotes the C type of that type
-/

namespace Cbindgen
open CSpec

theorem den_push_ptr (cfg : DeclConfig) (d c nl rf) :
    (CDecl.push (.ptr c nl rf) d).den cfg = .ptr c rf (wantedAttr cfg nl rf) (d.den cfg) := by
  obtain ⟨⟩ := d
  simp [CDecl.push, CDecl.den, CDecl.denSteps, applySteps, Step.apply]

theorem den_push_array (cfg : DeclConfig) (d l) :
    (CDecl.push (.array l) d).den cfg = .arr l (d.den cfg) := by
  obtain ⟨⟩ := d
  simp [CDecl.push, CDecl.den, CDecl.denSteps, applySteps, Step.apply]

theorem den_push_func (cfg : DeclConfig) (d as nv) :
    (CDecl.push (.func as nv) d).den cfg =
      .fn (CDecl.denArgs cfg as) (wantedNoReturn cfg nv) (d.den cfg) := by
  obtain ⟨⟩ := d
  simp [CDecl.push, CDecl.den, CDecl.denSteps, applySteps, Step.apply]

theorem forget_ptr_cases (c : Bool) (r a) (t : CTy) :
    (∀ ps b ret, t ≠ .fn ps b ret) → CTy.forgetFnPtr (.ptr c r a t) = .ptr c r a (CTy.forgetFnPtr t) := by
  intro h
  cases t with
  | fn ps b ret => exact absurd rfl (h ps b ret)
  | _ => simp [CTy.forgetFnPtr]

theorem meaning_ne_fn (cfg : DeclConfig) (c : Bool) : ∀ (t : Ty) (ps b ret),
    meaning cfg c t ≠ .fn ps b ret := by
  intro t ps b ret; cases t <;> simp [meaning]

theorem den_ne_fn (cfg : DeclConfig) (c : Bool) : ∀ (t : Ty) (ps b ret),
    (CDecl.buildType cfg t c).den cfg ≠ .fn ps b ret := by
  intro t ps b ret
  cases t <;> simp [CDecl.buildType, den_push_ptr, den_push_array, CDecl.den, CDecl.denSteps, applySteps]

mutual
theorem den_forget (cfg : DeclConfig) : ∀ (t : Ty) (c : Bool),
    ((CDecl.buildType cfg t c).den cfg).forgetFnPtr = (meaning cfg c t).forgetFnPtr
  | .ptr t pc nl rf, c => by
    rw [CDecl.buildType, den_push_ptr, meaning, forget_ptr_cases _ _ _ _ (den_ne_fn cfg pc t),
      forget_ptr_cases _ _ _ _ (meaning_ne_fn cfg pc t), den_forget cfg t pc]
  | .array t l, c => by
    simp [CDecl.buildType, den_push_array, meaning, CTy.forgetFnPtr, den_forget cfg t c]
  | .fnptr ret args nl nv, c => by
    simp [CDecl.buildType, den_push_ptr, den_push_func, meaning, CTy.forgetFnPtr,
      den_forget cfg ret false, denArgs_forget cfg args]
  | .prim p, c => by
    simp [CDecl.buildType, meaning, CDecl.den, CDecl.denSteps, applySteps, denTag, CDecl.denG]
  | .path n e gs k, c => by
    simp [CDecl.buildType, meaning, CDecl.den, CDecl.denSteps, applySteps, denTag,
      CTy.forgetFnPtr, denG_forget cfg gs]
theorem denArgs_forget (cfg : DeclConfig) : ∀ (as : List FArg),
    CTy.forgetParams (CDecl.denArgs cfg (CDecl.buildFArgs cfg as)) =
      CTy.forgetParams (meaningArgs cfg as)
  | [] => by simp [CDecl.buildFArgs, CDecl.denArgs, meaningArgs]
  | .mk n t :: as => by
    simp [CDecl.buildFArgs, CDecl.denArgs, meaningArgs, CTy.forgetParams, den_forget cfg t false,
      denArgs_forget cfg as]
theorem denG_forget (cfg : DeclConfig) : ∀ (gs : List GArg),
    CTy.forgetTyArgs (CDecl.denG cfg (CDecl.buildGArgs cfg gs)) =
      CTy.forgetTyArgs (meaningGArgs cfg gs)
  | [] => by simp [CDecl.buildGArgs, CDecl.denG, meaningGArgs]
  | .type t :: as => by
    simp [CDecl.buildGArgs, CDecl.denG, meaningGArgs, CTy.forgetTyArgs, den_forget cfg t false,
      denG_forget cfg as]
  | .const s :: as => by
    simp [CDecl.buildGArgs, CDecl.denG, meaningGArgs, CTy.forgetTyArgs, denG_forget cfg as]
end

mutual
theorem den_plain (cfg : DeclConfig) : ∀ (t : Ty) (c : Bool), FnPtrPlain cfg c t →
    (CDecl.buildType cfg t c).den cfg = meaning cfg c t
  | .ptr t pc nl rf, c, h => by
    simp only [FnPtrPlain] at h
    rw [CDecl.buildType, den_push_ptr, meaning, den_plain cfg t pc h]
  | .array t l, c, h => by
    simp only [FnPtrPlain] at h
    rw [CDecl.buildType, den_push_array, meaning, den_plain cfg t c h]
  | .fnptr ret args nl nv, c, h => by
    simp only [FnPtrPlain] at h
    obtain ⟨rfl, h1, h2, h3⟩ := h
    have : wantedAttr cfg true false = wantedAttr cfg nl false := by
      rcases h1 with rfl | h1
      · rfl
      · cases nl
        · exact h1.symm
        · rfl
    rw [CDecl.buildType, den_push_ptr, den_push_func, meaning, den_plain cfg ret false h2,
      denArgs_plain cfg args h3, this]
  | .prim p, c, _ => by
    simp [CDecl.buildType, meaning, CDecl.den, CDecl.denSteps, applySteps, denTag, CDecl.denG]
  | .path n e gs k, c, h => by
    simp only [FnPtrPlain] at h
    simp [CDecl.buildType, meaning, CDecl.den, CDecl.denSteps, applySteps, denTag,
      denG_plain cfg gs h]
theorem denArgs_plain (cfg : DeclConfig) : ∀ (as : List FArg), FnPtrPlainArgs cfg as →
    CDecl.denArgs cfg (CDecl.buildFArgs cfg as) = meaningArgs cfg as
  | [], _ => by simp [CDecl.buildFArgs, CDecl.denArgs, meaningArgs]
  | .mk n t :: as, h => by
    simp only [FnPtrPlainArgs] at h
    simp [CDecl.buildFArgs, CDecl.denArgs, meaningArgs, den_plain cfg t false h.1,
      denArgs_plain cfg as h.2]
theorem denG_plain (cfg : DeclConfig) : ∀ (gs : List GArg), FnPtrPlainGArgs cfg gs →
    CDecl.denG cfg (CDecl.buildGArgs cfg gs) = meaningGArgs cfg gs
  | [], _ => by simp [CDecl.buildGArgs, CDecl.denG, meaningGArgs]
  | .type t :: as, h => by
    simp only [FnPtrPlainGArgs] at h
    simp [CDecl.buildGArgs, CDecl.denG, meaningGArgs, den_plain cfg t false h.1,
      denG_plain cfg as h.2]
  | .const s :: as, h => by
    simp only [FnPtrPlainGArgs] at h
    simp [CDecl.buildGArgs, CDecl.denG, meaningGArgs, denG_plain cfg as h]
end

theorem forget_eq_void {t : CTy}
    (h : t.forgetFnPtr = .base false none c!"void" []) : t = .base false none c!"void" [] := by
  cases t with
  | base c k n as =>
    cases as with
    | nil => simpa [CTy.forgetFnPtr, CTy.forgetTyArgs] using h
    | cons a as => cases a <;> simp [CTy.forgetFnPtr, CTy.forgetTyArgs] at h
  | ptr c r a t => cases t <;> simp [CTy.forgetFnPtr] at h
  | arr l t => simp [CTy.forgetFnPtr] at h
  | fn ps a ret => simp [CTy.forgetFnPtr] at h

theorem forgetParams_eq_void {ps : List CParam} (h : CTy.forgetParams ps = voidParams) :
    isVoidList ps := by
  match ps with
  | [] => simp [CTy.forgetParams, voidParams] at h
  | [.mk n t] =>
    simp [CTy.forgetParams, voidParams] at h
    obtain ⟨rfl, h⟩ := h
    obtain rfl := forget_eq_void h
    simp [isVoidList]
  | .mk _ _ :: .mk _ _ :: _ => simp [CTy.forgetParams, voidParams] at h

theorem denArgs_ne_void (cfg : DeclConfig) (as : List FArg) (h : ¬ isVoidList (meaningArgs cfg as)) :
    CDecl.denArgs cfg (CDecl.buildFArgs cfg as) ≠ voidParams := by
  intro hv
  apply h
  apply forgetParams_eq_void
  rw [← denArgs_forget, hv]
  simp [voidParams, CTy.forgetParams, CTy.forgetFnPtr, CTy.forgetTyArgs]

theorem ok_push_ptr (cfg : DeclConfig) (d p c nl rf) (h : CDecl.ok cfg true d) :
    CDecl.ok cfg p (d.push (.ptr c nl rf)) := by
  obtain ⟨⟩ := d
  simpa [CDecl.push, CDecl.ok, CDecl.okDs] using h

theorem ok_push_array (cfg : DeclConfig) (d p l) (h : CDecl.ok cfg false d) :
    CDecl.ok cfg p (d.push (.array l)) := by
  obtain ⟨⟩ := d
  simpa [CDecl.push, CDecl.ok, CDecl.okDs] using h

theorem ok_push_func (cfg : DeclConfig) (d as nv) (h : CDecl.ok cfg false d)
    (h1 : CDecl.denArgs cfg as ≠ voidParams) (h2 : CDecl.okArgs cfg as) :
    CDecl.ok cfg true (d.push (.func as nv)) := by
  obtain ⟨⟩ := d
  simp [CDecl.push, CDecl.ok, CDecl.okDs] at h ⊢
  exact ⟨h.1, h1, h2, h.2⟩

mutual
theorem build_ok (cfg : DeclConfig) : ∀ (t : Ty) (c p : Bool), NoVoidParam cfg t →
    CDecl.ok cfg p (CDecl.buildType cfg t c)
  | .ptr t pc nl rf, c, p, h => by
    simp only [NoVoidParam] at h
    exact ok_push_ptr cfg _ p _ _ _ (build_ok cfg t pc true h)
  | .array t l, c, p, h => by
    simp only [NoVoidParam] at h
    exact ok_push_array cfg _ p _ (build_ok cfg t c false h)
  | .fnptr ret args nl nv, c, p, h => by
    simp only [NoVoidParam] at h
    exact ok_push_ptr cfg _ p _ _ _ (ok_push_func cfg _ _ _ (build_ok cfg ret false false h.2.1)
      (denArgs_ne_void cfg args h.1) (buildArgs_ok cfg args h.2.2))
  | .prim _, c, p, _ => by simp [CDecl.buildType, CDecl.ok, CDecl.okDs, CDecl.okG]
  | .path n e gs k, c, p, h => by
    simp only [NoVoidParam] at h
    simp [CDecl.buildType, CDecl.ok, CDecl.okDs, buildG_ok cfg gs h]
theorem buildArgs_ok (cfg : DeclConfig) : ∀ (as : List FArg), NoVoidParamArgs cfg as →
    CDecl.okArgs cfg (CDecl.buildFArgs cfg as)
  | [], _ => by simp [CDecl.buildFArgs, CDecl.okArgs]
  | .mk n t :: as, h => by
    simp only [NoVoidParamArgs] at h
    simp [CDecl.buildFArgs, CDecl.okArgs, build_ok cfg t false false h.1, buildArgs_ok cfg as h.2]
theorem buildG_ok (cfg : DeclConfig) : ∀ (gs : List GArg), NoVoidParamGArgs cfg gs →
    CDecl.okG cfg (CDecl.buildGArgs cfg gs)
  | [], _ => by simp [CDecl.buildGArgs, CDecl.okG]
  | .type t :: gs, h => by
    simp only [NoVoidParamGArgs] at h
    simp [CDecl.buildGArgs, CDecl.okG, build_ok cfg t false false h.1, buildG_ok cfg gs h.2]
  | .const s :: gs, h => by
    simp only [NoVoidParamGArgs] at h
    simp [CDecl.buildGArgs, CDecl.okG, buildG_ok cfg gs h]
end

end Cbindgen
