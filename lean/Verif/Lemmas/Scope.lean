import Verif.Spec.Scope
import Verif.Spec.HeaderAll
import Verif.Spec.Library

/-!
# What the declarations of a header need (C62)
-/

namespace Cbindgen.ScopeSpec
open LexSpec CSpec HeadSpec

/-! ## Types -/

mutual
theorem mentions_forget : ∀ t : CTy, mentions t.forgetFnPtr = mentions t
  | .base _ _ _ _ => by simp [CTy.forgetFnPtr, mentions]
  | .ptr _ _ _ (.fn ps _ ret) => by
    simp [CTy.forgetFnPtr, mentions, mentions_forget ret, mentionsParams_forget ps]
  | .ptr _ _ _ (.base ..) => by simp [CTy.forgetFnPtr, mentions]
  | .ptr _ _ _ (.ptr c r a t) => by
    have := mentions_forget (.ptr c r a t)
    simp [CTy.forgetFnPtr, mentions] at this ⊢
    exact this
  | .ptr _ _ _ (.arr _ t) => by simp [CTy.forgetFnPtr, mentions, mentions_forget t]
  | .arr _ t => by simp [CTy.forgetFnPtr, mentions, mentions_forget t]
  | .fn ps _ ret => by simp [CTy.forgetFnPtr, mentions, mentions_forget ret, mentionsParams_forget ps]
theorem mentionsParams_forget : ∀ ps : List CParam, mentionsParams (CTy.forgetParams ps) = mentionsParams ps
  | [] => by simp [CTy.forgetParams]
  | .mk _ t :: ps => by simp [CTy.forgetParams, mentionsParams, mentions_forget t, mentionsParams_forget ps]
end

theorem values_forget : ∀ t : CTy, values t.forgetFnPtr = values t
  | .base _ _ _ _ => by simp [CTy.forgetFnPtr, values]
  | .ptr _ _ _ (.fn ..) => by simp [CTy.forgetFnPtr, values]
  | .ptr _ _ _ (.base ..) => by simp [CTy.forgetFnPtr, values]
  | .ptr _ _ _ (.ptr ..) => by simp [CTy.forgetFnPtr, values]
  | .ptr _ _ _ (.arr ..) => by simp [CTy.forgetFnPtr, values]
  | .arr _ t => by simp [CTy.forgetFnPtr, values, values_forget t]
  | .fn .. => by simp [CTy.forgetFnPtr, values]

theorem needs_forget (t : CTy) : needs t.forgetFnPtr = needs t := by
  simp [needs, mentions_forget, values_forget]

/-- A name of a primitive type. -/
def PrimName (c : DeclConfig) (u : Name) : Prop := u.1 = none ∧ ∃ p : Prim, u.2 = p.toReprC c.usizeIsSizeT

mutual
theorem mentions_meaning {c : DeclConfig} (hc : c.language = .c) : ∀ (t : Ty) (b : Bool), ∀ u ∈ mentions (meaning c b t),
    (∃ p, Refers t p u.2 u.1) ∨ PrimName c u
  | .ptr t _ _ _, b, u, h => by
    rcases mentions_meaning hc t _ u (by simpa [meaning, mentions] using h) with ⟨p, h⟩ | h
    · exact .inl ⟨p, .ptr h⟩
    · exact .inr h
  | .array t _, b, u, h => by
    rcases mentions_meaning hc t _ u (by simpa [meaning, mentions] using h) with ⟨p, h⟩ | h
    · exact .inl ⟨p, .array h⟩
    · exact .inr h
  | .prim p, b, u, h => by
    simp only [meaning, mentions, List.mem_singleton] at h
    subst h
    exact .inr ⟨rfl, p, rfl⟩
  | .path p n gs k, b, u, h => by
    simp only [meaning, mentions, List.mem_singleton, hc, reduceCtorEq, if_false] at h
    subst h
    exact .inl ⟨p, .here ..⟩
  | .fnptr ret as _ _, b, u, h => by
    simp only [meaning, mentions, List.mem_append] at h
    rcases h with h | h
    · rcases mentions_meaningArgs hc as u h with ⟨a, t, p, ht, h⟩ | h
      · exact .inl ⟨p, .arg ht h⟩
      · exact .inr h
    · rcases mentions_meaning hc ret _ u h with ⟨p, h⟩ | h
      · exact .inl ⟨p, .ret h⟩
      · exact .inr h
theorem mentions_meaningArgs {c : DeclConfig} (hc : c.language = .c) : ∀ (as : List FArg),
    ∀ u ∈ mentionsParams (meaningArgs c as), (∃ a t p, FArg.mk a t ∈ as ∧ Refers t p u.2 u.1) ∨ PrimName c u
  | [], u, h => by simp [meaningArgs, mentionsParams] at h
  | .mk a t :: as, u, h => by
    simp only [meaningArgs, mentionsParams, List.mem_append] at h
    rcases h with h | h
    · rcases mentions_meaning hc t _ u h with ⟨p, h⟩ | h
      · exact .inl ⟨a, t, p, .head _, h⟩
      · exact .inr h
    · rcases mentions_meaningArgs hc as u h with ⟨a', t', p, h1, h2⟩ | h
      · exact .inl ⟨a', t', p, .tail _ h1, h2⟩
      · exact .inr h
end

theorem values_meaning {c : DeclConfig} (hc : c.language = .c) : ∀ (t : Ty) (b : Bool), ∀ u ∈ values (meaning c b t),
    (∃ p, Holds t p u.2 u.1) ∨ PrimName c u
  | .ptr .., b, u, h => by simp [meaning, values] at h
  | .array t _, b, u, h => by
    rcases values_meaning hc t _ u (by simpa [meaning, values] using h) with ⟨p, h⟩ | h
    · exact .inl ⟨p, .array h⟩
    · exact .inr h
  | .prim p, b, u, h => by
    simp only [meaning, values, List.mem_singleton] at h
    subst h
    exact .inr ⟨rfl, p, rfl⟩
  | .path p n gs k, b, u, h => by
    simp only [meaning, values, List.mem_singleton, hc, reduceCtorEq, if_false] at h
    subst h
    exact .inl ⟨p, .here ..⟩
  | .fnptr .., b, u, h => by simp [meaning, values] at h

/-- What a type needs in C is what it needs in Rust, apart from the names of primitive types. -/
theorem needs_meaning {c : DeclConfig} (hc : c.language = .c) {t : Ty} {b : Bool} {u : Name}
    (h : u ∈ needs (meaning c b t).forgetFnPtr) : (∃ p, TyNeeds t p u.2 u.1) ∨ PrimName c u := by
  rw [needs_forget] at h
  simp only [needs, List.mem_append, List.mem_filter, Option.isNone_iff_eq_none] at h
  rcases h with ⟨h, hn⟩ | h
  · rcases mentions_meaning hc t b u h with ⟨p, h⟩ | h
    · exact .inl ⟨p, .inl ⟨h, hn⟩⟩
    · exact .inr h
  · rcases values_meaning hc t b u h with ⟨p, h⟩ | h
    · exact .inl ⟨p, .inr h⟩
    · exact .inr h

theorem Holds.refers {t : Ty} {p n : Str} {k : Option DeclKind} (h : Holds t p n k) : Refers t p n k := by
  induction h with
  | here => exact .here ..
  | array _ ih => exact .array ih

theorem TyNeeds.refers {t : Ty} {p n : Str} {k : Option DeclKind} (h : TyNeeds t p n k) : Refers t p n k := by
  rcases h with h | h
  · exact h.1
  · exact h.refers

theorem Refers.uses {t : Ty} {p n : Str} {k : Option DeclKind} (h : Refers t p n k) : LibSpec.TyUses t p := by
  induction h with
  | here => exact .here ..
  | ptr _ ih => exact .ptr ih
  | array _ ih => exact .array ih
  | ret _ ih => exact .ret ih
  | arg ha _ ih => exact .arg ha ih

theorem itemsNeed_mem {ds : List CItem} {u : Name} : u ∈ itemsNeed ds ↔ ∃ d ∈ ds, u ∈ itemNeeds d := by
  induction ds with
  | nil => simp [itemsNeed]
  | cons d ds ih => simp [itemsNeed, ih]

/-! ## Members -/

theorem membersNeed {c : OutConfig} (hc : c.language = .c) {on : Str → Bool} {fs : List Field} {u : Name}
    (h : u ∈ itemsNeed (membersOf c on fs)) :
    (∃ f ∈ fs, ∃ p, TyNeeds f.ty p u.2 u.1) ∨ PrimName c.toDeclConfig u := by
  rw [itemsNeed_mem] at h
  obtain ⟨d, hd, hu⟩ := h
  simp only [membersOf, List.mem_map, List.mem_filter] at hd
  obtain ⟨f, ⟨hf, _⟩, rfl⟩ := hd
  rcases needs_meaning (c := c.toDeclConfig) hc (by simpa only [memberOf, itemNeeds] using hu) with ⟨p, h⟩ | h
  · exact .inl ⟨f, hf, p, h⟩
  · exact .inr h

end Cbindgen.ScopeSpec
