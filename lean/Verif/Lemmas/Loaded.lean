import Verif.Lemmas.SourceTables
import Verif.Lemmas.Refs
import Verif.Props.Monomorphs

/-!
# What holds of all tables that are loaded from sources (C70)
-/

namespace Cbindgen

open RefSpec

/-! ## Lists -/

theorem tryMap_mem {α β : Type} {f : α → LoadM β} : ∀ {xs : List α} {ys : List β}, tryMap f xs = .ok ys →
    ∀ y ∈ ys, ∃ x ∈ xs, f x = .ok y
  | [], ys, h, y, hy => by cases h; simp at hy
  | x :: xs, ys, h, y, hy => by
    simp only [tryMap, bind, Except.bind] at h
    split at h
    · cases h
    · rename_i z hz
      split at h
      · cases h
      · rename_i zs hzs
        cases h
        rcases List.mem_cons.1 hy with rfl | hy
        · exact ⟨x, by simp, hz⟩
        · obtain ⟨w, hw, h'⟩ := tryMap_mem hzs y hy
          exact ⟨w, by simp [hw], h'⟩

theorem trySkipMap_mem {α β : Type} {f : α → LoadM (Option β)} : ∀ {xs : List α} {ys : List β}, trySkipMap f xs = .ok ys →
    ∀ y ∈ ys, ∃ x ∈ xs, f x = .ok (some y)
  | [], ys, h, y, hy => by cases h; simp at hy
  | x :: xs, ys, h, y, hy => by
    simp only [trySkipMap, bind, Except.bind] at h
    split at h
    · cases h
    · rename_i z hz
      split at h
      · cases h
      · rename_i zs hzs
        cases z with
        | none =>
          cases h
          obtain ⟨w, hw, h'⟩ := trySkipMap_mem hzs y hy
          exact ⟨w, by simp [hw], h'⟩
        | some z =>
          cases h
          rcases List.mem_cons.1 hy with rfl | hy
          · exact ⟨x, by simp, hz⟩
          · obtain ⟨w, hw, h'⟩ := trySkipMap_mem hzs y hy
            exact ⟨w, by simp [hw], h'⟩

/-! ## Types -/

theorem plain_orVoid {t : Option Ty} (h : ∀ u, t = some u → Plain u) : Plain (orVoid t) := by
  cases t with
  | none => exact trivial
  | some u => exact h u rfl

theorem plain_typeOfPath {n : Str} {gs : List GArg} {t : Ty} (hg : PlainArgs gs) (h : typeOfPath n gs = .ok (some t)) :
    Plain t := by
  unfold typeOfPath at h
  split at h
  · cases h
  · split at h
    · split at h
      · cases h; exact trivial
      · cases h
    · cases h; exact plain_newPath hg

theorem plain_variadic (as : List FArg) (b : Bool) (h : PlainFArgs as) : PlainFArgs (as ++ variadicArg b) := by
  rw [plainFArgs_iff] at h ⊢
  intro n t ht
  rcases List.mem_append.1 ht with ht | ht
  · exact h n t ht
  · unfold variadicArg at ht
    split at ht
    · simp only [List.mem_singleton, FArg.mk.injEq] at ht
      rw [ht.2]
      exact trivial
    · simp at ht

mutual
theorem plain_load : ∀ (s : SynTy) (t : Ty), s.load = .ok (some t) → Plain t
  | .reference m e, t, h => by
    simp only [SynTy.load, bind, Except.bind] at h
    split at h
    · cases h
    · rename_i u hu
      cases h
      exact plain_orVoid (fun v hv => plain_load e v (by rw [hu, hv]))
  | .ptr m e, t, h => by
    simp only [SynTy.load, bind, Except.bind] at h
    split at h
    · cases h
    · rename_i u hu
      cases h
      exact plain_orVoid (fun v hv => plain_load e v (by rw [hu, hv]))
  | .path n args, t, h => by
    simp only [SynTy.load, bind, Except.bind] at h
    split at h
    · cases h
    · split at h
      · cases h
      · rename_i gs hg
        exact plain_typeOfPath (plain_loadArgs args gs hg) h
  | .array e l, t, h => by
    simp only [SynTy.load, bind, Except.bind] at h
    split at h
    · cases h
    · rename_i u hu
      cases u with
      | none => cases h
      | some u =>
        simp only at h
        split at h
        · cases h
        · rename_i k hk
          cases h
          exact ⟨plain_load e u hu, plain_loadConst l k hk⟩
  | .fnptr ins v out, t, h => by
    simp only [SynTy.load, bind, Except.bind] at h
    split at h
    · cases h
    · rename_i as has
      split at h
      · cases h
      · rename_i r hr
        cases h
        exact ⟨plain_loadRet out r.1 r.2 hr, plain_variadic _ _ (plain_loadFnArgs ins 0 as has)⟩
  | .tuple [], t, h => by cases h
  | .tuple (_ :: _), t, h => by cases h
  | .never, t, h => by cases h
  | .dots, t, h => by cases h; exact trivial
  | .other, t, h => by cases h
theorem plain_loadArgs : ∀ (s : SynArgs) (gs : List GArg), s.load = .ok gs → PlainArgs gs
  | .none, gs, h => by cases h; exact trivial
  | .angle as, gs, h => plain_loadGArgs as gs h
  | .paren, gs, h => by cases h
theorem plain_loadGArgs : ∀ (as : List SynGArg) (gs : List GArg), SynGArg.loadList as = .ok gs → PlainArgs gs
  | [], gs, h => by cases h; exact trivial
  | a :: as, gs, h => by
    simp only [SynGArg.loadList, bind, Except.bind] at h
    split at h
    · cases h
    · rename_i x hx
      split at h
      · cases h
      · rename_i xs hxs
        cases h
        cases x with
        | none => exact plain_loadGArgs as xs hxs
        | some x => exact ⟨plain_loadGArg a x hx, plain_loadGArgs as xs hxs⟩
theorem plain_loadGArg : ∀ (a : SynGArg) (g : GArg), a.load = .ok (some g) → PlainArg g
  | .type t, g, h => by
    simp only [SynGArg.load, bind, Except.bind] at h
    split at h
    · cases h
    · rename_i u hu
      cases u with
      | none => cases h
      | some u => cases h; exact plain_load t u hu
  | .lifetime, g, h => by cases h
  | .const e, g, h => by
    simp only [SynGArg.load, bind, Except.bind] at h
    split at h
    · cases h
    · rename_i k hk
      cases h
      exact plain_loadConst e k hk
  | .other, g, h => by cases h
theorem plain_loadFnArgs : ∀ (as : List SynFnArg) (k : Nat) (fs : List FArg), SynFnArg.loadList k as = .ok fs → PlainFArgs fs
  | [], k, fs, h => by cases h; exact trivial
  | .mk n t :: as, k, fs, h => by
    simp only [SynFnArg.loadList, bind, Except.bind] at h
    split at h
    · cases h
    · rename_i u hu
      cases u with
      | none => exact plain_loadFnArgs as k fs h
      | some u =>
        simp only at h
        split at h
        · cases h
        · rename_i xs hxs
          cases h
          exact ⟨plain_load t u hu, plain_loadFnArgs as _ xs hxs⟩
theorem plain_loadRet : ∀ (r : SynRet) (t : Ty) (b : Bool), r.load = .ok (t, b) → Plain t
  | .default, t, b, h => by cases h; exact trivial
  | .type s, t, b, h => by
    cases s with
    | never => cases h; exact trivial
    | _ =>
      simp only [SynRet.load, bind, Except.bind] at h
      split at h
      · cases h
      · rename_i u hu
        cases h
        exact plain_orVoid (fun v hv => plain_load _ v (by rw [hu, hv]))
theorem plain_loadConst : ∀ (e : SynExpr) (k : CExpr), e.loadConst = .ok k → PlainConst k
  | .lit l, k, h => by
    cases l <;> cases h <;> exact trivial
  | .path i n args, k, h => by
    simp only [SynExpr.loadConst, bind, Except.bind] at h
    split at h
    · cases h; rfl
    · split at h
      · cases h
      · cases h; rfl
  | .cast e t, k, h => plain_loadConst e k h
  | .binary .., k, h => by cases h
  | .field .., k, h => by cases h
  | .call .., k, h => by cases h
  | .struct .., k, h => by cases h
  | .unary .., k, h => by cases h
  | .paren .., k, h => by cases h
  | .array .., k, h => by cases h
  | .methodCall .., k, h => by cases h
  | .other, k, h => by cases h
end

mutual
theorem plain_replaceSelf (s : Str) : ∀ t : Ty, Plain t → Plain (t.replaceSelf s)
  | .ptr t _ _ _, h => plain_replaceSelf s t h
  | .path n e gs k, h => by
    obtain ⟨h1, h2, h3⟩ := h
    refine ⟨?_, h2, plain_replaceSelfList s gs h3⟩
    unfold replaceSelfName
    split
    · rfl
    · exact h1
  | .prim _, _ => trivial
  | .array t l, h => ⟨plain_replaceSelf s t h.1, h.2⟩
  | .fnptr r as _ _, h => ⟨plain_replaceSelf s r h.1, plain_replaceSelfFArgs s as h.2⟩
theorem plain_replaceSelfArg (s : Str) : ∀ g : GArg, PlainArg g → PlainArg (g.replaceSelf s)
  | .type t, h => plain_replaceSelf s t h
  | .const _, h => h
theorem plain_replaceSelfList (s : Str) : ∀ gs : List GArg, PlainArgs gs → PlainArgs (GArg.replaceSelfList s gs)
  | [], _ => trivial
  | g :: gs, h => ⟨plain_replaceSelfArg s g h.1, plain_replaceSelfList s gs h.2⟩
theorem plain_replaceSelfFArgs (s : Str) : ∀ as : List FArg, PlainFArgs as → PlainFArgs (FArg.replaceSelfList s as)
  | [], _ => trivial
  | .mk _ t :: as, h => ⟨plain_replaceSelf s t h.1, plain_replaceSelfFArgs s as h.2⟩
end

theorem plain_replaceSelfOpt (s : Option Str) (t : Ty) (h : Plain t) : Plain (t.replaceSelfOpt s) := by
  cases s with
  | none => exact h
  | some s => exact plain_replaceSelf s t h

/-! ## Literals -/

/-- The names in a literal were not changed. -/
def PlainLit (v : Lit) : Prop := ∀ n e, LitMentions v n e → e = n

def PlainLitFields (fs : List LitField) : Prop := ∀ g v c, LitField.mk g v c ∈ fs → PlainLit v

theorem plain_litMap {fs : List LitField} (h : PlainLitFields fs) : PlainLitFields (litMap fs) := by
  have : ∀ (fs acc : List LitField), PlainLitFields fs → PlainLitFields acc → PlainLitFields (fs.foldl litInsert acc) := by
    intro fs
    induction fs with
    | nil => intro acc _ h; exact h
    | cons f fs ih =>
      intro acc h1 h2
      refine ih _ (fun g v c hm => h1 g v c (by simp [hm])) ?_
      intro g v c hm
      unfold litInsert at hm
      rcases List.mem_append.1 hm with hm | hm
      · exact h2 g v c (List.mem_filter.1 hm).1
      · exact h1 g v c (by simp_all)
  exact this fs [] h (by intro g v c hm; simp at hm)

/-- A hash map has the fields that were put into it, in some order. -/
def Reorders (ord : List LitField → List LitField) : Prop := ∀ fs, (ord fs).Perm fs

theorem plain_struct {ord : List LitField → List LitField} (ho : Reorders ord) {n : Str} {fs : List LitField}
    (h : PlainLitFields fs) : PlainLit (.struct n n (ord (litMap fs))) := by
  intro m e hm
  cases hm with
  | struct => rfl
  | field hf hm => exact plain_litMap h _ _ _ ((ho _).mem_iff.1 hf) _ _ hm

mutual
theorem plain_loadLit {ord : List LitField → List LitField} (ho : Reorders ord) : ∀ (e : SynExpr) (v : Lit), e.load ord = .ok v → PlainLit v
  | .binary l op r, v, h => by
    simp only [SynExpr.load, bind, Except.bind] at h
    split at h
    · cases h
    · rename_i x hx
      split at h
      · cases h
      · rename_i y hy
        cases h
        intro n e hm
        cases hm with
        | left hm => exact plain_loadLit ho l x hx _ _ hm
        | right hm => exact plain_loadLit ho r y hy _ _ hm
  | .lit l, v, h => by
    simp only [SynExpr.load, bind, Except.bind] at h
    split at h
    · cases h
    · cases h
      intro n e hm
      cases hm
  | .field b m, v, h => by
    simp only [SynExpr.load, bind, Except.bind] at h
    split at h
    · cases h
    · rename_i x hx
      cases h
      intro n e hm
      cases hm with
      | base hm => exact plain_loadLit ho b x hx _ _ hm
  | .call f as, v, h => by
    simp only [SynExpr.load, bind, Except.bind] at h
    split at h
    · cases h
    · split at h
      · cases h
      · split at h
        · cases h
        · rename_i fs hfs
          cases h
          exact plain_struct ho (plain_loadLitArgs ho as 0 fs hfs)
  | .struct n fs, v, h => by
    simp only [SynExpr.load, bind, Except.bind] at h
    split at h
    · cases h
    · rename_i xs hxs
      cases h
      exact plain_struct ho (plain_loadLitFields ho fs xs hxs)
  | .unary op e, v, h => by
    simp only [SynExpr.load, bind, Except.bind] at h
    split at h
    · cases h
    · split at h
      · cases h
      · rename_i x hx
        cases h
        intro n e' hm
        cases hm with
        | unary hm => exact plain_loadLit ho e x hx _ _ hm
  | .path i last as, v, h => by
    simp only [SynExpr.load, litPath] at h
    split at h
    · cases h
      intro n e hm
      cases hm
    · cases h
      intro n e hm
      cases hm
      rfl
    · cases h
  | .paren e, v, h => plain_loadLit ho e v h
  | .cast e t, v, h => by
    simp only [SynExpr.load, bind, Except.bind] at h
    split at h
    · cases h
    · rename_i x hx
      split at h
      · cases h
      · rename_i u hu
        cases u with
        | none => cases h
        | some u =>
          cases h
          intro n e' hm
          cases hm with
          | castTo hm => exact Plain.mentions hm (plain_load t u hu)
          | cast hm => exact plain_loadLit ho e x hx _ _ hm
  | .array es, v, h => by
    simp only [SynExpr.load, bind, Except.bind] at h
    split at h
    · cases h
    · rename_i xs hxs
      cases h
      intro n e hm
      cases hm with
      | item hi hm => exact plain_loadLits ho es xs hxs _ hi _ _ hm
  | .methodCall .., v, h => by cases h
  | .other, v, h => by cases h
theorem plain_loadLits {ord : List LitField → List LitField} (ho : Reorders ord) : ∀ (es : List SynExpr) (vs : List Lit),
    SynExpr.loadList ord es = .ok vs → ∀ v ∈ vs, PlainLit v
  | [], vs, h => by cases h; simp
  | e :: es, vs, h => by
    simp only [SynExpr.loadList, bind, Except.bind] at h
    split at h
    · cases h
    · rename_i x hx
      split at h
      · cases h
      · rename_i xs hxs
        cases h
        intro v hv
        rcases List.mem_cons.1 hv with rfl | hv
        · exact plain_loadLit ho e _ hx
        · exact plain_loadLits ho es xs hxs v hv
theorem plain_loadLitArgs {ord : List LitField → List LitField} (ho : Reorders ord) : ∀ (es : List SynExpr) (i : Nat) (fs : List LitField),
    SynExpr.loadArgs ord i es = .ok fs → PlainLitFields fs
  | [], i, fs, h => by cases h; intro g v c hm; simp at hm
  | e :: es, i, fs, h => by
    simp only [SynExpr.loadArgs, bind, Except.bind] at h
    split at h
    · cases h
    · rename_i x hx
      split at h
      · cases h
      · rename_i xs hxs
        cases h
        intro g v c hm
        rcases List.mem_cons.1 hm with hm | hm
        · cases hm; exact plain_loadLit ho e _ hx
        · exact plain_loadLitArgs ho es (i + 1) xs hxs g v c hm
theorem plain_loadLitFields {ord : List LitField → List LitField} (ho : Reorders ord) : ∀ (es : List SynFieldValue) (fs : List LitField),
    SynFieldValue.loadList ord es = .ok fs → PlainLitFields fs
  | [], fs, h => by cases h; intro g v c hm; simp at hm
  | .mk m e as :: es, fs, h => by
    simp only [SynFieldValue.loadList, bind, Except.bind] at h
    split at h
    · cases h
    · rename_i x hx
      split at h
      · cases h
      · rename_i xs hxs
        cases h
        intro g v c hm
        rcases List.mem_cons.1 hm with hm | hm
        · cases hm; exact plain_loadLit ho e _ hx
        · exact plain_loadLitFields ho es xs hxs g v c hm
end

/-- The names in a type, apart from being plain. -/
def SameNames (t : Ty) : Prop := ∀ n e, Mentions t n e → e = n

mutual
theorem same_replaceSelf (s : Str) : ∀ t : Ty, SameNames t → SameNames (t.replaceSelf s)
  | .ptr t _ _ _, h, n, e, hm => by
    cases hm with
    | ptr hm => exact same_replaceSelf s t (fun n e hm => h n e (.ptr hm)) n e hm
  | .path m f gs k, h, n, e, hm => by
    cases hm with
    | here =>
      unfold replaceSelfName
      split
      · rfl
      · exact h _ _ (.here ..)
    | generic hg hm => exact same_replaceSelfList s gs (fun t ht n e hm => h n e (.generic ht hm)) _ hg n e hm
    | constant hg =>
      exact h _ _ (.constant (same_replaceSelfConsts s gs _ hg))
  | .prim _, h, n, e, hm => by cases hm
  | .array t l, h, n, e, hm => by
    cases hm with
    | array hm => exact same_replaceSelf s t (fun n e hm => h n e (.array hm)) n e hm
    | len => exact h _ _ .len
  | .fnptr r as _ _, h, n, e, hm => by
    cases hm with
    | ret hm => exact same_replaceSelf s r (fun n e hm => h n e (.ret hm)) n e hm
    | arg ha hm => exact same_replaceSelfFArgs s as (fun a t ht n e hm => h n e (.arg ht hm)) _ _ ha n e hm
theorem same_replaceSelfArg (s : Str) : ∀ g : GArg, (∀ t, g = .type t → SameNames t) → ∀ t, g.replaceSelf s = .type t → SameNames t
  | .type t, h, u, hu => by
    cases hu
    exact same_replaceSelf s t (h t rfl)
  | .const _, h, u, hu => by cases hu
theorem same_replaceSelfConsts (s : Str) : ∀ gs : List GArg, ∀ k, .const k ∈ GArg.replaceSelfList s gs → .const k ∈ gs
  | [], k, h => by cases h
  | .type t :: gs, k, h => by
    rcases List.mem_cons.1 h with h | h
    · cases h
    · exact List.mem_cons_of_mem _ (same_replaceSelfConsts s gs k h)
  | .const c :: gs, k, h => by
    rcases List.mem_cons.1 h with h | h
    · cases h; simp
    · exact List.mem_cons_of_mem _ (same_replaceSelfConsts s gs k h)
theorem same_replaceSelfList (s : Str) : ∀ gs : List GArg, (∀ t, .type t ∈ gs → SameNames t) →
    ∀ t, .type t ∈ GArg.replaceSelfList s gs → SameNames t
  | [], _, t, h => by cases h
  | g :: gs, h, t, ht => by
    rcases List.mem_cons.1 ht with ht | ht
    · exact same_replaceSelfArg s g (fun u hu => h u (by simp [hu])) t ht.symm
    · exact same_replaceSelfList s gs (fun u hu => h u (by simp [hu])) t ht
theorem same_replaceSelfFArgs (s : Str) : ∀ as : List FArg, (∀ a t, .mk a t ∈ as → SameNames t) →
    ∀ a t, .mk a t ∈ FArg.replaceSelfList s as → SameNames t
  | [], _, a, t, h => by cases h
  | .mk b u :: as, h, a, t, ht => by
    rcases List.mem_cons.1 ht with ht | ht
    · cases ht
      exact same_replaceSelf s u (h b u (by simp))
    · exact same_replaceSelfFArgs s as (fun u v hu => h u v (by simp [hu])) a t ht
end

mutual
theorem plain_litSelf (s : Str) : ∀ v : Lit, PlainLit v → PlainLit (v.replaceSelf s)
  | .expr _, h, n, e, hm => by cases hm
  | .path none _, h, n, e, hm => by cases hm
  | .path (some (p, f)) m, h, n, e, hm => by
    have h1 : f = p := h _ _ (.assoc ..)
    subst h1
    simp only [Lit.replaceSelf, replaceSelfName] at hm
    split at hm <;> cases hm <;> rfl
  | .unary op v, h, n, e, hm => by
    cases hm with
    | unary hm => exact plain_litSelf s v (fun n e hm => h n e (.unary hm)) n e hm
  | .binop l op r, h, n, e, hm => by
    cases hm with
    | left hm => exact plain_litSelf s l (fun n e hm => h n e (.left hm)) n e hm
    | right hm => exact plain_litSelf s r (fun n e hm => h n e (.right hm)) n e hm
  | .field b m, h, n, e, hm => by
    cases hm with
    | base hm => exact plain_litSelf s b (fun n e hm => h n e (.base hm)) n e hm
  | .struct p f fs, h, n, e, hm => by
    have h1 : f = p := h _ _ (.struct ..)
    subst h1
    cases hm with
    | struct =>
      unfold replaceSelfName
      split <;> rfl
    | field hf hm => exact plain_litFieldsSelf s fs (fun g v c hv n e hm => h n e (.field hv hm)) _ _ _ hf n e hm
  | .cast t v, h, n, e, hm => by
    cases hm with
    | castTo hm => exact same_replaceSelf s t (fun n e hm => h n e (.castTo hm)) n e hm
    | cast hm => exact plain_litSelf s v (fun n e hm => h n e (.cast hm)) n e hm
  | .array is, h, n, e, hm => by
    cases hm with
    | item hi hm => exact plain_litsSelf s is (fun v hv n e hm => h n e (.item hv hm)) _ hi n e hm
theorem plain_litFieldsSelf (s : Str) : ∀ fs : List LitField, PlainLitFields fs → PlainLitFields (LitField.replaceSelfList s fs)
  | [], _, g, v, c, h => by cases h
  | .mk n v c :: fs, h, g, u, d, hm => by
    rcases List.mem_cons.1 hm with hm | hm
    · cases hm
      exact plain_litSelf s v (h n v c (by simp))
    · exact plain_litFieldsSelf s fs (fun g v c hv => h g v c (by simp [hv])) g u d hm
theorem plain_litsSelf (s : Str) : ∀ vs : List Lit, (∀ v ∈ vs, PlainLit v) → ∀ v ∈ Lit.replaceSelfList s vs, PlainLit v
  | [], _, v, h => by cases h
  | w :: vs, h, v, hv => by
    rcases List.mem_cons.1 hv with rfl | hv
    · exact plain_litSelf s w (h w (by simp))
    · exact plain_litsSelf s vs (fun v hv => h v (by simp [hv])) v hv
end

/-! ## Items -/

theorem plain_loadParams {ps : List SynGenericParam} {qs : List GParam} (h : loadParams ps = .ok qs) : PlainParams qs := by
  intro q hq d hd
  obtain ⟨p, _, hp⟩ := trySkipMap_mem h q hq
  cases p with
  | lifetime => cases hp
  | type i dflt =>
    simp only [SynGenericParam.load, bind, Except.bind] at hp
    cases dflt with
    | none => cases hp; cases hd
    | some t =>
      simp only at hp
      split at hp
      · cases hp
      · rename_i u hu
        cases hp
        cases hd
        exact plain_orVoid (fun v hv => plain_load t v (by rw [hu, hv]))
  | const i t dflt =>
    simp only [SynGenericParam.load, bind, Except.bind] at hp
    split at hp
    · cases hp
    · rename_i u hu
      cases u with
      | none => cases hp
      | some u =>
        cases dflt with
        | none => cases hp; cases hd
        | some e =>
          simp only at hp
          split at hp
          · cases hp
          · rename_i k hk
            cases hp
            cases hd
            exact plain_loadConst e k hk

def PlainFields (fs : List Field) : Prop := ∀ f ∈ fs, Plain f.ty

theorem plain_loadField {s : Str} {f : SynField} {g : Field} (h : f.load s = .ok (some g)) : Plain g.ty := by
  simp only [SynField.load, bind, Except.bind] at h
  split at h
  · cases h
  · rename_i u hu
    cases u with
    | none => cases h
    | some u =>
      simp only at h
      split at h
      · cases h
      · split at h
        · cases h
        · cases h
          exact plain_replaceSelf s u (plain_load _ u hu)

theorem plain_namedFields {s : Str} {fs : List SynField} {gs : List Field} (h : trySkipMap (SynField.load s) fs = .ok gs) :
    PlainFields gs := by
  intro g hg
  obtain ⟨f, _, hf⟩ := trySkipMap_mem h g hg
  exact plain_loadField hf

theorem plain_tupleFields {s : Str} : ∀ {fs : List SynField} {k : Nat} {gs : List Field}, loadTupleFields s k fs = .ok gs → PlainFields gs
  | [], k, gs, h => by cases h; intro g hg; cases hg
  | f :: fs, k, gs, h => by
    simp only [loadTupleFields, bind, Except.bind] at h
    split at h
    · cases h
    · rename_i u hu
      cases u with
      | none => exact plain_tupleFields h
      | some u =>
        simp only at h
        split at h
        · cases h
        · split at h
          · cases h
          · rename_i rest hr
            cases h
            intro g hg
            rcases List.mem_cons.1 hg with rfl | hg
            · exact plain_replaceSelf s u (plain_load _ u hu)
            · exact plain_tupleFields hr g hg

theorem plain_loadFields {s : Str} {fs : SynFields} {gs : List Field} (h : fs.load s = .ok gs) : PlainFields gs := by
  cases fs with
  | unit => cases h; intro g hg; cases hg
  | named fs => exact plain_namedFields h
  | unnamed fs => exact plain_tupleFields h

theorem plain_variantFields {s : Str} {inl : Option Str} : ∀ {fs : List SynField} {k : Nat} {gs : List Field},
    loadVariantFields s inl k fs = .ok gs → PlainFields gs
  | [], k, gs, h => by cases h; intro g hg; cases hg
  | f :: fs, k, gs, h => by
    simp only [loadVariantFields, bind, Except.bind] at h
    split at h
    · cases h
    · rename_i u hu
      cases u with
      | none => exact plain_variantFields h
      | some u =>
        simp only at h
        split at h
        · cases h
        · split at h
          · cases h
          · rename_i rest hr
            cases h
            intro g hg
            rcases List.mem_cons.1 hg with rfl | hg
            · exact plain_replaceSelf s u (plain_load _ u hu)
            · exact plain_variantFields hr g hg

theorem plain_parseFields {tag : Bool} {s : Str} {inl : Option Str} {fs : List SynField} {gs : List Field}
    (h : parseFields tag s inl fs = .ok gs) : PlainFields gs := by
  simp only [parseFields, bind, Except.bind] at h
  split at h
  · cases h
  · rename_i rest hr
    cases h
    intro g hg
    rcases List.mem_append.1 hg with hg | hg
    · split at hg
      · obtain rfl := List.mem_singleton.1 hg
        exact plain_newPath trivial
      · cases hg
    · exact plain_variantFields hr g hg

/-- What holds of a struct that is loaded. -/
def LoadedStruct (x : StructItem) : Prop := x.hasTagField = false ∧ PlainStruct x

theorem plain_loadStruct {c : LoadConfig} {m : Option Cfg} {s : SynStruct} {x : StructItem} (h : s.load c m = .ok x) :
    LoadedStruct x := by
  simp only [SynStruct.load, bind, Except.bind] at h
  split at h
  · cases h
  · split at h
    · cases h
    · split at h
      · cases h
      · split at h
        · cases h
        · rename_i fs hfs
          split at h
          · cases h
          · rename_i ps hps
            split at h
            · cases h
            · cases h
              exact ⟨rfl, rfl, plain_loadParams hps, plain_loadFields hfs, by intro k hk; cases hk⟩

/-- What holds of a union that is loaded. -/
def LoadedUnion (x : UnionItem) : Prop :=
  x.exportName = x.path ∧ PlainParams x.genericParams ∧ PlainFields x.fields

theorem plain_loadUnion {c : LoadConfig} {m : Option Cfg} {s : SynUnion} {x : UnionItem} (h : s.load c m = .ok x) :
    LoadedUnion x := by
  simp only [SynUnion.load, bind, Except.bind] at h
  split at h
  · cases h
  · split at h
    · cases h
    · split at h
      · cases h
      · split at h
        · cases h
        · rename_i fs hfs
          split at h
          · cases h
          · rename_i ps hps
            split at h
            · cases h
            · cases h
              exact ⟨rfl, plain_loadParams hps, plain_namedFields hfs⟩

theorem plain_loadOpaque {p : Str} {gs : List SynGenericParam} {as : List SAttr} {m : Option Cfg} {x : OpaqueItem}
    (h : loadOpaque p gs as m = .ok x) : x.exportName = x.path := by
  simp only [loadOpaque, bind, Except.bind] at h
  split at h
  · cases h
  · cases h; rfl

/-- What holds of an alias that is loaded. -/
def LoadedAlias (x : TypedefItem) : Prop :=
  x.exportName = x.path ∧ PlainParams x.genericParams ∧ Plain x.aliased

theorem plain_loadAlias {m : Option Cfg} {s : SynAlias} {x : TypedefItem} (h : s.load m = .ok x) : LoadedAlias x := by
  simp only [SynAlias.load, bind, Except.bind] at h
  split at h
  · cases h
  · rename_i u hu
    cases u with
    | none => cases h
    | some u =>
      simp only at h
      split at h
      · cases h
      · rename_i ps hps
        split at h
        · cases h
        · cases h
          exact ⟨rfl, plain_loadParams hps, plain_load _ u hu⟩

theorem plain_loadStatic {p : Str} {m : Option Cfg} {s : SynStatic} {x : StaticItem} (h : s.load p m = .ok x) : Plain x.ty := by
  simp only [SynStatic.load, bind, Except.bind] at h
  split at h
  · cases h
  · rename_i u hu
    cases u with
    | none => cases h
    | some u =>
      simp only at h
      split at h
      · cases h
      · cases h
        exact plain_load _ u hu

theorem plain_loadConstant {ord : List LitField → List LitField} (ho : Reorders ord) {p : Str} {m : Option Cfg} {t : SynTy} {e : SynExpr}
    {as : List SAttr} {assoc : Option Str} {x : ConstItem} (h : loadConstant ord p m t e as assoc = .ok x) : PlainConstItem x := by
  simp only [loadConstant, bind, Except.bind] at h
  split at h
  · cases h
  · rename_i u hu
    cases u with
    | none => cases h
    | some u =>
      simp only at h
      split at h
      · cases h
      · rename_i v hv
        split at h
        · cases h
        · split at h
          · cases h
          · rename_i n hn
            cases h
            cases assoc with
            | none =>
              cases hn
              exact ⟨fun _ => rfl, plain_load _ u hu, plain_loadLit ho e v hv⟩
            | some s =>
              exact ⟨fun h => (by cases h), plain_replaceSelf s u (plain_load _ u hu), plain_litSelf s v (plain_loadLit ho e v hv)⟩

theorem plain_receiver {r : SynReceiver} {t : Ty} (h : r.load = .ok t) : Plain t := by
  have hs : Plain selfTy := plain_newPath trivial
  cases r with
  | value => cases h; exact hs
  | reference m => cases h; exact hs
  | other => cases h
  | typed s =>
    simp only [SynReceiver.load, bind, Except.bind] at h
    split at h
    · cases h
    · rename_i u hu
      have : Plain (u.getD selfTy) := by
        cases u with
        | none => exact hs
        | some u => exact plain_load _ u hu
      split at h <;> (cases h; exact this)

theorem plain_typedParam {n : Option Str} {t : Ty} {a : FnArg} (ht : Plain t) (h : typedParam n t = .ok (some a)) : Plain a.ty := by
  unfold typedParam at h
  split at h
  · cases h
  · cases h; exact ht

theorem plain_param {s : SynParam} {a : FnArg} (h : s.load = .ok (some a)) : Plain a.ty := by
  cases s with
  | receiver r =>
    simp only [SynParam.load, bind, Except.bind] at h
    split at h
    · cases h
    · rename_i t ht
      cases h
      exact plain_receiver ht
  | wild t =>
    simp only [SynParam.load, bind, Except.bind] at h
    split at h
    · cases h
    · rename_i u hu
      cases u with
      | none => cases h
      | some u => exact plain_typedParam (plain_load _ u hu) h
  | ident n t =>
    simp only [SynParam.load, bind, Except.bind] at h
    split at h
    · cases h
    · rename_i u hu
      cases u with
      | none => cases h
      | some u => exact plain_typedParam (plain_load _ u hu) h
  | pattern t =>
    simp only [SynParam.load, bind, Except.bind] at h
    split at h
    · cases h
    · rename_i u hu
      cases u with
      | none => cases h
      | some u => cases h

/-- What holds of a function that is loaded. -/
def LoadedFunc (x : FuncItem) : Prop := Plain x.ret ∧ ∀ a ∈ x.args, Plain a.ty

theorem plain_loadSig {s : SynSig} {p : Str} {o : Option Str} {ext : Bool} {as : List SAttr} {m : Option Cfg} {x : FuncItem}
    (h : s.load p o ext as m = .ok x) : LoadedFunc x := by
  simp only [SynSig.load, bind, Except.bind] at h
  split at h
  · cases h
  · rename_i args ha
    split at h
    · cases h
    · rename_i r hr
      split at h
      · cases h
      · cases h
        refine ⟨plain_replaceSelfOpt o r.1 (plain_loadRet _ r.1 r.2 hr), ?_⟩
        intro a hm
        obtain ⟨b, hb, rfl⟩ := List.mem_map.1 hm
        refine plain_replaceSelfOpt o b.ty ?_
        rcases List.mem_append.1 hb with hb | hb
        · obtain ⟨q, _, hq⟩ := trySkipMap_mem ha b hb
          exact plain_param hq
        · split at hb
          · obtain rfl := List.mem_singleton.1 hb
            exact trivial
          · cases hb

/-- What holds of an enum that is loaded. -/
def LoadedEnum (x : EnumItem) : Prop :=
  (x.exportName = x.path ∧ PlainParams x.genericParams ∧
    ∀ v ∈ x.variants, PlainVariant v ∧
      ∀ m b i ic, v.body = .body m b i ic → (b.hasTagField = true ↔ x.repr.style ≠ .c)) ∧
  ∀ b, MonoSpec.BodyOf x b → b.genericParams = x.genericParams

theorem plain_variantBody {c : LoadConfig} {rule : RenameRule} {tag : Bool} {s i : Str} {ps : List GParam} {a : Annotations} {fs : SynFields}
    {v : VBody} (hp : PlainParams ps) (h : fs.loadBody c rule tag s i ps a = .ok v) :
    ∀ m b i ic, v = .body m b i ic → PlainStruct b ∧ b.hasTagField = tag ∧ b.genericParams = ps := by
  have main : ∀ inl ic fs v, variantBody c rule tag s i ps a inl ic fs = .ok v →
      ∀ m b i ic, v = .body m b i ic → PlainStruct b ∧ b.hasTagField = tag ∧ b.genericParams = ps := by
    intro inl ic fs v h m b i ic hv
    simp only [variantBody, bind, Except.bind] at h
    split at h
    · cases h
    · rename_i gs hgs
      cases h
      cases hv
      exact ⟨⟨rfl, hp, plain_parseFields hgs, by intro k hk; cases hk⟩, rfl, rfl⟩
  cases fs with
  | unit => cases h; intro m b i ic hv; cases hv
  | named fs => exact main _ _ _ _ h
  | unnamed fs => exact main _ _ _ _ h

theorem plain_loadVariant {c : LoadConfig} (ho : Reorders c.fieldOrder) {tag : Bool} {ps : List GParam} {m : Option Cfg} {s : Str}
    {a : Annotations} {sv : SynVariant} {v : EnumVariant} (hp : PlainParams ps) (h : sv.load c tag ps m s a = .ok v) :
    PlainVariant v ∧ ∀ m b i ic, v.body = .body m b i ic → b.hasTagField = tag ∧ b.genericParams = ps := by
  simp only [SynVariant.load, bind, Except.bind] at h
  split at h
  · cases h
  · rename_i d hd
    split at h
    · cases h
    · split at h
      · cases h
      · split at h
        · cases h
        · rename_i b hb
          cases h
          have hv := plain_variantBody hp hb
          refine ⟨⟨fun m b i ic e => (hv m b i ic e).1, ?_⟩, fun m b i ic e => (hv m b i ic e).2⟩
          intro d' hd'
          unfold loadDisc at hd
          split at hd
          · cases hd; cases hd'
          · simp only [bind, Except.bind] at hd
            split at hd
            · cases hd
            · rename_i w hw
              cases hd
              cases hd'
              exact plain_litSelf s w (plain_loadLit ho _ w hw)

theorem plain_loadEnum {c : LoadConfig} (ho : Reorders c.fieldOrder) {m : Option Cfg} {s : SynEnum} {x : EnumItem} (h : s.load c m = .ok x) :
    LoadedEnum x := by
  simp only [SynEnum.load, bind, Except.bind] at h
  split at h
  · cases h
  · rename_i repr _
    split at h
    · cases h
    · split at h
      · cases h
      · rename_i ps hps
        split at h
        · cases h
        · rename_i as _
          split at h
          · cases h
          · rename_i vs hvs
            cases h
            have hv : ∀ v ∈ vs, PlainVariant v ∧ ∀ m b i ic, v.body = .body m b i ic →
                b.hasTagField = (repr.style != .c) ∧ b.genericParams = ps := by
              intro v hv
              obtain ⟨sv, _, hsv⟩ := tryMap_mem hvs v hv
              exact plain_loadVariant ho (plain_loadParams hps) hsv
            have hall : ∀ v ∈ vs ++ ((Annotations.list as c!"enum-trailing-values").getD []).map (fun n =>
                EnumVariant.new n none (.empty {}) none []) ++ (if c.sentinel as then
                  [EnumVariant.new c!"Sentinel" none (.empty {}) none [c!" Must be last for serialization purposes"]] else []),
                v ∈ vs ∨ (∃ a, v.body = .empty a) ∧ v.disc = none := by
              intro v hv
              rcases List.mem_append.1 hv with hv | hv
              · rcases List.mem_append.1 hv with hv | hv
                · exact Or.inl hv
                · obtain ⟨n, _, rfl⟩ := List.mem_map.1 hv
                  exact Or.inr ⟨⟨_, rfl⟩, rfl⟩
              · split at hv
                · obtain rfl := List.mem_singleton.1 hv
                  exact Or.inr ⟨⟨_, rfl⟩, rfl⟩
                · cases hv
            refine ⟨⟨rfl, plain_loadParams hps, ?_⟩, ?_⟩
            · intro v hm
              rcases hall v hm with hm | ⟨⟨a, ha⟩, hd⟩
              · refine ⟨(hv v hm).1, fun m b i ic e => ?_⟩
                rw [((hv v hm).2 m b i ic e).1]
                simp
              · refine ⟨⟨fun m b i ic e => ?_, fun d e => ?_⟩, fun m b i ic e => ?_⟩
                · rw [ha] at e; cases e
                · rw [hd] at e; cases e
                · rw [ha] at e; cases e
            · rintro b ⟨v, hm, m, i, ic, e⟩
              rcases hall v hm with hm | ⟨⟨a, ha⟩, hd⟩
              · exact ((hv v hm).2 m b i ic e).2
              · rw [ha] at e; cases e

/-! ## Tables -/

/-- What holds of the items that are loaded. -/
def loadedItem : ItemPred where
  const := PlainConstItem
  static x := Plain x.ty
  enum := LoadedEnum
  struct := LoadedStruct
  union := LoadedUnion
  «opaque» x := x.exportName = x.path
  typedef := LoadedAlias
  func := LoadedFunc

theorem every_addOpaque {l l' : Library} {i : Str} {gs : List SynGenericParam} {as : List SAttr} {m : Option Cfg}
    (hl : l.Every loadedItem) (h : l.addOpaque i gs as m = some l') : l'.Every loadedItem := by
  unfold Library.addOpaque at h
  split at h
  · rename_i o ho
    cases h
    exact { hl with opaqueItems := every_tryInsert (P := loadedItem.opaque) (plain_loadOpaque ho) _ hl.opaqueItems }
  · cases h

theorem every_loadStruct {c : LoadConfig} {l l' : Library} {s : SynStruct} {m : Option Cfg}
    (hl : l.Every loadedItem) (h : l.loadStruct c m s = some l') : l'.Every loadedItem := by
  unfold Library.loadStruct at h
  split at h
  · rename_i x hx
    cases h
    exact { hl with structs := every_tryInsert (P := loadedItem.struct) (plain_loadStruct hx) _ hl.structs }
  · exact every_addOpaque hl h
  · cases h

theorem every_loadAssocConst {c : LoadConfig} (ho : Reorders c.fieldOrder) {l l' : Library} {p : Str} {s : SynConst} {m : Option Cfg}
    (hl : l.Every loadedItem) (h : l.loadAssocConst c m p s = some l') : l'.Every loadedItem := by
  unfold Library.loadAssocConst at h
  split at h
  · rename_i k hk
    have hk' := plain_loadConstant ho hk
    split at h
    · cases h
      exact { hl with constants := every_tryInsert (P := loadedItem.const) hk' _ hl.constants }
    · cases h
      refine { hl with structs := every_mapItemsAt (P := loadedItem.struct) ?_ _ _ hl.structs }
      rintro x ⟨h1, h2, h3, h4, h5⟩
      refine ⟨h1, h2, h3, h4, ?_⟩
      intro k' hk''
      rcases List.mem_append.1 hk'' with hk'' | hk''
      · exact h5 k' hk''
      · obtain rfl := List.mem_singleton.1 hk''
        exact hk'
  · cases h; exact hl
  · cases h

theorem every_loadAll {α : Type} {I : ItemPred} {f : Library → α → Option Library} (hf : ∀ l x l', l.Every I → f l x = some l' → l'.Every I) :
    ∀ {xs : List α} {l l' : Library}, l.Every I → loadAll f l xs = some l' → l'.Every I
  | [], l, l', hl, h => by cases h; exact hl
  | x :: xs, l, l', hl, h => by
    simp only [loadAll] at h
    split at h
    · rename_i l₁ h1
      exact every_loadAll hf (hf _ _ _ hl h1) h
    · cases h

theorem every_loadOne {c : LoadConfig} (ho : Reorders c.fieldOrder) {l l' : Library} {x : Taken × Option Cfg}
    (hl : l.Every loadedItem) (h : Taken.load c l x = some l') : l'.Every loadedItem := by
  obtain ⟨t, m⟩ := x
  cases t with
  | fn path owner ext f =>
    simp only [Taken.load, Library.loadFn] at h
    split at h
    · rename_i x hx
      cases h
      refine { hl with functions := ?_ }
      intro y hy
      rcases List.mem_append.1 hy with hy | hy
      · exact hl.functions y hy
      · obtain rfl := List.mem_singleton.1 hy
        exact plain_loadSig hx
    · cases h; exact hl
    · cases h
  | const k =>
    simp only [Taken.load, Library.loadConst] at h
    split at h
    · rename_i x hx
      cases h
      exact { hl with constants := every_tryInsert (P := loadedItem.const) (plain_loadConstant ho hx) _ hl.constants }
    · cases h; exact hl
    · cases h
  | static p s =>
    simp only [Taken.load, Library.loadStatic] at h
    split at h
    · rename_i x hx
      cases h
      exact { hl with globals := every_tryInsert (P := loadedItem.static) (plain_loadStatic hx) _ hl.globals }
    · cases h; exact hl
    · cases h
  | struct s => exact every_loadStruct hl h
  | union s =>
    simp only [Taken.load, Library.loadUnion] at h
    split at h
    · rename_i x hx
      cases h
      exact { hl with unions := every_tryInsert (P := loadedItem.union) (plain_loadUnion hx) _ hl.unions }
    · exact every_addOpaque hl h
    · cases h
  | enum s =>
    simp only [Taken.load, Library.loadEnum] at h
    split at h
    · rename_i x hx
      cases h
      exact { hl with enums := every_tryInsert (P := loadedItem.enum) (plain_loadEnum ho hx) _ hl.enums }
    · exact every_addOpaque hl h
    · cases h
  | alias s =>
    simp only [Taken.load, Library.loadAlias] at h
    split at h
    · rename_i x hx
      cases h
      exact { hl with typedefs := every_tryInsert (P := loadedItem.typedef) (plain_loadAlias hx) _ hl.typedefs }
    · exact every_addOpaque hl h
    · cases h
  | bitflags b =>
    simp only [Taken.load, Library.loadBitflags] at h
    split at h
    · cases h
    · rename_i l₁ h1
      have h2 : l₁.Every loadedItem := by
        cases hs : b.structItem with
        | none => rw [hs] at h1; cases h1; exact hl
        | some s => rw [hs] at h1; exact every_loadStruct hl h1
      have h3 : (l₁.markFlags (unraw b.name)).Every loadedItem :=
        { h2 with structs := every_mapItemsAt (P := loadedItem.struct) (f := fun s =>
          { s with annotations := s.annotations.addDefault c!"internal-derive-bitflags" (.bool true) }) (fun x hx => hx) _ _ h2.structs }
      unfold Library.loadAssocs at h
      split at h
      · cases h; exact h3
      · exact every_loadAll (fun l x l' hl h => every_loadAssocConst ho hl h) h3 h
  | assoc r k => exact every_loadAssocConst ho hl h

theorem every_nil {I : ItemPred} : ({} : Library).Every I := by
  constructor <;> (intro x hx; cases hx)

theorem every_extendWith {I : ItemPred} {l r : Library} (hl : l.Every I) (hr : r.Every I) : (l.extendWith r).Every I where
  constants := every_insertAll _ _ hr.constants hl.constants
  globals := every_insertAll _ _ hr.globals hl.globals
  enums := every_insertAll _ _ hr.enums hl.enums
  structs := every_insertAll _ _ hr.structs hl.structs
  unions := every_insertAll _ _ hr.unions hl.unions
  opaqueItems := every_insertAll _ _ hr.opaqueItems hl.opaqueItems
  typedefs := every_insertAll _ _ hr.typedefs hl.typedefs
  functions x hx := (List.mem_append.1 hx).elim (hl.functions x) (hr.functions x)

theorem every_extendAll {I : ItemPred} : ∀ {rs : List Run} {l : Library}, l.Every I → (∀ r ∈ rs, r.2.Every I) → (extendAll l rs).Every I
  | [], l, hl, _ => hl
  | r :: rs, l, hl, hr => every_extendAll (l := l.extendWith r.2) (every_extendWith hl (hr r (by simp))) (fun s hs => hr s (by simp [hs]))

theorem every_std (b : Bool) : (if b then Library.addStdTypes {} else ({} : Library)).Every loadedItem := by
  cases b with
  | false => exact every_nil
  | true =>
    refine { every_nil with opaqueItems := every_insertAll (P := loadedItem.opaque) _ _ ?_ (by intro y hy; cases hy) }
    intro x hx
    obtain ⟨t, _, rfl⟩ := List.mem_map.1 hx
    rfl

/-- Everything that is loaded. -/
theorem build_every {pc : ParseConfig} {c : LoadConfig} (ho : Reorders c.fieldOrder) {fuel : Nat} {i : Inputs} {l : Library}
    (h : buildLibrary pc c fuel i = .ok l) : l.Every loadedItem := by
  obtain ⟨rs, rfl, hr⟩ := build_runs h
  refine every_extendAll (every_std _) (fun r hm => ?_)
  exact every_loadAll (fun l x l' hl h => every_loadOne ho hl h) every_nil (hr.loaded r hm)

theorem build_wf {pc : ParseConfig} {c : LoadConfig} {fuel : Nat} {i : Inputs} {l : Library}
    (h : buildLibrary pc c fuel i = .ok l) : l.WF := by
  obtain ⟨rs, rfl, hr⟩ := build_runs h
  exact (extendAll_step (std_step i.stdTypes).wf hr.loaded).wf

theorem build_plain {pc : ParseConfig} {c : LoadConfig} (ho : Reorders c.fieldOrder) {fuel : Nat} {i : Inputs} {l : Library}
    (h : buildLibrary pc c fuel i = .ok l) : l.Plain :=
  let e := build_every ho h
  ⟨e.constants, e.globals, fun x hx => (e.enums x hx).1, e.structs, e.unions, e.opaqueItems, e.typedefs, e.functions⟩

theorem build_bodies {pc : ParseConfig} {c : LoadConfig} (ho : Reorders c.fieldOrder) {fuel : Nat} {i : Inputs} {l : Library}
    (h : buildLibrary pc c fuel i = .ok l) : l.BodiesPlain := by
  intro x hx hg b hb
  rw [((build_every ho h).enums x hx).2 b hb, hg]

end Cbindgen
