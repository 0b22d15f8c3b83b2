import Verif.Spec.Abi
import Verif.Model.Library

/-!
# C17: standard wrapper types are simplified without changing the ABI
-/

namespace Cbindgen.AbiSpec

variable {T : Target} {lang : Language}

mutual
theorem seen_seen : ∀ l : Layout, l.seen.seen = l.seen
  | .scalar s v n ts => by simp only [Layout.seen, seenList_seenList ts]
  | .array len e => by simp only [Layout.seen, seen_seen e]
  | .named n ls => by simp only [Layout.seen, exactList_exactList ls]
  | .cell l => by simp only [Layout.seen, seen_seen l]
  | .value s => rfl
theorem exact_exact : ∀ l : Layout, l.exact.exact = l.exact
  | .scalar s v n ts => by simp only [Layout.exact, seenList_seenList ts]
  | .array len e => by simp only [Layout.exact, exact_exact e]
  | .named n ls => by simp only [Layout.exact, exactList_exactList ls]
  | .cell l => by simp only [Layout.exact, exact_exact l]
  | .value s => rfl
theorem seenList_seenList : ∀ ls : List Layout, Layout.seenList (Layout.seenList ls) = Layout.seenList ls
  | [] => rfl
  | l :: ls => by simp only [Layout.seenList, seen_seen l, seenList_seenList ls]
theorem exactList_exactList : ∀ ls : List Layout, Layout.exactList (Layout.exactList ls) = Layout.exactList ls
  | [] => rfl
  | l :: ls => by simp only [Layout.exactList, exact_exact l, exactList_exactList ls]
end

theorem seen_exact : ∀ l : Layout, l.exact.seen = l.seen
  | .scalar s v n ts => by simp only [Layout.seen, Layout.exact, seenList_seenList ts]
  | .array len e => by simp only [Layout.seen, Layout.exact, seen_exact e]
  | .named n ls => by simp only [Layout.seen, Layout.exact, exactList_exactList ls]
  | .cell l => by simp only [Layout.seen, Layout.exact, seen_exact l]
  | .value s => rfl

theorem hides_exact : ∀ l : Layout, l.exact.hides ↔ l.hides
  | .scalar s v n ts => by cases n <;> simp [Layout.exact, Layout.hides]
  | .array len e => by simp only [Layout.exact, Layout.hides, hides_exact e]
  | .named n ls => by simp [Layout.exact, Layout.hides]
  | .cell l => by simp [Layout.exact, Layout.hides]
  | .value s => by simp [Layout.exact, Layout.hides]

theorem allowsAll_exact : ∀ l : Layout, l.exact.allowsAll ↔ l.allowsAll
  | .scalar s v n ts => by simp [Layout.exact, Layout.allowsAll]
  | .array len e => by simp only [Layout.exact, Layout.allowsAll, allowsAll_exact e]
  | .named n ls => by simp [Layout.exact, Layout.allowsAll]
  | .cell l => by simp [Layout.exact, Layout.allowsAll]
  | .value s => by simp [Layout.exact, Layout.allowsAll]

theorem not_hides : ∀ {l : Layout}, l.allowsAll → ¬ l.hides
  | .scalar s v n ts, h => by cases h.1; simp [Layout.hides]
  | .array len e, h => by exact not_hides (l := e) h
  | .named n ls, h => h.elim
  | .cell l, h => h.elim
  | .value s, h => h.elim

/-- The same, unless a niche was hidden before. -/
def Rel (l l' : Layout) : Prop := l'.exact = l.exact ∨ (l.hides ∧ l'.seen = l.seen)

theorem Rel.refl (l : Layout) : Rel l l := .inl rfl

theorem Rel.seen {l l' : Layout} (h : Rel l l') : l'.seen = l.seen := by
  rcases h with h | ⟨-, h⟩
  · rw [← seen_exact l', h, seen_exact]
  · exact h

theorem Rel.exact {l l' : Layout} (h : Rel l l') (hh : ¬ l.hides) : l'.exact = l.exact := by
  rcases h with h | ⟨h1, -⟩
  · exact h
  · exact absurd h1 hh

theorem Rel.hides {l l' : Layout} (h : Rel l l') (hh : ¬ l.hides) : ¬ l'.hides := by
  rwa [← hides_exact, h.exact hh, hides_exact]

theorem Rel.allowsAll {l l' : Layout} (h : Rel l l') (hh : l.allowsAll) : l'.allowsAll := by
  rwa [← allowsAll_exact, h.exact (not_hides hh), allowsAll_exact]

theorem Rel.trans {a b c : Layout} (h1 : Rel a b) (h2 : Rel b c) : Rel a c := by
  rcases h1 with h | ⟨ha, h⟩
  · rcases h2 with h' | ⟨hb, h'⟩
    · exact .inl (h'.trans h)
    · refine .inr ⟨by rwa [← hides_exact, ← h, hides_exact], ?_⟩
      rw [h', ← seen_exact b, h, seen_exact]
  · exact .inr ⟨ha, by rw [h2.seen, h]⟩

/-! ## The wrappers -/

theorem option_exact (l : Layout) : l.exact.option.exact = l.option.exact := by
  cases l with
  | scalar s v n ts => cases n <;> simp only [Layout.exact, Layout.option, Layout.exactList, seenList_seenList]
  | array len e => simp only [Layout.exact, Layout.option, Layout.exactList, exact_exact]
  | named n ls => simp only [Layout.exact, Layout.option, Layout.exactList, exactList_exactList]
  | cell l => simp only [Layout.exact, Layout.option, Layout.exactList, exact_exact]
  | value s => rfl

theorem option_rel {l l' : Layout} (h : Rel l l') (hh : ¬ l.hides) : Rel l.option l'.option := by
  left
  rw [← option_exact l', h.exact hh, option_exact]

theorem hide_exact : ∀ l : Layout, l.exact.hide.exact = l.hide.exact
  | .scalar s v n ts => by simp only [Layout.exact, Layout.hide, seenList_seenList]
  | .array len e => by simp only [Layout.exact, Layout.hide, hide_exact e]
  | .named n ls => by simp only [Layout.exact, Layout.hide, exactList_exactList]
  | .cell l => by simp only [Layout.exact, Layout.hide, exact_exact]
  | .value s => rfl

theorem hide_seen : ∀ l : Layout, l.hide.seen = l.seen
  | .scalar s v n ts => by simp only [Layout.seen, Layout.hide]
  | .array len e => by simp only [Layout.seen, Layout.hide, hide_seen e]
  | .named n ls => by simp only [Layout.seen, Layout.hide]
  | .cell l => by simp only [Layout.seen, Layout.hide]
  | .value s => rfl

theorem hide_hides : ∀ {l : Layout}, l.hides → l.hide.hides
  | .scalar s v n ts, h => by
    cases n with
    | hidden => trivial
    | _ => exact h.elim
  | .array len e, h => by exact hide_hides (l := e) h
  | .cell l, h => trivial

/-- A cell is the same as what is in it, or hides a niche. -/
theorem hide_or : ∀ l : Layout, l.hide.exact = l.exact ∨ l.hide.hides
  | .scalar s v n ts => by cases n <;> simp [Layout.hide, Niche.hide, Layout.hides]
  | .array len e => by
    rcases hide_or e with h | h
    · left; simp only [Layout.hide, Layout.exact, h]
    · exact .inr h
  | .named n ls => .inr trivial
  | .cell l => .inr trivial
  | .value s => .inl rfl

theorem hide_rel {l l' : Layout} (h : Rel l l') : Rel l.hide l'.hide := by
  rcases h with h | ⟨h1, h2⟩
  · left; rw [← hide_exact l', h, hide_exact]
  · exact .inr ⟨hide_hides h1, by rw [hide_seen, hide_seen, h2]⟩

theorem rel_hide {l l' : Layout} (h : Rel l l') : Rel l.hide l' := by
  have h1 : Rel l.hide l := by
    rcases hide_or l with h | h
    · exact .inl h.symm
    · exact .inr ⟨h, (hide_seen l).symm⟩
  exact h1.trans h

theorem anything_exact : ∀ {l : Layout}, l.allowsAll → l.anything.exact = l.exact
  | .scalar s v n ts, h => by
    obtain ⟨rfl, h⟩ := h
    have : v = fun _ => True := funext fun p => propext ⟨fun _ => trivial, fun _ => h p⟩
    simp only [Layout.anything, Layout.exact, this]
  | .array len e, h => by simp only [Layout.anything, Layout.exact, anything_exact (l := e) h]
  | .named n ls, h => h.elim
  | .cell l, h => h.elim
  | .value s, h => h.elim

theorem pointerTo_rel {l l' : Layout} (h : Rel l l') : Rel (pointerTo T l) (pointerTo T l') := by
  left; simp only [pointerTo, Layout.exact, Layout.seenList, h.seen]

theorem wrapper_rel {n : Str} {t t' : Ty} {l l' : Layout} (h : Rel l l') (hz : n = c!"NonZero" → t' = t ∧ l' = l)
    (hm : n = c!"MaybeUninit" → l.allowsAll) (hh : ¬ transparentName n → ¬ l.hides) :
    Rel (wrapper T n t l) (wrapper T n t' l') := by
  unfold wrapper
  split
  · rename_i hn
    exact option_rel h (hh (by subst hn; unfold transparentName; decide))
  split
  · exact pointerTo_rel h
  split
  · rename_i hn
    obtain ⟨rfl, rfl⟩ := hz hn
    exact Rel.refl _
  split
  · exact hide_rel h
  split
  · exact h
  split
  · rename_i hn
    have h1 := hm hn
    left
    rw [anything_exact (h.allowsAll h1), anything_exact h1, h.exact (not_hides h1)]
  · rename_i h1 h2 h3 h4 h5 h6
    left
    have : ¬ l.hides := hh (by unfold transparentName; simp_all)
    simp only [Layout.exact, Layout.exactList, h.exact this]

/-! ## One step -/

theorem simplifyTop_prim (p : Prim) : (Ty.prim p).simplifyTop lang = .prim p := rfl

theorem layout_nullable {t t' : Ty} (h : t.makeNullable = some t') : (layout T t).option = layout T t' := by
  unfold Ty.makeNullable at h
  split at h <;> cases h
  · simp only [layout, nicheUnless, Layout.option, Bool.false_eq_true, if_false, if_true]
    congr 1
    funext p
    simp only [false_or, true_or, eq_iff_iff, iff_true]
    omega
  · simp only [layout, nicheUnless, Layout.option, Bool.false_eq_true, if_false, if_true]
    congr 1
    funext p
    simp only [false_or, true_or, eq_iff_iff, iff_true]
    omega

theorem layout_zeroable {t t' : Ty} (h : t.makeZeroable true = some t') : (layout T t).option = layout T t' := by
  unfold Ty.makeZeroable at h
  split at h
  · rename_i z s k
    cases z with
    | true => cases h
    | false =>
      cases h
      simp only [layout, nicheUnless, Layout.option, Bool.false_eq_true, if_false, if_true]
      congr 1
      funext p
      simp only [false_or, true_or, eq_iff_iff, iff_true]
      omega
  · cases h

theorem layout_nonZero {t t' : Ty} (h : t.makeZeroable false = some t') : nonZero T t (layout T t) = layout T t' := by
  unfold Ty.makeZeroable at h
  split at h
  · rename_i z s k
    cases z with
    | false => cases h
    | true =>
      cases h
      simp only [layout, nonZero, nicheUnless, Bool.false_eq_true, if_false, false_or]
  · cases h

theorem layout_one (n e : Str) (t : Ty) (k : Option DeclKind) :
    layout T (.path n e [.type t] k) = wrapper T n t (layout T t) := by
  simp only [layout, pathLayout, onlyLayout, List.isEmpty_nil, if_true]

theorem kept_one {n e : Str} {t : Ty} {k : Option DeclKind} :
    Kept T (.path n e [.type t] k) ↔ Kept T t ∧ fits T n t := by
  simp only [Kept, KeptPath, KeptOnly, List.isEmpty_nil, if_true]

theorem layout_pointer (t : Ty) : layout T (.ptr t false false false) = pointerTo T (layout T t) := by
  simp only [layout, pointerTo, nicheUnless, Bool.false_eq_true, if_false, false_or]

/-- The step for one wrapper, given that for its argument. -/
theorem step_wrapper {n : Str} {g g0 r : Ty} (hr : Rel (layout T g) (layout T g0)) (hk : Kept T g0) (hf : fits T n g)
    (hz : n = c!"NonZero" → g0 = g) (hs : simplifyWrapper lang n g0 = some r) :
    Rel (wrapper T n g (layout T g)) (layout T r) ∧ Kept T r := by
  unfold simplifyWrapper at hs
  split at hs
  · rename_i hn
    subst hn
    have hh : ¬ (layout T g).hides := hf.2.2 (by unfold transparentName; decide)
    have e1 : wrapper T c!"Option" g (layout T g) = (layout T g).option := by simp [wrapper]
    rw [e1]
    split at hs
    · rename_i r' h1
      cases hs
      rw [← layout_nullable h1]
      refine ⟨option_rel hr hh, ?_⟩
      unfold Ty.makeNullable at h1
      split at h1 <;> cases h1 <;> simpa [Kept] using hk
    · rw [← layout_zeroable hs]
      refine ⟨option_rel hr hh, ?_⟩
      unfold Ty.makeZeroable at hs
      split at hs
      · split at hs
        · cases hs
        · cases hs; simp [Kept]
      · cases hs
  split at hs
  · rename_i hn
    subst hn
    cases hs
    have e1 : wrapper T c!"NonNull" g (layout T g) = pointerTo T (layout T g) := by simp [wrapper]
    rw [e1, layout_pointer]
    exact ⟨pointerTo_rel hr, by simpa [Kept] using hk⟩
  split at hs
  · rename_i hn
    subst hn
    have e1 : wrapper T c!"NonZero" g (layout T g) = nonZero T g (layout T g) := by simp [wrapper]
    rw [e1]
    cases hz rfl
    rw [layout_nonZero hs]
    refine ⟨Rel.refl _, ?_⟩
    unfold Ty.makeZeroable at hs
    split at hs
    · split at hs
      · cases hs
      · cases hs; simp [Kept]
    · cases hs
  split at hs
  · rename_i hn
    obtain ⟨rfl, -⟩ := hn
    cases hs
    have e1 : wrapper T c!"Box" g (layout T g) = pointerTo T (layout T g) := by simp [wrapper]
    rw [e1, layout_pointer]
    exact ⟨pointerTo_rel hr, by simpa [Kept] using hk⟩
  split at hs
  · rename_i hn
    cases hs
    have e1 : wrapper T n g (layout T g) = (layout T g).hide := by
      rcases hn with rfl | rfl | rfl <;> simp [wrapper]
    rw [e1]
    exact ⟨rel_hide hr, hk⟩
  split at hs
  · rename_i hn
    cases hs
    obtain ⟨hn, -⟩ := hn
    rcases hn with rfl | rfl | rfl
    · have e1 : wrapper T c!"ManuallyDrop" g (layout T g) = layout T g := by simp [wrapper]
      rw [e1]; exact ⟨hr, hk⟩
    · have e1 : wrapper T c!"MaybeUninit" g (layout T g) = (layout T g).anything := by simp [wrapper]
      have h1 := hf.2.1 rfl
      rw [e1]
      refine ⟨.inl ?_, hk⟩
      rw [anything_exact h1, hr.exact (not_hides h1)]
    · have e1 : wrapper T c!"Pin" g (layout T g) = layout T g := by simp [wrapper]
      rw [e1]; exact ⟨hr, hk⟩
  · cases hs

theorem zeroArg_same {t : Ty} (h : zeroArg t) : t.simplifyTop lang = t ∧ t.simplify lang = t := by
  cases t with
  | prim p => exact ⟨rfl, rfl⟩
  | path n e gs k => cases (show gs = [] from h); exact ⟨rfl, rfl⟩
  | _ => exact h.elim

theorem top : ∀ t : Ty, Kept T t → Rel (layout T t) (layout T (t.simplifyTop lang)) ∧ Kept T (t.simplifyTop lang)
  | .path n e [.type g] k, h => by
    obtain ⟨hk, hf⟩ := kept_one.mp h
    have ih := top g hk
    have e1 : (Ty.path n e [.type g] k).simplifyTop lang =
        (simplifyWrapper lang n (g.simplifyTop lang)).getD (.path n e [.type g] k) := rfl
    rw [e1]
    cases hs : simplifyWrapper lang n (g.simplifyTop lang) with
    | none => exact ⟨Rel.refl _, h⟩
    | some r =>
      rw [layout_one]
      exact step_wrapper ih.1 ih.2 hf (fun hn => (zeroArg_same (hf.1 hn)).1) hs
  | .path n e [] k, h => ⟨Rel.refl _, h⟩
  | .path n e [.const c] k, h => ⟨Rel.refl _, h⟩
  | .path n e (g :: g' :: gs) k, h => ⟨Rel.refl _, h⟩
  | .ptr .., h => ⟨Rel.refl _, h⟩
  | .prim _, h => ⟨Rel.refl _, h⟩
  | .array .., h => ⟨Rel.refl _, h⟩
  | .fnptr .., h => ⟨Rel.refl _, h⟩

/-! ## All steps -/

theorem genericLayouts_isEmpty {gs : List GArg} : (GArg.simplifyList lang gs).isEmpty = gs.isEmpty := by
  cases gs <;> rfl

mutual
theorem all : ∀ t : Ty, Kept T t → Rel (layout T t) (layout T (t.simplify lang)) ∧ Kept T (t.simplify lang)
  | .ptr t c n r, h => by
    have ih := all t (by simpa only [Kept] using h)
    refine ⟨.inl ?_, by simpa only [Ty.simplify, Kept] using ih.2⟩
    simp only [Ty.simplify, layout, Layout.exact, Layout.seenList, ih.1.seen]
  | .path n e gs k, h => by
    have ih := allPath n gs (by simpa only [Kept] using h)
    have h1 : Kept T (.path n e (GArg.simplifyList lang gs) k) := by simpa only [Kept] using ih.2
    have h2 := top (lang := lang) _ h1
    refine ⟨Rel.trans ?_ h2.1, h2.2⟩
    simpa only [layout] using ih.1
  | .prim p, h => ⟨Rel.refl _, h⟩
  | .array t l, h => by
    have ih := all t (by simpa only [Kept] using h)
    refine ⟨?_, by simpa only [Ty.simplify, Kept] using ih.2⟩
    rcases ih.1 with h1 | ⟨h1, h2⟩
    · left; simp only [Ty.simplify, layout, Layout.exact, h1]
    · right
      exact ⟨by simpa only [layout, Layout.hides] using h1, by simp only [Ty.simplify, layout, Layout.seen, h2]⟩
  | .fnptr r as n nr, h => by
    simp only [Kept] at h
    have ih := all r h.1
    have ih2 := allArgs as h.2
    refine ⟨.inl ?_, by simp only [Ty.simplify, Kept]; exact ⟨ih.2, ih2.2⟩⟩
    simp only [Ty.simplify, layout, Layout.exact, Layout.seenList, ih.1.seen, ih2.1]
theorem allPath (n : Str) : ∀ gs : List GArg, KeptPath T n gs →
    Rel (pathLayout T n gs) (pathLayout T n (GArg.simplifyList lang gs)) ∧ KeptPath T n (GArg.simplifyList lang gs)
  | [], h => ⟨Rel.refl _, h⟩
  | g :: gs, h => by
    simp only [KeptPath] at h
    by_cases he : gs.isEmpty = true
    · rw [if_pos he] at h
      have ih := allOnly n g h
      simp only [GArg.simplifyList, pathLayout, KeptPath, genericLayouts_isEmpty, he, if_true]
      exact ih
    · rw [if_neg he] at h
      have ih1 := allGen g h.1
      have ih2 := allGens gs h.2
      simp only [GArg.simplifyList, pathLayout, KeptPath, genericLayouts_isEmpty, he]
      refine ⟨.inl ?_, ih1.2, ih2.2⟩
      simp only [Bool.false_eq_true, if_false, Layout.exact, Layout.exactList, ih1.1, ih2.1]
theorem allOnly (n : Str) : ∀ g : GArg, KeptOnly T n g →
    Rel (onlyLayout T n g) (onlyLayout T n (g.simplify lang)) ∧ KeptOnly T n (g.simplify lang)
  | .type t, h => by
    simp only [KeptOnly] at h
    obtain ⟨hk, hz, hm, hh⟩ := h
    have ih := all t hk
    simp only [GArg.simplify, onlyLayout, KeptOnly]
    refine ⟨wrapper_rel ih.1 (fun hn => ?_) hm hh, ih.2, fun hn => ?_, fun hn => ih.1.allowsAll (hm hn), fun hn => ih.1.hides (hh hn)⟩
    · rw [(zeroArg_same (hz hn)).2]; exact ⟨rfl, rfl⟩
    · rw [(zeroArg_same (hz hn)).2]; exact hz hn
  | .const c, h => ⟨Rel.refl _, h⟩
theorem allGen : ∀ g : GArg, KeptGen T g →
    (genericLayout T (g.simplify lang)).exact = (genericLayout T g).exact ∧ KeptGen T (g.simplify lang)
  | .type t, h => by
    simp only [KeptGen] at h
    have ih := all t h.1
    simp only [GArg.simplify, genericLayout, KeptGen]
    exact ⟨ih.1.exact h.2, ih.2, ih.1.hides h.2⟩
  | .const c, h => ⟨rfl, h⟩
theorem allGens : ∀ gs : List GArg, KeptGens T gs →
    Layout.exactList (genericLayouts T (GArg.simplifyList lang gs)) = Layout.exactList (genericLayouts T gs) ∧
    KeptGens T (GArg.simplifyList lang gs)
  | [], h => ⟨rfl, h⟩
  | g :: gs, h => by
    simp only [KeptGens] at h
    have ih1 := allGen g h.1
    have ih2 := allGens gs h.2
    simp only [GArg.simplifyList, genericLayouts, KeptGens, Layout.exactList, ih1.1, ih2.1, true_and]
    exact ⟨ih1.2, ih2.2⟩
theorem allArg : ∀ a : FArg, KeptArg T a →
    (argLayout T (a.simplify lang)).seen = (argLayout T a).seen ∧ KeptArg T (a.simplify lang)
  | .mk n t, h => by
    have ih := all t (by simpa only [KeptArg] using h)
    exact ⟨ih.1.seen, ih.2⟩
theorem allArgs : ∀ as : List FArg, KeptArgs T as →
    Layout.seenList (argLayouts T (FArg.simplifyList lang as)) = Layout.seenList (argLayouts T as) ∧
    KeptArgs T (FArg.simplifyList lang as)
  | [], h => ⟨rfl, h⟩
  | a :: as, h => by
    simp only [KeptArgs] at h
    have ih1 := allArg a h.1
    have ih2 := allArgs as h.2
    simp only [FArg.simplifyList, argLayouts, KeptArgs, Layout.seenList, ih1.1, ih2.1, true_and]
    exact ⟨ih1.2, ih2.2⟩
end

/-! ## Wrappers are replaced -/

/-- A path that is left has no scalar layout. -/
def Settled (T : Target) (t : Ty) : Prop :=
  ∀ n e gs k, t = .path n e gs k → ∃ m ls, layout T t = .named m ls

theorem named_option {t g0 : Ty} (hr : Rel (layout T t) (layout T g0)) (hs : Settled T g0)
    (h1 : g0.makeNullable = none) (h2 : g0.makeZeroable true = none) :
    ∃ m ls, (layout T t).option = .named m ls := by
  cases hl : layout T t with
  | scalar s v n ts =>
    cases n with
    | shown =>
      exfalso
      rw [hl] at hr
      have h3 := hr.exact (by simp [Layout.hides])
      cases g0 with
      | path n e gs k =>
        obtain ⟨m, ls, h4⟩ := hs n e gs k rfl
        rw [h4] at h3
        simp [Layout.exact] at h3
      | ptr t c n r =>
        cases n with
        | false => cases h1
        | true => simp [layout, Layout.exact, nicheUnless] at h3
      | fnptr r as n nr =>
        cases n with
        | false => cases h1
        | true => simp [layout, Layout.exact, nicheUnless] at h3
      | array t l => simp [layout, Layout.exact] at h3
      | prim p =>
        cases p with
        | integer z s k =>
          cases z with
          | false => cases h2
          | true => simp [layout, Layout.exact, nicheUnless] at h3
        | _ => simp [layout, Layout.exact] at h3
    | _ => exact ⟨_, _, rfl⟩
  | _ => exact ⟨_, _, rfl⟩

theorem settled_of {t : Ty} (h : ∀ n e gs k, t ≠ .path n e gs k) : Settled T t := fun n e gs k he => absurd he (h n e gs k)

theorem settled_top (hl : lang ≠ .cxx) : ∀ t : Ty, Kept T t → Settled T (t.simplifyTop lang)
  | .path n e [.type g] k, h => by
    obtain ⟨hk, hf⟩ := kept_one.mp h
    have ih := settled_top hl g hk
    have hr := top (lang := lang) g hk
    have e1 : (Ty.path n e [.type g] k).simplifyTop lang =
        (simplifyWrapper lang n (g.simplifyTop lang)).getD (.path n e [.type g] k) := rfl
    rw [e1]
    revert ih hr
    cases hn : decide (n = c!"NonZero") with
    | true =>
      intro ih hr
      have hn : n = c!"NonZero" := of_decide_eq_true hn
      subst hn
      rw [(zeroArg_same (hf.1 rfl)).1]
      have e2 : simplifyWrapper lang c!"NonZero" g = g.makeZeroable false := by simp [simplifyWrapper]
      rw [e2]
      cases hm : g.makeZeroable false with
      | some r =>
        unfold Ty.makeZeroable at hm
        split at hm
        · split at hm
          · cases hm
          · cases hm; exact settled_of (by simp)
        · cases hm
      | none =>
        intro n' e' gs' k' _
        simp only [Option.getD_none]
        rw [layout_one]
        have e3 : wrapper T c!"NonZero" g (layout T g) = nonZero T g (layout T g) := by simp [wrapper]
        rw [e3]
        unfold nonZero
        split
        · cases hm
        · exact ⟨_, _, rfl⟩
    | false =>
      intro ih hr
      have hn : n ≠ c!"NonZero" := of_decide_eq_false hn
      generalize g.simplifyTop lang = g0 at *
      unfold simplifyWrapper
      split
      · rename_i ho
        subst ho
        cases h1 : g0.makeNullable with
        | some r =>
          unfold Ty.makeNullable at h1
          split at h1 <;> cases h1 <;> exact settled_of (by simp)
        | none =>
          cases h2 : g0.makeZeroable true with
          | some r =>
            unfold Ty.makeZeroable at h2
            split at h2
            · split at h2
              · cases h2
              · cases h2; exact settled_of (by simp)
            · cases h2
          | none =>
            intro n' e' gs' k' _
            simp only [Option.getD_none]
            rw [layout_one]
            have e3 : wrapper T c!"Option" g (layout T g) = (layout T g).option := by simp [wrapper]
            rw [e3]
            exact named_option hr.1 ih h1 h2
      rename_i ho
      split
      · exact settled_of (by simp)
      rename_i ho1
      split
      · exact settled_of (by simp)
      rename_i ho2
      split
      · exact ih
      rename_i ho3
      split
      · exact ih
      rename_i ho4
      intro n' e' gs' k' _
      simp only [Option.getD_none]
      rw [layout_one]
      refine ⟨n, [layout T g], ?_⟩
      unfold wrapper
      simp_all
  | .path n e [] k, h => fun _ _ _ _ _ => ⟨n, [], by simp [Ty.simplifyTop, Ty.simplified, GArg.simplifiedList, layout, pathLayout]⟩
  | .path n e [.const c] k, h => fun _ _ _ _ _ => ⟨n, _, by
      simp [Ty.simplifyTop, Ty.simplified, GArg.simplifiedList, GArg.simplified, layout, pathLayout, onlyLayout]; rfl⟩
  | .path n e (g :: g' :: gs) k, h => fun _ _ _ _ _ => ⟨n, _, by
      simp [Ty.simplifyTop, Ty.simplified, GArg.simplifiedList, layout, pathLayout]; rfl⟩
  | .ptr .., h => settled_of (by simp [Ty.simplifyTop, Ty.simplified])
  | .prim _, h => settled_of (by simp [Ty.simplifyTop, Ty.simplified])
  | .array .., h => settled_of (by simp [Ty.simplifyTop, Ty.simplified])
  | .fnptr .., h => settled_of (by simp [Ty.simplifyTop, Ty.simplified])

theorem settled_all (hl : lang ≠ .cxx) (t : Ty) (h : Kept T t) : Settled T (t.simplify lang) := by
  cases t with
  | path n e gs k =>
    have ih := allPath (lang := lang) n gs (by simpa only [Kept] using h)
    exact settled_top hl _ (by simpa only [Kept] using ih.2)
  | _ => exact settled_of (by simp [Ty.simplify])

end Cbindgen.AbiSpec

namespace Cbindgen
open AbiSpec

/-- The simplified type has the bytes and the values of the Rust type, through any number of pointers, arrays,
function types and wrappers, in every language.  Partial: no niche may be hidden from an `Option` or from a type
of the user, and `MaybeUninit` may only be used for types that allow any contents; see the counterexamples. -/
theorem C17_layout_partial {T : Target} {lang : Language} {t : Ty} (h : Kept T t) :
    (layout T (t.simplify lang)).seen = (layout T t).seen := (all t h).1.seen

/-- In C and Cython, a type for which Rust guarantees that it is a number or a pointer is written as one: no
wrapper is left around it. -/
theorem C17_replaced_partial {T : Target} {lang : Language} {t : Ty} (hl : lang ≠ .cxx) (h : Kept T t)
    {s : Nat} {v : Nat → Prop} {k : Niche} {ts : List Layout} (hs : layout T t = .scalar s v k ts) :
    (∃ t' c n r, t.simplify lang = .ptr t' c n r) ∨ (∃ p, t.simplify lang = .prim p) ∨
    ∃ r as n nr, t.simplify lang = .fnptr r as n nr := by
  have h1 := settled_all hl t h
  have h2 := C17_layout_partial (lang := lang) h
  rw [hs] at h2
  cases ht : t.simplify lang with
  | ptr t' c n r => exact .inl ⟨_, _, _, _, rfl⟩
  | prim p => exact .inr (.inl ⟨_, rfl⟩)
  | fnptr r as n nr => exact .inr (.inr ⟨_, _, _, _, rfl⟩)
  | array t' l => rw [ht] at h2; simp [layout, Layout.seen] at h2
  | path n e gs kk =>
    obtain ⟨m, ls, h3⟩ := h1 _ _ _ _ ht
    rw [h3] at h2
    simp [Layout.seen] at h2

namespace C17Cases

def one (n : Str) (t : Ty) : Ty := .path n n [.type t] none
/-- `&T` -/
def ref : Ty := .ptr (.path c!"T" c!"T" [] none) true false true
def u32 : Ty := .prim (.integer true false .b32)

end C17Cases

open C17Cases in
/-- `Option<Cell<&T>>` is written as a pointer that may be null.  Rust gives it a tag of its own. -/
theorem C17_cell_refuted : ∃ t : Ty, ∀ (T : Target) (lang : Language),
    (layout T (t.simplify lang)).seen ≠ (layout T t).seen := by
  refine ⟨one c!"Option" (one c!"Cell" ref), fun T lang => ?_⟩
  have e1 : (one c!"Option" (one c!"Cell" ref)).simplify lang = .ptr (.path c!"T" c!"T" [] none) true true true := by
    cases lang <;> rfl
  rw [e1]
  simp [one, ref, layout, pathLayout, onlyLayout, wrapper, Layout.hide, Niche.hide, nicheUnless, Layout.option, Layout.seen]

open C17Cases in
/-- `MaybeUninit<&T>` may hold null, what it is written as may not. -/
theorem C17_uninit_refuted : ∃ t : Ty, ∀ (T : Target) (lang : Language), lang ≠ .cxx →
    (layout T (t.simplify lang)).seen ≠ (layout T t).seen := by
  refine ⟨one c!"MaybeUninit" ref, fun T lang hl => ?_⟩
  have e1 : (one c!"MaybeUninit" ref).simplify lang = ref := by
    cases lang with
    | cxx => exact absurd rfl hl
    | _ => rfl
  rw [e1]
  intro h
  simp [one, ref, layout, pathLayout, onlyLayout, wrapper, nicheUnless, Layout.anything, Layout.seen] at h
  have := congrFun h 0
  simp at this

open C17Cases in
/-- Wrappers are known by their names: a struct of the user with the name `Cell` and two fields is replaced by
the type of its argument. -/
theorem C17_user_type_refuted (c : LibConfig) : ∃ (l : Library) (s : StructItem) (f : FuncItem),
    s ∈ l.structs.toVec ∧ f ∈ l.functions ∧ s.fields.length = 2 ∧ (∃ a ∈ f.args, a.ty = one s.path u32) ∧
    ∃ f' ∈ (l.simplify c).functions, f'.path = f.path ∧ ∃ a ∈ f'.args, a.ty = u32 := by
  refine ⟨{ structs := [(c!"Cell", .single { path := c!"Cell", exportName := c!"Cell", fields := [{ name := c!"a", ty := .path c!"T" c!"T" [] none }, { name := c!"b", ty := u32 }] })],
            functions := [{ path := c!"f", ret := u32, args := [⟨some c!"x", one c!"Cell" u32, none⟩] }] },
    _, _, List.mem_cons_self .., List.mem_cons_self .., rfl, ⟨_, List.mem_cons_self .., rfl⟩, _, List.mem_cons_self .., rfl, _,
    List.mem_cons_self .., ?_⟩
  rfl

/-! ## A case -/

open C17Cases in
/-- `extern fn(Option<Pin<Box<Cell<NonZero<u32>>>>>) -> MaybeUninit<u32>` -/
def C17Cases.deep : Ty :=
  .fnptr (one c!"MaybeUninit" u32) [.mk none (one c!"Option" (one c!"Pin" (one c!"Box" (one c!"Cell" (one c!"NonZero" u32)))))] false false

open C17Cases in
example (T : Target) : Kept T deep ∧
    deep.simplify .c = .fnptr u32 [.mk none (.ptr (.prim (.integer false false .b32)) false true false)] false false := by
  refine ⟨?_, rfl⟩
  simp [deep, one, u32, Kept, KeptPath, KeptOnly, KeptArgs, KeptArg, fits, zeroArg, transparentName, layout, pathLayout,
    onlyLayout, wrapper, nonZero, pointerTo, Layout.hide, Layout.hides, Layout.allowsAll, nicheUnless]

end Cbindgen
