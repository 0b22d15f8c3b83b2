import Verif.Lemmas.SourceGenerics
import Verif.Lemmas.SourceStatics
import Verif.Spec.SourceCxx

/-!
# From the syntax of Rust types to C++ types
-/

namespace Cbindgen
open CSpec SrcSpec

/-! ## Loaded types after the simplification for C++ -/

/-- A type of a loaded item after the simplification of standard types for C++. -/
def Ty.shapeX (o : Option Str) (t : Ty) : Ty := (t.replaceSelfOpt o).simplify .cxx

def FArg.shapeX (o : Option Str) : FArg → FArg
  | .mk n t => .mk n (t.shapeX o)
def GArg.shapeX (o : Option Str) : GArg → GArg
  | .type t => .type (t.shapeX o)
  | .const c => .const c

theorem shapeX_ptr (o : Option Str) (t : Ty) (c n r : Bool) : (Ty.ptr t c n r).shapeX o = .ptr (t.shapeX o) c n r := by
  cases o <;> rfl
theorem shapeX_array (o : Option Str) (t : Ty) (l : CExpr) : (Ty.array t l).shapeX o = .array (t.shapeX o) l := by
  cases o <;> rfl
theorem shapeX_prim (o : Option Str) (p : Prim) : (Ty.prim p).shapeX o = .prim p := by
  cases o <;> rfl

theorem shapeX_fnptr (o : Option Str) (r : Ty) (as : List FArg) (n nr : Bool) :
    (Ty.fnptr r as n nr).shapeX o = .fnptr (r.shapeX o) (as.map (FArg.shapeX o)) n nr := by
  cases o with
  | none =>
    simp only [Ty.shapeX, Ty.replaceSelfOpt, Ty.simplify, simplifyList_map]
    congr 1
    apply List.map_congr_left
    rintro ⟨m, t⟩ -
    rfl
  | some p =>
    simp only [Ty.shapeX, Ty.replaceSelfOpt, Ty.replaceSelf, Ty.simplify, simplifyList_map, replaceSelfList_map, List.map_map]
    congr 1
    apply List.map_congr_left
    rintro ⟨m, t⟩ -
    rfl

theorem shapeX_path {o : Option Str} {n : Str} (h : n ≠ c!"Self") (gs : List GArg) :
    (Ty.newPath n gs).shapeX o = (Ty.path n n (gs.map (GArg.shapeX o)) none).simplifyTop .cxx := by
  cases o with
  | none =>
    simp only [Ty.shapeX, Ty.replaceSelfOpt, Ty.newPath, Ty.simplify, gsimplifyList_map]
    congr 2
    apply List.map_congr_left
    rintro (t | c) - <;> rfl
  | some p =>
    simp only [Ty.shapeX, Ty.replaceSelfOpt, Ty.newPath, Ty.replaceSelf, replaceSelfName, if_neg h, Ty.simplify,
      gsimplifyList_map, greplaceSelfList_map, List.map_map]
    congr 2
    apply List.map_congr_left
    rintro (t | c) - <;> rfl

theorem shapeX_self (p : Str) : (Ty.newPath c!"Self" []).shapeX (some p) = .newPath p [] := rfl

/-- A wrapper around any type. -/
theorem shapeX_wrapped {o : Option Str} {w : Str} (h : w ≠ c!"Self") (t : Ty) : (Ty.newPath w [.type t]).shapeX o =
    (simplifyWrapper .cxx w (t.shapeX o)).getD (.path w w [.type (t.shapeX o)] none) := by
  have hf : (t.shapeX o).simplified .cxx = none := simplify_fixed _ _
  rw [shapeX_path h]
  simp only [List.map_cons, List.map_nil, GArg.shapeX, Ty.simplifyTop, Ty.simplified, GArg.simplifiedList, List.isEmpty_nil,
    if_true, GArg.simplified, hf, Option.getD_none]

theorem simplifyWrapper_cxx {n : Str} (h : n ∉ cxxWrappers) (t : Ty) : simplifyWrapper .cxx n t = none := by
  simp only [cxxWrappers, List.mem_cons, List.not_mem_nil, or_false, not_or] at h
  simp [simplifyWrapper, h]

/-- A template. -/
theorem shapeX_inst {o : Option Str} {n : Str} (h : n ≠ c!"Self") (hw : n ∉ cxxWrappers) (gs : List GArg) :
    (Ty.newPath n gs).shapeX o = .newPath n (gs.map (GArg.shapeX o)) := by
  rw [shapeX_path h]
  match gs with
  | [] => rfl
  | [.const _] => rfl
  | [.type t] =>
    simp only [List.map_cons, List.map_nil, GArg.shapeX, Ty.simplifyTop, Ty.simplified, GArg.simplifiedList, List.isEmpty_nil,
      if_true, GArg.simplified, simplifyWrapper_cxx hw, Option.getD_none, Ty.newPath]
  | a :: b :: gs => rfl

theorem shapeX_named {o : Option Str} {n : Str} (h : n ≠ c!"Self") : (Ty.newPath n []).shapeX o = .newPath n [] := by
  rw [shapeX_path h]
  rfl

/-! ## From the shape to C++ -/

section
variable (d : DeclConfig) (ren : Str → Str) (vs : List GParam)

/-- The name of a type in a definition with the parameters `vs`, which keep their names. -/
def nameIn (n : Str) : Str := if hasParam vs n then n else ren n

/-- The C++ type of a shape, after names are put in. -/
def Ty.finX (c : Bool) (s : Ty) : CTy := meaning d c (s.rename ren vs)

def FArg.finX : FArg → CParam
  | .mk n t => .mk n (t.finX d ren vs false)
def GArg.finX : GArg → CTyArg
  | .type t => .type (t.finX d ren vs false)
  | .const x => .const (x.rename ren vs).asStr

theorem finX_ptr (c : Bool) (t : Ty) (m n : Bool) :
    (Ty.ptr t m n false).finX d ren vs c = .ptr c false (wantedAttr d n false) (t.finX d ren vs m) := rfl
theorem finX_prim (c : Bool) (p : Prim) : (Ty.prim p).finX d ren vs c = .base c none (p.toReprC d.usizeIsSizeT) [] := rfl
theorem finX_array (c : Bool) (t : Ty) (l : CExpr) :
    (Ty.array t l).finX d ren vs c = .arr (l.rename ren vs).asStr (t.finX d ren vs c) := rfl

theorem finX_gargs : ∀ as : List GArg, meaningGArgs d (GArg.renameList ren vs as) = as.map (GArg.finX d ren vs)
  | [] => rfl
  | .type t :: as => by
    simp only [GArg.renameList, GArg.rename, meaningGArgs, List.map_cons, finX_gargs as]
    rfl
  | .const x :: as => by
    simp only [GArg.renameList, GArg.rename, meaningGArgs, List.map_cons, finX_gargs as]
    rfl

theorem finX_path (c : Bool) (n : Str) (gs : List GArg) :
    (Ty.newPath n gs).finX d ren vs c = .base c none (nameIn ren vs n) (gs.map (GArg.finX d ren vs)) := by
  simp [Ty.finX, Ty.newPath, Ty.rename, nameIn, meaning, finX_gargs]

theorem finX_args : ∀ as : List FArg, meaningArgs d (FArg.renameList ren vs as) = as.map (FArg.finX d ren vs)
  | [] => rfl
  | .mk n t :: as => by
    simp only [FArg.renameList, FArg.rename, meaningArgs, List.map_cons, finX_args as]
    rfl

theorem finX_fnptr (c : Bool) (r : Ty) (as : List FArg) (n nr : Bool) : (Ty.fnptr r as n nr).finX d ren vs c =
    .ptr c false (wantedAttr d n false) (.fn (as.map (FArg.finX d ren vs)) (wantedNoReturn d nr) (r.finX d ren vs false)) := by
  simp only [Ty.finX, Ty.rename, meaning, finX_args]

end

/-! ## The C++ type of a source type -/

section
variable {E : TyEnv} {d : DeclConfig} {ren : Str → Str} {vs : List GParam}

/-- The environment agrees with the configuration of the writer. -/
structure EnvForX (E : TyEnv) (d : DeclConfig) (ren : Str → Str) (vs : List GParam) : Prop where
  language : d.language = .cxx
  nullable : E.nullable = d.nullableAttr
  nonNull : E.nonNull = d.nonNullAttr
  noReturn : E.noReturn = d.noReturn
  size : E.usizeIsSizeT = d.usizeIsSizeT
  name : ∀ n, E.name n = nameIn ren vs n

theorem EnvForX.attr (h : EnvForX E d ren vs) (n : Bool) : wantedAttr d n false = if n then E.nullable else E.nonNull := by
  cases n <;> simp [wantedAttr, h.language, h.nullable, h.nonNull]

theorem EnvForX.never (h : EnvForX E d ren vs) (n : Bool) : wantedNoReturn d n = if n then E.noReturn else none := by
  cases n <;> simp [wantedNoReturn, h.language, h.noReturn]

/-- The loaded type `ty` has the C++ type `u`. -/
structure TypedX (E : TyEnv) (d : DeclConfig) (ren : Str → Str) (vs : List GParam) (c : Bool) (ty : Ty) (u : CTy) : Prop where
  fin : (ty.shapeX E.owner).finX d ren vs c = u
  fixed : ty ≠ .prim .vaList

theorem nonZeroX_ok (he : EnvForX E d ren vs) {t : SynTy} {u : Str} (h : NonZeroInt E t u) :
    ∃ ty s k, t.load = .ok (some ty) ∧ ty.shapeX E.owner = .prim (.integer false s k) ∧
      (∀ z, (Prim.integer z s k).toReprC d.usizeIsSizeT = u) ∧ ty ≠ .prim .vaList := by
  cases h with
  | named h1 h2 =>
    obtain ⟨s, k, h3, h4⟩ := nonZero_prim d.usizeIsSizeT _ h1
    exact ⟨_, s, k, load_maybe h2 h3, shapeX_prim _ _, h4, by simp⟩
  | wrapped h1 h2 h3 =>
    rw [he.size] at h1
    obtain ⟨s, k, h4, h5⟩ := int_prim _ _ h1
    refine ⟨_, s, k, load_wrap h3 (by decide) (load_maybe h2 h4), ?_, h5, nofun⟩
    rw [shapeX_wrapped (by decide), shapeX_prim]
    rfl

theorem load_template {n : Str} {as : List SynGArg} {gs : List GArg} (ha : SynGArg.loadList as = .ok gs)
    (h1 : unraw n ≠ c!"PhantomData") (h2 : unraw n ≠ c!"PhantomPinned") (hp : Prim.maybe (unraw n) = none) :
    (SynTy.path n (.angle as)).load = .ok (some (.newPath (unraw n) gs)) := by
  simp only [SynTy.load, SynArgs.load, ha, bind, Except.bind, typeOfPath, h1, h2, or_self, if_false, hp]

theorem ordinary_name {n : Str} (h1 : n ∉ builtin) : Prim.maybe n = none ∧ n ≠ c!"Self" ∧ n ≠ c!"PhantomData" ∧ n ≠ c!"PhantomPinned" := by
  refine ⟨?_, ?_, ?_, ?_⟩
  · cases hx : Prim.maybe n with
    | none => rfl
    | some p => exact absurd (known_prim _ (by simp [hx])) h1
  · rintro rfl; exact h1 builtin_phantom.2.2
  · rintro rfl; exact h1 builtin_phantom.1
  · rintro rfl; exact h1 builtin_phantom.2.1

theorem length_okX (he : EnvForX E d ren vs) {e : SynExpr} {l : Str} (h : Length E e l) :
    ∃ x, e.loadConst = .ok x ∧ (x.rename ren vs).asStr = l := by
  induction h with
  | int => exact ⟨_, rfl, rfl⟩
  | @path i n =>
    by_cases hp : unraw n = c!"PhantomData"
    · exact ⟨.path (unraw n) (unraw n), by simp only [SynExpr.loadConst, if_pos hp], (he.name (unraw n)).symm⟩
    · exact ⟨.path (unraw n) (unraw n), by simp only [SynExpr.loadConst, if_neg hp]; rfl, (he.name (unraw n)).symm⟩
  | cast _ ih => exact ih

theorem fargX_shape_fin (o : Option Str) (b : Bool) : (variadicArg b).map (FArg.shapeX o) = variadicArg b := by
  cases b
  · rfl
  · cases o <;> rfl

theorem variadicX_fin (d : DeclConfig) (ren : Str → Str) (vs : List GParam) (b : Bool) : (variadicArg b).map (FArg.finX d ren vs) = dots b := by
  cases b <;> rfl

mutual
theorem xtype_ok (he : EnvForX E d ren vs) : ∀ {c : Bool} {t : SynTy} {u : CTy}, CxxType E c t u →
    ∃ ty, t.load = .ok (some ty) ∧ TypedX E d ren vs c ty u
  | c, .path n as, _, .prim (u := u) h1 h2 => by
    have h3 : ∃ p, Prim.maybe (unraw n) = some p ∧ p.toReprC d.usizeIsSizeT = u ∧ p ≠ .vaList := by
      rcases List.mem_append.1 h1 with h1 | h1
      · rw [he.size] at h1
        obtain ⟨s, k, h3, h4⟩ := int_prim _ _ h1
        exact ⟨_, h3, h4 true, by simp⟩
      · exact other_prim _ _ h1
    obtain ⟨p, h3, h4, h5⟩ := h3
    refine ⟨_, load_maybe h2 h3, ?_, by simpa using h5⟩
    rw [shapeX_prim, finX_prim, h4]; rfl
  | c, .path n as, _, .named h1 h2 => by
    obtain ⟨hm, hs, hp, hq⟩ := ordinary_name h1
    refine ⟨_, load_named h2 hp hq hm, ?_, nofun⟩
    rw [shapeX_named hs, finX_path, ← he.name]; rfl
  | c, .path n (.angle as), _, .template h1 hw h2 => by
    obtain ⟨hm, hs, hp, hq⟩ := ordinary_name h1
    obtain ⟨gs, h3, h4⟩ := xargs_ok he h2
    refine ⟨_, load_template h3 hp hq hm, ?_, nofun⟩
    rw [shapeX_inst hs hw, finX_path, h4, ← he.name]
  | c, .path n as, _, .self (o := o) h1 h2 h3 => by
    refine ⟨_, load_named h2 ?_ ?_ ?_, ?_, nofun⟩
    · rw [h1]; decide
    · rw [h1]; decide
    · rw [h1]; exact maybe_phantom.2.2
    · rw [h1, h3, shapeX_self, finX_path, ← he.name]; rfl
  | c, _, _, .raw (m := m) h => by
    obtain ⟨ty, h1, h2⟩ := xpointee_ok he h
    refine ⟨.ptr (orVoid ty) m true false, by simp only [SynTy.load, h1, bind, Except.bind], ?_, nofun⟩
    rw [shapeX_ptr, finX_ptr, h2.fin, he.attr]; rfl
  | c, _, _, .nonNull h => by
    obtain ⟨ty, s, h1, h3, h5, h6⟩ := xnonNull_ok he h
    refine ⟨ty, h1, h5 c, ?_⟩
    rintro rfl
    rw [shapeX_prim] at h3
    cases h3
  | c, _, _, .optNonNull h hw => by
    obtain ⟨ty, s, h1, h3, h5, h6⟩ := xnonNull_ok he h
    have hs : (Ty.newPath c!"Option" [.type ty]).shapeX E.owner = s := by
      rw [shapeX_wrapped (by decide)]
      simp only [simplifyWrapper, if_true, h3, Option.getD_some]
    exact ⟨_, load_wrap hw (by decide) h1, by rw [hs]; exact h6 c, nofun⟩
  | c, _, _, .nonZero h => by
    obtain ⟨ty, s, k, h1, h2, h3, h4⟩ := nonZeroX_ok he h
    exact ⟨ty, h1, by rw [h2, finX_prim, h3]; rfl, h4⟩
  | c, _, _, .optNonZero h hw => by
    obtain ⟨ty, s, k, h1, h2, h3, -⟩ := nonZeroX_ok he h
    have hs : (Ty.newPath c!"Option" [.type ty]).shapeX E.owner = .prim (.integer true s k) := by
      rw [shapeX_wrapped (by decide), h2]
      rfl
    exact ⟨_, load_wrap hw (by decide) h1, by rw [hs, finX_prim, h3]; rfl, nofun⟩
  | c, _, _, .array h hl => by
    obtain ⟨ty, h1, h2⟩ := xtype_ok he h
    obtain ⟨x, h3, h4⟩ := length_okX he hl
    refine ⟨.array ty x, by simp only [SynTy.load, h1, h3, bind, Except.bind], ?_, nofun⟩
    rw [shapeX_array, finX_array, h2.fin, h4]
  | c, _, _, .wrapped (w := w) hw h ho => by
    obtain ⟨ty, h1, h2⟩ := xtype_ok he h
    have hs : (Ty.newPath w [.type ty]).shapeX E.owner = ty.shapeX E.owner := by
      simp only [List.mem_cons, List.not_mem_nil, or_false] at hw
      rcases hw with rfl | rfl | rfl <;> (rw [shapeX_wrapped (by decide)]; rfl)
    have hw' : w ∈ wrappers := by
      simp only [List.mem_cons, List.not_mem_nil, or_false] at hw
      rcases hw with rfl | rfl | rfl <;> decide
    exact ⟨_, load_wrap ho hw' h1, by rw [hs]; exact h2.fin, nofun⟩
theorem xargs_ok (he : EnvForX E d ren vs) : ∀ {as : List SynGArg} {us : List CTyArg}, CxxArgs E as us →
    ∃ gs, SynGArg.loadList as = .ok gs ∧ (gs.map (GArg.shapeX E.owner)).map (GArg.finX d ren vs) = us
  | _, _, .nil => ⟨[], rfl, rfl⟩
  | _, _, .lifetime h => by
    obtain ⟨gs, h1, h2⟩ := xargs_ok he h
    exact ⟨gs, by simp only [SynGArg.loadList, SynGArg.load, h1, bind, Except.bind, consOpt], h2⟩
  | _, _, .nothing hn h => by
    obtain ⟨gs, h1, h2⟩ := xargs_ok he h
    exact ⟨gs, by simp only [SynGArg.loadList, SynGArg.load, load_nothing hn, Option.map, h1, bind, Except.bind, consOpt], h2⟩
  | _, _, .type ht h => by
    obtain ⟨ty, h3, h4⟩ := xtype_ok he ht
    obtain ⟨gs, h1, h2⟩ := xargs_ok he h
    refine ⟨.type ty :: gs, by simp only [SynGArg.loadList, SynGArg.load, h3, Option.map, h1, bind, Except.bind, consOpt], ?_⟩
    simp only [List.map_cons, GArg.shapeX, GArg.finX, h4.fin, h2]
  | _, _, .const hl h => by
    obtain ⟨x, h3, h4⟩ := length_okX he hl
    obtain ⟨gs, h1, h2⟩ := xargs_ok he h
    refine ⟨.const x :: gs, by simp only [SynGArg.loadList, SynGArg.load, h3, h1, bind, Except.bind, consOpt], ?_⟩
    simp only [List.map_cons, GArg.shapeX, GArg.finX, h4, h2]
theorem xpointee_ok (he : EnvForX E d ren vs) : ∀ {c : Bool} {t : SynTy} {u : CTy}, CxxPointee E c t u →
    ∃ ty, t.load = .ok ty ∧ TypedX E d ren vs c (orVoid ty) u
  | c, _, _, .some h => by
    obtain ⟨ty, h1, h2⟩ := xtype_ok he h
    exact ⟨some ty, h1, h2⟩
  | c, _, _, .void h => ⟨none, load_nothing h, by rw [orVoid, shapeX_prim]; rfl, nofun⟩
theorem xnonNull_ok (he : EnvForX E d ren vs) : ∀ {t : SynTy} {u : CTy}, CxxNonNull E t u →
    ∃ ty s, t.load = .ok (some ty) ∧ (ty.shapeX E.owner).makeNullable = some s ∧
      (∀ c, (ty.shapeX E.owner).finX d ren vs c = .ptr c false E.nonNull u) ∧
      ∀ c, s.finX d ren vs c = .ptr c false E.nullable u
  | _, _, .reference (m := m) h => by
    obtain ⟨ty, h1, h2⟩ := xpointee_ok he h
    refine ⟨.ptr (orVoid ty) (!m) false false, .ptr ((orVoid ty).shapeX E.owner) (!m) true false,
      by simp only [SynTy.load, h1, bind, Except.bind], ?_⟩
    rw [shapeX_ptr]
    refine ⟨rfl, fun c => ?_, fun c => ?_⟩
    · rw [finX_ptr, h2.fin, he.attr]; rfl
    · rw [finX_ptr, h2.fin, he.attr]; rfl
  | _, _, .pointer h ho => by
    obtain ⟨ty, h1, h2⟩ := xtype_ok he h
    have hs : (Ty.newPath c!"NonNull" [.type ty]).shapeX E.owner = .ptr (ty.shapeX E.owner) false false false := by
      rw [shapeX_wrapped (by decide)]
      rfl
    refine ⟨_, .ptr (ty.shapeX E.owner) false true false, load_wrap ho (by decide) h1, ?_⟩
    rw [hs]
    refine ⟨rfl, fun c => ?_, fun c => ?_⟩
    · rw [finX_ptr, h2.fin, he.attr]; rfl
    · rw [finX_ptr, h2.fin, he.attr]; rfl
  | _, _, .function (v := v) (ps := ps) h hr => by
    obtain ⟨fs, h1, h3⟩ := xfnArgs_ok he h
    obtain ⟨ty, nr, h4, h5, h6⟩ := xreturns_ok he hr
    refine ⟨.fnptr ty (fs ++ variadicArg v) false nr,
      .fnptr (ty.shapeX E.owner) ((fs ++ variadicArg v).map (FArg.shapeX E.owner)) true nr,
      by simp only [SynTy.load, h1, h4, bind, Except.bind], ?_⟩
    rw [shapeX_fnptr]
    have hf : ((fs ++ variadicArg v).map (FArg.shapeX E.owner)).map (FArg.finX d ren vs) = ps ++ dots v := by
      rw [List.map_append, fargX_shape_fin, List.map_append, h3, variadicX_fin]
    refine ⟨rfl, fun c => ?_, fun c => ?_⟩
    · rw [finX_fnptr, hf, h5.fin, h6, he.attr]; rfl
    · rw [finX_fnptr, hf, h5.fin, h6, he.attr]; rfl
theorem xfnArgs_ok (he : EnvForX E d ren vs) : ∀ {k : Nat} {as : List SynFnArg} {ps : List CParam}, CxxFnArgs E k as ps →
    ∃ fs, SynFnArg.loadList k as = .ok fs ∧ (fs.map (FArg.shapeX E.owner)).map (FArg.finX d ren vs) = ps
  | _, _, _, .nil => ⟨[], rfl, rfl⟩
  | k, _, _, .skip hn h => by
    obtain ⟨fs, h1, h2⟩ := xfnArgs_ok he h
    exact ⟨fs, by simp only [SynFnArg.loadList, load_nothing hn, bind, Except.bind, h1], h2⟩
  | k, _, _, .cons (n' := n') ha ht _ h => by
    obtain ⟨ty, h1, h2⟩ := xtype_ok he ht
    obtain ⟨fs, h3, h5⟩ := xfnArgs_ok he h
    refine ⟨.mk n' ty :: fs, by simp only [SynFnArg.loadList, h1, bind, Except.bind, argName_ok ha, h3], ?_⟩
    simp only [List.map_cons, FArg.shapeX, FArg.finX, h2.fin, h5]
theorem xreturns_ok (he : EnvForX E d ren vs) : ∀ {r : SynRet} {a : Option Str} {u : CTy}, CxxReturns E r a u →
    ∃ ty nr, r.load = .ok (ty, nr) ∧ TypedX E d ren vs false ty u ∧ wantedNoReturn d nr = a
  | _, _, _, .default => ⟨_, false, rfl, ⟨by rw [shapeX_prim]; rfl, nofun⟩, by rw [he.never]; rfl⟩
  | _, _, _, .never => ⟨_, true, rfl, ⟨by rw [shapeX_prim]; rfl, nofun⟩, by rw [he.never]; rfl⟩
  | _, _, _, .nothing (t := t) h => by
    refine ⟨.prim .void, false, ?_, ⟨by rw [shapeX_prim]; rfl, nofun⟩, by rw [he.never]; rfl⟩
    have hl := load_nothing h
    cases t with
    | never => cases h
    | _ => simp only [SynRet.load, hl, bind, Except.bind, orVoid]
  | _, _, _, .type (t := t) h _ => by
    obtain ⟨ty, h1, h2⟩ := xtype_ok he h
    refine ⟨ty, false, ?_, h2, by rw [he.never]; rfl⟩
    cases t with
    | never => cases h1
    | _ => simp only [SynRet.load, h1, bind, Except.bind, orVoid]
end

/-! ## Functions -/

theorem xtype_array {c : Bool} {t : SynTy} {x : SynExpr} {u : CTy} (h : CxxType E c (.array t x) u) : IsArray u := by
  cases h with
  | array => trivial
  | nonNull h => cases h with
    | pointer _ h => cases h
  | optNonNull _ h => cases h
  | nonZero h => cases h with
    | wrapped _ _ h => cases h
  | optNonZero _ h => cases h
  | wrapped _ _ h => cases h

theorem typedParamX_ok {name : Option Str} {c : Bool} {t : SynTy} {u : CTy} {ty : Ty} (h : t.load = .ok (some ty))
    (ht : CxxType E c t u) (ha : ¬ IsArray u) : typedParam name ty = .ok (some { name, ty }) := by
  cases ty with
  | array e l =>
    obtain ⟨x, y, rfl⟩ := load_array h
    exact absurd (xtype_array ht) ha
  | _ => rfl

/-- A loaded argument as a parameter. -/
def FnArg.asCxx (E : TyEnv) (d : DeclConfig) (ren : Str → Str) (vs : List GParam) (a : FnArg) : CParam :=
  .mk (a.name.map E.arg) ((a.ty.shapeX E.owner).finX d ren vs false)

/-- The arguments that are loaded have the types `ps`. -/
structure ArgsTypedX (E : TyEnv) (d : DeclConfig) (ren : Str → Str) (vs : List GParam) (args : List FnArg) (ps : List CParam) : Prop where
  lengths : ∀ a ∈ args, a.arrayLength = none
  fin : args.map (FnArg.asCxx E d ren vs) = ps

theorem ArgsTypedX.cons {a : FnArg} {as : List FnArg} {p : CParam} {ps : List CParam} (h : ArgsTypedX E d ren vs as ps)
    (h2 : a.arrayLength = none) (h3 : a.asCxx E d ren vs = p) : ArgsTypedX E d ren vs (a :: as) (p :: ps) :=
  ⟨by simpa using ⟨h2, h.lengths⟩, by rw [List.map_cons, h3, h.fin]⟩

theorem xreceiver_ok (he : EnvForX E d ren vs) {r : SynReceiver} {u : CTy} (h : CxxReceiver E r u) :
    ∃ ty, r.load = .ok ty ∧ (ty.shapeX E.owner).finX d ren vs false = u := by
  cases h with
  | value h =>
    refine ⟨_, rfl, ?_⟩
    rw [selfTy, h, shapeX_self, finX_path, ← he.name]; rfl
  | reference h =>
    refine ⟨_, rfl, ?_⟩
    rw [shapeX_ptr, selfTy, h, shapeX_self, finX_ptr, finX_path, ← he.name, he.attr]; rfl

theorem xparams_ok (he : EnvForX E d ren vs) {ins : List SynParam} {ps : List CParam} (h : CxxParams E ins ps) :
    ∃ args, trySkipMap SynParam.load ins = .ok args ∧ ArgsTypedX E d ren vs args ps := by
  induction h with
  | nil => exact ⟨[], rfl, by simp, rfl⟩
  | receiver hr _ ih =>
    obtain ⟨args, h1, h2⟩ := ih
    obtain ⟨ty, h3, h5⟩ := xreceiver_ok he hr
    refine ⟨⟨some c!"self", ty, none⟩ :: args, trySkipMap_some ?_ h1, h2.cons rfl ?_⟩
    · simp only [SynParam.load, h3, bind, Except.bind]
    · simp only [FnArg.asCxx, h5]; rfl
  | wild ht ha _ ih =>
    obtain ⟨args, h1, h2⟩ := ih
    obtain ⟨ty, h3, h4⟩ := xtype_ok he ht
    refine ⟨⟨none, ty, none⟩ :: args, trySkipMap_some ?_ h1, h2.cons rfl ?_⟩
    · simp only [SynParam.load, h3, bind, Except.bind, typedParamX_ok h3 ht ha]
    · simp only [FnArg.asCxx, h4.fin]; rfl
  | @ident n _ _ _ _ ht ha _ ih =>
    obtain ⟨args, h1, h2⟩ := ih
    obtain ⟨ty, h3, h4⟩ := xtype_ok he ht
    refine ⟨⟨some (unraw n), ty, none⟩ :: args, trySkipMap_some ?_ h1, h2.cons rfl ?_⟩
    · simp only [SynParam.load, h3, bind, Except.bind, typedParamX_ok h3 ht ha, if_neg h4.fixed]
    · simp only [FnArg.asCxx, h4.fin]; rfl
  | wildNothing hn _ ih =>
    obtain ⟨args, h1, h2⟩ := ih
    exact ⟨args, trySkipMap_none (by simp only [SynParam.load, load_nothing hn, bind, Except.bind]) h1, h2⟩
  | identNothing hn _ ih =>
    obtain ⟨args, h1, h2⟩ := ih
    exact ⟨args, trySkipMap_none (by simp only [SynParam.load, load_nothing hn, bind, Except.bind]) h1, h2⟩
  | patternNothing hn _ ih =>
    obtain ⟨args, h1, h2⟩ := ih
    exact ⟨args, trySkipMap_none (by simp only [SynParam.load, load_nothing hn, bind, Except.bind]) h1, h2⟩

/-- A loaded function after the simplification of standard types has the C++ type `T`. -/
structure FnTypedX (E : TyEnv) (d : DeclConfig) (ren : Str → Str) (vs : List GParam) (f : FuncItem) (T : CTy) : Prop where
  lengths : ∀ a ∈ f.args, a.arrayLength = none
  fin : T = .fn (f.args.map fun a => .mk (a.name.map E.arg) ((a.ty.simplify .cxx).finX d ren vs false))
    (wantedNoReturn d f.neverReturn) ((f.ret.simplify .cxx).finX d ren vs false)

theorem xfn_ok (he : EnvForX E d ren vs) {s : SynSig} {T : CTy} (h : CxxFn E s T) {attrs : List SAttr} {a : Annotations}
    (ha : Annotations.load attrs = .ok a) (path : Str) (ext : Bool) (m : Option Cfg) :
    ∃ f, s.load path E.owner ext attrs m = .ok f ∧ f.path = path ∧ f.externDecl = ext ∧
      f.cfg = Cfg.append m (loadCfg attrs) ∧ f.annotations = a ∧ f.doc = loadDoc attrs ∧ FnTypedX E d ren vs f T := by
  cases h with | @mk ps at' r hp hr =>
  obtain ⟨args, h1, h2⟩ := xparams_ok he hp
  obtain ⟨ty, nr, h3, h4, h5⟩ := xreturns_ok he hr
  have hargs : ArgsTypedX E d ren vs (args ++ if s.variadic then [{ name := none, ty := .prim .vaList }] else []) (ps ++ dots s.variadic) := by
    refine ⟨?_, ?_⟩
    · intro x hx
      rcases List.mem_append.1 hx with hx | hx
      · exact h2.lengths x hx
      · split at hx
        · obtain rfl := List.mem_singleton.1 hx
          rfl
        · simp at hx
    · rw [List.map_append, h2.fin]
      cases s.variadic
      · rfl
      · simp only [if_true, List.map_cons, List.map_nil, FnArg.asCxx, shapeX_prim]
        rfl
  refine ⟨⟨path, E.owner, ty.replaceSelfOpt E.owner, _, ext, Cfg.append m (loadCfg attrs), a, loadDoc attrs, nr⟩,
    by simp only [SynSig.load, h1, h3, ha, bind, Except.bind]; rfl, rfl, rfl, rfl, rfl, rfl, ?_, ?_⟩
  · intro x hx
    obtain ⟨y, hy, rfl⟩ := List.mem_map.1 hx
    exact hargs.lengths y hy
  · rw [← hargs.fin, ← h4.fin, ← h5, List.map_map]
    rfl

end

/-! ## The library stage -/

/-- A function after all steps of the library stage for C++. -/
def FuncItem.finalX (c : LibConfig) (f : FuncItem) : Option FuncItem := (f.mapTys (Ty.simplify .cxx)).renameFor c

theorem functions_preparedX {c : LibConfig} {order : List (Str × Annotations) → List (Str × Annotations)} {fuel : Nat}
    {l l' : Library} (hc : c.language = .cxx) (hl' : l.prepare c order fuel = .ok l') :
    (∀ f', f' ∈ l'.functions ↔ ∃ f ∈ l.functions, f.path ∉ c.export_.exclude ∧ f.finalX c = some f') ∧
      ∀ f ∈ l.functions, f.path ∉ c.export_.exclude → ∃ f', f.finalX c = some f' := by
  obtain ⟨l₂, hl₂, hfin⟩ := Library.prepare_ok hl'
  unfold Library.expand at hl₂
  rw [if_pos hc] at hl₂
  cases hl₂
  rw [Library.finish_eq, if_neg (by rw [hc]; decide)] at hfin
  unfold Library.renameItems at hfin
  simp only [Option.bind_eq_bind, Option.bind_eq_some_iff] at hfin
  obtain ⟨ss, _, us, _, es, _, fs, hfs, hr⟩ := hfin
  simp only [Option.pure_def, Option.some.injEq] at hr
  subst hr
  dsimp only
  have hfun : ∀ f, f ∈ ((((l.transferAnnotations order).simplify c).sortFunctions c).removeExcluded c).functions ↔
      ∃ g ∈ l.functions, g.path ∉ c.export_.exclude ∧ f = g.mapTys (Ty.simplify .cxx) := by
    intro f
    have h2 : (((l.transferAnnotations order).simplify c).sortFunctions c).functions =
        sortIf (c.functionSortBy.getD c.sortBy) FuncItem.path (l.functions.map (FuncItem.mapTys (Ty.simplify .cxx))) := by
      show sortIf _ FuncItem.path ((l.transferAnnotations order).functions.map _) = _
      rw [(transferAnnotations_other order l).1, hc]
    show f ∈ List.filter _ _ ↔ _
    rw [h2, List.mem_filter, mem_sortIf, List.mem_map]
    constructor
    · rintro ⟨⟨g, hg1, rfl⟩, hx⟩
      exact ⟨g, hg1, by simpa [FuncItem.mapTys] using hx, rfl⟩
    · rintro ⟨k, hk, hx, rfl⟩
      exact ⟨⟨k, hk, rfl⟩, by simpa [FuncItem.mapTys] using hx⟩
  constructor
  · intro f'
    rw [mem_mapM_iff hfs]
    constructor
    · rintro ⟨x, hx, hy⟩
      obtain ⟨g, hg1, hg2, rfl⟩ := (hfun x).1 hx
      exact ⟨g, hg1, hg2, hy⟩
    · rintro ⟨g, hg1, hg2, hy⟩
      exact ⟨_, (hfun _).2 ⟨g, hg1, hg2, rfl⟩, hy⟩
  · intro f hf hx
    exact mapM_total hfs _ ((hfun _).2 ⟨f, hf, hx, rfl⟩)

theorem functions_finalX {c : LibConfig} {order : List (Str × Annotations) → List (Str × Annotations)} {fuel : Nat}
    {l : Library} {b : Bindings} (hc : c.language = .cxx) (h : l.generate c order fuel = .ok b)
    (hg : c.export_.shouldGenerate .functions = true) :
    (∀ f', f' ∈ b.functions ↔ ∃ f ∈ l.functions, f.path ∉ c.export_.exclude ∧ f.finalX c = some f') ∧
      ∀ f ∈ l.functions, f.path ∉ c.export_.exclude → ∃ f', f.finalX c = some f' := by
  obtain ⟨l', hl', hb⟩ := Library.generate_ok h
  unfold Library.collect at hb
  rw [Option.map_eq_some_iff] at hb
  obtain ⟨d, _, rfl⟩ := hb
  dsimp only
  rw [if_pos hg]
  exact functions_preparedX hc hl'

theorem finalX_typed {c : LibConfig} {d : DeclConfig} {E : TyEnv}
    {f f' : FuncItem} {T : CTy} (hT : FnTypedX E d c.ren [] f T) {rule : RenameRule} (hr : f.annotations.ruleOr c.renameArgs = some rule)
    (ha : f.annotations.list c!"ptrs-as-arrays" = none) (harg : E.arg = argName c.caseFns rule) (h : f.finalX c = some f') :
    meaningFn d ⟨f'.path, f'.ret, f'.args, f'.neverReturn⟩ = T := by
  unfold FuncItem.finalX FuncItem.renameFor at h
  simp only [FuncItem.mapTys, hr, ha, Option.bind_eq_bind, Option.bind_some, renameArgs, Option.pure_def, Option.some.injEq] at h
  subst h
  rw [hT.fin]
  simp only [meaningFn, List.map_map, Ty.finX]
  congr 1
  apply List.map_congr_left
  intro a ha'
  simp only [Function.comp_apply, FnArg.mapTy, meaningFnArg, hT.lengths a ha', ite_self, harg]

/-! ## Variables -/

open ItemMap

/-- A variable after all steps of the library stage for C++. -/
def StaticItem.finalX (c : LibConfig) (x : StaticItem) : StaticItem := (x.mapTys (Ty.simplify .cxx)).renameFor c

theorem globals_preparedX {c : LibConfig} {order : List (Str × Annotations) → List (Str × Annotations)} {fuel : Nat}
    {l l' : Library} (hc : c.language = .cxx) (hl' : l.prepare c order fuel = .ok l') (hw : WF l.globals) (x' : StaticItem) :
    x' ∈ l'.globals.toVec ↔ ∃ x ∈ l.globals.toVec, x.path ∉ c.export_.exclude ∧ x' = x.finalX c := by
  obtain ⟨l₂, hl₂, hfin⟩ := Library.prepare_ok hl'
  unfold Library.expand at hl₂
  rw [if_pos hc] at hl₂
  cases hl₂
  rw [Library.finish_eq, if_neg (by rw [hc]; decide)] at hfin
  unfold Library.renameItems at hfin
  simp only [Option.bind_eq_bind, Option.bind_eq_some_iff] at hfin
  obtain ⟨ss, _, us, _, es, _, fs, hfs, hr⟩ := hfin
  simp only [Option.pure_def, Option.some.injEq] at hr
  subst hr
  dsimp only
  have h3 : (((l.transferAnnotations order).simplify c).sortFunctions c).globals =
      l.globals.mapItems (StaticItem.mapTys (Ty.simplify .cxx)) := by
    show ((l.transferAnnotations order).globals.mapItems _) = _
    rw [(transferAnnotations_other order l).2.2, hc]
  generalize ((l.transferAnnotations order).simplify c).sortFunctions c = l₁ at h3 ⊢
  have hw₂ : WF (l₁.removeExcluded c).globals := by
    show WF (l₁.globals.filter _)
    rw [h3]
    exact wf_filter _ (wf_mapItems (StaticItem.mapTys _) (fun _ => rfl) (fun _ => rfl) hw)
  have h4 : (l₁.removeExcluded c).globals.toVec =
      (l.globals.toVec.filter fun x => decide (x.path ∉ c.export_.exclude)).map (StaticItem.mapTys (Ty.simplify .cxx)) := by
    show (l₁.globals.filter _).toVec = _
    rw [h3, toVec_filter, toVec_mapItems, List.filter_map]
    congr 1
    apply List.filter_congr
    intro x _
    exact not_contains _ _
  rw [rebuild_wf (wf_mapItems (StaticItem.renameFor c) (fun _ => rfl) (fun _ => rfl) hw₂), toVec_mapItems, h4, List.map_map, List.mem_map]
  constructor
  · rintro ⟨x, hx, rfl⟩
    rw [List.mem_filter] at hx
    exact ⟨x, hx.1, by simpa using hx.2, rfl⟩
  · rintro ⟨x, hx, hex, rfl⟩
    exact ⟨x, List.mem_filter.2 ⟨hx, by simpa using hex⟩, rfl⟩

theorem globals_finalX {c : LibConfig} {order : List (Str × Annotations) → List (Str × Annotations)} {fuel : Nat}
    {l : Library} {b : Bindings} (hc : c.language = .cxx) (h : l.generate c order fuel = .ok b) (hw : WF l.globals)
    (hg : c.export_.shouldGenerate .globals = true) (x' : StaticItem) :
    x' ∈ b.globals ↔ ∃ x ∈ l.globals.toVec, x.path ∉ c.export_.exclude ∧ x' = x.finalX c := by
  obtain ⟨l', hl', hb⟩ := Library.generate_ok h
  unfold Library.collect at hb
  rw [Option.map_eq_some_iff] at hb
  obtain ⟨d, _, rfl⟩ := hb
  dsimp only
  rw [if_pos hg, mem_sortIf]
  exact globals_preparedX hc hl' hw x'

end Cbindgen
