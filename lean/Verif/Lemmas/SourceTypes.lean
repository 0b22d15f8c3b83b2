import Verif.Model.Load
import Verif.Spec.SourceTypes

/-!
# The types of sources through the pipeline (C63)
-/

namespace Cbindgen
open CSpec

mutual
/-- No generic arguments and no keywords. -/
def Ty.Clean : Ty → Prop
  | .ptr t _ _ _ => t.Clean
  | .path _ _ gs k => gs = [] ∧ k = none
  | .prim _ => True
  | .array t _ => t.Clean
  | .fnptr r as _ _ => r.Clean ∧ FArg.CleanList as
def FArg.Clean : FArg → Prop
  | .mk _ t => t.Clean
def FArg.CleanList : List FArg → Prop
  | [] => True
  | a :: as => a.Clean ∧ FArg.CleanList as
end

theorem clean_simplified {lang : Language} {t : Ty} (h : t.Clean) : t.simplified lang = none := by
  cases t with
  | path n e gs k => obtain ⟨rfl, -⟩ := h; rfl
  | _ => rfl

mutual
theorem clean_mangle (find : Ty → Option Str) : ∀ (t : Ty), t.Clean → t.manglePaths find = t
  | .ptr t c n r, h => by rw [Ty.manglePaths, clean_mangle find t h]
  | .path n e gs k, h => by obtain ⟨rfl, -⟩ := h; simp [Ty.manglePaths]
  | .prim _, _ => rfl
  | .array t l, h => by rw [Ty.manglePaths, clean_mangle find t h]
  | .fnptr r as n nr, h => by rw [Ty.manglePaths, clean_mangle find r h.1, clean_mangleList find as h.2]
theorem clean_mangleArg (find : Ty → Option Str) : ∀ (a : FArg), a.Clean → a.manglePaths find = a
  | .mk n t, h => by rw [FArg.manglePaths, clean_mangle find t h]
theorem clean_mangleList (find : Ty → Option Str) : ∀ (as : List FArg), FArg.CleanList as → FArg.manglePathsList find as = as
  | [], _ => rfl
  | a :: as, h => by rw [FArg.manglePathsList, clean_mangleArg find a h.1, clean_mangleList find as h.2]
end

mutual
theorem clean_resolve : ∀ (t : Ty), t.Clean → t.resolve (fun _ => none) = t
  | .ptr t c n r, h => by rw [Ty.resolve, clean_resolve t h]
  | .path n e gs k, h => by obtain ⟨-, rfl⟩ := h; rfl
  | .prim _, _ => rfl
  | .array t l, h => by rw [Ty.resolve, clean_resolve t h]
  | .fnptr r as n nr, h => by rw [Ty.resolve, clean_resolve r h.1, clean_resolveList as h.2]
theorem clean_resolveArg : ∀ (a : FArg), a.Clean → a.resolve (fun _ => none) = a
  | .mk n t, h => by rw [FArg.resolve, clean_resolve t h]
theorem clean_resolveList : ∀ (as : List FArg), FArg.CleanList as → FArg.resolveList (fun _ => none) as = as
  | [], _ => rfl
  | a :: as, h => by rw [FArg.resolveList, clean_resolveArg a h.1, clean_resolveList as h.2]
end

theorem cleanList_append : ∀ {as bs : List FArg}, FArg.CleanList (as ++ bs) ↔ FArg.CleanList as ∧ FArg.CleanList bs
  | [], bs => by simp [FArg.CleanList]
  | a :: as, bs => by simp [FArg.CleanList, cleanList_append, and_assoc]

/-- A type of a loaded item after the simplification of standard types. -/
def Ty.shape (o : Option Str) (t : Ty) : Ty := (t.replaceSelfOpt o).simplify .c

def FArg.shape (o : Option Str) : FArg → FArg
  | .mk n t => .mk n (t.shape o)

theorem shape_ptr (o : Option Str) (t : Ty) (c n r : Bool) : (Ty.ptr t c n r).shape o = .ptr (t.shape o) c n r := by
  cases o <;> rfl
theorem shape_array (o : Option Str) (t : Ty) (l : CExpr) : (Ty.array t l).shape o = .array (t.shape o) l := by
  cases o <;> rfl
theorem shape_prim (o : Option Str) (p : Prim) : (Ty.prim p).shape o = .prim p := by
  cases o <;> rfl

theorem simplifyList_map (lang : Language) : ∀ as : List FArg, FArg.simplifyList lang as = as.map (FArg.simplify lang)
  | [] => rfl
  | a :: as => by rw [FArg.simplifyList, simplifyList_map lang as]; rfl
theorem replaceSelfList_map (p : Str) : ∀ as : List FArg, FArg.replaceSelfList p as = as.map (FArg.replaceSelf p)
  | [] => rfl
  | a :: as => by rw [FArg.replaceSelfList, replaceSelfList_map p as]; rfl

theorem shape_fnptr (o : Option Str) (r : Ty) (as : List FArg) (n nr : Bool) :
    (Ty.fnptr r as n nr).shape o = .fnptr (r.shape o) (as.map (FArg.shape o)) n nr := by
  cases o with
  | none =>
    simp only [Ty.shape, Ty.replaceSelfOpt, Ty.simplify, simplifyList_map]
    congr 1
    apply List.map_congr_left
    rintro ⟨m, t⟩ -
    rfl
  | some p =>
    simp only [Ty.shape, Ty.replaceSelfOpt, Ty.replaceSelf, Ty.simplify, simplifyList_map, replaceSelfList_map, List.map_map]
    congr 1
    apply List.map_congr_left
    rintro ⟨m, t⟩ -
    rfl

theorem shape_named {o : Option Str} {n : Str} (h : n ≠ c!"Self") : (Ty.newPath n []).shape o = .newPath n [] := by
  cases o with
  | none => rfl
  | some p => simp only [Ty.shape, Ty.replaceSelfOpt, Ty.newPath, Ty.replaceSelf, replaceSelfName, if_neg h]; rfl

theorem shape_self (p : Str) : (Ty.newPath c!"Self" []).shape (some p) = .newPath p [] := rfl

theorem shape_wrap {o : Option Str} {w : Str} {t : Ty} (h : w ≠ c!"Self") (hc : (t.shape o).Clean) {s : Ty}
    (hs : simplifyWrapper .c w (t.shape o) = some s) : (Ty.newPath w [.type t]).shape o = s := by
  have key : (Ty.path w w [.type (t.shape o)] none).simplifyTop .c = s := by
    simp only [Ty.simplifyTop, Ty.simplified, GArg.simplifiedList, List.isEmpty_nil, if_true, GArg.simplified,
      clean_simplified hc, Option.getD_none, hs, Option.getD_some]
  cases o with
  | none => exact key
  | some p =>
    rw [← key]
    simp only [Ty.shape, Ty.replaceSelfOpt, Ty.newPath, Ty.replaceSelf, replaceSelfName, if_neg h]
    rfl

/-! ## From the shape to C -/

section
variable (d : DeclConfig) (tag : Str → Option DeclKind) (ren : Str → Str)

/-- The C type of a shape, after keywords and names are put in. -/
def Ty.fin (c : Bool) (s : Ty) : CTy := meaning d c ((s.resolve tag).rename ren [])

def FArg.fin : FArg → CParam
  | .mk n t => .mk n (t.fin d tag ren false)

theorem fin_ptr (c : Bool) (t : Ty) (m n : Bool) :
    (Ty.ptr t m n false).fin d tag ren c = .ptr c false (wantedAttr d n false) (t.fin d tag ren m) := rfl
theorem fin_prim (c : Bool) (p : Prim) : (Ty.prim p).fin d tag ren c = .base c none (p.toReprC d.usizeIsSizeT) [] := rfl
theorem fin_named (hl : d.language = .c) (c : Bool) (n : Str) :
    (Ty.newPath n []).fin d tag ren c = .base c (tag n) (ren n) [] := by
  simp [Ty.fin, Ty.newPath, Ty.resolve, Ty.rename, GArg.renameList, hasParam, meaning, meaningGArgs, hl]
theorem fin_array (c : Bool) (t : Ty) (l : CExpr) :
    (Ty.array t l).fin d tag ren c = .arr (l.rename ren []).asStr (t.fin d tag ren c) := rfl

theorem fin_args : ∀ as : List FArg,
    meaningArgs d (FArg.renameList ren [] (FArg.resolveList tag as)) = as.map (FArg.fin d tag ren)
  | [] => rfl
  | .mk n t :: as => by
    simp only [FArg.resolveList, FArg.resolve, FArg.renameList, FArg.rename, meaningArgs, List.map_cons, fin_args as]
    rfl

theorem fin_fnptr (c : Bool) (r : Ty) (as : List FArg) (n nr : Bool) : (Ty.fnptr r as n nr).fin d tag ren c =
    .ptr c false (wantedAttr d n false) (.fn (as.map (FArg.fin d tag ren)) (wantedNoReturn d nr) (r.fin d tag ren false)) := by
  simp only [Ty.fin, Ty.resolve, Ty.rename, meaning, fin_args]

end

/-! ## Loading -/

open SrcSpec

theorem load_noArgs {as : SynArgs} (h : NoArgs as) : as.load = .ok [] := by
  cases h with
  | none => rfl
  | @lifetimes as h =>
    rw [SynArgs.load]
    induction as with
    | nil => rfl
    | cons a as ih =>
      obtain rfl := h a (by simp)
      rw [SynGArg.loadList, ih fun b hb => h b (by simp [hb])]
      rfl

theorem load_nothing {t : SynTy} (h : Nothing t) : t.load = .ok none := by
  cases h with
  | unit => rfl
  | phantomData h => simp [SynTy.load, h]
  | phantomPinned h ha =>
    simp only [SynTy.load, h, load_noArgs ha]
    rfl

/-- The wrappers that are looked through. -/
def wrappers : List Str :=
  [c!"Option", c!"NonNull", c!"NonZero", c!"Box", c!"SyncUnsafeCell", c!"UnsafeCell", c!"Cell", c!"ManuallyDrop", c!"MaybeUninit", c!"Pin"]

theorem wrappers_plain : ∀ w ∈ wrappers, w ≠ c!"PhantomData" ∧ w ≠ c!"PhantomPinned" ∧ w ≠ c!"Self" ∧ Prim.maybe w = none := by
  decide +kernel

theorem sub_wrappers (w : Str)
    (h : w ∈ [c!"Cell", c!"UnsafeCell", c!"SyncUnsafeCell", c!"ManuallyDrop", c!"MaybeUninit", c!"Pin"] ∨
      w ∈ [c!"Box", c!"NonNull"] ∨ w ∈ [c!"Pin", c!"ManuallyDrop"]) : w ∈ wrappers := by
  have key : ∀ x ∈ [c!"Cell", c!"UnsafeCell", c!"SyncUnsafeCell", c!"ManuallyDrop", c!"MaybeUninit", c!"Pin"] ++
    [c!"Box", c!"NonNull"] ++ [c!"Pin", c!"ManuallyDrop"], x ∈ wrappers := by decide
  apply key
  simp only [List.mem_append, or_assoc]
  exact h

theorem load_wrap {w : Str} {t o : SynTy} {ty : Ty} (h : Wrap w t o) (hw : w ∈ wrappers) (ht : t.load = .ok (some ty)) :
    o.load = .ok (some (.newPath w [.type ty])) := by
  obtain ⟨h⟩ := h
  obtain ⟨h1, h2, -, h4⟩ := wrappers_plain w hw
  simp only [SynTy.load, h, SynArgs.load, SynGArg.loadList, SynGArg.load, ht, bind, Except.bind, consOpt, Option.map,
    typeOfPath, h1, h2, h4, or_self, if_false]

theorem load_prim {n : Str} {as : SynArgs} {p : Prim} (ha : NoArgs as) (h1 : unraw n ≠ c!"PhantomData")
    (h2 : unraw n ≠ c!"PhantomPinned") (hp : Prim.maybe (unraw n) = some p) : (SynTy.path n as).load = .ok (some (.prim p)) := by
  simp only [SynTy.load, load_noArgs ha, bind, Except.bind, typeOfPath, h1, h2, or_self, if_false, hp, if_true]

theorem load_named {n : Str} {as : SynArgs} (ha : NoArgs as) (h1 : unraw n ≠ c!"PhantomData")
    (h2 : unraw n ≠ c!"PhantomPinned") (hp : Prim.maybe (unraw n) = none) :
    (SynTy.path n as).load = .ok (some (.newPath (unraw n) [])) := by
  simp only [SynTy.load, load_noArgs ha, bind, Except.bind, typeOfPath, h1, h2, or_self, if_false, hp]

theorem int_prim : ∀ b : Bool, ∀ x ∈ intTypes b, ∃ s k, Prim.maybe x.1 = some (.integer true s k) ∧
    ∀ z, (Prim.integer z s k).toReprC b = x.2 := by
  intro b x hx
  cases b <;> (simp only [intTypes, List.mem_cons, List.not_mem_nil, or_false] at hx; rcases hx with h | h | h | h | h | h | h | h | h | h | h | h | h | h | h | h | h | h | h | h | h | h | h | h | h | h | h | h | h | h | h <;> (subst h; exact ⟨_, _, rfl, by intro z; rfl⟩))

theorem nonZero_prim : ∀ b : Bool, ∀ x ∈ nonZeroTypes, ∃ s k, Prim.maybe x.1 = some (.integer false s k) ∧
    ∀ z, (Prim.integer z s k).toReprC b = x.2 := by
  intro b x hx
  simp only [nonZeroTypes, List.mem_cons, List.not_mem_nil, or_false] at hx
  rcases hx with h | h | h | h | h | h | h | h <;> (subst h; exact ⟨_, _, rfl, by intro z; rfl⟩)

theorem other_prim : ∀ b : Bool, ∀ x ∈ otherTypes, ∃ p, Prim.maybe x.1 = some p ∧ p.toReprC b = x.2 ∧ p ≠ .vaList := by
  intro b x hx
  simp only [otherTypes, List.mem_cons, List.not_mem_nil, or_false] at hx
  rcases hx with h | h | h | h | h | h | h | h | h | h | h <;> (subst h; exact ⟨_, rfl, rfl, by decide⟩)

theorem known_prim : ∀ n : Str, Prim.maybe n ≠ none → n ∈ builtin := by
  intro n h
  have key : ∀ m ∈ plainTable.map (·.1) ++ integerTable.map (·.1) ++ nonzeroIntegerTable.map (·.1), m ∈ builtin := by decide +kernel
  have look : ∀ {β : Type} (l : List (Str × β)), l.lookup n ≠ none → n ∈ l.map (·.1) := by
    intro β l
    induction l with
    | nil => simp
    | cons x xs ih =>
      intro hl
      rw [List.lookup_cons] at hl
      by_cases hx : n = x.1
      · simp [hx]
      · rw [show (n == x.1) = false by simpa using hx] at hl
        exact List.mem_cons_of_mem _ (ih hl)
  apply key
  unfold Prim.maybe at h
  simp only [List.mem_append]
  cases h1 : plainTable.lookup n with
  | some _ => exact Or.inl (Or.inl (look _ (by simp [h1])))
  | none =>
    cases h2 : integerTable.lookup n with
    | some _ => exact Or.inl (Or.inr (look _ (by simp [h2])))
    | none =>
      cases h3 : nonzeroIntegerTable.lookup n with
      | some _ => exact Or.inr (look _ (by simp [h3]))
      | none => simp [h1, h2, h3] at h

theorem builtin_phantom : c!"PhantomData" ∈ builtin ∧ c!"PhantomPinned" ∈ builtin ∧ c!"Self" ∈ builtin := by decide +kernel

theorem maybe_phantom : Prim.maybe c!"PhantomData" = none ∧ Prim.maybe c!"PhantomPinned" = none ∧ Prim.maybe c!"Self" = none := by
  decide +kernel

theorem load_maybe {n : Str} {as : SynArgs} {p : Prim} (ha : NoArgs as) (hp : Prim.maybe (unraw n) = some p) :
    (SynTy.path n as).load = .ok (some (.prim p)) := by
  refine load_prim ha ?_ ?_ hp
  · intro h; rw [h, maybe_phantom.1] at hp; cases hp
  · intro h; rw [h, maybe_phantom.2.1] at hp; cases hp

/-! ## The C type of a source type -/

section
variable {E : TyEnv} {d : DeclConfig}

/-- The environment agrees with the configuration of the writer. -/
structure EnvFor (E : TyEnv) (d : DeclConfig) : Prop where
  language : d.language = .c
  nullable : E.nullable = d.nullableAttr
  nonNull : E.nonNull = d.nonNullAttr
  noReturn : E.noReturn = d.noReturn
  size : E.usizeIsSizeT = d.usizeIsSizeT

theorem EnvFor.attr (h : EnvFor E d) (n : Bool) : wantedAttr d n false = if n then E.nullable else E.nonNull := by
  cases n <;> simp [wantedAttr, h.language, h.nullable, h.nonNull]

theorem EnvFor.never (h : EnvFor E d) (n : Bool) : wantedNoReturn d n = if n then E.noReturn else none := by
  cases n <;> simp [wantedNoReturn, h.language, h.noReturn]

/-- The loaded type `ty` has the C type `u`. -/
structure Typed (E : TyEnv) (d : DeclConfig) (c : Bool) (ty : Ty) (u : CTy) : Prop where
  clean : (ty.shape E.owner).Clean
  fin : (ty.shape E.owner).fin d E.tag E.name c = u
  fixed : ty ≠ .prim .vaList

theorem nonZero_ok (he : EnvFor E d) {t : SynTy} {u : Str} (h : NonZeroInt E t u) :
    ∃ ty s k, t.load = .ok (some ty) ∧ ty.shape E.owner = .prim (.integer false s k) ∧
      (∀ z, (Prim.integer z s k).toReprC d.usizeIsSizeT = u) ∧ ty ≠ .prim .vaList := by
  cases h with
  | named h1 h2 =>
    obtain ⟨s, k, h3, h4⟩ := nonZero_prim d.usizeIsSizeT _ h1
    exact ⟨_, s, k, load_maybe h2 h3, shape_prim _ _, h4, by simp⟩
  | wrapped h1 h2 h3 =>
    rw [he.size] at h1
    obtain ⟨s, k, h4, h5⟩ := int_prim _ _ h1
    refine ⟨_, s, k, load_wrap h3 (by decide) (load_maybe h2 h4), ?_, h5, nofun⟩
    refine shape_wrap (by decide) (by rw [shape_prim]; trivial) ?_
    rw [shape_prim]
    rfl

theorem length_ok {e : SynExpr} {l : Str} (h : Length E e l) :
    ∃ x, e.loadConst = .ok x ∧ (x.rename E.name []).asStr = l := by
  induction h with
  | int => exact ⟨_, rfl, rfl⟩
  | @path i n =>
    by_cases hp : unraw n = c!"PhantomData"
    · exact ⟨_, by simp only [SynExpr.loadConst, if_pos hp]; rfl, rfl⟩
    · exact ⟨_, by simp only [SynExpr.loadConst, if_neg hp]; rfl, rfl⟩
  | cast _ ih => exact ih

theorem argName_ok {k k' : Nat} {n n' : Option Str} (h : ArgName k n n' k') : fnptrArgName k n = (n', k') := by
  cases h with
  | none => rfl
  | first => rfl
  | wild h => simp [fnptrArgName, h, natStr]
  | ident h => simp only [fnptrArgName, if_neg h]

theorem farg_shape_fin (o : Option Str) (b : Bool) : (variadicArg b).map (FArg.shape o) = variadicArg b := by
  cases b
  · rfl
  · cases o <;> rfl

theorem variadic_fin (d : DeclConfig) (tag : Str → Option DeclKind) (ren : Str → Str) (b : Bool) :
    (variadicArg b).map (FArg.fin d tag ren) = dots b := by
  cases b <;> rfl

theorem variadic_clean (b : Bool) : FArg.CleanList (variadicArg b) := by
  cases b
  · trivial
  · exact ⟨trivial, trivial⟩

mutual
theorem ctype_ok (he : EnvFor E d) : ∀ {c : Bool} {t : SynTy} {u : CTy}, CType E c t u →
    ∃ ty, t.load = .ok (some ty) ∧ Typed E d c ty u
  | c, .path n as, _, .prim (u := u) h1 h2 => by
    have h3 : ∃ p, Prim.maybe (unraw n) = some p ∧ p.toReprC d.usizeIsSizeT = u ∧ p ≠ .vaList := by
      rcases List.mem_append.1 h1 with h1 | h1
      · rw [he.size] at h1
        obtain ⟨s, k, h3, h4⟩ := int_prim _ _ h1
        exact ⟨_, h3, h4 true, by simp⟩
      · exact other_prim _ _ h1
    obtain ⟨p, h3, h4, h5⟩ := h3
    refine ⟨_, load_maybe h2 h3, ?_, ?_, by simpa using h5⟩
    · rw [shape_prim]; trivial
    · rw [shape_prim, fin_prim, h4]; rfl
  | c, .path n as, _, .named h1 h2 => by
    have hm : Prim.maybe (unraw n) = none := by
      cases hx : Prim.maybe (unraw n) with
      | none => rfl
      | some p => exact absurd (known_prim _ (by simp [hx])) h1
    have hs : unraw n ≠ c!"Self" := by intro h; rw [h] at h1; exact h1 builtin_phantom.2.2
    refine ⟨_, load_named h2 ?_ ?_ hm, ?_, ?_, nofun⟩
    · intro h; rw [h] at h1; exact h1 builtin_phantom.1
    · intro h; rw [h] at h1; exact h1 builtin_phantom.2.1
    · rw [shape_named hs]; exact ⟨rfl, rfl⟩
    · rw [shape_named hs, fin_named _ _ _ he.language]
  | c, .path n as, _, .self (o := o) h1 h2 h3 => by
    refine ⟨_, load_named h2 ?_ ?_ ?_, ?_, ?_, nofun⟩
    · rw [h1]; decide
    · rw [h1]; decide
    · rw [h1]; exact maybe_phantom.2.2
    · rw [h1, h3, shape_self]; exact ⟨rfl, rfl⟩
    · rw [h1, h3, shape_self, fin_named _ _ _ he.language]
  | c, _, _, .raw (m := m) h => by
    obtain ⟨ty, h1, h2⟩ := pointee_ok he h
    refine ⟨.ptr (orVoid ty) m true false, by simp only [SynTy.load, h1, bind, Except.bind], ?_, ?_, nofun⟩
    · rw [shape_ptr]; exact h2.clean
    · rw [shape_ptr, fin_ptr, h2.fin, he.attr]; rfl
  | c, _, _, .nonNull h => by
    obtain ⟨ty, s, h1, h2, h3, h4, h5, h6⟩ := nonNull_ok he h
    refine ⟨ty, h1, h2, h5 c, ?_⟩
    rintro rfl
    rw [shape_prim] at h3
    cases h3
  | c, _, _, .optNonNull h hw => by
    obtain ⟨ty, s, h1, h2, h3, h4, h5, h6⟩ := nonNull_ok he h
    have hs : (Ty.newPath c!"Option" [.type ty]).shape E.owner = s := by
      refine shape_wrap (by decide) h2 ?_
      simp only [simplifyWrapper, if_true, h3]
    exact ⟨_, load_wrap hw (by decide) h1, by rw [hs]; exact h4, by rw [hs]; exact h6 c, nofun⟩
  | c, _, _, .nonZero h => by
    obtain ⟨ty, s, k, h1, h2, h3, h4⟩ := nonZero_ok he h
    exact ⟨ty, h1, by rw [h2]; trivial, by rw [h2, fin_prim, h3]; rfl, h4⟩
  | c, _, _, .optNonZero h hw => by
    obtain ⟨ty, s, k, h1, h2, h3, -⟩ := nonZero_ok he h
    have hs : (Ty.newPath c!"Option" [.type ty]).shape E.owner = .prim (.integer true s k) := by
      refine shape_wrap (by decide) (by rw [h2]; trivial) ?_
      rw [h2]
      rfl
    exact ⟨_, load_wrap hw (by decide) h1, by rw [hs]; trivial, by rw [hs, fin_prim, h3]; rfl, nofun⟩
  | c, _, _, .array h hl => by
    obtain ⟨ty, h1, h2⟩ := ctype_ok he h
    obtain ⟨x, h3, h4⟩ := length_ok hl
    refine ⟨.array ty x, by simp only [SynTy.load, h1, h3, bind, Except.bind], ?_, ?_, nofun⟩
    · rw [shape_array]; exact h2.clean
    · rw [shape_array, fin_array, h2.fin, h4]
  | c, _, _, .wrapped (w := w) hw h ho => by
    obtain ⟨ty, h1, h2⟩ := ctype_ok he h
    have hs : (Ty.newPath w [.type ty]).shape E.owner = ty.shape E.owner := by
      simp only [List.mem_cons, List.not_mem_nil, or_false] at hw
      rcases hw with rfl | rfl | rfl | rfl | rfl | rfl <;> exact shape_wrap (by decide) h2.clean rfl
    refine ⟨_, load_wrap ho (sub_wrappers w (Or.inl hw)) h1, by rw [hs]; exact h2.clean, by rw [hs]; exact h2.fin, nofun⟩
theorem pointee_ok (he : EnvFor E d) : ∀ {c : Bool} {t : SynTy} {u : CTy}, Pointee E c t u →
    ∃ ty, t.load = .ok ty ∧ Typed E d c (orVoid ty) u
  | c, _, _, .some h => by
    obtain ⟨ty, h1, h2⟩ := ctype_ok he h
    exact ⟨some ty, h1, h2⟩
  | c, _, _, .void h => ⟨none, load_nothing h, by rw [orVoid, shape_prim]; trivial, by rw [orVoid, shape_prim]; rfl, nofun⟩
theorem nonNull_ok (he : EnvFor E d) : ∀ {t : SynTy} {u : CTy}, NonNull E t u →
    ∃ ty s, t.load = .ok (some ty) ∧ (ty.shape E.owner).Clean ∧ (ty.shape E.owner).makeNullable = some s ∧ s.Clean ∧
      (∀ c, (ty.shape E.owner).fin d E.tag E.name c = .ptr c false E.nonNull u) ∧
      ∀ c, s.fin d E.tag E.name c = .ptr c false E.nullable u
  | _, _, .reference (m := m) h => by
    obtain ⟨ty, h1, h2⟩ := pointee_ok he h
    refine ⟨.ptr (orVoid ty) (!m) false false, .ptr ((orVoid ty).shape E.owner) (!m) true false,
      by simp only [SynTy.load, h1, bind, Except.bind], ?_⟩
    rw [shape_ptr]
    refine ⟨h2.clean, rfl, h2.clean, fun c => ?_, fun c => ?_⟩
    · rw [fin_ptr, h2.fin, he.attr]; rfl
    · rw [fin_ptr, h2.fin, he.attr]; rfl
  | _, _, .owned (w := w) hw h ho => by
    obtain ⟨ty, h1, h2⟩ := ctype_ok he h
    have hs : (Ty.newPath w [.type ty]).shape E.owner = .ptr (ty.shape E.owner) false false false := by
      simp only [List.mem_cons, List.not_mem_nil, or_false] at hw
      rcases hw with rfl | rfl <;> exact shape_wrap (by decide) h2.clean rfl
    refine ⟨_, .ptr (ty.shape E.owner) false true false, load_wrap ho (sub_wrappers w (Or.inr (Or.inl hw))) h1, ?_⟩
    rw [hs]
    refine ⟨h2.clean, rfl, h2.clean, fun c => ?_, fun c => ?_⟩
    · rw [fin_ptr, h2.fin, he.attr]; rfl
    · rw [fin_ptr, h2.fin, he.attr]; rfl
  | _, _, .wrapped (w := w) hw h ho => by
    obtain ⟨ty, s, h1, h2, h3⟩ := nonNull_ok he h
    have hs : (Ty.newPath w [.type ty]).shape E.owner = ty.shape E.owner := by
      simp only [List.mem_cons, List.not_mem_nil, or_false] at hw
      rcases hw with rfl | rfl <;> exact shape_wrap (by decide) h2 rfl
    refine ⟨_, s, load_wrap ho (sub_wrappers w (Or.inr (Or.inr hw))) h1, ?_⟩
    rw [hs]
    exact ⟨h2, h3⟩
  | _, _, .function (v := v) (ps := ps) h hr => by
    obtain ⟨fs, h1, h2, h3⟩ := fnArgs_ok he h
    obtain ⟨ty, nr, h4, h5, h6⟩ := returns_ok he hr
    refine ⟨.fnptr ty (fs ++ variadicArg v) false nr,
      .fnptr (ty.shape E.owner) ((fs ++ variadicArg v).map (FArg.shape E.owner)) true nr,
      by simp only [SynTy.load, h1, h4, bind, Except.bind], ?_⟩
    rw [shape_fnptr]
    have hc : FArg.CleanList ((fs ++ variadicArg v).map (FArg.shape E.owner)) := by
      rw [List.map_append, farg_shape_fin, cleanList_append]
      exact ⟨h2, variadic_clean v⟩
    have hf : ((fs ++ variadicArg v).map (FArg.shape E.owner)).map (FArg.fin d E.tag E.name) = ps ++ dots v := by
      rw [List.map_append, farg_shape_fin, List.map_append, h3, variadic_fin]
    refine ⟨⟨h5.clean, hc⟩, rfl, ⟨h5.clean, hc⟩, fun c => ?_, fun c => ?_⟩
    · rw [fin_fnptr, hf, h5.fin, h6, he.attr]; rfl
    · rw [fin_fnptr, hf, h5.fin, h6, he.attr]; rfl
theorem fnArgs_ok (he : EnvFor E d) : ∀ {k : Nat} {as : List SynFnArg} {ps : List CParam}, FnArgs E k as ps →
    ∃ fs, SynFnArg.loadList k as = .ok fs ∧ FArg.CleanList (fs.map (FArg.shape E.owner)) ∧
      (fs.map (FArg.shape E.owner)).map (FArg.fin d E.tag E.name) = ps
  | _, _, _, .nil => ⟨[], rfl, trivial, rfl⟩
  | k, _, _, .skip hn h => by
    obtain ⟨fs, h1, h2⟩ := fnArgs_ok he h
    exact ⟨fs, by simp only [SynFnArg.loadList, load_nothing hn, bind, Except.bind, h1], h2⟩
  | k, _, _, .cons (n' := n') ha ht _ h => by
    obtain ⟨ty, h1, h2⟩ := ctype_ok he ht
    obtain ⟨fs, h3, h4, h5⟩ := fnArgs_ok he h
    refine ⟨.mk n' ty :: fs, by simp only [SynFnArg.loadList, h1, bind, Except.bind, argName_ok ha, h3], ⟨h2.clean, h4⟩, ?_⟩
    simp only [List.map_cons, FArg.shape, FArg.fin, h2.fin, h5]
theorem returns_ok (he : EnvFor E d) : ∀ {r : SynRet} {a : Option Str} {u : CTy}, Returns E r a u →
    ∃ ty nr, r.load = .ok (ty, nr) ∧ Typed E d false ty u ∧ wantedNoReturn d nr = a
  | _, _, _, .default => ⟨_, false, rfl, ⟨by rw [shape_prim]; trivial, by rw [shape_prim]; rfl, nofun⟩, by rw [he.never]; rfl⟩
  | _, _, _, .never => ⟨_, true, rfl, ⟨by rw [shape_prim]; trivial, by rw [shape_prim]; rfl, nofun⟩, by rw [he.never]; rfl⟩
  | _, _, _, .nothing (t := t) h => by
    refine ⟨.prim .void, false, ?_, ⟨by rw [shape_prim]; trivial, by rw [shape_prim]; rfl, nofun⟩, by rw [he.never]; rfl⟩
    have hl := load_nothing h
    cases t with
    | never => cases h
    | _ => simp only [SynRet.load, hl, bind, Except.bind, orVoid]
  | _, _, _, .type (t := t) h _ => by
    obtain ⟨ty, h1, h2⟩ := ctype_ok he h
    refine ⟨ty, false, ?_, h2, by rw [he.never]; rfl⟩
    cases t with
    | never => cases h1
    | _ => simp only [SynRet.load, h1, bind, Except.bind, orVoid]
end

/-! ## Functions -/

theorem load_array {t : SynTy} {e : Ty} {l : CExpr} (h : t.load = .ok (some (.array e l))) : ∃ x y, t = .array x y := by
  cases t with
  | array x y => exact ⟨x, y, rfl⟩
  | reference m x =>
    simp only [SynTy.load, bind, Except.bind] at h
    split at h <;> simp at h
  | ptr m x =>
    simp only [SynTy.load, bind, Except.bind] at h
    split at h <;> simp at h
  | path n as =>
    simp only [SynTy.load, bind, Except.bind] at h
    split at h
    · simp at h
    · split at h
      · simp at h
      · unfold typeOfPath at h
        split at h
        · simp at h
        · split at h
          · split at h <;> simp [loadErr] at h
          · simp [Ty.newPath] at h
  | fnptr ins v out =>
    simp only [SynTy.load, bind, Except.bind] at h
    split at h
    · simp at h
    · split at h <;> simp at h
  | tuple es => cases es <;> simp [SynTy.load, loadErr] at h
  | never => simp [SynTy.load, loadErr] at h
  | dots => simp [SynTy.load] at h
  | other => simp [SynTy.load, loadErr] at h

theorem ctype_array {c : Bool} {t : SynTy} {x : SynExpr} {u : CTy} (h : CType E c (.array t x) u) : IsArray u := by
  cases h with
  | array => trivial
  | nonNull h => cases h with
    | owned _ _ h => cases h
    | wrapped _ _ h => cases h
  | optNonNull _ h => cases h
  | nonZero h => cases h with
    | wrapped _ _ h => cases h
  | optNonZero _ h => cases h
  | wrapped _ _ h => cases h

theorem typedParam_ok {name : Option Str} {c : Bool} {t : SynTy} {u : CTy} {ty : Ty} (h : t.load = .ok (some ty))
    (ht : CType E c t u) (ha : ¬ IsArray u) : typedParam name ty = .ok (some { name, ty }) := by
  cases ty with
  | array e l =>
    obtain ⟨x, y, rfl⟩ := load_array h
    exact absurd (ctype_array ht) ha
  | _ => rfl

/-- A loaded argument as a C parameter. -/
def FnArg.asC (E : TyEnv) (d : DeclConfig) (a : FnArg) : CParam :=
  .mk (a.name.map E.arg) ((a.ty.shape E.owner).fin d E.tag E.name false)

/-- The arguments that are loaded have the C types `ps`. -/
structure ArgsTyped (E : TyEnv) (d : DeclConfig) (args : List FnArg) (ps : List CParam) : Prop where
  clean : ∀ a ∈ args, (a.ty.shape E.owner).Clean
  lengths : ∀ a ∈ args, a.arrayLength = none
  fin : args.map (FnArg.asC E d) = ps

theorem ArgsTyped.cons {a : FnArg} {as : List FnArg} {p : CParam} {ps : List CParam} (h : ArgsTyped E d as ps)
    (h1 : (a.ty.shape E.owner).Clean) (h2 : a.arrayLength = none) (h3 : a.asC E d = p) : ArgsTyped E d (a :: as) (p :: ps) :=
  ⟨by simpa using ⟨h1, h.clean⟩, by simpa using ⟨h2, h.lengths⟩, by rw [List.map_cons, h3, h.fin]⟩

theorem receiver_ok (he : EnvFor E d) {r : SynReceiver} {u : CTy} (h : Receiver E r u) :
    ∃ ty, r.load = .ok ty ∧ (ty.shape E.owner).Clean ∧ (ty.shape E.owner).fin d E.tag E.name false = u := by
  cases h with
  | value h =>
    refine ⟨_, rfl, ?_⟩
    rw [selfTy, h, shape_self, fin_named _ _ _ he.language]
    exact ⟨⟨rfl, rfl⟩, rfl⟩
  | reference h =>
    refine ⟨_, rfl, ?_⟩
    rw [shape_ptr, selfTy, h, shape_self, fin_ptr, fin_named _ _ _ he.language, he.attr]
    exact ⟨⟨rfl, rfl⟩, rfl⟩

theorem trySkipMap_some {α β : Type} {f : α → LoadM (Option β)} {x : α} {xs : List α} {y : β} {ys : List β}
    (h : f x = .ok (some y)) (hs : trySkipMap f xs = .ok ys) : trySkipMap f (x :: xs) = .ok (y :: ys) := by
  simp only [trySkipMap, h, hs, bind, Except.bind]

theorem trySkipMap_none {α β : Type} {f : α → LoadM (Option β)} {x : α} {xs : List α} {ys : List β}
    (h : f x = .ok none) (hs : trySkipMap f xs = .ok ys) : trySkipMap f (x :: xs) = .ok ys := by
  simp only [trySkipMap, h, hs, bind, Except.bind]

theorem params_ok (he : EnvFor E d) {ins : List SynParam} {ps : List CParam} (h : Params E ins ps) :
    ∃ args, trySkipMap SynParam.load ins = .ok args ∧ ArgsTyped E d args ps := by
  induction h with
  | nil => exact ⟨[], rfl, by simp, by simp, rfl⟩
  | receiver hr _ ih =>
    obtain ⟨args, h1, h2⟩ := ih
    obtain ⟨ty, h3, h4, h5⟩ := receiver_ok he hr
    refine ⟨⟨some c!"self", ty, none⟩ :: args, trySkipMap_some ?_ h1, h2.cons h4 rfl ?_⟩
    · simp only [SynParam.load, h3, bind, Except.bind]
    · simp only [FnArg.asC, h5]; rfl
  | wild ht ha _ ih =>
    obtain ⟨args, h1, h2⟩ := ih
    obtain ⟨ty, h3, h4⟩ := ctype_ok he ht
    refine ⟨⟨none, ty, none⟩ :: args, trySkipMap_some ?_ h1, h2.cons h4.clean rfl ?_⟩
    · simp only [SynParam.load, h3, bind, Except.bind, typedParam_ok h3 ht ha]
    · simp only [FnArg.asC, h4.fin]; rfl
  | @ident n _ _ _ _ ht ha _ ih =>
    obtain ⟨args, h1, h2⟩ := ih
    obtain ⟨ty, h3, h4⟩ := ctype_ok he ht
    refine ⟨⟨some (unraw n), ty, none⟩ :: args, trySkipMap_some ?_ h1, h2.cons h4.clean rfl ?_⟩
    · simp only [SynParam.load, h3, bind, Except.bind, typedParam_ok h3 ht ha, if_neg h4.fixed]
    · simp only [FnArg.asC, h4.fin]; rfl
  | wildNothing hn _ ih =>
    obtain ⟨args, h1, h2⟩ := ih
    exact ⟨args, trySkipMap_none (by simp only [SynParam.load, load_nothing hn, bind, Except.bind]) h1, h2⟩
  | identNothing hn _ ih =>
    obtain ⟨args, h1, h2⟩ := ih
    exact ⟨args, trySkipMap_none (by simp only [SynParam.load, load_nothing hn, bind, Except.bind]) h1, h2⟩
  | patternNothing hn _ ih =>
    obtain ⟨args, h1, h2⟩ := ih
    exact ⟨args, trySkipMap_none (by simp only [SynParam.load, load_nothing hn, bind, Except.bind]) h1, h2⟩

/-- A loaded function after the simplification of standard types has the C type `T`. -/
structure FnTyped (E : TyEnv) (d : DeclConfig) (f : FuncItem) (T : CTy) : Prop where
  ret : (f.ret.simplify .c).Clean
  args : ∀ a ∈ f.args, (a.ty.simplify .c).Clean
  lengths : ∀ a ∈ f.args, a.arrayLength = none
  fin : T = .fn (f.args.map fun a => .mk (a.name.map E.arg) ((a.ty.simplify .c).fin d E.tag E.name false))
    (wantedNoReturn d f.neverReturn) ((f.ret.simplify .c).fin d E.tag E.name false)

theorem cfn_ok (he : EnvFor E d) {s : SynSig} {T : CTy} (h : CFn E s T) {attrs : List SAttr} {a : Annotations}
    (ha : Annotations.load attrs = .ok a) (path : Str) (ext : Bool) (m : Option Cfg) :
    ∃ f, s.load path E.owner ext attrs m = .ok f ∧ f.path = path ∧ f.externDecl = ext ∧
      f.cfg = Cfg.append m (loadCfg attrs) ∧ f.annotations = a ∧ f.doc = loadDoc attrs ∧ FnTyped E d f T := by
  cases h with | @mk ps at' r hp hr =>
  obtain ⟨args, h1, h2⟩ := params_ok he hp
  obtain ⟨ty, nr, h3, h4, h5⟩ := returns_ok he hr
  have hargs : ArgsTyped E d (args ++ if s.variadic then [{ name := none, ty := .prim .vaList }] else []) (ps ++ dots s.variadic) := by
    refine ⟨?_, ?_, ?_⟩
    · intro x hx
      rcases List.mem_append.1 hx with hx | hx
      · exact h2.clean x hx
      · split at hx
        · obtain rfl := List.mem_singleton.1 hx
          rw [shape_prim]
          trivial
        · simp at hx
    · intro x hx
      rcases List.mem_append.1 hx with hx | hx
      · exact h2.lengths x hx
      · split at hx
        · obtain rfl := List.mem_singleton.1 hx
          rfl
        · simp at hx
    · rw [List.map_append, h2.fin]
      cases s.variadic
      · rfl
      · simp only [if_true, List.map_cons, List.map_nil, FnArg.asC, shape_prim]
        rfl
  refine ⟨⟨path, E.owner, ty.replaceSelfOpt E.owner, _, ext, Cfg.append m (loadCfg attrs), a, loadDoc attrs, nr⟩,
    by simp only [SynSig.load, h1, h3, ha, bind, Except.bind]; rfl, rfl, rfl, rfl, rfl, rfl,
    h4.clean, ?_, ?_, ?_⟩
  · intro x hx
    obtain ⟨y, hy, rfl⟩ := List.mem_map.1 hx
    exact hargs.clean y hy
  · intro x hx
    obtain ⟨y, hy, rfl⟩ := List.mem_map.1 hx
    exact hargs.lengths y hy
  · rw [← hargs.fin, ← h4.fin, ← h5, List.map_map]
    rfl

end

end Cbindgen
