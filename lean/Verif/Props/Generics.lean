import Verif.Lemmas.Subst
import Verif.Model.Library

/-! # C15, C38: instances of generic definitions -/

namespace Cbindgen

open SubstSpec

/-! ## C38: arguments and defaults -/

theorem mapM_zip_range {α β : Type} (f : Nat → α → Option β) (xs : List α) (ys : List β) (k : Nat) :
    ((List.range' k xs.length).zip xs).mapM (fun p => f p.1 p.2) = some ys ↔
      ys.length = xs.length ∧ ∀ i x, xs[i]? = some x → f (k + i) x = ys[i]? := by
  induction xs generalizing ys k with
  | nil =>
    cases ys <;> simp
  | cons x xs ih =>
    simp only [List.length_cons, List.range'_succ, List.zip_cons_cons, List.mapM_cons]
    cases hf : f k x with
    | none =>
      simp
      intro hl
      refine ⟨0, x, by simp, ?_⟩
      cases ys with
      | nil => simp at hl
      | cons y ys => simp [hf]
    | some y =>
      have ih' := fun ys => ih ys (k + 1)
      cases ys with
      | nil =>
        cases h : ((List.range' (k + 1) xs.length).zip xs).mapM (fun p => f p.1 p.2) <;> simp
      | cons z zs =>
        constructor
        · intro h
          cases hm : ((List.range' (k + 1) xs.length).zip xs).mapM (fun p => f p.1 p.2) with
          | none => simp [hm] at h
          | some ws =>
            simp [hm] at h
            obtain ⟨rfl, rfl⟩ := h
            obtain ⟨h1, h2⟩ := (ih' _).mp hm
            refine ⟨by simp [h1], ?_⟩
            intro i x' hx
            cases i with
            | zero => simp at hx; subst hx; simpa using hf
            | succ i =>
              simp at hx ⊢
              rw [← h2 i x' hx]; congr 1; omega
        · rintro ⟨h1, h2⟩
          have hz : z = y := by
            have := h2 0 x (by simp); simp [hf] at this; exact this.symm
          have hm := (ih' zs).mpr ⟨by simpa using h1, fun i x' hx => by
            have := h2 (i + 1) x' (by simpa using hx)
            simp at this; rw [← this]; congr 1; omega⟩
          simp [hm, hz]

/-- The argument for the parameter at a position. -/
def argAt (args : List GArg) (i : Nat) (p : GParam) : Option (Str × GArg) :=
  ((args[i]?).or p.default).map fun g => (p.name, g)

theorem callParams_eq (params : List GParam) (args : List GArg) (m : List (Str × GArg)) :
    callParams params args = some m ↔ args.length ≤ params.length ∧ m.length = params.length ∧
      ∀ i p, params[i]? = some p → argAt args i p = m[i]? := by
  have h0 : callParams params args = if params.length < args.length then none else
      ((List.range' 0 params.length).zip params).mapM (fun p => argAt args p.1 p.2) := by
    unfold callParams
    congr 1
    rw [List.range_eq_range']
    congr 1
    funext ⟨i, p⟩
    simp only [argAt]
    cases args[i]? <;> simp
  rw [h0]
  by_cases h : params.length < args.length
  · simp [h]; omega
  · rw [if_neg h, mapM_zip_range]
    simp; intro _ _; omega

/-- **C38 (partial).** The parameters of a generic struct, union, enum or type alias are associated with
exactly the given arguments, in order, and with the declared defaults for the missing trailing ones.
Missing: the defaults are taken as they are written, see `C38_default_names_parameter`, and opaque
types are instantiated without this check, see `C38_opaque_too_few`. -/
theorem C38_call_partial (params : List GParam) (args : List GArg) (m : List (Str × GArg)) :
    callParams params args = some m ↔
      args.length ≤ params.length ∧ m.map Prod.fst = params.map GParam.name ∧
        (∀ (i : Nat) (g : GArg), args[i]? = some g → (m[i]?).map Prod.snd = some g) ∧
        ∀ (i : Nat) (p : GParam), args.length ≤ i → params[i]? = some p →
          ∃ d, p.default = some d ∧ (m[i]?).map Prod.snd = some d := by
  rw [callParams_eq]
  constructor
  · rintro ⟨h1, h2, h3⟩
    refine ⟨h1, ?_, ?_, ?_⟩
    · apply List.ext_getElem?
      intro i
      simp only [List.getElem?_map]
      cases hp : params[i]? with
      | none =>
        have : m[i]? = none := by
          rw [List.getElem?_eq_none_iff] at hp ⊢; omega
        simp [this]
      | some p =>
        have h := h3 i p hp
        cases hm : m[i]? with
        | none =>
          rw [List.getElem?_eq_none_iff] at hm
          have := (List.getElem?_eq_some_iff.mp hp).1
          omega
        | some x =>
          rw [hm] at h
          simp only [argAt, Option.map_eq_some_iff] at h
          obtain ⟨g, _, rfl⟩ := h
          rfl
    · intro i g hg
      have hi := (List.getElem?_eq_some_iff.mp hg).1
      have h := h3 i _ (List.getElem?_eq_getElem (by omega))
      rw [← h]; simp [argAt, hg]
    · intro i p hi hp
      have h := h3 i p hp
      have hn : args[i]? = none := List.getElem?_eq_none hi
      cases hm : m[i]? with
      | none =>
        rw [List.getElem?_eq_none_iff] at hm
        have := (List.getElem?_eq_some_iff.mp hp).1
        omega
      | some x =>
        rw [hm] at h
        simp only [argAt, hn, Option.none_or, Option.map_eq_some_iff] at h
        obtain ⟨g, hg, rfl⟩ := h
        exact ⟨g, hg, rfl⟩
  · rintro ⟨h1, h2, h3, h4⟩
    have hl : m.length = params.length := by
      have := congrArg List.length h2; simpa using this
    refine ⟨h1, hl, ?_⟩
    intro i p hp
    have hi := (List.getElem?_eq_some_iff.mp hp).1
    have hm : m[i]? = some m[i] := List.getElem?_eq_getElem (by omega)
    have hname : (m[i]).1 = p.name := by
      have := congrArg (fun l => l[i]?) h2
      simp [hp, hm] at this; exact this
    rw [hm]
    by_cases ha : i < args.length
    · have h := h3 i args[i] (List.getElem?_eq_getElem ha)
      simp [hm] at h
      simp [argAt, ha, ← h, ← hname]
    · obtain ⟨d, h5, h6⟩ := h4 i p (by omega) hp
      simp [hm] at h6
      have hn : args[i]? = none := List.getElem?_eq_none (by omega)
      simp [argAt, hn, h5, ← h6, ← hname]

/-- **C38.** Any other number of arguments is an error. -/
theorem C38_arity_error (params : List GParam) (args : List GArg) :
    callParams params args = none ↔ params.length < args.length ∨
      ∃ i p, args.length ≤ i ∧ params[i]? = some p ∧ p.default = none := by
  constructor
  · intro h
    by_cases hl : params.length < args.length
    · exact .inl hl
    · right
      apply Classical.byContradiction
      intro hno
      have hd : ∀ i p, args.length ≤ i → params[i]? = some p → ∃ d, p.default = some d := by
        intro i p hi hp
        cases hdf : p.default with
        | some d => exact ⟨d, rfl⟩
        | none => exact absurd ⟨i, p, hi, hp, hdf⟩ hno
      have hex : ∃ m, callParams params args = some m := by
        have hall : ∀ i p, params[i]? = some p → ∃ x, argAt args i p = some x := by
          intro i p hp
          cases ha : args[i]? with
          | some g => exact ⟨(p.name, g), by simp [argAt, ha]⟩
          | none =>
            obtain ⟨d, h1⟩ := hd i p (by rwa [List.getElem?_eq_none_iff] at ha) hp
            exact ⟨(p.name, d), by simp [argAt, ha, h1]⟩
        refine ⟨params.zipIdx.map fun x => (argAt args x.2 x.1).getD ([], .const (.value [])), ?_⟩
        rw [callParams_eq]
        refine ⟨by omega, by simp, ?_⟩
        intro i p hp
        obtain ⟨x, hx⟩ := hall i p hp
        simp [List.getElem?_zipIdx, hp, hx]
      obtain ⟨m, hm⟩ := hex
      rw [hm] at h; simp at h
  · intro h
    cases hc : callParams params args with
    | none => rfl
    | some m =>
      obtain ⟨h1, _, _, h4⟩ := (C38_call_partial params args m).mp hc
      rcases h with h | ⟨i, p, hi, hp, hn⟩
      · omega
      · obtain ⟨d, hd, _⟩ := h4 i p hi hp
        rw [hn] at hd; simp at hd

/-- `Pair<T, U = f32>` used as `Pair<u32>`. -/
example : callParams [⟨c!"T", none, none⟩, ⟨c!"U", none, some (.type (.prim .float))⟩]
    [.type (.prim (.integer true false .b32))] =
    some [(c!"T", .type (.prim (.integer true false .b32))), (c!"U", .type (.prim .float))] := by rfl

/-- `struct Pair<T, U = *const T> { a: T, b: U }`. -/
def defaultPair : StructItem :=
  { path := c!"Pair", exportName := c!"Pair"
    genericParams := [⟨c!"T", none, none⟩,
      ⟨c!"U", none, some (.type (.ptr (Ty.newPath c!"T" []) true true false))⟩]
    fields := [{ name := c!"a", ty := Ty.newPath c!"T" [] },
      { name := c!"b", ty := Ty.newPath c!"U" [] }] }

/-- **C38 (refuted).** A default that names an earlier parameter is used as it is written: the
instance `Pair<f32>` has a field of type `*const T`. -/
theorem C38_default_names_parameter (c : LibConfig) :
    ∃ m f, callParams defaultPair.genericParams [.type (.prim .float)] = some m ∧
      f ∈ (defaultPair.specialize c [.type (.prim .float)] m).fields ∧ Occurs f.ty c!"T" := by
  refine ⟨[(c!"T", .type (.prim .float)),
    (c!"U", .type (.ptr (Ty.newPath c!"T" []) true true false))],
    ⟨c!"b", .ptr (Ty.newPath c!"T" []) true true false, none, {}, []⟩, by rfl, ?_, ?_⟩
  · simp [defaultPair, StructItem.specialize, StructItem.new, Field.mapTy, Ty.newPath, Ty.specialize,
      specializePath, firstType]
  · exact .ptr (.here _ _ _ _)

/-- `struct O<T, U>(...)` without `repr(C)`. -/
def twoParamOpaque : OpaqueItem :=
  { path := c!"O", exportName := c!"O", genericParams := [⟨c!"T", none, none⟩, ⟨c!"U", none, none⟩] }

/-- **C38 (refuted).** An opaque type with two parameters and no defaults is instantiated with a single
argument without an error. -/
theorem C38_opaque_too_few (c : LibConfig) :
    ∃ (x : OpaqueItem) (st : Monos), (∀ p ∈ x.genericParams, p.default = none) ∧
      x.genericParams.length = 2 ∧
      OpaqueItem.instantiate c [.type (.prim .float)] {} x = .ok st ∧ st.opaques.length = 1 := by
  refine ⟨twoParamOpaque, _, by simp [twoParamOpaque], rfl, rfl, rfl⟩

/-! ## C15: simultaneous substitution -/

/-- **C15.** The meaning of an instance of a type is the meaning of the generic type when all its
parameters stand for the arguments, each read outside of the definition; in every domain, for all types,
parameters and arguments. -/
theorem C15_simultaneous {D K : Type} (A : Domain D K) (m : List (Str × GArg))
    (hd : (m.map Prod.fst).Nodup) (t : Ty) (hl : Loaded (m.map Prod.fst) t) :
    eval A noParams (t.specialize m) = eval A (values A m) t :=
  eval_specialize A hd t hl

/-- **C15.** A type without parameters is left untouched. -/
theorem C15_untouched (m : List (Str × GArg)) (hd : (m.map Prod.fst).Nodup) (t : Ty) (hf : Fresh t)
    (h : ∀ n, Occurs t n → n ∉ m.map Prod.fst) : t.specialize m = t :=
  Ty.specialize_id hd t hf h

/-- **C15.** When all parameters have type arguments, every name of the instance is a name of the
generic type that is not a parameter, or a name in the argument of a parameter that the type uses. -/
theorem C15_names (m : List (Str × GArg)) (hd : (m.map Prod.fst).Nodup) (ha : AllTypes m) (t : Ty)
    (hl : Loaded (m.map Prod.fst) t)
    (hk : ∀ n, LenOccurs t n → ∀ g, m.lookup n = some g → CanBeLen g) (x : Str)
    (h : Occurs (t.specialize m) x) :
    (Occurs t x ∧ x ∉ m.map Prod.fst) ∨ ∃ p g, Occurs t p ∧ m.lookup p = some g ∧ ArgOccurs g x :=
  Ty.specialize_origin hd ha t hl hk x h

/-- **C15.** When all parameters have type arguments that do not mention the parameters, no parameter
remains. -/
theorem C15_no_parameter_remains (m : List (Str × GArg)) (hd : (m.map Prod.fst).Nodup)
    (ha : AllTypes m) (t : Ty) (hl : Loaded (m.map Prod.fst) t)
    (hk : ∀ n, LenOccurs t n → ∀ g, m.lookup n = some g → CanBeLen g)
    (hc : ∀ p ∈ m, ∀ x, ArgOccurs p.2 x → x ∉ m.map Prod.fst) :
    ∀ x, Occurs (t.specialize m) x → x ∉ m.map Prod.fst := by
  intro x h
  rcases C15_names m hd ha t hl hk x h with h | ⟨p, g, _, h1, h2⟩
  · exact h.2
  · exact hc _ (lookup_mem h1) x h2

/-- What is known of a field in a domain. -/
def fieldMeaning {D K : Type} (A : Domain D K) (env : Env D K) (f : Field) :
    Str × D × Option Cfg × Annotations × List Str :=
  (f.name, eval A env f.ty, f.cfg, f.annotations, f.doc)

theorem fields_specialize {D K : Type} (A : Domain D K) (m : List (Str × GArg))
    (hd : (m.map Prod.fst).Nodup) (fs : List Field)
    (hl : ∀ f ∈ fs, Loaded (m.map Prod.fst) f.ty) :
    (fs.map (Field.mapTy (Ty.specialize m))).map (fieldMeaning A noParams) =
      fs.map (fieldMeaning A (values A m)) := by
  rw [List.map_map]
  apply List.map_congr_left
  intro f hf
  simp [fieldMeaning, Field.mapTy, C15_simultaneous A m hd f.ty (hl f hf)]

/-- The parameters of an item have different names. -/
def DistinctParams (params : List GParam) : Prop := (params.map GParam.name).Nodup

theorem callParams_names {params : List GParam} {args : List GArg} {m : List (Str × GArg)}
    (h : callParams params args = some m) : m.map Prod.fst = params.map GParam.name :=
  ((C38_call_partial params args m).mp h).2.1

/-- **C15.** An instance of a struct has the same fields, in the same order, with the types in which the
parameters stand for the arguments; and it is no longer generic. -/
theorem C15_struct {D K : Type} (A : Domain D K) (c : LibConfig) (x : StructItem)
    (args : List GArg) (m : List (Str × GArg)) (h : callParams x.genericParams args = some m)
    (hd : DistinctParams x.genericParams)
    (hl : ∀ f ∈ x.fields, Loaded (x.genericParams.map GParam.name) f.ty) :
    (x.specialize c args m).genericParams = [] ∧
    (x.specialize c args m).fields.map (fieldMeaning A noParams) =
      x.fields.map (fieldMeaning A (values A m)) := by
  rw [DistinctParams, ← callParams_names h] at hd
  rw [← callParams_names h] at hl
  exact ⟨rfl, fields_specialize A m hd x.fields hl⟩

/-- **C15.** The same for unions. -/
theorem C15_union {D K : Type} (A : Domain D K) (c : LibConfig) (x : UnionItem)
    (args : List GArg) (m : List (Str × GArg)) (h : callParams x.genericParams args = some m)
    (hd : DistinctParams x.genericParams)
    (hl : ∀ f ∈ x.fields, Loaded (x.genericParams.map GParam.name) f.ty) :
    (x.specialize c args m).genericParams = [] ∧
    (x.specialize c args m).fields.map (fieldMeaning A noParams) =
      x.fields.map (fieldMeaning A (values A m)) := by
  rw [DistinctParams, ← callParams_names h] at hd
  rw [← callParams_names h] at hl
  exact ⟨rfl, fields_specialize A m hd x.fields hl⟩

/-- **C15.** The same for type aliases. -/
theorem C15_typedef {D K : Type} (A : Domain D K) (c : LibConfig) (x : TypedefItem)
    (args : List GArg) (m : List (Str × GArg)) (h : callParams x.genericParams args = some m)
    (hd : DistinctParams x.genericParams)
    (hl : Loaded (x.genericParams.map GParam.name) x.aliased) :
    (x.specialize c args m).genericParams = [] ∧
    eval A noParams (x.specialize c args m).aliased = eval A (values A m) x.aliased := by
  rw [DistinctParams, ← callParams_names h] at hd
  rw [← callParams_names h] at hl
  exact ⟨rfl, C15_simultaneous A m hd x.aliased hl⟩

/-- The fields of a variant. -/
def EnumVariant.bodyFields (v : EnumVariant) : Option (List Field) :=
  match v.body with
  | .empty _ => none
  | .body _ b _ _ => some b.fields

/-- **C15.** The same for the fields of the variants of an enum. -/
theorem C15_enum {D K : Type} (A : Domain D K) (c : LibConfig) (x : EnumItem)
    (args : List GArg) (m : List (Str × GArg)) (h : callParams x.genericParams args = some m)
    (hd : DistinctParams x.genericParams)
    (hl : ∀ v ∈ x.variants, ∀ fs, v.bodyFields = some fs → ∀ f ∈ fs,
      Loaded (x.genericParams.map GParam.name) f.ty) :
    (x.specialize c args m).genericParams = [] ∧
    (x.specialize c args m).variants.map
        (fun v => v.bodyFields.map (List.map (fieldMeaning A noParams))) =
      x.variants.map (fun v => v.bodyFields.map (List.map (fieldMeaning A (values A m)))) := by
  rw [DistinctParams, ← callParams_names h] at hd
  rw [← callParams_names h] at hl
  refine ⟨rfl, ?_⟩
  show (x.variants.map (EnumVariant.specialize c args m)).map _ = _
  rw [List.map_map]
  apply List.map_congr_left
  intro v hv
  cases hb : v.body with
  | empty a =>
    simp [EnumVariant.bodyFields, EnumVariant.specialize, EnumVariant.new, VBody.specialize, hb]
  | body n b i ic =>
    have := fields_specialize A m hd b.fields (hl v hv b.fields (by simp [EnumVariant.bodyFields, hb]))
    simp only [EnumVariant.bodyFields, EnumVariant.specialize, EnumVariant.new, VBody.specialize, hb,
      Function.comp, Option.map_some, StructItem.specialize, StructItem.new, this]

/-! Cases: two parameters that are exchanged, and an array whose length is a parameter. -/

/-- `Swap<A, B>` with `A := B`, `B := f32`: the argument `B` is not substituted again. -/
example : (Ty.newPath c!"Swap" [.type (Ty.newPath c!"A" []), .type (Ty.newPath c!"B" [])]).specialize
      [(c!"A", .type (Ty.newPath c!"B" [])), (c!"B", .type (.prim .float))] =
    Ty.newPath c!"Swap" [.type (Ty.newPath c!"B" []), .type (.prim .float)] := by rfl

example : Loaded [c!"T", c!"N"] (.array (.ptr (Ty.newPath c!"T" []) true true false)
      (.path c!"N" c!"N")) ∧
    (Ty.array (.ptr (Ty.newPath c!"T" []) true true false) (.path c!"N" c!"N")).specialize
      [(c!"T", .type (.prim .float)), (c!"N", .const (.value c!"4"))] =
    .array (.ptr (.prim .float) true true false) (.value c!"4") := by
  refine ⟨?_, rfl⟩
  simp [Loaded, Ty.newPath, LoadedArgs]

end Cbindgen
