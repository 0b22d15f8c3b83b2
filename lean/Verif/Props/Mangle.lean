import Verif.Lemmas.Mangle
import Verif.Spec.Mangle
import Verif.Props.MonoCases

/-!
# C08: different instantiations get different names
-/

namespace Cbindgen

open MangleSpec Mangle

mutual
def Ty.toTree : Ty → Tree
  | .path n _ gs _ => .node n (GArg.toTrees gs)
  | .prim p => .node p.toReprRust []
  | _ => .node [] []
def GArg.toTree : GArg → Tree
  | .type t => t.toTree
  | .const (.value s) => .node s []
  | .const (.path _ _) => .node [] []
def GArg.toTrees : List GArg → List Tree
  | [] => []
  | g :: gs => g.toTree :: GArg.toTrees gs
end

/-! ## The texts are those of the trees -/

theorem apply_none (f : CaseFns) (s : Str) (i : IdentType) : RenameRule.none.apply f s i = s := by
  cases s <;> simp [RenameRule.apply]

mutual
theorem Ty.mangle_full (f : CaseFns) : ∀ (t : Ty) (b : Bool), SimpleTy t →
    t.mangle f {} b false = full t.toTree
  | .path n e gs k, b, h => by
    obtain ⟨rfl, rfl, _, h⟩ := h
    simp only [Ty.mangle, apply_none, Ty.toTree, full]
    rw [GArg.mangleTail_full f gs h]
  | .prim p, b, _ => by simp [Ty.mangle, apply_none, Ty.toTree, full, fullArgs]
  | .ptr .., _, h => h.elim
  | .fnptr .., _, h => h.elim
  | .array .., _, h => h.elim
theorem GArg.mangle_full (f : CaseFns) : ∀ (g : GArg) (b : Bool), SimpleArg g →
    g.mangle f {} b false = full g.toTree
  | .type t, b, h => by
    simp only [GArg.mangle, GArg.toTree]
    exact Ty.mangle_full f t b h
  | .const (.value s), b, _ => by simp [GArg.mangle, GArg.toTree, full, fullArgs]
  | .const (.path _ _), _, h => h.elim
theorem GArg.mangleTail_full (f : CaseFns) : ∀ (gs : List GArg), SimpleArgs gs →
    GArg.mangleTail f {} false gs = fullArgs (GArg.toTrees gs)
  | [], _ => by simp [GArg.mangleTail, GArg.toTrees, fullArgs]
  | g :: gs, h => by
    simp only [GArg.mangleTail, GArg.toTrees, fullArgs, Bool.false_and]
    rw [GArg.mangle_full f g false h.1, List.append_assoc, List.append_assoc,
      GArg.mangleRest_full f gs h.2]
    rfl
theorem GArg.mangleRest_full (f : CaseFns) : ∀ (gs : List GArg), SimpleArgs gs →
    GArg.mangleRest f {} false gs ++ ({} : MangleConfig).sepUnless false .closingAngleBracket =
      fullRest (GArg.toTrees gs)
  | [], _ => by simp only [GArg.mangleRest, GArg.toTrees, fullRest]; rfl
  | g :: gs, h => by
    simp only [GArg.mangleRest, GArg.toTrees, fullRest, Bool.false_and]
    rw [GArg.mangle_full f g false h.1, List.append_assoc, List.append_assoc,
      GArg.mangleRest_full f gs h.2]
    rfl
end

theorem GArg.toTrees_isEmpty (gs : List GArg) : (GArg.toTrees gs).isEmpty = gs.isEmpty := by
  cases gs <;> simp [GArg.toTrees]

mutual
theorem Ty.mangle_final (f : CaseFns) : ∀ (t : Ty) (b : Bool), SimpleTy t →
    t.mangle f {} b true = final t.toTree
  | .path n e gs k, b, h => by
    obtain ⟨rfl, rfl, _, h⟩ := h
    simp only [Ty.mangle, apply_none, Ty.toTree, final]
    rw [GArg.mangleTail_final f gs h]
  | .prim p, b, _ => by simp [Ty.mangle, apply_none, Ty.toTree, final, finalArgs]
  | .ptr .., _, h => h.elim
  | .fnptr .., _, h => h.elim
  | .array .., _, h => h.elim
theorem GArg.mangle_final (f : CaseFns) : ∀ (g : GArg) (b : Bool), SimpleArg g →
    g.mangle f {} b true = final g.toTree
  | .type t, b, h => by
    simp only [GArg.mangle, GArg.toTree]
    exact Ty.mangle_final f t b h
  | .const (.value s), b, _ => by simp [GArg.mangle, GArg.toTree, final, finalArgs]
  | .const (.path _ _), _, h => h.elim
theorem GArg.mangleTail_final (f : CaseFns) : ∀ (gs : List GArg), SimpleArgs gs →
    GArg.mangleTail f {} true gs = finalArgs (GArg.toTrees gs)
  | [], _ => by simp [GArg.mangleTail, GArg.toTrees, finalArgs]
  | [g], h => by
    simp only [GArg.mangleTail, GArg.toTrees, finalArgs, GArg.mangleRest, finalArg, finalRest,
      List.isEmpty_nil, Bool.and_true]
    rw [GArg.mangle_final f g true h.1]
    simp [MangleConfig.sepUnless, MangleConfig.sep, Separator.count]
  | g :: g' :: gs, h => by
    have hr := GArg.mangleRest_final f (g' :: gs) h.2
    rw [GArg.mangleTail, hr]
    simp only [List.isEmpty_cons, Bool.and_false]
    rw [GArg.mangle_full f g true h.1]
    simp [MangleConfig.sepUnless, MangleConfig.sep, Separator.count, GArg.toTrees, finalArgs,
      finalArg]
theorem GArg.mangleRest_final (f : CaseFns) : ∀ (gs : List GArg), SimpleArgs gs →
    GArg.mangleRest f {} true gs = finalRest (GArg.toTrees gs)
  | [], _ => by simp [GArg.mangleRest, GArg.toTrees, finalRest]
  | [g], h => by
    simp only [GArg.toTrees, GArg.mangleRest, finalArg, finalRest,
      List.isEmpty_nil, Bool.and_true]
    rw [GArg.mangle_final f g true h.1]
    simp [MangleConfig.sep, Separator.count]
  | g :: g' :: gs, h => by
    have hr := GArg.mangleRest_final f (g' :: gs) h.2
    rw [GArg.mangleRest, hr]
    simp only [List.isEmpty_cons, Bool.and_false]
    rw [GArg.mangle_full f g true h.1]
    simp only [GArg.toTrees]
    rw [finalRest.eq_def (g.toTree :: _)]
    simp [MangleConfig.sep, Separator.count, finalArg]
end

/-! ## Trees keep everything apart -/

theorem prim_repr {p : Prim} (h : PlainPrim p) :
    p.toReprRust ∈ primNames ∧ Word p.toReprRust ∧ ∀ c ∈ p.toReprRust.head?, c.isDigit = false := by
  have key : ∀ w : Str, w ∈ primNames → (w ≠ [] ∧ '_' ∉ w) ∧ (w.head?.all fun c => !c.isDigit) := by
    decide
  have hm : p.toReprRust ∈ primNames := by
    cases p with
    | integer z s k =>
      obtain ⟨rfl, h⟩ := h
      rcases h with rfl | rfl | rfl | rfl | rfl <;> cases s <;> decide
    | bool => decide
    | char32 => decide
    | float => decide
    | double => decide
    | _ => exact h.elim
  obtain ⟨h1, h2⟩ := key _ hm
  refine ⟨hm, h1, fun c hc => ?_⟩
  rw [Option.mem_def] at hc
  rw [hc] at h2
  simpa using h2

theorem prim_repr_inj {p q : Prim} (hp : PlainPrim p) (hq : PlainPrim q)
    (h : p.toReprRust = q.toReprRust) : p = q := by
  cases p with
  | integer z s k =>
    obtain ⟨rfl, hk⟩ := hp
    cases q with
    | integer z' s' k' =>
      obtain ⟨rfl, hk'⟩ := hq
      rcases hk with rfl | rfl | rfl | rfl | rfl <;> rcases hk' with rfl | rfl | rfl | rfl | rfl <;>
        cases s <;> cases s' <;> first | rfl | (exact absurd h (by decide))
    | bool | char32 | float | double =>
      rcases hk with rfl | rfl | rfl | rfl | rfl <;> cases s <;> exact absurd h (by decide)
    | _ => exact hq.elim
  | bool | char32 | float | double =>
    cases q with
    | integer z' s' k' =>
      obtain ⟨rfl, hk'⟩ := hq
      rcases hk' with rfl | rfl | rfl | rfl | rfl <;> cases s' <;> exact absurd h (by decide)
    | bool | char32 | float | double => first | rfl | exact absurd h (by decide)
    | _ => exact hq.elim
  | _ => exact hp.elim

theorem number_word {s : Str} (h : Number s) : Word s := by
  refine ⟨?_, h.2⟩
  rintro rfl
  obtain ⟨⟨c, hc, _⟩, _⟩ := h
  simp at hc

mutual
theorem Ty.toTree_good : ∀ (t : Ty), SimpleTy t → Good t.toTree
  | .path _ _ gs _, h => ⟨⟨h.2.2.1.1, h.2.2.1.2.1⟩, GArg.toTrees_good gs h.2.2.2⟩
  | .prim _, h => ⟨(prim_repr h).2.1, trivial⟩
  | .ptr .., h => h.elim
  | .fnptr .., h => h.elim
  | .array .., h => h.elim
theorem GArg.toTree_good : ∀ (g : GArg), SimpleArg g → Good g.toTree
  | .type t, h => Ty.toTree_good t h
  | .const (.value _), h => ⟨number_word h, trivial⟩
  | .const (.path _ _), h => h.elim
theorem GArg.toTrees_good : ∀ (gs : List GArg), SimpleArgs gs → GoodList (GArg.toTrees gs)
  | [], _ => trivial
  | g :: gs, h => ⟨GArg.toTree_good g h.1, GArg.toTrees_good gs h.2⟩
end

mutual
theorem Ty.toTree_inj : ∀ (t t' : Ty), SimpleTy t → SimpleTy t' → t.toTree = t'.toTree → t = t'
  | .path n e gs k, .path n' e' gs' k', h, h', eq => by
    obtain ⟨rfl, rfl, _, h⟩ := h
    obtain ⟨rfl, rfl, _, h'⟩ := h'
    simp only [Ty.toTree, Tree.node.injEq] at eq
    obtain ⟨rfl, eq⟩ := eq
    rw [GArg.toTrees_inj gs gs' h h' eq]
  | .path n e gs k, .prim p, h, h', eq => by
    simp only [Ty.toTree, Tree.node.injEq] at eq
    exact (h.2.2.1.2.2.2 (eq.1 ▸ (prim_repr h').1)).elim
  | .prim p, .path n e gs k, h, h', eq => by
    simp only [Ty.toTree, Tree.node.injEq] at eq
    exact (h'.2.2.1.2.2.2 (eq.1 ▸ (prim_repr h).1)).elim
  | .prim p, .prim q, h, h', eq => by
    simp only [Ty.toTree, Tree.node.injEq, and_true] at eq
    rw [prim_repr_inj h h' eq]
  | .ptr .., _, h, _, _ => h.elim
  | .fnptr .., _, h, _, _ => h.elim
  | .array .., _, h, _, _ => h.elim
  | _, .ptr .., _, h, _ => h.elim
  | _, .fnptr .., _, h, _ => h.elim
  | _, .array .., _, h, _ => h.elim
theorem GArg.toTree_inj : ∀ (g g' : GArg), SimpleArg g → SimpleArg g' → g.toTree = g'.toTree →
    g = g'
  | .type t, .type t', h, h', eq => by rw [Ty.toTree_inj t t' h h' eq]
  | .const (.value s), .const (.value s'), _, _, eq => by
    simp only [GArg.toTree, Tree.node.injEq, and_true] at eq
    rw [eq]
  | .type (.path n e gs k), .const (.value s), h, h', eq => by
    simp only [GArg.toTree, Ty.toTree, Tree.node.injEq] at eq
    obtain ⟨⟨c, hc, hd⟩, _⟩ := h'
    rw [← eq.1] at hc
    have := h.2.2.1.2.2.1 c hc
    simp [hd] at this
  | .type (.prim p), .const (.value s), h, h', eq => by
    simp only [GArg.toTree, Ty.toTree, Tree.node.injEq, and_true] at eq
    obtain ⟨⟨c, hc, hd⟩, _⟩ := h'
    rw [← eq] at hc
    have := (prim_repr h).2.2 c hc
    simp [hd] at this
  | .const (.value s), .type (.path n e gs k), h', h, eq => by
    simp only [GArg.toTree, Ty.toTree, Tree.node.injEq] at eq
    obtain ⟨⟨c, hc, hd⟩, _⟩ := h'
    rw [eq.1] at hc
    have := h.2.2.1.2.2.1 c hc
    simp [hd] at this
  | .const (.value s), .type (.prim p), h', h, eq => by
    simp only [GArg.toTree, Ty.toTree, Tree.node.injEq, and_true] at eq
    obtain ⟨⟨c, hc, hd⟩, _⟩ := h'
    rw [eq] at hc
    have := (prim_repr h).2.2 c hc
    simp [hd] at this
  | .const (.path _ _), _, h, _, _ => h.elim
  | _, .const (.path _ _), _, h, _ => h.elim
  | .type (.ptr ..), _, h, _, _ => h.elim
  | .type (.fnptr ..), _, h, _, _ => h.elim
  | .type (.array ..), _, h, _, _ => h.elim
  | _, .type (.ptr ..), _, h, _ => h.elim
  | _, .type (.fnptr ..), _, h, _ => h.elim
  | _, .type (.array ..), _, h, _ => h.elim
theorem GArg.toTrees_inj : ∀ (gs gs' : List GArg), SimpleArgs gs → SimpleArgs gs' →
    GArg.toTrees gs = GArg.toTrees gs' → gs = gs'
  | [], [], _, _, _ => rfl
  | [], _ :: _, _, _, eq => by simp [GArg.toTrees] at eq
  | _ :: _, [], _, _, eq => by simp [GArg.toTrees] at eq
  | g :: gs, g' :: gs', h, h', eq => by
    simp only [GArg.toTrees, List.cons.injEq] at eq
    rw [GArg.toTree_inj g g' h.1 h'.1 eq.1, GArg.toTrees_inj gs gs' h.2 h'.2 eq.2]
end

/-! ## C08 -/

/-- Arguments built from names without underscores, primitives and numbers: with the default options
the mangled name determines the generic type and its arguments, at any depth. -/
theorem C08_injective_partial (f : CaseFns) (n n' : Str) (gs gs' : List GArg)
    (hn : n ≠ []) (hn' : n' ≠ []) (hu : '_' ∉ n) (hu' : '_' ∉ n')
    (h : SimpleArgs gs) (h' : SimpleArgs gs')
    (heq : mangleName f {} n gs = mangleName f {} n' gs') : n = n' ∧ gs = gs' := by
  unfold mangleName at heq
  rw [GArg.mangleTail_final f gs h, GArg.mangleTail_final f gs' h'] at heq
  have := final_inj (.node n (GArg.toTrees gs)) (.node n' (GArg.toTrees gs'))
    ⟨⟨hn, hu⟩, GArg.toTrees_good gs h⟩ ⟨⟨hn', hu'⟩, GArg.toTrees_good gs' h'⟩
    (by simpa only [final] using heq)
  simp only [Tree.node.injEq] at this
  exact ⟨this.1, GArg.toTrees_inj gs gs' h h' this.2⟩

/-- `Foo<A<B>, u32, 3>` and `Foo<A<B, u32>>` meet the hypotheses. -/
def mangleCase1 : List GArg :=
  [.type (plainPath c!"A" [plainPath c!"B" []]), .type tyU32, .const (.value c!"3")]

def mangleCase2 : List GArg := [.type (plainPath c!"A" [plainPath c!"B" [], tyU32])]

example (f : CaseFns) : mangleName f {} c!"Foo" mangleCase1 = c!"Foo_A_B_____u32__3" := rfl
example (f : CaseFns) : mangleName f {} c!"Foo" mangleCase2 = c!"Foo_A_B__u32" := rfl

theorem typeName_of (n : Str) (h : n ≠ [] ∧ '_' ∉ n ∧ (n.head?.all fun c => !c.isDigit) ∧
    n ∉ primNames) : TypeName n := by
  refine ⟨h.1, h.2.1, fun c hc => ?_, h.2.2.2⟩
  have := h.2.2.1
  rw [Option.mem_def] at hc
  rw [hc] at this
  simpa using this

theorem mangleCase1_simple : SimpleArgs mangleCase1 :=
  ⟨⟨rfl, rfl, typeName_of _ (by decide), ⟨rfl, rfl, typeName_of _ (by decide), trivial⟩, trivial⟩,
    ⟨rfl, .inr (.inr (.inr (.inl rfl)))⟩, ⟨⟨'3', rfl, by decide⟩, by decide⟩, trivial⟩

theorem mangleCase2_simple : SimpleArgs mangleCase2 :=
  ⟨⟨rfl, rfl, typeName_of _ (by decide), ⟨rfl, rfl, typeName_of _ (by decide), trivial⟩,
    ⟨rfl, .inr (.inr (.inr (.inl rfl)))⟩, trivial⟩, trivial⟩

example (f : CaseFns) : mangleName f {} c!"Foo" mangleCase1 ≠ mangleName f {} c!"Foo" mangleCase2 := by
  intro h
  have := C08_injective_partial f c!"Foo" c!"Foo" _ _ (by decide) (by decide) (by decide) (by decide)
    mangleCase1_simple mangleCase2_simple h
  simp [mangleCase1, mangleCase2] at this

/-! ## Names that are the same -/

def constPtrTo (t : Ty) : Ty := .ptr t true true false

/-- `Foo<*mut *const u32>` and `Foo<*const *mut u32>` get one name: runs of underscores add up. -/
theorem C08_pointers (f : CaseFns) :
    mangleName f {} c!"Foo" [.type (ptrTo (constPtrTo tyU32))] =
      mangleName f {} c!"Foo" [.type (constPtrTo (ptrTo tyU32))] := rfl

/-- `Foo<A<B>, C>` and `Foo<A<B<*mut C>>>` get one name. -/
theorem C08_closing (f : CaseFns) :
    mangleName f {} c!"Foo" [.type (plainPath c!"A" [plainPath c!"B" []]), .type (plainPath c!"C" [])] =
      mangleName f {} c!"Foo" [.type (plainPath c!"A" [plainPath c!"B" [ptrTo (plainPath c!"C" [])]])] :=
  rfl

/-- `Foo<Bar<u32>>` and `Foo<Bar_u32>` get one name. -/
theorem C08_underscore_names (f : CaseFns) :
    mangleName f {} c!"Foo" [.type (plainPath c!"Bar" [tyU32])] =
      mangleName f {} c!"Foo" [.type (plainPath c!"Bar_u32" [])] := rfl

/-- `Foo<Bar<u32>>` and `Foo_Bar<u32>` get one name. -/
theorem C08_underscore_generic (f : CaseFns) :
    mangleName f {} c!"Foo" [.type (plainPath c!"Bar" [tyU32])] =
      mangleName f {} c!"Foo_Bar" [.type tyU32] := rfl

/-- `Foo<NonZeroU32>` and `Foo<u32>` get one name. -/
theorem C08_nonzero (f : CaseFns) :
    mangleName f {} c!"Foo" [.type (.prim (.integer false false .b32))] =
      mangleName f {} c!"Foo" [.type tyU32] := rfl

/-- With `remove_underscores`, `Foo<A, B>` and `Foo<A<B>>` get one name although the names have no
underscores. -/
theorem C08_removed (f : CaseFns) :
    mangleName f { removeUnderscores := true } c!"Foo"
        [.type (plainPath c!"A" []), .type (plainPath c!"B" [])] =
      mangleName f { removeUnderscores := true } c!"Foo" [.type (plainPath c!"A" [plainPath c!"B" []])] :=
  rfl

/-- `struct Foo<T> { x: T }` with `fn f(a: *mut Foo<*mut *const u32>)` and
`fn g(a: *mut Foo<*const *mut u32>)`. -/
def collideLibrary : Library :=
  { structs := [(c!"Foo", .single (genericFoo c!"Foo"))],
    functions := [funcOf c!"f" (ptrTo (plainPath c!"Foo" [ptrTo (constPtrTo tyU32)])),
      funcOf c!"g" (ptrTo (plainPath c!"Foo" [constPtrTo (ptrTo tyU32)]))] }

/-- `struct Foo__________u32 { x: *mut *const u32 }` -/
def collideFoo : StructItem :=
  { path := c!"Foo__________u32", exportName := c!"Foo__________u32",
    fields := [{ name := c!"x", ty := ptrTo (constPtrTo tyU32) }] }

/-- C08 is false: both functions take the same struct, and it is the one with the field of the first
instantiation.  The second one is dropped without a message. -/
theorem C08_collision (f : CaseFns) :
    collideLibrary.instantiateMonomorphs (plainConfig .c f) 2 =
      .ok { structs := [(c!"Foo__________u32", .single collideFoo)],
            functions := [funcOf c!"f" (ptrTo (plainPath c!"Foo__________u32" [])),
              funcOf c!"g" (ptrTo (plainPath c!"Foo__________u32" []))] } := rfl

end Cbindgen
