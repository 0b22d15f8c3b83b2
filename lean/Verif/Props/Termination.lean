import Verif.Lemmas.MonoFinite
import Verif.Props.RefCases

/-!
# C16 and C55: how often instances are made, and whether monomorphisation ends
-/

namespace Cbindgen

open RefSpec MonoSpec SubstSpec LibSpec

theorem Library.types_of_getItems {c : LibConfig} {l : Library} {p : Str} {items : List Container}
    (h : l.getItems c p = some items) {x : Container} (hx : x ∈ items) : x ∈ l.types := by
  rcases Library.getItems_cases h with ⟨_, xs, hg, rfl⟩ | ⟨_, xs, hg, rfl⟩ | ⟨_, xs, hg, rfl⟩ |
    ⟨_, xs, hg, rfl⟩ | ⟨_, xs, hg, rfl⟩ <;> obtain ⟨y, hy, rfl⟩ := List.mem_map.1 hx <;>
    have := ItemMap.mem_toVec_of_getItems hg hy <;> refine mem_types.2 ?_ <;> simp [this]

/-- No generic enum has variants with data. -/
def Library.NoGenericData (l : Library) : Prop :=
  ∀ x ∈ l.types, x.isGeneric → ∀ y, x = .enum y → ∀ b, ¬ BodyOf y b

theorem Library.NoGenericData.parts {l : Library} (h : l.NoGenericData) {x : Container}
    (hx : x ∈ l.types) : x.parts = [x] ∨ x.params = [] := by
  by_cases hg : x.params = []
  · exact .inr hg
  · left
    cases x with
    | enum y =>
      have := h _ hx hg y rfl
      have hb : y.bodies = [] := by
        rw [List.eq_nil_iff_forall_not_mem]
        intro b hb
        obtain ⟨v, hv, e⟩ := List.mem_filterMap.1 hb
        cases hvb : v.body with
        | empty a => simp [hvb] at e
        | body n b' i ic =>
          simp only [hvb, Option.some.injEq] at e
          subst e
          exact this _ ⟨v, hv, n, i, ic, hvb⟩
      simp [Container.parts, hb]
    | _ => rfl

theorem Library.monoUses_ne {l : Library} {u : GUse} (h : u ∈ l.monoUses) : u.2.2.1 ≠ [] := by
  simp only [Library.monoUses, List.mem_append, List.mem_flatMap] at h
  rcases h with (((⟨x, _, h⟩ | ⟨x, _, h⟩) | ⟨x, _, h⟩) | ⟨x, _, h⟩) | ⟨x, _, h⟩
  · exact Cbindgen.monoUses_ne (x := .struct x) h
  · exact Cbindgen.monoUses_ne (x := .union x) h
  · exact Cbindgen.monoUses_ne (x := .enum x) h
  · exact Cbindgen.monoUses_ne (x := .typedef x) h
  · unfold FuncItem.monoUses at h
    rcases List.mem_append.1 h with h | h
    · exact genericUses_ne h
    · obtain ⟨a, _, h⟩ := List.mem_flatMap.1 h
      exact genericUses_ne h

/-- **C16 (partial).** If every name has one definition and no generic enum has data, the instances made
come from different pairs of a definition and arguments.  Missing: enums with data, see `C16_twice`. -/
theorem C16_once_partial {c : LibConfig} (hc : c.language ≠ .cxx) {l l' : Library} (hwf : l.WF)
    (hp : l.Plain) (hs : ∀ p items, l.getItems c p = some items → items.length = 1)
    (hb : l.NoGenericData) {fuel : Nat} (h : l.instantiateMonomorphs c fuel = .ok l') :
    ∃ m, l' = (l.insertMonos m).manglePaths m.find ∧
      ∃ log : List (Container × List GArg × List (Str × GArg)),
        m.all.Perm (log.map fun i => i.1.specialize c i.2.1 i.2.2) ∧
        (log.map fun i => (i.1.path, i.2.1)).Nodup ∧
        ∀ i ∈ log, i.1 ∈ l.types ∧ i.1.call i.2.1 = some i.2.2 := by
  obtain ⟨m, hm, rfl⟩ := Library.instantiateMonomorphs_ok h
  have hd := Library.definitions hc hwf (hp.every c)
  have hsd : SingleDefs (l.getItems c) := by
    intro p items hg
    obtain ⟨x, rfl⟩ := List.length_eq_one_iff.1 (hs p items hg)
    exact ⟨x, rfl, (hd.items _ _ hg).2 x (by simp),
      hb.parts (Library.types_of_getItems hg (by simp))⟩
  obtain ⟨log, _, h2, h3, _, h5⟩ := followAll_once hd hsd
    (fun u hu => ⟨(hp.every c).monoUses (before_mono hc) u hu, Library.monoUses_ne hu⟩) hm
  refine ⟨m, rfl, log, ?_, ?_, ?_⟩
  · rw [show ({} : Monos).all = [] from rfl, List.append_nil] at h2
    exact h2
  · have e : log.map Inst.key = (log.map fun i => (i.1.path, i.2.1)).map
        fun q => Ty.newPath q.1 q.2 := by
      rw [List.map_map]; rfl
    rw [e, List.Nodup, List.pairwise_map] at h3
    exact h3.imp fun hne e => hne (congrArg (fun q : Str × List GArg => Ty.newPath q.1 q.2) e)
  · intro i hi
    obtain ⟨⟨p, items, hg, hx⟩, hcall⟩ := h5 i hi
    exact ⟨Library.types_of_getItems hg hx, hcall⟩

/-! ## Termination -/

mutual
theorem plain_fresh : ∀ t, RefSpec.Plain t → Fresh t
  | .ptr t _ _ _, h => plain_fresh t h
  | .path _ _ gs _, h => ⟨h.1, h.2.1, plain_freshArgs gs h.2.2⟩
  | .prim _, _ => trivial
  | .array t _, h => plain_fresh t h.1
  | .fnptr r as _ _, h => ⟨plain_fresh r h.1, plain_freshFArgs as h.2⟩
theorem plain_freshArg : ∀ g, PlainArg g → FreshArg g
  | .type t, h => plain_fresh t h
  | .const _, _ => trivial
theorem plain_freshArgs : ∀ gs, PlainArgs gs → FreshArgs gs
  | [], _ => trivial
  | g :: gs, h => ⟨plain_freshArg g h.1, plain_freshArgs gs h.2⟩
theorem plain_freshFArgs : ∀ as, PlainFArgs as → FreshFArgs as
  | [], _ => trivial
  | .mk _ t :: as, h => ⟨plain_fresh t h.1, plain_freshFArgs as h.2⟩
end

theorem plain_uses {t : Ty} {n : Str} {gs : List GArg} (h : Uses t n gs) :
    RefSpec.Plain t → PlainArgs gs := by
  induction h with
  | here _ => exact fun h => h.2.2
  | ptr _ ih => exact fun h => ih h
  | array _ ih => exact fun h => ih h.1
  | ret _ ih => exact fun h => ih h.1
  | arg ha _ ih => exact fun h => ih (plainFArgs_iff.1 h.2 _ _ ha)

theorem specializeList_map (m : List (Str × GArg)) (gs : List GArg) :
    GArg.specializeList m gs = gs.map (GArg.specialize m) := by
  induction gs with
  | nil => simp [GArg.specializeList]
  | cons g gs ih => simp [GArg.specializeList, ih]

theorem tys_uses {x : Container} {t : Ty} (ht : t ∈ x.tys) {n : Str} {gs : List GArg}
    (h : Uses t n gs) : ItemUses x n gs := by
  cases x with
  | struct x =>
    obtain ⟨f, hf, rfl⟩ := List.mem_map.1 ht
    exact ⟨f, hf, h⟩
  | union x =>
    obtain ⟨f, hf, rfl⟩ := List.mem_map.1 ht
    exact ⟨f, hf, h⟩
  | typedef x =>
    simp only [Container.tys, List.mem_singleton] at ht
    subst ht; exact h
  | «opaque» x => simp [Container.tys] at ht
  | enum x => simp [Container.tys] at ht

theorem tys_plain {c : LibConfig} {x : Container} (hx : (before RefSpec.Plain c).Of x) {t : Ty}
    (ht : t ∈ x.tys) : RefSpec.Plain t := by
  cases x with
  | struct x =>
    obtain ⟨f, hf, rfl⟩ := List.mem_map.1 ht
    exact hx.2.2.1 f hf
  | union x =>
    obtain ⟨f, hf, rfl⟩ := List.mem_map.1 ht
    exact hx.2.2 f hf
  | typedef x =>
    simp only [Container.tys, List.mem_singleton] at ht
    subst ht; exact hx.2.2
  | «opaque» x => simp [Container.tys] at ht
  | enum x => simp [Container.tys] at ht

/-- The bindings of a call are named by the parameters; items with types have such bindings. -/
theorem call_params {x : Container} {gs : List GArg} {m : List (Str × GArg)} {t : Ty} (ht : t ∈ x.tys)
    (h : x.call gs = some m) : callParams x.params gs = some m := by
  cases x with
  | «opaque» x => simp [Container.tys] at ht
  | _ => exact h

/-- The name of a parameter of the definition. -/
def Container.paramNames (x : Container) : List Str := x.params.map GParam.name

/-- **C55 (partial).** Monomorphisation ends if no generic enum has data and in every generic definition
the arguments of generic types are parameters of the definition as they are, or contain no parameter.
Missing: this is a condition, see `C55_enum_diverges` and `C55_growing_diverges` for definitions that do not
meet it. -/
theorem C55_ends_partial {c : LibConfig} (hc : c.language ≠ .cxx) {l : Library} (hwf : l.WF)
    (hp : l.Plain) (hb : l.NoGenericData) (hd : ∀ x ∈ l.types, x.paramNames.Nodup)
    (hn : ∀ x ∈ l.types, x.isGeneric → ∀ n gs, ItemUses x n gs → ∀ g ∈ gs, PassedOn x.paramNames g) :
    ∃ k, ∀ fuel, k < fuel → l.instantiateMonomorphs c fuel ≠ .error .fuel := by
  have hpe := hp.every c
  have hdef := Library.definitions hc hwf hpe
  refine ⟨(finiteUses l.monoUses l.types).length, fun fuel hf h => ?_⟩
  have key := followAll_ends (c := c) hdef
    (fun p items hg x hx => hb.parts (Library.types_of_getItems hg hx))
    (S := finiteUses l.monoUses l.types) (fun u hu => (of_mem_finiteUses hu).1) ?_
    (us := l.monoUses) ?_ hf {}
  · unfold Library.instantiateMonomorphs at h
    cases hr : followAll (follow c (l.getItems c) fuel) l.monoUses {} with
    | ok m => simp [hr, bind, Except.bind, pure, Except.pure] at h
    | error e =>
      simp only [hr, bind, Except.bind, Except.error.injEq] at h
      rw [hr, h] at key
      exact key rfl
  · -- closed under the uses of instances
    intro u hu hv items hg x hx m hm w hw
    obtain ⟨hne, hargs⟩ := of_mem_finiteUses hu
    have hxl := Library.types_of_getItems hg hx
    have hxp := hpe.getItems hg x hx
    have hwp : PlainUse w := hdef.uses x _ m ⟨_, _, hg, x, hx, x.mem_parts⟩ hv.2.2 hm w hw
    have hwne := Cbindgen.monoUses_ne hw
    have hgen : x.isGeneric := by
      intro e
      cases x with
      | «opaque» y => simp [Container.specialize, Container.monoUses] at hw
      | _ =>
        simp only [Container.call, Container.params] at hm e
        rw [e, callParams_nil hne] at hm
        simp at hm
    have hparts : x.parts = [x] := (hb.parts hxl).resolve_right hgen
    obtain ⟨t, ht, hut⟩ := field_monoUses hparts hw
    have hcall := call_params ht hm
    -- the values of the parameters are among the arguments
    have hmA : ∀ q ∈ m, q.2 ∈ argsOf l.monoUses l.types := by
      intro q hq
      obtain ⟨p, hpp, _, h | h⟩ := callParams_mem hcall q hq
      · exact hargs _ h
      · unfold argsOf
        refine List.mem_append_right _ (List.mem_flatMap.2 ⟨x, hxl, ?_⟩)
        exact List.mem_filterMap.2 ⟨p, hpp, h⟩
    have hnames : m.map Prod.fst = x.paramNames :=
      ((C38_call_partial x.params u.2.2.1 m).1 hcall).2.1
    rw [hwp.ty_eq]
    rcases uses_specialize hut t rfl with ⟨gs, hgs, e⟩ | ⟨p, t', hft, hut'⟩
    · have hU : (w.1, gs) ∈ usesOf l.monoUses l.types := by
        unfold usesOf
        refine List.mem_append_right _ (List.mem_flatMap.2 ⟨x, hxl, List.mem_append_left _ ?_⟩)
        exact List.mem_flatMap.2 ⟨t, ht, uses_allUses hgs⟩
      rw [specializeList_map] at e
      refine mem_finiteUses hU (by rw [e]; simp) hwne ?_
      intro g' hg'
      rw [e] at hg'
      obtain ⟨g, hgm, rfl⟩ := List.mem_map.1 hg'
      rcases hn x hxl hgen _ _ (tys_uses ht hgs) g hgm with ⟨p, e', k, hpn, rfl⟩ | hclosed
      · simp only [GArg.specialize, specializeTypeArg, Ty.singleIdent]
        cases hl : m.lookup p with
        | some v => exact hmA _ (lookup_mem hl)
        | none =>
          rw [← hnames] at hpn
          exact absurd hpn (lookup_none_iff.1 hl)
      · have hfr := plain_freshArg g (plainArgs_iff.1 (plain_uses hgs (tys_plain hxp ht)) g hgm)
        rw [GArg.specialize_id (m := m) (by
          show (m.map Prod.fst).Nodup
          rw [hnames]; exact hd x hxl) g hfr]
        · exact usesOf_args hU g hgm
        · rintro t' rfl n hn'
          show n ∉ m.map Prod.fst
          rw [hnames]
          exact hclosed n (.type hn')
    · have hA := hmA _ (firstType_mem hft)
      have hU := argsOf_trans hA (w.1, w.2.2.1) (by simpa [GArg.allUses] using uses_allUses hut')
      exact mem_finiteUses hU rfl hwne (usesOf_args hU)
  · intro u hu
    have hv := hpe.monoUses (before_mono hc) u hu
    refine ⟨hv, ?_⟩
    rw [hv.ty_eq]
    have hU : (u.1, u.2.2.1) ∈ usesOf l.monoUses l.types := by
      unfold usesOf
      exact List.mem_append_left _ (List.mem_flatMap.2 ⟨u, hu, by simp⟩)
    exact mem_finiteUses hU rfl (Library.monoUses_ne hu) (usesOf_args hU)

end Cbindgen
