import Verif.Lemmas.Library

/-!
# Following generic uses: one shape for all kinds of items
-/

namespace Cbindgen

theorem foldlM_ok_inv {α σ ε : Type} {f : σ → α → Except ε σ} {I : σ → Prop} :
    ∀ {xs : List α} {s s' : σ}, (∀ x ∈ xs, ∀ s s', I s → f s x = .ok s' → I s') → I s →
      xs.foldlM f s = .ok s' → I s'
  | [], s, s', _, hs, h => by
    simp [pure, Except.pure] at h
    subst h; exact hs
  | x :: xs, s, s', hf, hs, h => by
    rw [List.foldlM_cons] at h
    cases hx : f s x with
    | error e => rw [hx] at h; simp [bind, Except.bind] at h
    | ok t =>
      rw [hx] at h
      exact foldlM_ok_inv (fun y hy => hf y (by simp [hy])) (hf x (by simp) s t hs hx) h

theorem foldlM_ok_append {α σ ε : Type} {f : σ → α → Except ε σ} {xs ys : List α} {s t : σ}
    (h : xs.foldlM f s = .ok t) : (xs ++ ys).foldlM f s = ys.foldlM f t := by
  rw [List.foldlM_append, h]; rfl

theorem foldlM_map_ok {α β σ ε : Type} (g : α → β) (f : σ → β → Except ε σ) :
    ∀ (xs : List α) (s : σ), (xs.map g).foldlM f s = xs.foldlM (fun s x => f s (g x)) s
  | [], _ => rfl
  | x :: xs, s => by
    rw [List.map_cons, List.foldlM_cons, List.foldlM_cons]
    congr 1; funext t; exact foldlM_map_ok g f xs t

/-- `add_monomorphs` of a container: the uses followed. -/
def Container.monoUses : Container → List GUse
  | .enum x => x.monoUses
  | .struct x => x.monoUses
  | .union x => x.monoUses
  | .opaque _ => []
  | .typedef x => x.monoUses

/-- The parameters of a container. -/
def Container.params : Container → List GParam
  | .enum x => x.genericParams
  | .struct x => x.genericParams
  | .union x => x.genericParams
  | .opaque x => x.genericParams
  | .typedef x => x.genericParams

/-- The bindings of the parameters; opaque items only count them. -/
def Container.call (values : List GArg) : Container → Option (List (Str × GArg))
  | .opaque x =>
    if x.genericParams.isEmpty ∨ x.genericParams.length < values.length then none else some []
  | .enum x => callParams x.genericParams values
  | .struct x => callParams x.genericParams values
  | .union x => callParams x.genericParams values
  | .typedef x => callParams x.genericParams values

/-- The monomorph of a container. -/
def Container.specialize (c : LibConfig) (values : List GArg) (m : List (Str × GArg)) :
    Container → Container
  | .enum x => .enum (x.specialize c values m)
  | .struct x => .struct (x.specialize c values m)
  | .union x => .union (x.specialize c values m)
  | .opaque x => .opaque (x.specialize c values)
  | .typedef x => .typedef (x.specialize c values m)

/-- A new monomorph. -/
def Monos.push (st : Monos) : Container → Monos
  | .enum x => { st with enums := st.enums ++ [x] }
  | .struct x => { st with structs := st.structs ++ [x] }
  | .union x => { st with unions := st.unions ++ [x] }
  | .opaque x => { st with opaques := st.opaques ++ [x] }
  | .typedef x => { st with typedefs := st.typedefs ++ [x] }

/-- All monomorphs. -/
def Monos.all (st : Monos) : List Container :=
  st.enums.map .enum ++ st.structs.map .struct ++ st.unions.map .union ++ st.opaques.map .opaque ++
    st.typedefs.map .typedef

theorem Monos.mem_push {st : Monos} {x y : Container} :
    y ∈ (st.push x).all ↔ y ∈ st.all ∨ y = x := by
  cases x <;> simp [Monos.push, Monos.all] <;> grind

/-- One monomorph of one container, bodies of variants aside. -/
def Container.inst1 (c : LibConfig) (fol : GUse → Monos → MonoM Monos) (values : List GArg)
    (st : Monos) (x : Container) : MonoM Monos :=
  match x.call values with
  | none => .error .panic
  | some m =>
    match followAll fol (x.specialize c values m).monoUses
        (st.insertRepl x.path values (x.specialize c values m).path) with
    | .error e => .error e
    | .ok st => .ok (st.push (x.specialize c values m))

/-- A container with what is instantiated together with it, in order. -/
def Container.parts : Container → List Container
  | .enum x => x.bodies.map .struct ++ [.enum x]
  | x => [x]

theorem StructItem.instantiate_eq (c : LibConfig) (fol : GUse → Monos → MonoM Monos)
    (values : List GArg) (st : Monos) (x : StructItem) :
    x.instantiate c fol values st = Container.inst1 c fol values st (.struct x) := by
  simp only [StructItem.instantiate, Container.inst1, callOrPanic, Container.call, bind, Except.bind]
  cases callParams x.genericParams values with
  | none => rfl
  | some m =>
    simp only [Container.specialize, Container.monoUses, Container.path]
    generalize followAll fol _ _ = r
    cases r <;> rfl

theorem foldlM_single {α σ ε : Type} (f : σ → α → Except ε σ) (x : α) (s : σ) :
    [x].foldlM f s = f s x := by
  rw [List.foldlM_cons]
  cases f s x <;> rfl

/-- Whatever the kind of the item, `instantiate_monomorph` goes through its parts. -/
theorem Container.instantiate_ok {c : LibConfig} {fol : GUse → Monos → MonoM Monos}
    {values : List GArg} {st st' : Monos} {x : Container}
    (h : x.instantiate c fol values st = .ok st') :
    x.parts.foldlM (Container.inst1 c fol values) st = .ok st' := by
  cases x with
  | struct x =>
    rw [show Container.parts (.struct x) = [.struct x] from rfl, foldlM_single]
    rw [← StructItem.instantiate_eq]
    exact h
  | union x =>
    rw [show Container.parts (.union x) = [.union x] from rfl, foldlM_single]
    have h : x.instantiate c fol values st = .ok st' := h
    simp only [UnionItem.instantiate, callOrPanic, bind, Except.bind] at h
    simp only [Container.inst1, Container.call]
    cases hc : callParams x.genericParams values with
    | none => simp [hc] at h
    | some m =>
      simp only [hc] at h
      simp only [Container.specialize, Container.monoUses, Container.path]
      revert h
      generalize followAll fol _ _ = r
      cases r with
      | error e => intro h; simp at h
      | ok s => intro h; exact h
  | typedef x =>
    rw [show Container.parts (.typedef x) = [.typedef x] from rfl, foldlM_single]
    have h : x.instantiate c fol values st = .ok st' := h
    simp only [TypedefItem.instantiate, callOrPanic, bind, Except.bind] at h
    simp only [Container.inst1, Container.call]
    cases hc : callParams x.genericParams values with
    | none => simp [hc] at h
    | some m =>
      simp only [hc] at h
      simp only [Container.specialize, Container.monoUses, Container.path]
      revert h
      generalize followAll fol _ _ = r
      cases r with
      | error e => intro h; simp at h
      | ok s => intro h; exact h
  | «opaque» x =>
    rw [show Container.parts (.opaque x) = [.opaque x] from rfl, foldlM_single]
    have h : x.instantiate c values st = .ok st' := h
    simp only [OpaqueItem.instantiate] at h
    simp only [Container.inst1, Container.call]
    split at h
    · simp at h
    · rename_i hn
      rw [if_neg hn]
      exact h
  | enum x =>
    have h : x.instantiate c fol values st = .ok st' := h
    simp only [EnumItem.instantiate, callOrPanic, bind, Except.bind] at h
    cases hc : callParams x.genericParams values with
    | none => simp [hc] at h
    | some m =>
      simp only [hc] at h
      cases hb : x.bodies.foldlM (StructItem.instantiate c fol values) st with
      | error e => simp [hb] at h
      | ok s =>
        simp only [hb] at h
        have hb' : (x.bodies.map Container.struct).foldlM (Container.inst1 c fol values) st = .ok s := by
          rw [foldlM_map_ok, ← hb]
          congr 1
          funext s y
          exact (StructItem.instantiate_eq c fol values s y).symm
        rw [show Container.parts (.enum x) = x.bodies.map .struct ++ [.enum x] from rfl,
          foldlM_ok_append hb', foldlM_single]
        simp only [Container.inst1, Container.call, hc]
        simp only [Container.specialize, Container.monoUses, Container.path]
        revert h
        generalize followAll fol _ _ = r
        cases r with
        | error e => intro h; simp at h
        | ok s => intro h; exact h

/-- The parts of the definitions of a name. -/
theorem follow_step {c : LibConfig} {get : Str → Option (List Container)} {n : Nat} {u : GUse}
    {st st' : Monos} (h : follow c get (n + 1) u st = .ok st') :
    ((st.find u.ty).isSome = true ∧ st' = st) ∨
      ((st.find u.ty) = none ∧ get u.1 = none ∧ st' = st) ∨
      ((st.find u.ty) = none ∧ ∃ items, get u.1 = some items ∧
        (items.flatMap Container.parts).foldlM
          (Container.inst1 c (follow c get n) u.2.2.1) st = .ok st') := by
  simp only [follow] at h
  split at h
  · rename_i hf
    simp only [Except.ok.injEq] at h
    exact .inl ⟨hf, h.symm⟩
  · rename_i hf0
    have hf : st.find u.ty = none := by
      cases hx : st.find u.ty <;> simp [hx] at hf0 ⊢
    cases hg : get u.1 with
    | none =>
      simp only [hg, Except.ok.injEq] at h
      exact .inr (.inl ⟨hf, rfl, h.symm⟩)
    | some items =>
      simp only [hg] at h
      refine .inr (.inr ⟨hf, items, rfl, ?_⟩)
      clear hf0 hf hg
      induction items generalizing st with
      | nil => exact h
      | cons x xs ih =>
        rw [List.foldlM_cons] at h
        cases hx : x.instantiate c (follow c get n) u.2.2.1 st with
        | error e => rw [hx] at h; simp [bind, Except.bind] at h
        | ok t =>
          rw [hx] at h
          rw [List.flatMap_cons, foldlM_ok_append (Container.instantiate_ok hx)]
          exact ih h

/-- One monomorph: what holds before and is kept by each step holds after. -/
theorem inst1_inv {c : LibConfig} {fol : GUse → Monos → MonoM Monos} {values : List GArg}
    {st st' : Monos} {x : Container} {I : Monos → Prop}
    (h : Container.inst1 c fol values st x = .ok st')
    (hrepl : ∀ m, x.call values = some m →
      I (st.insertRepl x.path values (x.specialize c values m).path))
    (hfol : ∀ m, x.call values = some m → ∀ w ∈ (x.specialize c values m).monoUses, ∀ s s',
      I s → fol w s = .ok s' → I s')
    (hpush : ∀ m s, x.call values = some m → I s → I (s.push (x.specialize c values m))) : I st' := by
  simp only [Container.inst1] at h
  cases hm : x.call values with
  | none => simp [hm] at h
  | some m =>
    simp only [hm] at h
    cases hf : followAll fol (x.specialize c values m).monoUses
        (st.insertRepl x.path values (x.specialize c values m).path) with
    | error e => simp [hf] at h
    | ok s =>
      simp only [hf, Except.ok.injEq] at h
      subst h
      refine hpush m s hm ?_
      exact foldlM_ok_inv (I := I) (fun w hw s s' hs he => hfol m hm w hw s s' hs he) (hrepl m hm) hf

/-- Induction over `follow`: `V` holds of the uses, `H` of the definitions, `I` of the states. -/
theorem follow_ind {c : LibConfig} {get : Str → Option (List Container)} {I : Monos → Prop}
    {V : GUse → Prop} {H : Container → Prop}
    (hget : ∀ p items, get p = some items → ∀ x ∈ items, ∀ y ∈ x.parts, H y)
    (huses : ∀ x u m, H x → V u → x.call u.2.2.1 = some m →
      ∀ w ∈ (x.specialize c u.2.2.1 m).monoUses, V w)
    (hrepl : ∀ x u m st, H x → V u → x.call u.2.2.1 = some m → I st →
      I (st.insertRepl x.path u.2.2.1 (x.specialize c u.2.2.1 m).path))
    (hpush : ∀ x u m st, H x → V u → x.call u.2.2.1 = some m → I st →
      I (st.push (x.specialize c u.2.2.1 m))) :
    ∀ n u st st', V u → I st → follow c get n u st = .ok st' → I st'
  | 0, u, st, st', _, _, h => by simp [follow] at h
  | n + 1, u, st, st', hv, hi, h => by
    rcases follow_step h with ⟨_, rfl⟩ | ⟨_, _, rfl⟩ | ⟨_, items, hg, hfold⟩
    · exact hi
    · exact hi
    · refine foldlM_ok_inv (I := I) ?_ hi hfold
      intro y hy s s' hs he
      obtain ⟨x, hx, hyx⟩ := List.mem_flatMap.1 hy
      have hH : H y := hget _ _ hg x hx y hyx
      refine inst1_inv he (fun m hm => hrepl y u m s hH hv hm hs) ?_
        (fun m s hm hs => hpush y u m s hH hv hm hs)
      intro m hm w hw s s' hs he
      exact follow_ind hget huses hrepl hpush n w s s' (huses y u m hH hv hm w hw) hs he

theorem followAll_ind {c : LibConfig} {get : Str → Option (List Container)} {I : Monos → Prop}
    {V : GUse → Prop} {H : Container → Prop}
    (hget : ∀ p items, get p = some items → ∀ x ∈ items, ∀ y ∈ x.parts, H y)
    (huses : ∀ x u m, H x → V u → x.call u.2.2.1 = some m →
      ∀ w ∈ (x.specialize c u.2.2.1 m).monoUses, V w)
    (hrepl : ∀ x u m st, H x → V u → x.call u.2.2.1 = some m → I st →
      I (st.insertRepl x.path u.2.2.1 (x.specialize c u.2.2.1 m).path))
    (hpush : ∀ x u m st, H x → V u → x.call u.2.2.1 = some m → I st →
      I (st.push (x.specialize c u.2.2.1 m)))
    {n : Nat} {us : List GUse} {st st' : Monos} (hv : ∀ u ∈ us, V u) (hi : I st)
    (h : followAll (follow c get n) us st = .ok st') : I st' :=
  foldlM_ok_inv (I := I) (fun u hu s s' hs he =>
    follow_ind hget huses hrepl hpush n u s s' (hv u hu) hs he) hi h

end Cbindgen
