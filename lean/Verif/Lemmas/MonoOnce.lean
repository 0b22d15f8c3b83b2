import Verif.Lemmas.MonoTable

/-!
# How often instances are made, and whether following uses ends
-/

namespace Cbindgen

open RefSpec MonoSpec

theorem Container.instantiate_parts {c : LibConfig} {fol : GUse → Monos → MonoM Monos}
    {values : List GArg} {st : Monos} {x : Container} (hp : x.parts = [x]) :
    x.instantiate c fol values st = Container.inst1 c fol values st x := by
  cases x with
  | struct x => exact StructItem.instantiate_eq c fol values st x
  | union x =>
    simp only [Container.instantiate, UnionItem.instantiate, Container.inst1, callOrPanic,
      Container.call, bind, Except.bind]
    cases callParams x.genericParams values with
    | none => rfl
    | some m =>
      simp only [Container.specialize, Container.monoUses, Container.path]
      cases followAll fol (x.specialize c values m).monoUses _ <;> rfl
  | typedef x =>
    simp only [Container.instantiate, TypedefItem.instantiate, Container.inst1, callOrPanic,
      Container.call, bind, Except.bind]
    cases callParams x.genericParams values with
    | none => rfl
    | some m =>
      simp only [Container.specialize, Container.monoUses, Container.path]
      cases followAll fol (x.specialize c values m).monoUses _ <;> rfl
  | «opaque» x =>
    simp only [Container.instantiate, OpaqueItem.instantiate, Container.inst1, Container.call]
    split <;> rfl
  | enum x =>
    have hb : x.bodies = [] := by
      simp only [Container.parts] at hp
      have := congrArg List.length hp
      simp only [List.length_append, List.length_map, List.length_cons, List.length_nil] at this
      exact List.length_eq_zero_iff.1 (by omega)
    simp only [Container.instantiate, EnumItem.instantiate, Container.inst1, callOrPanic,
      Container.call, bind, Except.bind, hb]
    cases callParams x.genericParams values with
    | none => rfl
    | some m =>
      simp only [Container.specialize, Container.monoUses, Container.path, List.foldlM_nil, pure,
        Except.pure]
      cases followAll fol (x.specialize c values m).monoUses _ <;> rfl

theorem callParams_nil {gs : List GArg} (h : gs ≠ []) : callParams [] gs = none := by
  cases gs with
  | nil => exact absurd rfl h
  | cons g gs => rfl

theorem Container.instantiate_nil {c : LibConfig} {fol : GUse → Monos → MonoM Monos}
    {gs : List GArg} {st : Monos} {x : Container} (hp : x.params = []) (hg : gs ≠ []) :
    x.instantiate c fol gs st = .error .panic := by
  cases x <;> simp only [Container.params] at hp <;>
    simp [Container.instantiate, StructItem.instantiate, UnionItem.instantiate,
      EnumItem.instantiate, TypedefItem.instantiate, OpaqueItem.instantiate, callOrPanic, hp,
      callParams_nil hg, bind, Except.bind]

theorem genericUses_ne {t : Ty} {u : GUse} (h : u ∈ t.genericUses) : u.2.2.1 ≠ [] := by
  obtain ⟨n, e, gs, k⟩ := u
  have := (mem_genericUses t).1 ⟨e, k, h⟩
  clear h
  induction this with
  | here h => exact h
  | ptr _ ih => exact ih
  | array _ ih => exact ih
  | ret _ ih => exact ih
  | arg _ _ ih => exact ih

theorem struct_monoUses_ne {x : StructItem} {u : GUse} (h : u ∈ x.monoUses) : u.2.2.1 ≠ [] := by
  simp only [StructItem.monoUses] at h
  split at h
  · obtain ⟨f, _, hf⟩ := List.mem_flatMap.1 h
    exact genericUses_ne hf
  · simp at h

theorem monoUses_ne {x : Container} {u : GUse} (h : u ∈ x.monoUses) : u.2.2.1 ≠ [] := by
  cases x with
  | struct x => exact struct_monoUses_ne h
  | union x =>
    simp only [Container.monoUses, UnionItem.monoUses] at h
    split at h
    · obtain ⟨f, _, hf⟩ := List.mem_flatMap.1 h
      exact genericUses_ne hf
    · simp at h
  | typedef x =>
    simp only [Container.monoUses, TypedefItem.monoUses] at h
    split at h
    · exact genericUses_ne h
    · simp at h
  | «opaque» x => simp [Container.monoUses] at h
  | enum x =>
    simp only [Container.monoUses, EnumItem.monoUses] at h
    split at h
    · obtain ⟨v, _, hv⟩ := List.mem_flatMap.1 h
      unfold EnumVariant.monoUses at hv
      split at hv
      · simp at hv
      · exact struct_monoUses_ne hv
    · simp at h

/-- One instantiation: the definition, the arguments and the bindings. -/
abbrev Inst := Container × List GArg × List (Str × GArg)

/-- What is instantiated. -/
def Inst.key (i : Inst) : Ty := Ty.newPath i.1.path i.2.1

/-- The instance. -/
def Inst.item (c : LibConfig) (i : Inst) : Container := i.1.specialize c i.2.1 i.2.2

/-- The keys of the table of replacements. -/
def Monos.keys (st : Monos) : List Ty := st.repl.map Prod.fst

theorem lookup_none_iff {α β : Type} [BEq α] [LawfulBEq α] {k : α} {xs : List (α × β)} :
    xs.lookup k = none ↔ k ∉ xs.map Prod.fst := by
  induction xs with
  | nil => simp
  | cons x xs ih =>
    obtain ⟨a, b⟩ := x
    rw [List.lookup_cons]
    by_cases h : k = a
    · subst h; simp
    · have : (k == a) = false := by simpa using h
      simp [this, ih, h]

theorem Monos.find_none_iff {st : Monos} {t : Ty} : st.find t = none ↔ t ∉ st.keys :=
  lookup_none_iff

/-- What was added is a list of different instantiations. -/
def Once (c : LibConfig) (get : Str → Option (List Container)) (st st' : Monos) : Prop :=
  ∃ log : List Inst, st'.keys = log.map Inst.key ++ st.keys ∧
    st'.all.Perm (log.map (Inst.item c) ++ st.all) ∧ (log.map Inst.key).Nodup ∧
    (∀ i ∈ log, i.key ∉ st.keys) ∧
    ∀ i ∈ log, (∃ p items, get p = some items ∧ i.1 ∈ items) ∧ i.1.call i.2.1 = some i.2.2

theorem Once.refl (c : LibConfig) (get : Str → Option (List Container)) (st : Monos) :
    Once c get st st :=
  ⟨[], by simp, by simp, by simp, by simp, by simp⟩

theorem Once.trans {c : LibConfig} {get : Str → Option (List Container)} {s t u : Monos}
    (h1 : Once c get s t) (h2 : Once c get t u) : Once c get s u := by
  obtain ⟨l1, k1, p1, n1, f1, d1⟩ := h1
  obtain ⟨l2, k2, p2, n2, f2, d2⟩ := h2
  refine ⟨l2 ++ l1, by rw [k2, k1, List.map_append, List.append_assoc], ?_, ?_, ?_, ?_⟩
  · rw [List.map_append, List.append_assoc]
    exact p2.trans (p1.append_left _)
  · rw [List.map_append, List.nodup_append]
    refine ⟨n2, n1, ?_⟩
    rintro _ hk _ hk' rfl
    obtain ⟨i, hi, rfl⟩ := List.mem_map.1 hk
    refine f2 i hi ?_
    rw [k1]
    exact List.mem_append_left _ hk'
  · intro i hi
    rcases List.mem_append.1 hi with hi | hi
    · have := f2 i hi
      rw [k1] at this
      exact fun h => this (List.mem_append_right _ h)
    · exact f1 i hi
  · intro i hi
    rcases List.mem_append.1 hi with hi | hi
    · exact d2 i hi
    · exact d1 i hi

theorem Monos.push_all (st : Monos) (x : Container) : (st.push x).all.Perm (x :: st.all) := by
  cases x with
  | typedef x => simpa [Monos.push, Monos.all] using
      (List.perm_append_comm (l₁ := st.all) (l₂ := [Container.typedef x]))
  | enum x =>
    simp only [Monos.push, Monos.all, List.map_append, List.map_cons, List.map_nil,
      List.append_assoc, List.cons_append, List.nil_append]
    exact List.perm_middle
  | struct x =>
    simp only [Monos.push, Monos.all, List.map_append, List.map_cons, List.map_nil,
      List.append_assoc, List.cons_append, List.nil_append]
    rw [← List.append_assoc]
    refine List.perm_middle.trans ?_
    rw [List.append_assoc]
  | union x =>
    simp only [Monos.push, Monos.all, List.map_append, List.map_cons, List.map_nil,
      List.append_assoc, List.cons_append, List.nil_append]
    rw [← List.append_assoc, ← List.append_assoc]
    refine List.perm_middle.trans ?_
    rw [List.append_assoc, List.append_assoc]
  | «opaque» x =>
    simp only [Monos.push, Monos.all, List.map_append, List.map_cons, List.map_nil,
      List.append_assoc, List.cons_append, List.nil_append]
    rw [← List.append_assoc, ← List.append_assoc, ← List.append_assoc]
    refine List.perm_middle.trans ?_
    rw [List.append_assoc, List.append_assoc, List.append_assoc]

/-- Every name has one definition, and if it is generic, no variant of it has a type of its own. -/
def SingleDefs (get : Str → Option (List Container)) : Prop :=
  ∀ p items, get p = some items → ∃ x, items = [x] ∧ x.path = p ∧
    (x.parts = [x] ∨ x.params = [])

theorem inst1_once {c : LibConfig} {get : Str → Option (List Container)}
    {fol : GUse → Monos → MonoM Monos} {x : Container} {gs : List GArg} {st st' : Monos}
    (hfol : ∀ m, x.call gs = some m → ∀ w ∈ (x.specialize c gs m).monoUses, ∀ s s',
      fol w s = .ok s' → Once c get s s')
    (hx : ∃ p items, get p = some items ∧ x ∈ items) (hn : Ty.newPath x.path gs ∉ st.keys)
    (h : Container.inst1 c fol gs st x = .ok st') : Once c get st st' := by
  simp only [Container.inst1] at h
  cases hm : x.call gs with
  | none => simp [hm] at h
  | some m =>
    simp only [hm] at h
    cases hf : followAll fol (x.specialize c gs m).monoUses
        (st.insertRepl x.path gs (x.specialize c gs m).path) with
    | error e => simp [hf] at h
    | ok s =>
      simp only [hf, Except.ok.injEq] at h
      have hf' := (foldlM_ok_rel (R := Once c get) (Q := fun _ _ => True) (Once.refl c get)
        (fun h1 h2 => h1.trans h2) (fun _ _ _ _ h => h)
        (fun w hw s s' he => ⟨hfol m hm w hw s s' he, trivial⟩) hf).1
      obtain ⟨log, k1, p1, n1, f1, d1⟩ := hf'
      subst h
      refine ⟨log ++ [(x, gs, m)], ?_, ?_, ?_, ?_, ?_⟩
      · unfold Monos.keys at k1 ⊢
        rw [repl_push, k1]
        simp [Monos.insertRepl, Inst.key]
      · refine (Monos.push_all _ _).trans ?_
        rw [List.map_append, List.append_assoc]
        refine (List.Perm.cons _ p1).trans ?_
        exact (List.perm_middle (a := x.specialize c gs m)).symm
      · rw [List.map_append, List.nodup_append]
        refine ⟨n1, by simp, ?_⟩
        rintro _ hk _ hk' rfl
        obtain ⟨i, hi, e⟩ := List.mem_map.1 hk
        refine f1 i hi ?_
        simp only [List.map_cons, List.map_nil, List.mem_singleton] at hk'
        rw [e, hk']
        simp [Monos.keys, Monos.insertRepl, Inst.key]
      · intro i hi
        rcases List.mem_append.1 hi with hi | hi
        · intro h
          refine f1 i hi ?_
          simp only [Monos.keys, Monos.insertRepl, List.map_cons, List.mem_cons]
          exact .inr h
        · simp only [List.mem_singleton] at hi
          subst hi
          exact hn
      · intro i hi
        rcases List.mem_append.1 hi with hi | hi
        · exact d1 i hi
        · simp only [List.mem_singleton] at hi
          subst hi
          exact ⟨hx, hm⟩

theorem follow_once {c : LibConfig} {get : Str → Option (List Container)} (hd : Definitions c get)
    (hs : SingleDefs get) :
    ∀ n u st st', PlainUse u → u.2.2.1 ≠ [] → follow c get n u st = .ok st' → Once c get st st'
  | 0, u, st, st', _, _, h => by simp [follow] at h
  | n + 1, u, st, st', hv, hne, h => by
    simp only [follow] at h
    split at h
    · simp only [Except.ok.injEq] at h
      subst h; exact Once.refl _ _ _
    · rename_i hn
      cases hg : get u.1 with
      | none =>
        simp only [hg, Except.ok.injEq] at h
        subst h; exact Once.refl _ _ _
      | some items =>
        simp only [hg] at h
        obtain ⟨x, rfl, hpath, hp⟩ := hs _ _ hg
        rw [foldlM_single] at h
        rcases hp with hp | hp
        · rw [Container.instantiate_parts hp] at h
          have hx : Defined get x := ⟨_, _, hg, x, by simp, x.mem_parts⟩
          refine inst1_once ?_ ⟨_, _, hg, by simp⟩ ?_ h
          · intro m hm w hw s s' he
            exact follow_once hd hs n w s s' (hd.uses x _ m hx hv.2.2 hm w hw) (monoUses_ne hw) he
          · refine Monos.find_none_iff.1 ?_
            rw [hpath, ← hv.ty_eq]
            simpa using hn
        · rw [Container.instantiate_nil hp hne] at h
          simp at h

theorem followAll_once {c : LibConfig} {get : Str → Option (List Container)} (hd : Definitions c get)
    (hs : SingleDefs get) {n : Nat} {us : List GUse} {st st' : Monos}
    (hus : ∀ u ∈ us, PlainUse u ∧ u.2.2.1 ≠ [])
    (h : followAll (follow c get n) us st = .ok st') : Once c get st st' :=
  (foldlM_ok_rel (R := Once c get) (Q := fun _ _ => True) (Once.refl c get)
    (fun h1 h2 => h1.trans h2) (fun _ _ _ _ h => h)
    (fun u hu s s' he => ⟨follow_once hd hs n u s s' (hus u hu).1 (hus u hu).2 he, trivial⟩) h).1

/-! ## Termination -/

/-- The uses that have no replacement yet. -/
def missing (S : List Ty) (st : Monos) : Nat := (S.filter fun t => (st.find t).isNone).length

/-- Replacements are only added. -/
def Extends (st st' : Monos) : Prop := ∀ t, (st.find t).isSome = true → (st'.find t).isSome = true

theorem missing_le {S : List Ty} {st st' : Monos} (h : Extends st st') :
    missing S st' ≤ missing S st := by
  unfold missing
  induction S with
  | nil => simp
  | cons t S ih =>
    have := h t
    simp only [List.filter_cons]
    cases h1 : st.find t <;> cases h2 : st'.find t <;> simp_all <;> omega

theorem missing_lt {S : List Ty} {st st' : Monos} (h : Extends st st') {t : Ty} (ht : t ∈ S)
    (h1 : st.find t = none) (h2 : (st'.find t).isSome = true) : missing S st' < missing S st := by
  unfold missing
  induction S with
  | nil => simp at ht
  | cons u S ih =>
    have hu := h u
    have hle := missing_le (S := S) h
    unfold missing at hle
    simp only [List.filter_cons]
    rcases List.mem_cons.1 ht with rfl | ht
    · cases h3 : st'.find t <;> simp_all <;> omega
    · have := ih ht
      cases h3 : st.find u <;> cases h4 : st'.find u <;> simp_all <;> omega

theorem extends_insert (st : Monos) (p : Str) (gs : List GArg) (q : Str) :
    Extends st (st.insertRepl p gs q) := by
  intro t ht
  unfold Monos.find Monos.insertRepl at *
  rw [List.lookup_cons]
  cases t == Ty.newPath p gs <;> simp [ht]

/-- A computation that ends: not for want of fuel. -/
def Ends (st : Monos) (r : MonoM Monos) : Prop :=
  r ≠ .error .fuel ∧ ∀ st', r = .ok st' → Extends st st'

theorem foldlM_ends {α : Type} {f : Monos → α → MonoM Monos} {n : Nat} {S : List Ty} :
    ∀ {xs : List α} {st : Monos}, (∀ x ∈ xs, ∀ s, missing S s ≤ n → Ends s (f s x)) →
      missing S st ≤ n → Ends st (xs.foldlM f st)
  | [], st, _, _ => ⟨by simp [pure, Except.pure], fun st' h => by
      simp [pure, Except.pure] at h; subst h; exact fun _ h => h⟩
  | x :: xs, st, hf, hn => by
    rw [List.foldlM_cons]
    have h1 := hf x (by simp) st hn
    cases hx : f st x with
    | error e =>
      rw [hx] at h1
      refine ⟨?_, fun st' h => by simp [bind, Except.bind] at h⟩
      intro h
      simp only [bind, Except.bind] at h
      exact h1.1 h
    | ok t =>
      rw [hx] at h1
      have ht := h1.2 t rfl
      have h2 := foldlM_ends (xs := xs) (fun y hy => hf y (by simp [hy])) (Nat.le_trans (missing_le (S := S) ht) hn)
      simp only [bind, Except.bind]
      exact ⟨h2.1, fun st' h u hu => h2.2 st' h u (ht u hu)⟩

/-- Following the uses ends if there are finitely many and the table grows before each one is followed
further. -/
theorem follow_ends {c : LibConfig} {get : Str → Option (List Container)} (hd : Definitions c get)
    (hb : ∀ p items, get p = some items → ∀ x ∈ items, x.parts = [x] ∨ x.params = []) {S : List Ty}
    (hne : ∀ u : GUse, u.ty ∈ S → u.2.2.1 ≠ [])
    (hS : ∀ u : GUse, u.ty ∈ S → PlainUse u → ∀ items, get u.1 = some items → ∀ x ∈ items, ∀ m,
      x.call u.2.2.1 = some m → ∀ w ∈ (x.specialize c u.2.2.1 m).monoUses, w.ty ∈ S) :
    ∀ n u st, PlainUse u → u.ty ∈ S → missing S st < n → Ends st (follow c get n u st)
  | 0, u, st, _, _, hn => by omega
  | n + 1, u, st, hv, hu, hn => by
    simp only [follow]
    by_cases hf : (st.find u.ty).isSome = true
    · rw [if_pos hf]
      exact ⟨by simp, fun st' h => by simp only [Except.ok.injEq] at h; subst h; exact fun _ h => h⟩
    · rw [if_neg hf]
      cases hg : get u.1 with
      | none =>
        exact ⟨by simp, fun st' h => by simp only [Except.ok.injEq] at h; subst h; exact fun _ h => h⟩
      | some items =>
        simp only
        have hpath := (hd.items _ _ hg).2
        -- with the first item the use gets its replacement
        have step : ∀ x ∈ items, ∀ s, missing S s ≤ n → (s.find u.ty = none ∨ missing S s < n) →
            Ends s (x.instantiate c (follow c get n) u.2.2.1 s) ∧
            ∀ s', x.instantiate c (follow c get n) u.2.2.1 s = .ok s' →
              (s'.find u.ty).isSome = true ∧ missing S s' < n := by
          intro x hx s hle hs
          rcases hb _ _ hg x hx with hb' | hb'
          rotate_left
          · rw [Container.instantiate_nil hb' (hne u hu)]
            exact ⟨⟨by simp, fun st' h => by simp at h⟩, fun st' h => by simp at h⟩
          rw [Container.instantiate_parts hb']
          simp only [Container.inst1]
          cases hm : x.call u.2.2.1 with
          | none => exact ⟨⟨by simp, fun st' h => by simp at h⟩, fun st' h => by simp at h⟩
          | some m =>
            simp only
            have hdx : Defined get x := ⟨_, _, hg, x, hx, x.mem_parts⟩
            have hfnd : ((s.insertRepl x.path u.2.2.1 (x.specialize c u.2.2.1 m).path).find u.ty).isSome
                = true := by
              rw [hv.ty_eq, hpath x hx, find_insertRepl]; rfl
            have hext := extends_insert s x.path u.2.2.1 (x.specialize c u.2.2.1 m).path
            have hlt : missing S (s.insertRepl x.path u.2.2.1 (x.specialize c u.2.2.1 m).path) < n := by
              rcases hs with hs | hs
              · exact Nat.lt_of_lt_of_le (missing_lt hext hu hs hfnd) hle
              · exact Nat.lt_of_le_of_lt (missing_le hext) hs
            have hall := foldlM_ends (n := n - 1) (S := S)
              (f := fun st w => follow c get n w st)
              (xs := (x.specialize c u.2.2.1 m).monoUses)
              (st := s.insertRepl x.path u.2.2.1 (x.specialize c u.2.2.1 m).path)
              (fun w hw t ht => follow_ends hd hb hne hS n w t (hd.uses x _ m hdx hv.2.2 hm w hw)
                (hS u hu hv items hg x hx m hm w hw) (by omega)) (by omega)
            have e : followAll (follow c get n) (x.specialize c u.2.2.1 m).monoUses
              (s.insertRepl x.path u.2.2.1 (x.specialize c u.2.2.1 m).path) =
              (x.specialize c u.2.2.1 m).monoUses.foldlM (fun st w => follow c get n w st)
                (s.insertRepl x.path u.2.2.1 (x.specialize c u.2.2.1 m).path) := rfl
            rw [← e] at hall
            cases hr : followAll (follow c get n) (x.specialize c u.2.2.1 m).monoUses
                (s.insertRepl x.path u.2.2.1 (x.specialize c u.2.2.1 m).path) with
            | error e =>
              rw [hr] at hall
              exact ⟨⟨hall.1, fun st' h => by simp at h⟩, fun st' h => by simp at h⟩
            | ok t =>
              rw [hr] at hall
              have ht := hall.2 t rfl
              have hp : ∀ k, (t.push (x.specialize c u.2.2.1 m)).find k = t.find k :=
                fun k => find_push _ _ _
              have hpe : Extends s (t.push (x.specialize c u.2.2.1 m)) := by
                intro k hk
                rw [hp]
                exact ht k (hext k hk)
              refine ⟨⟨by simp, fun st' h => ?_⟩, fun st' h => ?_⟩
              · simp only [Except.ok.injEq] at h
                subst h; exact hpe
              · simp only [Except.ok.injEq] at h
                subst h
                refine ⟨by rw [hp]; exact ht _ hfnd, ?_⟩
                have h1 := missing_le (S := S) ht
                have : missing S (t.push (x.specialize c u.2.2.1 m)) = missing S t := by
                  unfold missing; simp only [hp]
                omega
        -- the items in turn
        have fold : ∀ (xs : List Container) (s : Monos), (∀ x ∈ xs, x ∈ items) → missing S s ≤ n →
            (s.find u.ty = none ∨ missing S s < n) →
            Ends s (xs.foldlM (Container.instantiate c (follow c get n) u.2.2.1) s) := by
          intro xs
          induction xs with
          | nil =>
            intro s _ _ _
            exact ⟨by simp [pure, Except.pure], fun st' h => by
              simp [pure, Except.pure] at h; subst h; exact fun _ h => h⟩
          | cons x xs ih =>
            intro s hxs hle hs
            rw [List.foldlM_cons]
            obtain ⟨h1, h2⟩ := step x (hxs x (by simp)) s hle hs
            cases hx : x.instantiate c (follow c get n) u.2.2.1 s with
            | error e =>
              rw [hx] at h1
              refine ⟨?_, fun st' h => by simp [bind, Except.bind] at h⟩
              intro h
              simp only [bind, Except.bind] at h
              exact h1.1 h
            | ok t =>
              rw [hx] at h1
              obtain ⟨_, h3⟩ := h2 t hx
              have h4 := ih t (fun y hy => hxs y (by simp [hy])) (by omega) (.inr h3)
              simp only [bind, Except.bind]
              exact ⟨h4.1, fun st' h k hk => h4.2 st' h k (h1.2 t rfl k hk)⟩
        refine fold items st (fun _ h => h) (by omega) (.inl ?_)
        cases h : st.find u.ty with
        | none => rfl
        | some _ => simp [h] at hf

theorem followAll_ends {c : LibConfig} {get : Str → Option (List Container)} (hd : Definitions c get)
    (hb : ∀ p items, get p = some items → ∀ x ∈ items, x.parts = [x] ∨ x.params = []) {S : List Ty}
    (hne : ∀ u : GUse, u.ty ∈ S → u.2.2.1 ≠ [])
    (hS : ∀ u : GUse, u.ty ∈ S → PlainUse u → ∀ items, get u.1 = some items → ∀ x ∈ items, ∀ m,
      x.call u.2.2.1 = some m → ∀ w ∈ (x.specialize c u.2.2.1 m).monoUses, w.ty ∈ S)
    {us : List GUse} (hus : ∀ u ∈ us, PlainUse u ∧ u.ty ∈ S) {n : Nat} (hn : S.length < n)
    (st : Monos) : followAll (follow c get n) us st ≠ .error .fuel := by
  have hm : ∀ s, missing S s < n := fun s =>
    Nat.lt_of_le_of_lt (List.length_filter_le _ _) hn
  exact (foldlM_ends (S := S) (n := n) (f := fun st w => follow c get n w st) (xs := us)
    (fun u hu s _ => follow_ends hd hb hne hS n u s (hus u hu).1 (hus u hu).2 (hm s))
    (Nat.le_of_lt (hm st))).1

end Cbindgen
