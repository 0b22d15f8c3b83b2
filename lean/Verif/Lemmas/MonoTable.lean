import Verif.Lemmas.Refs
import Verif.Spec.Mono

/-!
# The table of monomorphs: what following the generic uses leaves behind
-/

namespace Cbindgen

open RefSpec MonoSpec

theorem foldlM_ok_rel {α σ ε : Type} {f : σ → α → Except ε σ} {R : σ → σ → Prop} {Q : α → σ → Prop}
    (refl : ∀ s, R s s) (trans : ∀ {s t u}, R s t → R t u → R s u)
    (mono : ∀ x s t, R s t → Q x s → Q x t) :
    ∀ {xs : List α} {s s' : σ}, (∀ x ∈ xs, ∀ s s', f s x = .ok s' → R s s' ∧ Q x s') →
      xs.foldlM f s = .ok s' → R s s' ∧ ∀ x ∈ xs, Q x s'
  | [], s, s', _, h => by
    simp [pure, Except.pure] at h
    subst h; exact ⟨refl _, by simp⟩
  | x :: xs, s, s', hf, h => by
    rw [List.foldlM_cons] at h
    cases hx : f s x with
    | error e => rw [hx] at h; simp [bind, Except.bind] at h
    | ok t =>
      rw [hx] at h
      have h1 := hf x (by simp) s t hx
      have h2 := foldlM_ok_rel refl trans mono (fun y hy => hf y (by simp [hy])) h
      refine ⟨trans h1.1 h2.1, ?_⟩
      intro y hy
      rcases List.mem_cons.1 hy with rfl | hy
      · exact mono _ _ _ h2.1 h1.2
      · exact h2.2 y hy

/-- The use has a replacement, or nothing is known about the name. -/
def Handled (get : Str → Option (List Container)) (u : GUse) (st : Monos) : Prop :=
  (st.find u.ty).isSome = true ∨ get u.1 = none

/-- A definition, or the body of one of its variants. -/
def Defined (get : Str → Option (List Container)) (x : Container) : Prop :=
  ∃ p items, get p = some items ∧ ∃ z ∈ items, x ∈ z.parts

/-- `y` is the instance of a definition with some arguments. -/
structure InstanceOf (c : LibConfig) (get : Str → Option (List Container)) (y x : Container)
    (gs : List GArg) : Prop where
  defined : Defined get x
  plain : PlainArgs gs
  eq : ∃ m, x.call gs = some m ∧ y = x.specialize c gs m

/-- What following uses does to the state. -/
structure Grows (c : LibConfig) (get : Str → Option (List Container)) (st st' : Monos) : Prop where
  repl : ∃ new, st'.repl = new ++ st.repl
  all : ∀ y ∈ st.all, y ∈ st'.all
  entries : ∀ e ∈ st'.repl, e ∈ st.repl ∨ ∃ x gs y, InstanceOf c get y x gs ∧
    e = (Ty.newPath x.path gs, y.path) ∧ y ∈ st'.all
  monos : ∀ y ∈ st'.all, y ∈ st.all ∨ (∃ x gs, InstanceOf c get y x gs ∧
    (Ty.newPath x.path gs, y.path) ∈ st'.repl) ∧ ∀ w ∈ y.monoUses, Handled get w st'

theorem Grows.refl (c : LibConfig) (get : Str → Option (List Container)) (st : Monos) :
    Grows c get st st :=
  ⟨⟨[], rfl⟩, fun _ h => h, fun _ h => .inl h, fun _ h => .inl h⟩

theorem lookup_append_isSome {α β : Type} [BEq α] {k : α} {xs ys : List (α × β)}
    (h : (ys.lookup k).isSome = true) : ((xs ++ ys).lookup k).isSome = true := by
  induction xs with
  | nil => exact h
  | cons x xs ih =>
    obtain ⟨a, b⟩ := x
    rw [List.cons_append, List.lookup_cons]
    cases k == a <;> simp [ih]

theorem Grows.handled {c : LibConfig} {get : Str → Option (List Container)} {st st' : Monos}
    (h : Grows c get st st') {u : GUse} (hu : Handled get u st) : Handled get u st' := by
  rcases hu with hu | hu
  · obtain ⟨new, e⟩ := h.repl
    left
    unfold Monos.find at hu ⊢
    rw [e]
    exact lookup_append_isSome hu
  · exact .inr hu

theorem Grows.mem_repl {c : LibConfig} {get : Str → Option (List Container)} {st st' : Monos}
    (h : Grows c get st st') {e : Ty × Str} (he : e ∈ st.repl) : e ∈ st'.repl := by
  obtain ⟨new, eq⟩ := h.repl
  rw [eq]; simp [he]

theorem Grows.trans {c : LibConfig} {get : Str → Option (List Container)} {s t u : Monos}
    (h1 : Grows c get s t) (h2 : Grows c get t u) : Grows c get s u := by
  obtain ⟨n1, e1⟩ := h1.repl
  obtain ⟨n2, e2⟩ := h2.repl
  refine ⟨⟨n2 ++ n1, by rw [e2, e1, List.append_assoc]⟩, fun y hy => h2.all y (h1.all y hy), ?_, ?_⟩
  · intro e he
    rcases h2.entries e he with he | he
    · rcases h1.entries e he with he | ⟨x, gs, y, h3, h4, h5⟩
      · exact .inl he
      · exact .inr ⟨x, gs, y, h3, h4, h2.all y h5⟩
    · exact .inr he
  · intro y hy
    rcases h2.monos y hy with hy | hy
    · rcases h1.monos y hy with hy | ⟨⟨x, gs, h3, h4⟩, h5⟩
      · exact .inl hy
      · exact .inr ⟨⟨x, gs, h3, h2.mem_repl h4⟩, fun w hw => h2.handled (h5 w hw)⟩
    · exact .inr hy

theorem find_insertRepl (st : Monos) (p : Str) (gs : List GArg) (q : Str) :
    (st.insertRepl p gs q).find (Ty.newPath p gs) = some q := by
  simp [Monos.find, Monos.insertRepl]

theorem find_push (st : Monos) (x : Container) (t : Ty) : (st.push x).find t = st.find t := by
  cases x <;> rfl

theorem repl_push (st : Monos) (x : Container) : (st.push x).repl = st.repl := by
  cases x <;> rfl

theorem PlainUse.ty_eq {u : GUse} (h : PlainUse u) : u.ty = Ty.newPath u.1 u.2.2.1 := by
  obtain ⟨n, e, gs, k⟩ := u
  obtain ⟨h1, h2, _⟩ := h
  simp only at h1 h2
  subst h1; subst h2; rfl

/-- What is needed of the definitions. -/
structure Definitions (c : LibConfig) (get : Str → Option (List Container)) : Prop where
  items : ∀ p items, get p = some items → items ≠ [] ∧ ∀ x ∈ items, x.path = p
  uses : ∀ x gs m, Defined get x → PlainArgs gs → x.call gs = some m →
    ∀ w ∈ (x.specialize c gs m).monoUses, PlainUse w

theorem Container.mem_parts (x : Container) : x ∈ x.parts := by
  cases x <;> simp [Container.parts]

theorem inst1_grows {c : LibConfig} {get : Str → Option (List Container)}
    {fol : GUse → Monos → MonoM Monos}
    (hfol : ∀ u st st', PlainUse u → fol u st = .ok st' → Grows c get st st' ∧ Handled get u st')
    (hd : Definitions c get) {x : Container} (hx : Defined get x) {gs : List GArg} (hgs : PlainArgs gs)
    {st st' : Monos} (h : Container.inst1 c fol gs st x = .ok st') :
    Grows c get st st' ∧ (st'.find (Ty.newPath x.path gs)).isSome = true := by
  simp only [Container.inst1] at h
  cases hm : x.call gs with
  | none => simp [hm] at h
  | some m =>
    simp only [hm] at h
    cases hf : followAll fol (x.specialize c gs m).monoUses
        (st.insertRepl x.path gs (x.specialize c gs m).path) with
    | error e => simp [hf] at h
    | ok s =>
      simp only [hf, Except.ok.injEq] at h
      have hi : InstanceOf c get (x.specialize c gs m) x gs := ⟨hx, hgs, m, hm, rfl⟩
      generalize x.specialize c gs m = y at *
      have hf' := foldlM_ok_rel (R := Grows c get) (Q := fun w s => Handled get w s) (Grows.refl c get)
        (fun h1 h2 => h1.trans h2) (fun _ _ _ h1 h2 => h1.handled h2)
        (fun w hw s s' he => hfol w s s' (by
          obtain ⟨m', hm', e⟩ := hi.eq
          exact hd.uses x gs m' hx hgs hm' w (e ▸ hw)) he) hf
      obtain ⟨hg, hu⟩ := hf'
      have hin : (Ty.newPath x.path gs, y.path) ∈ s.repl := hg.mem_repl (by simp [Monos.insertRepl])
      subst h
      constructor
      · obtain ⟨new, e⟩ := hg.repl
        refine ⟨⟨new ++ [(Ty.newPath x.path gs, y.path)], ?_⟩, ?_, ?_, ?_⟩
        · rw [repl_push, e]; simp [Monos.insertRepl]
        · intro z hz
          exact Monos.mem_push.2 (.inl (hg.all z hz))
        · intro e he
          rw [repl_push] at he
          rcases hg.entries e he with he | ⟨x', gs', y', h1, h2, h3⟩
          · simp only [Monos.insertRepl, List.mem_cons] at he
            rcases he with rfl | he
            · exact .inr ⟨x, gs, y, hi, rfl, Monos.mem_push.2 (.inr rfl)⟩
            · exact .inl he
          · exact .inr ⟨x', gs', y', h1, h2, Monos.mem_push.2 (.inl h3)⟩
        · intro z hz
          have hh : ∀ w, Handled get w s → Handled get w (s.push y) := by
            intro w hw
            unfold Handled
            rw [find_push]; exact hw
          rcases Monos.mem_push.1 hz with hz | rfl
          · rcases hg.monos z hz with hz | ⟨⟨x', gs', h1, h2⟩, h3⟩
            · exact .inl hz
            · exact .inr ⟨⟨x', gs', h1, by rw [repl_push]; exact h2⟩, fun w hw => hh w (h3 w hw)⟩
          · exact .inr ⟨⟨x, gs, hi, by rw [repl_push]; exact hin⟩, fun w hw => hh w (hu w hw)⟩
      · rw [find_push]
        obtain ⟨new, e⟩ := hg.repl
        unfold Monos.find
        rw [e]
        apply lookup_append_isSome
        have := find_insertRepl st x.path gs y.path
        unfold Monos.find at this
        rw [this]; rfl

theorem follow_grows {c : LibConfig} {get : Str → Option (List Container)} (hd : Definitions c get) :
    ∀ n u st st', PlainUse u → follow c get n u st = .ok st' →
      Grows c get st st' ∧ Handled get u st'
  | 0, u, st, st', _, h => by simp [follow] at h
  | n + 1, u, st, st', hv, h => by
    rcases follow_step h with ⟨h1, rfl⟩ | ⟨_, h1, rfl⟩ | ⟨_, items, hg, hfold⟩
    · exact ⟨Grows.refl _ _ _, .inl h1⟩
    · exact ⟨Grows.refl _ _ _, .inr h1⟩
    · have := foldlM_ok_rel (R := Grows c get)
        (Q := fun x s => (s.find (Ty.newPath x.path u.2.2.1)).isSome = true) (Grows.refl c get)
        (fun h1 h2 => h1.trans h2) ?_ ?_ hfold
      · obtain ⟨h1, h2⟩ := this
        refine ⟨h1, .inl ?_⟩
        obtain ⟨hne, hp⟩ := hd.items _ _ hg
        obtain ⟨x, hx⟩ := List.exists_mem_of_ne_nil _ hne
        have := h2 x (List.mem_flatMap.2 ⟨x, hx, x.mem_parts⟩)
        rw [hp x hx] at this
        rw [hv.ty_eq]; exact this
      · intro x s t h1 h2'
        obtain ⟨new, e⟩ := h1.repl
        unfold Monos.find at h2' ⊢
        rw [e]; exact lookup_append_isSome h2'
      · intro x hx s s' he
        obtain ⟨z, hz, hxz⟩ := List.mem_flatMap.1 hx
        exact inst1_grows (follow_grows hd n) hd ⟨_, _, hg, z, hz, hxz⟩ hv.2.2 he

theorem followAll_grows {c : LibConfig} {get : Str → Option (List Container)} (hd : Definitions c get)
    {n : Nat} {us : List GUse} {st st' : Monos} (hus : ∀ u ∈ us, PlainUse u)
    (h : followAll (follow c get n) us st = .ok st') :
    Grows c get st st' ∧ ∀ u ∈ us, Handled get u st' :=
  foldlM_ok_rel (R := Grows c get) (Q := Handled get) (Grows.refl c get) (fun h1 h2 => h1.trans h2)
    (fun _ _ _ h1 h2 => h1.handled h2) (fun u hu s s' he => follow_grows hd n u s s' (hus u hu) he) h

end Cbindgen

namespace Cbindgen

open RefSpec MonoSpec LibSpec

/-! ## Types -/

mutual
theorem mem_genericUses {n : Str} {gs : List GArg} : ∀ t : Ty,
    (∃ e k, (n, e, gs, k) ∈ t.genericUses) ↔ Uses t n gs
  | .ptr t _ _ _ => by
    simp only [Ty.genericUses, mem_genericUses t]
    exact ⟨.ptr, fun h => by cases h; assumption⟩
  | .path m e gs' k => by
    simp only [Ty.genericUses]
    constructor
    · rintro ⟨e', k', h⟩
      split at h
      · simp at h
      · rename_i hne
        simp only [List.mem_singleton, Prod.mk.injEq] at h
        obtain ⟨rfl, rfl, rfl, rfl⟩ := h
        exact .here (by simpa using hne)
    · intro h
      cases h with
      | here h => exact ⟨e, k, by simp [h]⟩
  | .prim _ => by
    simp only [Ty.genericUses]
    exact ⟨fun h => by simp at h, fun h => by cases h⟩
  | .array t _ => by
    simp only [Ty.genericUses, mem_genericUses t]
    exact ⟨.array, fun h => by cases h; assumption⟩
  | .fnptr r as _ _ => by
    simp only [Ty.genericUses, List.mem_append]
    have h1 := mem_genericUses (n := n) (gs := gs) r
    have h2 := mem_genericUsesList (n := n) (gs := gs) as
    constructor
    · rintro ⟨e, k, h | h⟩
      · exact .ret (h1.1 ⟨e, k, h⟩)
      · obtain ⟨a, t, hm, ht⟩ := h2.1 ⟨e, k, h⟩
        exact .arg hm ht
    · intro h
      cases h with
      | ret h =>
        obtain ⟨e, k, h⟩ := h1.2 h
        exact ⟨e, k, .inl h⟩
      | arg hm h =>
        obtain ⟨e, k, h⟩ := h2.2 ⟨_, _, hm, h⟩
        exact ⟨e, k, .inr h⟩
theorem mem_genericUsesList {n : Str} {gs : List GArg} : ∀ as : List FArg,
    (∃ e k, (n, e, gs, k) ∈ FArg.genericUsesList as) ↔ ∃ a t, FArg.mk a t ∈ as ∧ Uses t n gs
  | [] => by simp [FArg.genericUsesList]
  | .mk a t :: as => by
    simp only [FArg.genericUsesList, FArg.genericUses, List.mem_append, List.mem_cons, FArg.mk.injEq]
    have h1 := mem_genericUses (n := n) (gs := gs) t
    have h2 := mem_genericUsesList (n := n) (gs := gs) as
    constructor
    · rintro ⟨e, k, h | h⟩
      · exact ⟨a, t, .inl ⟨rfl, rfl⟩, h1.1 ⟨e, k, h⟩⟩
      · obtain ⟨a', t', hm, ht⟩ := h2.1 ⟨e, k, h⟩
        exact ⟨a', t', .inr hm, ht⟩
    · rintro ⟨a', t', ⟨rfl, rfl⟩ | hm, h⟩
      · obtain ⟨e, k, h⟩ := h1.2 h
        exact ⟨e, k, .inl h⟩
      · obtain ⟨e, k, h⟩ := h2.2 ⟨_, _, hm, h⟩
        exact ⟨e, k, .inr h⟩
end

mutual
/-- On types as they come from the source, `mangle_paths` replaces the generic uses that have a name. -/
theorem manglePaths_eq (find : Ty → Option Str) : ∀ t : Ty, Plain t →
    t.manglePaths find = replaced (fun n gs => find (Ty.newPath n gs)) t
  | .ptr t _ _ _, h => by
    simp only [Ty.manglePaths, replaced, manglePaths_eq find t h]
  | .path n e [] k, _ => by simp [Ty.manglePaths, replaced]
  | .path n e (g :: gs) k, h => by
    obtain ⟨rfl, rfl, _⟩ := h
    simp only [Ty.manglePaths, replaced, manglePath, List.isEmpty_cons, Bool.false_eq_true, if_false]
    rw [show Ty.newPath e (g :: gs) = Ty.path e e (g :: gs) none from rfl]
    cases find (.path e e (g :: gs) none) <;> rfl
  | .prim _, _ => rfl
  | .array t _, h => by
    simp only [Ty.manglePaths, replaced, manglePaths_eq find t h.1]
  | .fnptr r as _ _, h => by
    simp only [Ty.manglePaths, replaced, manglePaths_eq find r h.1, manglePathsList_eq find as h.2]
theorem manglePathsList_eq (find : Ty → Option Str) : ∀ as : List FArg, PlainFArgs as →
    FArg.manglePathsList find as = replacedArgs (fun n gs => find (Ty.newPath n gs)) as
  | [], _ => rfl
  | .mk _ t :: as, h => by
    simp only [FArg.manglePathsList, FArg.manglePaths, replacedArgs, manglePaths_eq find t h.1,
      manglePathsList_eq find as h.2]
end

mutual
theorem uses_replaced {name : Str → List GArg → Option Str} {n : Str} {gs : List GArg} : ∀ t : Ty,
    Uses (replaced name t) n gs → Uses t n gs ∧ name n gs = none
  | .ptr t _ _ _, h => by
    cases h with
    | ptr h => exact ⟨.ptr (uses_replaced t h).1, (uses_replaced t h).2⟩
  | .path m e [] k, h => by
    cases h with
    | here h => exact absurd rfl h
  | .path m e (g :: gs') k, h => by
    simp only [replaced] at h
    cases hn : name m (g :: gs') with
    | some p =>
      simp only [hn] at h
      cases h with
      | here h => exact absurd rfl h
    | none =>
      simp only [hn] at h
      cases h with
      | here h => exact ⟨.here h, hn⟩
  | .prim _, h => by cases h
  | .array t _, h => by
    cases h with
    | array h => exact ⟨.array (uses_replaced t h).1, (uses_replaced t h).2⟩
  | .fnptr r as _ _, h => by
    cases h with
    | ret h => exact ⟨.ret (uses_replaced r h).1, (uses_replaced r h).2⟩
    | arg hm h =>
      obtain ⟨a, t, h1, h2, h3⟩ := uses_replacedArgs as hm h
      exact ⟨.arg h1 h2, h3⟩
theorem uses_replacedArgs {name : Str → List GArg → Option Str} {n : Str} {gs : List GArg}
    {a : Option Str} {t : Ty} : ∀ as : List FArg, FArg.mk a t ∈ replacedArgs name as → Uses t n gs →
      ∃ a' t', FArg.mk a' t' ∈ as ∧ Uses t' n gs ∧ name n gs = none
  | [], h, _ => by simp [replacedArgs] at h
  | .mk b u :: as, h, hu => by
    simp only [replacedArgs, List.mem_cons, FArg.mk.injEq] at h
    rcases h with ⟨rfl, rfl⟩ | h
    · exact ⟨_, u, List.mem_cons_self, (uses_replaced u hu).1, (uses_replaced u hu).2⟩
    · obtain ⟨a', t', h1, h2⟩ := uses_replacedArgs as h hu
      exact ⟨a', t', List.mem_cons_of_mem _ h1, h2⟩
end

/-! ## Tables -/

namespace ItemMap

variable {α : Type} [Item α]

theorem mem_tableOf {xs : List α} {z : α} : z ∈ toVec (tableOf xs) ↔ z ∈ kept xs (Item.path z) := by
  rw [toVec_tableOf, List.mem_flatMap]
  constructor
  · rintro ⟨p, _, h⟩
    rw [(mem_kept h).2]; exact h
  · intro h
    exact ⟨_, mem_firsts.2 (List.mem_map.2 ⟨z, (mem_kept h).1, rfl⟩), h⟩

theorem mem_insertAll {m : ItemMap α} (h : WF m) (ys : List α) {z : α} :
    z ∈ toVec (insertAll m ys) ↔ z ∈ kept (toVec m ++ ys) (Item.path z) := by
  rw [wf_eq_tableOf h, insertAll_tableOf, mem_tableOf, ← wf_eq_tableOf h]

theorem kept_append {xs ys : List α} {p : Str} {z : α} (h : z ∈ kept xs p) : z ∈ kept (xs ++ ys) p := by
  unfold kept at h ⊢
  rw [List.filter_append]
  cases hf : xs.filter (fun x => Item.path x = p) with
  | nil => simp [hf] at h
  | cons a as =>
    simp only [hf, List.cons_append] at h ⊢
    split at h
    · rename_i hc
      rw [if_pos hc, List.filter_append]
      rcases List.mem_cons.1 h with rfl | h
      · exact List.mem_cons_self
      · exact List.mem_cons_of_mem _ (List.mem_append_left _ h)
    · rename_i hc
      rw [if_neg hc]; exact h

theorem exists_kept {xs : List α} {y : α} (h : y ∈ xs) : ∃ z, z ∈ kept xs (Item.path y) := by
  unfold kept
  cases hf : xs.filter (fun x => Item.path x = Item.path y) with
  | nil =>
    rw [List.filter_eq_nil_iff] at hf
    have := hf y h
    simp at this
  | cons a as =>
    refine ⟨a, ?_⟩
    dsimp only
    split
    · exact List.mem_cons_self
    · exact List.mem_cons_self

/-- The monomorphs in, the generic items out. -/
def exchange (generic : α → Bool) (m : ItemMap α) (ys : List α) : ItemMap α :=
  (m.insertAll ys).filter generic

variable {generic : α → Bool} {m : ItemMap α} {ys : List α}

theorem exchange_mem (h : WF m) {z : α} :
    z ∈ (exchange generic m ys).toVec ↔ z ∈ kept (toVec m ++ ys) (Item.path z) ∧ generic z = false := by
  unfold exchange
  rw [toVec_filter, List.mem_filter, mem_insertAll h]
  simp

theorem exchange_old (h : WF m) {z : α} (hz : z ∈ m.toVec) (hg : generic z = false) :
    z ∈ (exchange generic m ys).toVec := by
  rw [exchange_mem h]
  refine ⟨kept_append ?_, hg⟩
  rw [wf_eq_tableOf h, mem_tableOf] at hz
  exact hz

theorem exchange_cases (h : WF m) {z : α} (hz : z ∈ (exchange generic m ys).toVec) :
    generic z = false ∧ (z ∈ m.toVec ∨ z ∈ ys) := by
  rw [exchange_mem h] at hz
  exact ⟨hz.2, List.mem_append.1 (mem_kept hz.1).1⟩

theorem exchange_defined (h : WF m) (hys : ∀ y ∈ ys, generic y = false) {y : α} (hy : y ∈ ys)
    (hn : ∀ z ∈ m.toVec, Item.path z = Item.path y → generic z = false) :
    ∃ z ∈ (exchange generic m ys).toVec, Item.path z = Item.path y := by
  obtain ⟨z, hz⟩ := exists_kept (List.mem_append_right m.toVec hy)
  obtain ⟨hm, hp⟩ := mem_kept hz
  refine ⟨z, ?_, hp⟩
  rw [exchange_mem h, hp]
  refine ⟨hz, ?_⟩
  rcases List.mem_append.1 hm with hm | hm
  · exact hn z hm hp
  · exact hys z hm

theorem exchange_new (h : WF m) (hys : ∀ y ∈ ys, generic y = false) {y : α} (hy : y ∈ ys)
    (hn : ∀ z ∈ m.toVec, Item.path z ≠ Item.path y)
    (hu : ∀ z ∈ ys, Item.path z = Item.path y → z = y) : y ∈ (exchange generic m ys).toVec := by
  rw [exchange_mem h]
  refine ⟨?_, hys y hy⟩
  obtain ⟨z, hz⟩ := exists_kept (List.mem_append_right m.toVec hy)
  obtain ⟨hm, hp⟩ := mem_kept hz
  rcases List.mem_append.1 hm with hm | hm
  · exact absurd hp (hn z hm)
  · rw [hu z hm hp] at hz; exact hz

end ItemMap

end Cbindgen
