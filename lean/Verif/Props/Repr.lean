import Verif.Model.LoadItems
import Verif.Spec.Repr
import Verif.Props.Prim

/-!
# C19 and C20: `repr` attributes
-/

namespace Cbindgen

open ReprSpec

theorem parseDigits_eq (ds : Str) (a n : Nat) : parseDigits a ds = some n ↔
    (∀ c ∈ ds, c.isDigit = true) ∧ ds.foldl (fun a c => 10 * a + (c.toNat - '0'.toNat)) a = n := by
  induction ds generalizing a with
  | nil => simp [parseDigits]
  | cons c cs ih =>
    have h48 : '0'.toNat = 48 := rfl
    unfold parseDigits
    by_cases hc : c.isDigit = true
    · rw [if_pos hc, ih]
      simp only [List.mem_cons, forall_eq_or_imp, hc, true_and, List.foldl_cons, h48]
    · rw [if_neg hc]
      simp only [List.mem_cons, forall_eq_or_imp, hc, false_and, iff_false]
      simp

theorem parseU64_iff (t : Str) (n : Nat) : parseU64 t = some n ↔ Decimal t n ∧ n < 2 ^ 64 := by
  have key : ∀ ds : Str, (if ds = [] then (none : Option Nat) else
      match parseDigits 0 ds with
      | some n => if n < 2 ^ 64 then some n else none
      | none => none) = some n ↔ (ds ≠ [] ∧ (∀ c ∈ ds, c.isDigit = true) ∧
        ds.foldl (fun a c => 10 * a + (c.toNat - '0'.toNat)) 0 = n) ∧ n < 2 ^ 64 := by
    intro ds
    by_cases hd : ds = []
    · simp [hd]
    rw [if_neg hd]
    constructor
    · intro h
      split at h
      · rename_i m hm
        split at h
        · rename_i hlt
          cases h
          exact ⟨⟨hd, (parseDigits_eq ds 0 _).1 hm⟩, hlt⟩
        · cases h
      · cases h
    · rintro ⟨⟨_, h⟩, hlt⟩
      rw [(parseDigits_eq ds 0 n).2 h]
      simp [hlt]
  unfold Decimal
  match t with
  | [] => 
    show (none : Option Nat) = some n ↔ _
    constructor
    · intro h; cases h
    · rintro ⟨⟨ds, h | h, hne, _⟩, _⟩
      · exact absurd h.symm hne
      · cases h
  | c :: cs =>
    by_cases hc : c = '+'
    · subst hc
      refine (key cs).trans ?_
      constructor
      · rintro ⟨h, hlt⟩
        exact ⟨⟨cs, .inr rfl, h⟩, hlt⟩
      · rintro ⟨⟨ds, h | h, hd⟩, hlt⟩
        · subst h
          have := hd.2.1 '+' (by simp)
          exact absurd this (by decide)
        · cases h
          exact ⟨hd, hlt⟩
    · have e : parseU64 (c :: cs) = (if c :: cs = [] then (none : Option Nat) else
        match parseDigits 0 (c :: cs) with
        | some n => if n < 2 ^ 64 then some n else none
        | none => none) := by
        unfold parseU64
        split
        · rename_i ds h
          cases h
          exact absurd rfl hc
        · rfl
      rw [e]
      refine (key _).trans ?_
      constructor
      · rintro ⟨h, hlt⟩
        exact ⟨⟨_, .inl rfl, h⟩, hlt⟩
      · rintro ⟨⟨ds, h | h, hd⟩, hlt⟩
        · subst h; exact ⟨hd, hlt⟩
        · cases h; exact absurd rfl hc

theorem isPow2_iff (n : Nat) : isPow2 n = true ↔ ∃ k, n = 2 ^ k := by
  have h := @Nat.ne_zero_and_sub_one_eq_zero_iff_isPowerOfTwo n
  unfold Nat.isPowerOfTwo at h
  rw [← h]
  simp [isPow2]

/-- The effect of one request. -/
def Repr.want (r : Repr) : Req → Option Repr
  | .style s => some { r with style := s }
  | .int k s => if r.ty = none then some { r with ty := some (k, s) } else none
  | .align a => if r.align = none then some { r with align := some a } else none

/-- The effect of a list of requests. -/
def Repr.wants (r : Repr) : List Req → Option Repr
  | [] => some r
  | q :: qs => (r.want q).bind fun r' => r'.wants qs

theorem reprIds_ok (attrs : List SAttr) (ids : List (Str × Option Str)) :
    reprIds attrs = .ok ids ↔ ∃ ms, entries attrs = some ms ∧ tryMap reprId ms = .ok ids := by
  have happ : ∀ xs ys : List ReprMeta, tryMap reprId (xs ++ ys) =
      (do let a ← tryMap reprId xs; let b ← tryMap reprId ys; .ok (a ++ b)) := by
    intro xs ys
    induction xs with
    | nil => simp only [List.nil_append, tryMap, bind, Except.bind]; cases tryMap reprId ys <;> rfl
    | cons x xs ih =>
      simp only [List.cons_append, tryMap, bind, Except.bind] at ih ⊢
      cases reprId x with
      | error e => rfl
      | ok a =>
        rw [ih]
        cases tryMap reprId xs with
        | error e => rfl
        | ok b => cases tryMap reprId ys <;> rfl
  induction attrs generalizing ids with
  | nil => simp [reprIds, entries, tryMap]
  | cons a as ih =>
    obtain ⟨o, at'⟩ := a
    cases at' with
    | repr m =>
      cases m with
      | none => simp [reprIds, entries, loadErr]
      | some ms =>
        simp only [reprIds, entries, Option.map_eq_some_iff]
        constructor
        · intro h
          simp only [bind, Except.bind] at h
          cases h1 : tryMap reprId ms with
          | error e => rw [h1] at h; cases h
          | ok x =>
            rw [h1] at h
            simp only at h
            cases h2 : reprIds as with
            | error e => rw [h2] at h; cases h
            | ok y =>
              rw [h2] at h
              cases h
              obtain ⟨ns, e1, e2⟩ := (ih y).1 h2
              refine ⟨_, ⟨ns, e1, rfl⟩, ?_⟩
              rw [happ, h1, e2]; rfl
        · rintro ⟨_, ⟨ns, e1, rfl⟩, h⟩
          rw [happ] at h
          simp only [bind, Except.bind] at h ⊢
          cases h1 : tryMap reprId ms with
          | error e => rw [h1] at h; cases h
          | ok x =>
            rw [h1] at h
            simp only at h ⊢
            cases h2 : tryMap reprId ns with
            | error e => rw [h2] at h; cases h
            | ok y =>
              rw [h2] at h
              rw [(ih y).2 ⟨ns, e1, h2⟩]
              exact h
    | _ => exact ih ids

theorem reprEntry_iff (m : ReprMeta) (r r' : Repr) :
    (∃ id, reprId m = .ok id ∧ r.step id = .ok r') ↔ ∃ q, Means m q ∧ r.want q = some r' := by
  constructor
  · rintro ⟨id, h, hs⟩
    cases m with
    | path i =>
      cases i with
      | none => cases h
      | some n =>
        cases h
        simp only [Repr.step] at hs
        cases ht : reprIntTable.lookup n with
        | some t =>
          rw [ht] at hs
          have hmem := mem_of_lookup ht
          obtain ⟨k, sg⟩ := t
          have hm : Means (.path (some n)) (.int k sg) := by
            simp only [reprIntTable, List.mem_cons, List.not_mem_nil, or_false, Prod.mk.injEq] at hmem
            rcases hmem with ⟨rfl, rfl, rfl⟩ | ⟨rfl, rfl, rfl⟩ | ⟨rfl, rfl, rfl⟩ | ⟨rfl, rfl, rfl⟩ |
              ⟨rfl, rfl, rfl⟩ | ⟨rfl, rfl, rfl⟩ | ⟨rfl, rfl, rfl⟩ | ⟨rfl, rfl, rfl⟩ | ⟨rfl, rfl, rfl⟩ |
              ⟨rfl, rfl, rfl⟩ <;> constructor
          refine ⟨_, hm, ?_⟩
          simp only at hs
          cases hr : r.ty with
          | some _ => rw [hr] at hs; cases hs
          | none => rw [hr] at hs; cases hs; simp [Repr.want, hr]
        | none =>
          rw [ht] at hs
          simp only at hs
          split at hs
          · rename_i hn; subst hn; cases hs; exact ⟨_, .c, rfl⟩
          · split at hs
            · rename_i hn; subst hn; cases hs; exact ⟨_, .transparent, rfl⟩
            · split at hs
              · rename_i hn
                subst hn
                refine ⟨_, .packed, ?_⟩
                cases hr : r.align with
                | some _ => rw [hr] at hs; cases hs
                | none => rw [hr] at hs; cases hs; simp [Repr.want, hr]
              · cases hs
    | list n arg =>
      simp only [reprId] at h
      split at h
      · rename_i hn
        subst hn
        cases arg with
        | int t =>
          cases h
          simp only [Repr.step] at hs
          rw [if_neg (by decide), if_pos trivial] at hs
          cases hp : parseU64 t with
          | none => rw [hp] at hs; cases hs
          | some k =>
            rw [hp] at hs
            simp only at hs
            split at hs
            · cases hs
            · rename_i hpow
              have hpow : isPow2 k = true := by simpa using hpow
              obtain ⟨e, rfl⟩ := (isPow2_iff k).1 hpow
              obtain ⟨hd, hlt⟩ := (parseU64_iff _ _).1 hp
              have he : e < 64 := (Nat.pow_lt_pow_iff_right (by omega)).1 hlt
              refine ⟨_, .align hd rfl he, ?_⟩
              cases hr : r.align with
              | some _ => rw [hr] at hs; cases hs
              | none => rw [hr] at hs; cases hs; simp [Repr.want, hr]
        | empty => cases h
        | bad => cases h
      · split at h
        · rename_i hn
          subst hn
          cases arg with
          | empty =>
            cases h
            refine ⟨_, .packedCall, ?_⟩
            have hs : (match r.align with
              | some _ => (loadErr : LoadM Repr)
              | none => .ok { r with align := some .packed }) = .ok r' := hs
            cases hr : r.align with
            | some _ => rw [hr] at hs; cases hs
            | none => rw [hr] at hs; cases hs; simp [Repr.want, hr]
          | int t => cases h; cases hs
          | bad => cases h
        · cases h
    | other => cases h
  · rintro ⟨q, hm, hw⟩
    cases hm with
    | c => exact ⟨_, rfl, by cases hw; rfl⟩
    | transparent => exact ⟨_, rfl, by cases hw; rfl⟩
    | packed =>
      simp only [Repr.want, Option.ite_none_right_eq_some, Option.some.injEq] at hw
      refine ⟨_, rfl, ?_⟩
      show (match r.align with
              | some _ => (loadErr : LoadM Repr)
              | none => .ok { r with align := some .packed }) = .ok r'
      rw [hw.1, ← hw.2]
    | packedCall =>
      simp only [Repr.want, Option.ite_none_right_eq_some, Option.some.injEq] at hw
      refine ⟨_, rfl, ?_⟩
      show (match r.align with
              | some _ => (loadErr : LoadM Repr)
              | none => .ok { r with align := some .packed }) = .ok r'
      rw [hw.1, ← hw.2]
    | @align t n k hd hn hk =>
      simp only [Repr.want, Option.ite_none_right_eq_some, Option.some.injEq] at hw
      refine ⟨_, rfl, ?_⟩
      have hlt : n < 2 ^ 64 := by rw [hn]; exact (Nat.pow_lt_pow_iff_right (by omega)).2 hk
      have hp := (parseU64_iff t n).2 ⟨hd, hlt⟩
      have h2 := (isPow2_iff n).2 ⟨k, hn⟩
      simp only [Repr.step]
      rw [if_neg (by decide), if_pos trivial, hp]
      simp only [h2, Bool.true_eq_false, if_false, hw.1]
      rw [← hw.2]
    | _ =>
      simp only [Repr.want, Option.ite_none_right_eq_some, Option.some.injEq] at hw
      refine ⟨_, rfl, ?_⟩
      simp only [Repr.step, reprIntTable, List.lookup, hw.1]
      rw [← hw.2]
      rfl

theorem reprSteps_iff (ms : List ReprMeta) (r r' : Repr) :
    (∃ ids, tryMap reprId ms = .ok ids ∧ r.steps ids = .ok r') ↔
      ∃ qs, AllMean ms qs ∧ r.wants qs = some r' := by
  induction ms generalizing r with
  | nil =>
    constructor
    · rintro ⟨ids, h, hs⟩
      cases h
      exact ⟨[], .nil, by cases hs; rfl⟩
    · rintro ⟨qs, hm, hw⟩
      cases hm
      exact ⟨[], rfl, by cases hw; rfl⟩
  | cons m ms ih =>
    constructor
    · rintro ⟨ids, h, hs⟩
      simp only [tryMap, bind, Except.bind] at h
      cases h1 : reprId m with
      | error e => rw [h1] at h; cases h
      | ok id =>
        rw [h1] at h
        simp only at h
        cases h2 : tryMap reprId ms with
        | error e => rw [h2] at h; cases h
        | ok ids' =>
          rw [h2] at h
          cases h
          simp only [Repr.steps] at hs
          cases h3 : r.step id with
          | error e => rw [h3] at hs; cases hs
          | ok r1 =>
            rw [h3] at hs
            obtain ⟨q, hq, hw⟩ := (reprEntry_iff m r r1).1 ⟨id, h1, h3⟩
            obtain ⟨qs, hqs, hws⟩ := (ih r1).1 ⟨ids', h2, hs⟩
            exact ⟨q :: qs, .cons hq hqs, by simp [Repr.wants, hw, hws]⟩
    · rintro ⟨qs, hm, hw⟩
      cases hm with
      | @cons _ q _ qs hq hqs =>
        simp only [Repr.wants, Option.bind_eq_some_iff] at hw
        obtain ⟨r1, h1, h2⟩ := hw
        obtain ⟨id, e1, e2⟩ := (reprEntry_iff m r r1).2 ⟨q, hq, h1⟩
        obtain ⟨ids, e3, e4⟩ := (ih r1).2 ⟨qs, hqs, h2⟩
        refine ⟨id :: ids, ?_, ?_⟩
        · simp only [tryMap, bind, Except.bind, e1, e3]
        · simp only [Repr.steps, e2, e4]

theorem wants_iff (qs : List Req) (r r' : Repr) : r.wants qs = some r' ↔
    (r.ty.toList ++ ints qs).length ≤ 1 ∧ (r.align.toList ++ aligns qs).length ≤ 1 ∧
    r'.style = (styles qs).getLast?.getD r.style ∧ r'.ty = (r.ty.toList ++ ints qs).head? ∧
    r'.align = (r.align.toList ++ aligns qs).head? := by
  induction qs generalizing r with
  | nil =>
    obtain ⟨s, t, a⟩ := r
    obtain ⟨s', t', a'⟩ := r'
    simp only [Repr.wants, Option.some.injEq, ints, aligns, styles, Repr.mk.injEq]
    cases t <;> cases a <;> simp <;> grind
  | cons q qs ih =>
    obtain ⟨s, t, a⟩ := r
    simp only [Repr.wants]
    cases q with
    | style s' =>
      simp only [Repr.want, Option.bind_some, ih, ints, aligns, styles, List.getLast?_cons]
      simp
    | int k sg =>
      simp only [Repr.want]
      cases t with
      | none => simp [ih, ints, aligns, styles]
      | some t => simp [ints]
    | align al =>
      simp only [Repr.want]
      cases a with
      | none => simp [ih, ints, aligns, styles]
      | some a => simp [aligns]

/-- `Repr::load` accepts a list of attributes exactly if it asks for one representation, and gives that
one. -/
theorem C19_repr_accepts_iff (attrs : List SAttr) (r : Repr) : Repr.load attrs = .ok r ↔ Asks attrs r := by
  have h0 : Repr.load attrs = .ok r ↔ ∃ ids, reprIds attrs = .ok ids ∧ Repr.steps {} ids = .ok r := by
    simp only [Repr.load, bind, Except.bind]
    cases reprIds attrs with
    | error e => simp
    | ok ids => simp
  rw [h0]
  constructor
  · rintro ⟨ids, h1, h2⟩
    obtain ⟨ms, e1, e2⟩ := (reprIds_ok attrs ids).1 h1
    obtain ⟨qs, hq, hw⟩ := (reprSteps_iff ms {} r).1 ⟨ids, e2, h2⟩
    have := (wants_iff qs {} r).1 hw
    simp only [Option.toList_none, List.nil_append] at this
    exact ⟨ms, qs, e1, hq, this⟩
  · rintro ⟨ms, qs, e1, hq, hw⟩
    have : Repr.wants {} qs = some r := (wants_iff qs {} r).2 (by simpa using hw)
    obtain ⟨ids, e2, h2⟩ := (reprSteps_iff ms {} r).2 ⟨qs, hq, this⟩
    exact ⟨ids, (reprIds_ok attrs ids).2 ⟨ms, e1, e2⟩, h2⟩

theorem reprId_no_panic (m : ReprMeta) : reprId m ≠ .error .panic := by
  intro h
  simp only [reprId, loadErr] at h
  repeat' split at h
  all_goals cases h

theorem tryMap_no_panic {α β : Type} {f : α → LoadM β} (hf : ∀ x, f x ≠ .error .panic) (xs : List α) :
    tryMap f xs ≠ .error .panic := by
  induction xs with
  | nil => intro h; cases h
  | cons x xs ih =>
    intro h
    simp only [tryMap, bind, Except.bind] at h
    cases h1 : f x with
    | error e => rw [h1] at h; cases h; exact hf x h1
    | ok y =>
      rw [h1] at h
      simp only at h
      cases h2 : tryMap f xs with
      | error e => rw [h2] at h; cases h; exact ih h2
      | ok ys => rw [h2] at h; cases h

theorem reprIds_no_panic (attrs : List SAttr) : reprIds attrs ≠ .error .panic := by
  induction attrs with
  | nil => intro h; cases h
  | cons a as ih =>
    intro h
    simp only [reprIds, bind, Except.bind] at h
    split at h
    · cases h
    · rename_i ms _
      cases h1 : tryMap reprId ms with
      | error e => rw [h1] at h; cases h; exact tryMap_no_panic reprId_no_panic ms h1
      | ok y =>
        rw [h1] at h
        simp only at h
        cases h2 : reprIds as with
        | error e => rw [h2] at h; cases h; exact ih h2
        | ok ys => rw [h2] at h; cases h
    · exact ih h

theorem reprStep_no_panic (r : Repr) (id : Str × Option Str) : r.step id ≠ .error .panic := by
  intro h
  simp only [Repr.step, loadErr] at h
  repeat' split at h
  all_goals cases h

theorem reprSteps_no_panic (r : Repr) (ids : List (Str × Option Str)) :
    r.steps ids ≠ .error .panic := by
  induction ids generalizing r with
  | nil => intro h; cases h
  | cons id ids ih =>
    intro h
    simp only [Repr.steps] at h
    split at h
    · exact ih _ h
    · rename_i e h1
      cases h
      exact reprStep_no_panic r id h1

/-- Attributes that ask for no representation are rejected with an error. -/
theorem C19_repr_rejects (attrs : List SAttr) (h : ¬ ∃ r, Asks attrs r) : Repr.load attrs = .error .err := by
  cases hl : Repr.load attrs with
  | ok r => exact absurd ⟨r, (C19_repr_accepts_iff attrs r).1 hl⟩ h
  | error e =>
    cases e with
    | err => rfl
    | panic =>
      exfalso
      simp only [Repr.load, bind, Except.bind] at hl
      cases h1 : reprIds attrs with
      | error e => rw [h1] at hl; cases hl; exact reprIds_no_panic attrs h1
      | ok ids => rw [h1] at hl; exact reprSteps_no_panic _ ids hl

/-- A `#[repr(...)]` attribute. -/
def reprAttr (ms : List ReprMeta) : SAttr := { attr := .repr (some ms) }

/-- `#[repr(C, u8)] #[repr(align(16))]`. -/
theorem C19_repr_case : Repr.load [reprAttr [.path (some c!"C"), .path (some c!"u8")],
      reprAttr [.list c!"align" (.int c!"16")]] =
    .ok { style := .c, ty := some (.b8, false), align := some (.align 16) } := rfl

/-- `#[repr(align(12))]` and `#[repr(packed, align(4))]` are rejected. -/
theorem C19_repr_reject_cases : Repr.load [reprAttr [.list c!"align" (.int c!"12")]] = .error .err ∧
    Repr.load [reprAttr [.path (some c!"packed"), .list c!"align" (.int c!"4")]] = .error .err := ⟨rfl, rfl⟩

/-! ## C20 -/

theorem ensureSafe_iff (c : LayoutConfig) (a : ReprAlign) : c.ensureSafe a = .ok () ↔ HasAnnotation c a := by
  obtain ⟨p, n⟩ := c
  cases a <;> cases p <;> cases n <;> simp [LayoutConfig.ensureSafe, HasAnnotation, loadErr]

theorem ensureSafe_err {c : LayoutConfig} {a : ReprAlign} (h : ¬ HasAnnotation c a) :
    c.ensureSafe a = .error .err := by
  rw [← ensureSafe_iff] at h
  obtain ⟨p, n⟩ := c
  cases a <;> cases p <;> cases n <;> simp [LayoutConfig.ensureSafe, loadErr] at h ⊢

/-- A struct that is loaded with fields has the alignment its attributes ask for, and the config has the
annotation for it. -/
theorem C20_struct_alignment {c : LoadConfig} {mc : Option Cfg} {s : SynStruct} {st : StructItem}
    (h : s.load c mc = .ok st) : ∃ r, Asks s.attrs r ∧ st.alignment = r.align ∧
      ∀ a, r.align = some a → HasAnnotation c.layout a := by
  simp only [SynStruct.load, bind, Except.bind] at h
  cases h1 : Repr.load s.attrs with
  | error e => rw [h1] at h; cases h
  | ok r =>
    rw [h1] at h
    simp only at h
    refine ⟨r, (C19_repr_accepts_iff _ _).1 h1, ?_⟩
    cases h2 : structStyle r.style with
    | error e => rw [h2] at h; cases h
    | ok t =>
      rw [h2] at h
      simp only at h
      cases h3 : c.layout.ensureSafeOpt r.align with
      | error e => rw [h3] at h; cases h
      | ok u =>
        rw [h3] at h
        simp only at h
        constructor
        · repeat' split at h
          all_goals first | cases h | skip
          rfl
        · intro a ha
          rw [ha] at h3
          exact (ensureSafe_iff _ _).1 h3

/-- The same for unions. -/
theorem C20_union_alignment {c : LoadConfig} {mc : Option Cfg} {s : SynUnion} {u : UnionItem}
    (h : s.load c mc = .ok u) : ∃ r, Asks s.attrs r ∧ u.alignment = r.align ∧
      ∀ a, r.align = some a → HasAnnotation c.layout a := by
  simp only [SynUnion.load, bind, Except.bind] at h
  cases h1 : Repr.load s.attrs with
  | error e => rw [h1] at h; cases h
  | ok r =>
    rw [h1] at h
    simp only at h
    refine ⟨r, (C19_repr_accepts_iff _ _).1 h1, ?_⟩
    cases h2 : unionStyle r.style with
    | error e => rw [h2] at h; cases h
    | ok t =>
      rw [h2] at h
      simp only at h
      cases h3 : c.layout.ensureSafeOpt r.align with
      | error e => rw [h3] at h; cases h
      | ok u' =>
        rw [h3] at h
        simp only at h
        constructor
        · repeat' split at h
          all_goals first | cases h | skip
          rfl
        · intro a ha
          rw [ha] at h3
          exact (ensureSafe_iff _ _).1 h3

/-- A struct whose attributes ask for an alignment without annotation in the config becomes an opaque item
of the same name; nothing else changes.  (`none` is a panic, which needs generic parameters that cannot
be loaded.) -/
theorem C20_struct_without_annotation {c : LoadConfig} {mc : Option Cfg} {l l' : Library} {s : SynStruct}
    {r : Repr} {a : ReprAlign} (hr : Asks s.attrs r) (ha : r.align = some a)
    (hc : ¬ HasAnnotation c.layout a) (h : l.loadStruct c mc s = some l') :
    ∃ o : OpaqueItem, o.path = unraw s.ident ∧
      l' = { l with opaqueItems := (l.opaqueItems.tryInsert o).1 } := by
  have he : s.load c mc = .error .err := by
    have h1 := (C19_repr_accepts_iff _ _).2 hr
    simp only [SynStruct.load, bind, Except.bind, h1]
    obtain ⟨sty, ty, al⟩ := r
    simp only at ha
    subst ha
    cases sty <;> simp only [structStyle, loadErr, LayoutConfig.ensureSafeOpt, ensureSafe_err hc]
  simp only [Library.loadStruct, he, Library.addOpaque] at h
  cases ho : loadOpaque (unraw s.ident) s.generics s.attrs mc with
  | error e => rw [ho] at h; cases h
  | ok o =>
    rw [ho] at h
    cases h
    refine ⟨o, ?_, rfl⟩
    simp only [loadOpaque, bind, Except.bind] at ho
    split at ho
    · cases ho
    · cases ho; rfl

/-- The same for unions. -/
theorem C20_union_without_annotation {c : LoadConfig} {mc : Option Cfg} {l l' : Library} {s : SynUnion}
    {r : Repr} {a : ReprAlign} (hr : Asks s.attrs r) (ha : r.align = some a)
    (hc : ¬ HasAnnotation c.layout a) (h : l.loadUnion c mc s = some l') :
    ∃ o : OpaqueItem, o.path = unraw s.ident ∧
      l' = { l with opaqueItems := (l.opaqueItems.tryInsert o).1 } := by
  have he : s.load c mc = .error .err := by
    have h1 := (C19_repr_accepts_iff _ _).2 hr
    simp only [SynUnion.load, bind, Except.bind, h1]
    obtain ⟨sty, ty, al⟩ := r
    simp only at ha
    subst ha
    cases sty <;> simp only [unionStyle, loadErr, LayoutConfig.ensureSafeOpt, ensureSafe_err hc]
  simp only [Library.loadUnion, he, Library.addOpaque] at h
  cases ho : loadOpaque (unraw s.ident) s.generics s.attrs mc with
  | error e => rw [ho] at h; cases h
  | ok o =>
    rw [ho] at h
    cases h
    refine ⟨o, ?_, rfl⟩
    simp only [loadOpaque, bind, Except.bind] at ho
    split at ho
    · cases ho
    · cases ho; rfl

/-- An enum with an alignment is never loaded with its variants. -/
theorem C20_enum_alignment {c : LoadConfig} {mc : Option Cfg} {s : SynEnum} {e : EnumItem}
    (h : s.load c mc = .ok e) : ∃ r, Asks s.attrs r ∧ r.align = none := by
  simp only [SynEnum.load, bind, Except.bind] at h
  cases h1 : Repr.load s.attrs with
  | error e => rw [h1] at h; cases h
  | ok r =>
    rw [h1] at h
    simp only at h
    refine ⟨r, (C19_repr_accepts_iff _ _).1 h1, ?_⟩
    cases h2 : enumRepr r with
    | error e => rw [h2] at h; cases h
    | ok t =>
      unfold enumRepr at h2
      split at h2
      · cases h2
      · split at h2
        · cases h2
        · rename_i hh; simpa using hh

/-- `#[repr(C, packed)] struct P { x: u8 }`. -/
def packedStruct : SynStruct :=
  { ident := c!"P", generics := [], attrs := [reprAttr [.path (some c!"C"), .path (some c!"packed")]],
    fields := .named [{ ident := some c!"x", ty := .path c!"u8" .none, attrs := [] }] }

/-- With an annotation for packed types the struct is loaded with its field, without it is opaque. -/
theorem C20_packed_case (f : CaseFns) :
    (∃ l, Library.loadStruct { caseFns := f, layout := { packed := some c!"PACKED" } } none {} packedStruct =
      some l ∧ l.opaqueItems = [] ∧ ∃ st, l.structs = [(c!"P", .single st)] ∧ st.fields.length = 1 ∧
        st.alignment = some .packed) ∧
    (∃ l, Library.loadStruct { caseFns := f, layout := { alignedN := some c!"ALIGNED" } } none {}
      packedStruct = some l ∧ l.structs = [] ∧ ∃ o, l.opaqueItems = [(c!"P", .single o)]) :=
  ⟨⟨_, rfl, rfl, _, rfl, rfl, rfl⟩, ⟨_, rfl, rfl, _, rfl⟩⟩

end Cbindgen
