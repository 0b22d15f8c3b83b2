import Verif.Lemmas.Parser

/-! # Lemmas about the traversal of the crate graph -/

namespace Cbindgen

open CfgSpec ParserSpec

/-- What a package contributes when it is parsed with a given cfg stack. -/
def srcEntries (cfg : ParseConfig) (ws : Workspace) (x : Pkg × List Cfg) :
    List (Entry × Option Cfg) :=
  match ws.source x.1 with
  | .items is => modEntries cfg x.1.name x.2 is
  | _ => []

def logNames (l : List (Pkg × List Cfg)) : List Str := l.map fun x => x.1.name

theorem shouldParse_iff (cfg : ParseConfig) (st : PState) (n : Str) :
    shouldParseDependency cfg st n = true ↔ n ∉ st.parsed ∧ Allowed cfg n := by
  unfold shouldParseDependency Allowed
  by_cases h1 : n ∈ st.parsed
  · simp [h1]
  · cases hp : cfg.parseDeps
    · simp [h1]
    · by_cases h3 : n ∈ cfg.expandCrates
      · simp [h1, h3]
      · cases hi : cfg.incl with
        | none => simp [h1, h3]
        | some incl =>
          by_cases h4 : n ∈ incl
          · simp [h1, h3, h4]
          · simp [h1, h3, h4]

theorem cratePath_trans {cfg : ParseConfig} {ws : Workspace} {a b : Pkg} {cs1 : List Cfg}
    (h1 : CratePath cfg ws a b cs1) {c : Pkg} {cs2 : List Cfg} (h2 : CratePath cfg ws b c cs2) :
    CratePath cfg ws a c (cs1 ++ cs2) := by
  induction h2 with
  | root => simpa using h1
  | dep _ hd ha ih =>
    rw [← List.append_assoc]
    exact .dep ih hd ha

/-- The effect of a successful run on the state: the packages in `l` have been parsed. -/
structure Ran (cfg : ParseConfig) (ws : Workspace) (p : Pkg) (st st' : PState)
    (l : List (Pkg × List Cfg)) : Prop where
  stack : st'.stack = st.stack
  log : st'.log = st.log ++ l
  out : st'.out = st.out ++ l.flatMap (srcEntries cfg ws)
  parsed : ∀ n, n ∈ st'.parsed ↔ n ∈ logNames l ∨ n ∈ st.parsed
  nodup : (logNames l).Nodup
  fresh : ∀ n ∈ logNames l, n ∉ st.parsed
  path : ∀ x ∈ l, ∃ cs, CratePath cfg ws p x.1 cs ∧ x.2 = st.stack ++ cs
  closed : ∀ x ∈ l, ∀ d ∈ ws.deps x.1, Allowed cfg d.1.name → d.1.name ∈ st'.parsed

theorem parseSource_eq (cfg : ParseConfig) (ws : Workspace) (p : Pkg) (st st' : PState)
    (h : parseSource cfg ws p st = .ok st') :
    st' = { st with out := st.out ++ srcEntries cfg ws (p, st.stack) } := by
  unfold parseSource at h
  cases hs : ws.source p with
  | missing => simp [hs] at h; subst h; simp [srcEntries, hs]
  | broken => simp [hs] at h
  | items is =>
    simp only [hs] at h
    rw [processMod_eq cfg p.name st st' is h]
    simp [srcEntries, hs]

theorem loopDeps_ran (cfg : ParseConfig) (ws : Workspace) (p : Pkg)
    (parse : Pkg → PState → Except PErr PState)
    (hparse : ∀ q st st', q.name ∉ st.parsed → parse q st = .ok st' →
      q.name ∈ st'.parsed ∧ ∃ l, Ran cfg ws q st st' l) :
    ∀ (ds : List (Pkg × Option Cfg)) (st st' : PState), (∀ d ∈ ds, d ∈ ws.deps p) →
    loopDeps cfg parse st ds = .ok st' →
    (∃ l, Ran cfg ws p st st' l) ∧ ∀ d ∈ ds, Allowed cfg d.1.name → d.1.name ∈ st'.parsed := by
  intro ds
  induction ds with
  | nil =>
    intro st st' _ h
    simp only [loopDeps, Except.ok.injEq] at h
    subst h
    exact ⟨⟨[], by constructor <;> simp [logNames]⟩, by simp⟩
  | cons d ds ih =>
    intro st st' hd h
    simp only [loopDeps] at h
    cases hs : stepDep cfg parse st d with
    | error e => simp [hs] at h
    | ok st1 =>
      simp only [hs] at h
      obtain ⟨⟨l2, r2⟩, hall⟩ := ih st1 st' (fun x hx => hd x (by simp [hx])) h
      simp only [stepDep] at hs
      split at hs
      · rename_i hp
        obtain ⟨hnot, hallow⟩ := (shouldParse_iff cfg st d.1.name).mp hp
        cases hq : parse d.1 (st.push d.2) with
        | error e => simp [hq] at hs
        | ok st0 =>
          simp only [hq, Except.ok.injEq] at hs
          obtain ⟨hin, l1, r1⟩ := hparse d.1 (st.push d.2) st0 (by rw [push_eq]; exact hnot) hq
          have hstack : st0.stack = st.stack ++ d.2.toList := by rw [r1.stack, push_eq]
          have e1 : st1 = { st0 with stack := st.stack } := by
            rw [← hs]
            have := pop_push st0 st.stack d.2
            rw [← hstack] at this
            exact this
          have hpar : st1.parsed = st0.parsed := by rw [e1]
          refine ⟨⟨l1 ++ l2, ?_⟩, ?_⟩
          · refine ⟨?_, ?_, ?_, ?_, ?_, ?_, ?_, ?_⟩
            · rw [r2.stack, e1]
            · rw [r2.log, e1]
              simp only
              rw [r1.log, push_eq]
              simp
            · rw [r2.out, e1]
              simp only
              rw [r1.out, push_eq]
              simp
            · intro n
              rw [r2.parsed, hpar, r1.parsed, push_eq]
              simp only [logNames, List.map_append, List.mem_append]
              constructor
              · rintro (h | h | h)
                · exact Or.inl (Or.inr h)
                · exact Or.inl (Or.inl h)
                · exact Or.inr h
              · rintro ((h | h) | h)
                · exact Or.inr (Or.inl h)
                · exact Or.inl h
                · exact Or.inr (Or.inr h)
            · simp only [logNames, List.map_append]
              rw [List.nodup_append]
              refine ⟨r1.nodup, r2.nodup, ?_⟩
              intro a ha b hb hab
              subst hab
              exact r2.fresh a hb (by rw [hpar, r1.parsed]; exact Or.inl ha)
            · intro n hn
              simp only [logNames, List.map_append, List.mem_append] at hn
              rcases hn with hn | hn
              · have := r1.fresh n hn
                rwa [push_eq] at this
              · intro hc
                exact r2.fresh n hn (by rw [hpar, r1.parsed, push_eq]; exact Or.inr hc)
            · intro x hx
              rcases List.mem_append.mp hx with hx | hx
              · obtain ⟨cs, hc1, hc2⟩ := r1.path x hx
                have hedge : CratePath cfg ws p d.1 ([] ++ d.2.toList) :=
                  .dep .root (hd d (by simp)) hallow
                refine ⟨d.2.toList ++ cs, (by simpa using cratePath_trans hedge hc1), ?_⟩
                rw [hc2, push_eq]
                simp
              · obtain ⟨cs, hc1, hc2⟩ := r2.path x hx
                exact ⟨cs, hc1, by rw [hc2, e1]⟩
            · intro x hx
              rcases List.mem_append.mp hx with hx | hx
              · intro e he ha
                rw [r2.parsed, hpar]
                exact Or.inr (r1.closed x hx e he ha)
              · exact r2.closed x hx
          · intro e he ha
            rcases List.mem_cons.mp he with rfl | he
            · rw [r2.parsed, hpar]; exact Or.inr hin
            · exact hall e he ha
      · rename_i hp
        simp only [Except.ok.injEq] at hs
        subst hs
        refine ⟨⟨l2, r2⟩, ?_⟩
        intro e he ha
        rcases List.mem_cons.mp he with rfl | he
        · have hp' : ¬ (e.1.name ∉ st.parsed ∧ Allowed cfg e.1.name) := by
            rw [← shouldParse_iff]; exact hp
          rw [r2.parsed]
          by_cases hm : e.1.name ∈ st.parsed
          · exact Or.inr hm
          · exact absurd ⟨hm, ha⟩ hp'
        · exact hall e he ha

theorem parseCrate_ran (cfg : ParseConfig) (ws : Workspace) : ∀ (n : Nat) (p : Pkg) (st st' : PState),
    p.name ∉ st.parsed → parseCrate cfg ws n p st = .ok st' →
    p.name ∈ st'.parsed ∧ ∃ l, Ran cfg ws p st st' ((p, st.stack) :: l) := by
  intro n
  induction n with
  | zero => intro p st st' _ h; simp [parseCrate] at h
  | succ n ih =>
    intro p st st' hp h
    simp only [parseCrate] at h
    split at h
    · rename_i st1 hs
      have e1 := parseSource_eq _ _ _ _ _ hs
      obtain ⟨⟨l, r⟩, hall⟩ := loopDeps_ran cfg ws p (parseCrate cfg ws n)
        (fun q s s' hq hr => by
          obtain ⟨h1, l, h2⟩ := ih q s s' hq hr
          exact ⟨h1, _, h2⟩) (ws.deps p) st1 st' (fun d hd => hd) h
      have hpar : ∀ m, m ∈ st1.parsed ↔ m = p.name ∨ m ∈ st.parsed := by
        intro m; rw [e1]; simp
      refine ⟨by rw [r.parsed, hpar]; exact Or.inr (Or.inl rfl), l, ?_⟩
      refine ⟨?_, ?_, ?_, ?_, ?_, ?_, ?_, ?_⟩
      · rw [r.stack, e1]
      · rw [r.log, e1]; simp
      · rw [r.out, e1]; simp
      · intro m
        rw [r.parsed, hpar]
        simp only [logNames, List.map_cons, List.mem_cons]
        constructor
        · rintro (h | h | h)
          · exact Or.inl (Or.inr h)
          · exact Or.inl (Or.inl h)
          · exact Or.inr h
        · rintro ((h | h) | h)
          · exact Or.inr (Or.inl h)
          · exact Or.inl h
          · exact Or.inr (Or.inr h)
      · simp only [logNames, List.map_cons, List.nodup_cons]
        exact ⟨fun hm => r.fresh _ hm (by rw [hpar]; exact Or.inl rfl), r.nodup⟩
      · intro m hm
        simp only [logNames, List.map_cons, List.mem_cons] at hm
        rcases hm with rfl | hm
        · exact hp
        · intro hc
          exact r.fresh m hm (by rw [hpar]; exact Or.inr hc)
      · intro x hx
        rcases List.mem_cons.mp hx with rfl | hx
        · exact ⟨[], .root, by simp⟩
        · obtain ⟨cs, h1, h2⟩ := r.path x hx
          exact ⟨cs, h1, by rw [h2, e1]⟩
      · intro x hx
        rcases List.mem_cons.mp hx with rfl | hx
        · exact hall
        · exact r.closed x hx
    · cases h

/-! ## Enough fuel -/

/-- The number of names in `u` that are not yet parsed. -/
def unparsed (u parsed : List Str) : Nat := (u.filter fun n => decide (n ∉ parsed)).length

theorem unparsed_mono (u p p' : List Str) (h : ∀ n ∈ p, n ∈ p') : unparsed u p' ≤ unparsed u p := by
  unfold unparsed
  induction u with
  | nil => simp
  | cons x u ih =>
    simp only [List.filter_cons]
    by_cases h1 : x ∈ p'
    · by_cases h2 : x ∈ p <;> simp [h1, h2] <;> simp at ih <;> omega
    · have h2 : x ∉ p := fun hx => h1 (h x hx)
      simp [h1, h2]; simpa using ih

theorem unparsed_lt (u p : List Str) (x : Str) (hx : x ∈ u) (hp : x ∉ p) :
    unparsed u (x :: p) < unparsed u p := by
  unfold unparsed
  induction u with
  | nil => simp at hx
  | cons y u ih =>
    have hm := unparsed_mono u p (x :: p) (by simp; intro n hn; exact Or.inr hn)
    unfold unparsed at hm
    by_cases hxy : y = x
    · subst hxy
      simp only [List.filter_cons]
      simp [hp]
      simp at hm
      omega
    · have hx' : x ∈ u := by
        rcases List.mem_cons.mp hx with h | h
        · exact absurd h.symm hxy
        · exact h
      have := ih hx'
      simp only [List.filter_cons]
      by_cases h1 : y ∈ p
      · simp [hxy, h1] at this ⊢; exact this
      · simp [hxy, h1] at this ⊢; omega

mutual
theorem processNested_no_fuel (cfg : ParseConfig) (crate : Str) : ∀ (items : List RItem) (st : PState),
    processNested cfg crate st items ≠ .error .fuel
  | [], st => by simp [processNested]
  | i :: is, st => by
    simp only [processNested]
    cases h : processOne cfg crate st i with
    | ok st1 => exact processNested_no_fuel cfg crate is st1
    | error e =>
      have := processOne_no_fuel cfg crate i st
      rw [h] at this
      simpa using this
theorem processOne_no_fuel (cfg : ParseConfig) (crate : Str) : ∀ (i : RItem) (st : PState),
    processOne cfg crate st i ≠ .error .fuel
  | .mod attrs .found sub, st => by
    simp only [processOne]
    split
    · simp
    · have := processNested_no_fuel cfg crate sub (enterMod cfg crate (st.push (Cfg.load attrs)) sub)
      split
      · simp
      · rename_i h
        rw [h] at this
        simpa using this
  | .mod attrs .missing sub, st => by simp [processOne]
  | .mod attrs .broken sub, st => by
    simp only [processOne]; split <;> simp
  | .fn _, st => by simp [processOne]
  | .const _, st => by simp [processOne]
  | .static _, st => by simp [processOne]
  | .type _ _, st => by simp [processOne]
  | .impl _ _ _ _ _, st => by simp [processOne]
  | .foreign _ _ _, st => by simp [processOne]
  | .bitflags _ _ _ _, st => by simp [processOne]
  | .other _, st => by simp [processOne]
end

theorem parseSource_no_fuel (cfg : ParseConfig) (ws : Workspace) (p : Pkg) (st : PState) :
    parseSource cfg ws p st ≠ .error .fuel := by
  unfold parseSource
  split
  · simp
  · simp
  · exact processNested_no_fuel _ _ _ _

theorem loopDeps_no_fuel (cfg : ParseConfig) (ws : Workspace) (u : List Str) (n : Nat)
    (hn : ∀ p st, p.name ∈ u → p.name ∉ st.parsed → unparsed u st.parsed ≤ n →
      parseCrate cfg ws n p st ≠ .error .fuel) :
    ∀ (ds : List (Pkg × Option Cfg)) (st : PState), (∀ d ∈ ds, d.1.name ∈ u) →
    unparsed u st.parsed ≤ n → loopDeps cfg (parseCrate cfg ws n) st ds ≠ .error .fuel := by
  intro ds
  induction ds with
  | nil => intro st _ _; simp [loopDeps]
  | cons d ds ih =>
    intro st hd hu
    simp only [loopDeps, stepDep]
    by_cases hp : shouldParseDependency cfg st d.1.name = true
    · obtain ⟨hnot, _⟩ := (shouldParse_iff cfg st d.1.name).mp hp
      simp only [hp, if_true]
      cases hq : parseCrate cfg ws n d.1 (st.push d.2) with
      | error e =>
        have := hn d.1 (st.push d.2) (hd d (by simp)) (by rw [push_eq]; exact hnot)
          (by rw [push_eq]; exact hu)
        rw [hq] at this
        simpa using this
      | ok st0 =>
        simp only
        obtain ⟨_, l, r⟩ := parseCrate_ran cfg ws n d.1 (st.push d.2) st0
          (by rw [push_eq]; exact hnot) hq
        apply ih _ (fun x hx => hd x (by simp [hx]))
        have hpp : (st0.pop d.2).parsed = st0.parsed := by cases d.2 <;> rfl
        rw [hpp]
        refine Nat.le_trans (unparsed_mono u st.parsed st0.parsed ?_) hu
        intro m hm
        rw [r.parsed, push_eq]
        exact Or.inr hm
    · simp only [hp]
      exact ih st (fun x hx => hd x (by simp [hx])) hu

theorem parseCrate_no_fuel (cfg : ParseConfig) (ws : Workspace) (u : List Str)
    (hu : ∀ p : Pkg, p.name ∈ u → ∀ d ∈ ws.deps p, d.1.name ∈ u) : ∀ (n : Nat) (p : Pkg) (st : PState),
    p.name ∈ u → p.name ∉ st.parsed → unparsed u st.parsed ≤ n →
    parseCrate cfg ws n p st ≠ .error .fuel := by
  intro n
  induction n with
  | zero =>
    intro p st hp hnot h
    have := unparsed_lt u st.parsed p.name hp hnot
    omega
  | succ n ih =>
    intro p st hp hnot h
    simp only [parseCrate]
    split
    · rename_i st1 hs
      have e1 := parseSource_eq _ _ _ _ _ hs
      apply loopDeps_no_fuel cfg ws u n ih _ _ (hu p hp)
      have := unparsed_lt u st.parsed p.name hp hnot
      rw [e1]
      simp only
      omega
    · rename_i e hs
      have := parseSource_no_fuel cfg ws p
        { st with parsed := p.name :: st.parsed, log := st.log ++ [(p, st.stack)] }
      rw [hs] at this
      simpa using this

end Cbindgen
