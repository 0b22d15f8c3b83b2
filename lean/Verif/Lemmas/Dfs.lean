import Verif.Model.Basic

/-!
# Depth-first search on names

The traversal that `Dependencies::add` performs, on an abstract graph.
-/

namespace Cbindgen.Dfs

variable (known : Str → Bool) (succ : Str → List Str)

/-- Steps to known nodes. -/
inductive Path : Str → Str → Prop
  | refl (p : Str) : Path p p
  | step {p q r : Str} : Path p q → r ∈ succ q → known r = true → Path p r

variable {known succ}

theorem Path.trans {p q r : Str} (h₁ : Path known succ p q) (h₂ : Path known succ q r) :
    Path known succ p r := by
  induction h₂ with
  | refl => exact h₁
  | step _ hs hk ih => exact ih.step hs hk

theorem Path.head {p q r : Str} (hs : q ∈ succ p) (hk : known q = true) (h : Path known succ q r) :
    Path known succ p r :=
  Path.trans (Path.step (Path.refl p) hs hk) h

variable (known succ)

/-- Depth-first search; the state is the list of visited and of finished nodes. -/
def dfs : Nat → Str → List Str × List Str → Option (List Str × List Str)
  | 0, _, _ => none
  | n + 1, p, s =>
    if known p then
      if p ∈ s.1 then some s
      else
        ((succ p).foldlM (fun s q => dfs n q s) (p :: s.1, s.2)).map fun s => (s.1, s.2 ++ [p])
    else some s

/-- What a search from the nodes `ps` achieves. -/
structure Post (ps : List Str) (s s' : List Str × List Str) (g : List Str) : Prop where
  ext : s'.2 = s.2 ++ g
  nodup : g.Nodup
  vis : ∀ x, x ∈ s'.1 ↔ x ∈ s.1 ∨ x ∈ g
  fresh : ∀ x ∈ g, x ∉ s.1
  isKnown : ∀ x ∈ g, known x = true
  reach : ∀ x ∈ g, ∃ p ∈ ps, known p = true ∧ Path known succ p x
  done : ∀ p ∈ ps, known p = true → p ∈ s'.1
  closed : ∀ x ∈ g, ∀ q ∈ succ x, known q = true → q ∈ s'.1
  order : (∀ y ∈ s.1, y ∉ s.2 → ∀ p ∈ ps, known p = true → Path known succ y p) →
    ∀ a x b, g = a ++ x :: b → ∀ q ∈ succ x, known q = true →
      q ∈ s.2 ∨ q ∈ a ∨ Path known succ q x

variable {known succ}

theorem Post.nil (s : List Str × List Str) : Post known succ [] s s [] where
  ext := by simp
  nodup := by simp
  vis := by simp
  fresh := by simp
  isKnown := by simp
  reach := by simp
  done := by simp
  closed := by simp
  order := by
    intro _ a x b h
    simp at h

theorem append_cons_split {α : Type} {g₁ g₂ a b : List α} {x : α} (h : g₁ ++ g₂ = a ++ x :: b) :
    (∃ b', g₁ = a ++ x :: b') ∨ ∃ a', a = g₁ ++ a' ∧ g₂ = a' ++ x :: b := by
  rw [List.append_eq_append_iff] at h
  rcases h with ⟨c, rfl, h⟩ | ⟨c, rfl, h⟩
  · exact .inr ⟨c, rfl, h⟩
  · cases c with
    | nil => exact .inr ⟨[], by simp, by simpa using h.symm⟩
    | cons y c =>
      simp only [List.cons_append, List.cons.injEq] at h
      obtain ⟨rfl, rfl⟩ := h
      exact .inl ⟨c, rfl⟩

theorem Post.append {ps qs : List Str} {s₁ s₂ s₃ : List Str × List Str} {g₁ g₂ : List Str}
    (h₁ : Post known succ ps s₁ s₂ g₁) (h₂ : Post known succ qs s₂ s₃ g₂) :
    Post known succ (ps ++ qs) s₁ s₃ (g₁ ++ g₂) where
  ext := by rw [h₂.ext, h₁.ext, List.append_assoc]
  nodup := by
    rw [List.nodup_append]
    refine ⟨h₁.nodup, h₂.nodup, ?_⟩
    intro x hx y hy e
    subst e
    exact h₂.fresh x hy ((h₁.vis x).2 (.inr hx))
  vis := by
    intro x
    rw [h₂.vis, h₁.vis, List.mem_append, or_assoc]
  fresh := by
    intro x hx hs
    rcases List.mem_append.1 hx with hx | hx
    · exact h₁.fresh x hx hs
    · exact h₂.fresh x hx ((h₁.vis x).2 (.inl hs))
  isKnown := by
    intro x hx
    rcases List.mem_append.1 hx with hx | hx
    · exact h₁.isKnown x hx
    · exact h₂.isKnown x hx
  reach := by
    intro x hx
    rcases List.mem_append.1 hx with hx | hx
    · obtain ⟨p, hp, h⟩ := h₁.reach x hx
      exact ⟨p, by simp [hp], h⟩
    · obtain ⟨p, hp, h⟩ := h₂.reach x hx
      exact ⟨p, by simp [hp], h⟩
  done := by
    intro p hp hk
    rcases List.mem_append.1 hp with hp | hp
    · exact (h₂.vis p).2 (.inl (h₁.done p hp hk))
    · exact h₂.done p hp hk
  closed := by
    intro x hx q hq hk
    rcases List.mem_append.1 hx with hx | hx
    · exact (h₂.vis q).2 (.inl (h₁.closed x hx q hq hk))
    · exact h₂.closed x hx q hq hk
  order := by
    intro hgray a x b hg q hq hk
    have hgray₁ : ∀ y ∈ s₁.1, y ∉ s₁.2 → ∀ p ∈ ps, known p = true → Path known succ y p :=
      fun y hy hn p hp => hgray y hy hn p (by simp [hp])
    have hgray₂ : ∀ y ∈ s₂.1, y ∉ s₂.2 → ∀ p ∈ qs, known p = true → Path known succ y p := by
      intro y hy hn p hp
      rw [h₁.ext, List.mem_append, not_or] at hn
      rcases (h₁.vis y).1 hy with hy | hy
      · exact hgray y hy hn.1 p (by simp [hp])
      · exact absurd hy hn.2
    rcases append_cons_split hg with ⟨b', hb⟩ | ⟨a', rfl, hb⟩
    · exact h₁.order hgray₁ a x b' hb q hq hk
    · rcases h₂.order hgray₂ a' x b hb q hq hk with h | h | h
      · rw [h₁.ext, List.mem_append] at h
        rcases h with h | h
        · exact .inl h
        · exact .inr (.inl (by simp [h]))
      · exact .inr (.inl (by simp [h]))
      · exact .inr (.inr h)

/-- The measure: nodes of `K` not visited yet. -/
def left (K : List Str) (v : List Str) : Nat := (K.filter fun p => p ∉ v).length

theorem left_mono {K v v' : List Str} (h : ∀ x ∈ v, x ∈ v') : left K v' ≤ left K v := by
  unfold left
  induction K with
  | nil => simp
  | cons k K ih =>
    by_cases hk : k ∈ v
    · have := h k hk
      simpa [hk, this] using ih
    · by_cases hk' : k ∈ v'
      · simp only [List.filter_cons, hk', hk, not_true_eq_false, decide_false, not_false_eq_true,
          decide_true, ↓reduceIte, List.length_cons, Bool.false_eq_true]
        omega
      · simp only [List.filter_cons, hk', hk, not_false_eq_true, decide_true, ↓reduceIte,
          List.length_cons]
        omega

theorem left_cons {K v : List Str} {p : Str} (hp : p ∈ K) (hv : p ∉ v) :
    left K (p :: v) < left K v := by
  unfold left
  induction K with
  | nil => simp at hp
  | cons k K ih =>
    by_cases hkp : k = p
    · subst hkp
      have : (K.filter fun q => q ∉ k :: v).length ≤ (K.filter fun q => q ∉ v).length :=
        left_mono (K := K) (v := v) (v' := k :: v) (fun x hx => by simp [hx])
      simp only [List.filter_cons, List.mem_cons, true_or, not_true_eq_false, decide_false,
        Bool.false_eq_true, ↓reduceIte, hv, not_false_eq_true, decide_true, List.length_cons]
      simp only [List.mem_cons] at this
      omega
    · have hp' : p ∈ K := by
        rcases List.mem_cons.1 hp with h | h
        · exact absurd h.symm hkp
        · exact h
      have ih := ih hp'
      simp only [List.mem_cons] at ih
      by_cases hk : k ∈ v
      · simp only [List.filter_cons, List.mem_cons, hkp, hk, or_true, not_true_eq_false,
          decide_false, Bool.false_eq_true, ↓reduceIte]
        exact ih
      · simp only [List.filter_cons, List.mem_cons, hkp, hk, or_self, not_false_eq_true,
          decide_true, ↓reduceIte, List.length_cons]
        omega

/-- With enough fuel a search finishes and has its effect. -/
theorem dfs_post (K : List Str) (hK : ∀ p, known p = true → p ∈ K) : ∀ (n : Nat) (p : Str)
    (s : List Str × List Str), left K s.1 < n →
    ∃ s' g, dfs known succ n p s = some s' ∧ Post known succ [p] s s' g
  | 0, p, s, h => by omega
  | n + 1, p, s, h => by
    have hlist : ∀ (ps : List Str) (s : List Str × List Str), left K s.1 < n →
        ∃ s' g, ps.foldlM (fun s q => dfs known succ n q s) s = some s' ∧
          Post known succ ps s s' g := by
      intro ps
      induction ps with
      | nil => intro s _; exact ⟨s, [], rfl, Post.nil s⟩
      | cons q ps ih =>
        intro s hs
        obtain ⟨s₁, g₁, e₁, h₁⟩ := dfs_post K hK n q s hs
        have hm : left K s₁.1 < n :=
          Nat.lt_of_le_of_lt (left_mono fun x hx => (h₁.vis x).2 (.inl hx)) hs
        obtain ⟨s₂, g₂, e₂, h₂⟩ := ih s₁ hm
        refine ⟨s₂, g₁ ++ g₂, ?_, ?_⟩
        · rw [List.foldlM_cons, e₁]
          exact e₂
        · exact h₁.append h₂
    unfold dfs
    cases hk : known p with
    | false =>
      refine ⟨s, [], by simp, ?_⟩
      exact
        { ext := by simp
          nodup := by simp
          vis := by simp
          fresh := by simp
          isKnown := by simp
          reach := by simp
          done := by
            intro q hq hkq
            rw [List.mem_singleton] at hq
            rw [hq, hk] at hkq
            simp at hkq
          closed := by simp
          order := by
            intro _ a x b h
            simp at h }
    | true =>
      by_cases hv : p ∈ s.1
      · refine ⟨s, [], by simp [hv], ?_⟩
        exact
          { ext := by simp
            nodup := by simp
            vis := by simp
            fresh := by simp
            isKnown := by simp
            reach := by simp
            done := by
              intro q hq _
              rw [List.mem_singleton] at hq
              exact hq ▸ hv
            closed := by simp
            order := by
              intro _ a x b h
              simp at h }
      · have hm : left K (p :: s.1) < n := by
          have := left_cons (hK p hk) hv
          omega
        obtain ⟨s', g, e, hp⟩ := hlist (succ p) (p :: s.1, s.2) hm
        refine ⟨(s'.1, s'.2 ++ [p]), g ++ [p], ?_, ?_⟩
        · simp only [↓reduceIte, hv]
          rw [e]
          rfl
        · have hpg : p ∉ g := fun hg => hp.fresh p hg (by simp)
          exact
            { ext := by
                show s'.2 ++ [p] = s.2 ++ (g ++ [p])
                rw [hp.ext]
                simp
              nodup := by
                rw [List.nodup_append]
                refine ⟨hp.nodup, by simp, ?_⟩
                intro x hx y hy e'
                rw [List.mem_singleton] at hy
                subst hy
                subst e'
                exact hpg hx
              vis := by
                intro x
                show x ∈ s'.1 ↔ _
                rw [hp.vis]
                simp only [List.mem_cons, List.mem_append, List.not_mem_nil, or_false]
                constructor
                · rintro ((h | h) | h)
                  · exact .inr (.inr h)
                  · exact .inl h
                  · exact .inr (.inl h)
                · rintro (h | h | h)
                  · exact .inl (.inr h)
                  · exact .inr h
                  · exact .inl (.inl h)
              fresh := by
                intro x hx hs
                rcases List.mem_append.1 hx with hx | hx
                · exact hp.fresh x hx (by simp [hs])
                · rw [List.mem_singleton] at hx
                  exact hv (hx ▸ hs)
              isKnown := by
                intro x hx
                rcases List.mem_append.1 hx with hx | hx
                · exact hp.isKnown x hx
                · rw [List.mem_singleton] at hx
                  exact hx ▸ hk
              reach := by
                intro x hx
                refine ⟨p, by simp, hk, ?_⟩
                rcases List.mem_append.1 hx with hx' | hx'
                · obtain ⟨q, hq, hpath⟩ := hp.reach x hx'
                  exact Path.head hq hpath.1 hpath.2
                · rw [List.mem_singleton] at hx'
                  subst hx'
                  exact Path.refl x
              done := by
                intro q hq _
                rw [List.mem_singleton] at hq
                subst hq
                exact (hp.vis _).2 (.inl (by simp))
              closed := by
                intro x hx q hq hkq
                rcases List.mem_append.1 hx with hx' | hx'
                · exact hp.closed x hx' q hq hkq
                · rw [List.mem_singleton] at hx'
                  subst hx'
                  exact hp.done q hq hkq
              order := by
                intro hgray a x b hab q hq hkq
                have hgray' : ∀ y ∈ p :: s.1, y ∉ s.2 → ∀ r ∈ succ p, known r = true →
                    Path known succ y r := by
                  intro y hy hn r hr hkr
                  rcases List.mem_cons.1 hy with rfl | hy
                  · exact Path.step (Path.refl _) hr hkr
                  · exact Path.step (hgray y hy hn p (by simp) hk) hr hkr
                rcases append_cons_split hab with ⟨b', hb⟩ | ⟨a', rfl, hb⟩
                · exact hp.order hgray' a x b' hb q hq hkq
                · have hx : a' = [] ∧ p = x := by
                    cases a' with
                    | nil => simp at hb; exact ⟨rfl, hb.1⟩
                    | cons y a' => simp at hb
                  obtain ⟨rfl, rfl⟩ := hx
                  have hqv := hp.done q hq hkq
                  rcases (hp.vis q).1 hqv with h | h
                  · rcases List.mem_cons.1 h with rfl | h
                    · exact .inr (.inr (Path.refl _))
                    · by_cases hf : q ∈ s.2
                      · exact .inl hf
                      · exact .inr (.inr (hgray q h hf p (by simp) hk))
                  · exact .inr (.inl (by simp [h])) }

/-- A search from a list of nodes. -/
theorem dfs_list_post (K : List Str) (hK : ∀ p, known p = true → p ∈ K) (n : Nat) :
    ∀ (ps : List Str) (s : List Str × List Str), left K s.1 < n →
    ∃ s' g, ps.foldlM (fun s q => dfs known succ n q s) s = some s' ∧ Post known succ ps s s' g := by
  intro ps
  induction ps with
  | nil => intro s _; exact ⟨s, [], rfl, Post.nil s⟩
  | cons q ps ih =>
    intro s hs
    obtain ⟨s₁, g₁, e₁, h₁⟩ := dfs_post (succ := succ) K hK n q s hs
    have hm : left K s₁.1 < n :=
      Nat.lt_of_le_of_lt (left_mono fun x hx => (h₁.vis x).2 (.inl hx)) hs
    obtain ⟨s₂, g₂, e₂, h₂⟩ := ih s₁ hm
    refine ⟨s₂, g₁ ++ g₂, ?_, h₁.append h₂⟩
    rw [List.foldlM_cons, e₁]
    exact e₂

theorem left_le (K v : List Str) : left K v ≤ K.length := List.length_filter_le _ _

/-- The result of a search from the beginning: no repetition, exactly the reachable known nodes, and
every node comes after its successors unless they lead back to it. -/
theorem dfs_top (K : List Str) (hK : ∀ p, known p = true → p ∈ K) (ps : List Str) :
    ∃ v f, ps.foldlM (fun s q => dfs known succ (K.length + 1) q s) ([], []) = some (v, f) ∧
      f.Nodup ∧
      (∀ x, x ∈ f ↔ ∃ p ∈ ps, known p = true ∧ Path known succ p x) ∧
      (∀ a x b, f = a ++ x :: b → ∀ q ∈ succ x, known q = true → q ∈ a ∨ Path known succ q x) := by
  obtain ⟨s', g, e, h⟩ := dfs_list_post (succ := succ) K hK (K.length + 1) ps ([], [])
    (Nat.lt_succ_of_le (left_le K []))
  have hf : s'.2 = g := by simpa using h.ext
  have hv : ∀ x, x ∈ s'.1 ↔ x ∈ g := by intro x; simpa using h.vis x
  refine ⟨s'.1, s'.2, e, hf ▸ h.nodup, ?_, ?_⟩
  · intro x
    rw [hf]
    constructor
    · exact h.reach x
    · rintro ⟨p, hp, hk, hpath⟩
      induction hpath with
      | refl => exact (hv p).1 (h.done p hp hk)
      | step _ hs hk' ih => exact (hv _).1 (h.closed _ ih _ hs hk')
  · intro a x b hab q hq hk
    rw [hf] at hab
    have := h.order (by simp) a x b hab q hq hk
    simpa using this

end Cbindgen.Dfs
