import Verif.Model.Load
import Verif.Spec.IntLit

/-!
# C29: integer constants keep their value
-/

namespace Cbindgen

open PrimSpec IntSpec

theorem natStr_value (n : Nat) :
    (natStr n).foldl (fun a c => 10 * a + (c.toNat - '0'.toNat)) 0 = n :=
  @Nat.ofDigitChars_ten_toDigits n

theorem natStr_digits (n : Nat) : ∀ c ∈ natStr n, c.isDigit = true :=
  fun _ hc => Nat.isDigit_of_mem_toDigits (by omega) (by omega) hc

theorem natStr_ne_nil (n : Nat) : natStr n ≠ [] := Nat.toDigits_ne_nil

theorem digitChar_ne_zero {n : Nat} (h : n < 10) (h0 : n ≠ 0) : n.digitChar ≠ '0' := by
  match n, h, h0 with
  | 1, _, _ | 2, _, _ | 3, _, _ | 4, _, _ | 5, _, _ | 6, _, _ | 7, _, _ | 8, _, _ | 9, _, _ => decide

theorem natStr_head {n : Nat} (h : n ≠ 0) : (natStr n).head? ≠ some '0' := by
  induction n using Nat.strongRecOn with
  | ind n ih =>
    unfold natStr at *
    by_cases hn : n < 10
    · rw [Nat.toDigits_of_lt_base hn]
      simp only [List.head?_cons, ne_eq, Option.some.injEq]
      exact digitChar_ne_zero hn h
    · rw [Nat.toDigits_of_base_le (by omega) (by omega)]
      have h1 : n / 10 ≠ 0 := by omega
      have := ih (n / 10) (by omega) h1
      have hne := @Nat.toDigits_ne_nil (n / 10) 10
      cases hd : Nat.toDigits 10 (n / 10) with
      | nil => exact absurd hd hne
      | cons c cs => rw [hd] at this; simpa using this

/-- The text written for a number is its decimal constant. -/
theorem natStr_constant (n : Nat) (suffix : Str) : IsConstant (natStr n ++ suffix) n suffix := by
  refine ⟨natStr n, rfl, natStr_ne_nil n, natStr_digits n, ?_, natStr_value n⟩
  intro h
  by_cases hn : n = 0
  · subst hn; rfl
  · exact absurd h (natStr_head hn)

theorem find_holds {ts : List (Nat × Bool)} {t : Nat × Bool} {n : Nat} (h : t ∈ ts) (ht : Holds t n) :
    ∃ r, ts.find? (fun t => decide (Holds t n)) = some r ∧ Holds r n := by
  cases hf : ts.find? (fun t => decide (Holds t n)) with
  | some r => exact ⟨r, rfl, by simpa using List.find?_some hf⟩
  | none =>
    have := List.find?_eq_none.1 hf t h
    exact absurd ht (by simpa using this)

theorem pow_le_of_le {a b : Nat} (h : a ≤ b) : 2 ^ a ≤ 2 ^ b := Nat.pow_le_pow_right (by omega) h

/-- An integer literal below 2^64 (below 2^63 with the suffix `i64`) is written as the C constant of the
same value, and its suffix gives it a type that holds it. -/
theorem C29_integer_literal_partial (p : Platform) (hp : Standard p) (n : Nat) (suffix : Str)
    (hn : n < 2 ^ 64) (h64 : suffix = c!"i64" → n < 2 ^ 63) :
    ∃ t s ty, SynLit.load (.int n suffix) = .ok t ∧ IsConstant t n s ∧ constType p n s = some ty ∧
      Holds ty n := by
  obtain ⟨_, _, _, _, h5⟩ := hp
  have hsig : n < 2 ^ 63 → Holds (p.longlong, true) n := by
    intro h
    have := pow_le_of_le (show 63 ≤ p.longlong - 1 by omega)
    simp only [Holds, if_true]
    omega
  have huns : Holds (p.longlong, false) n := by
    have := pow_le_of_le h5
    simp only [Holds, Bool.false_eq_true, if_false]
    omega
  have main : ∃ ts t, candidates p (intSuffix n suffix) = some ts ∧ t ∈ ts ∧ Holds t n := by
    unfold intSuffix
    split
    · exact ⟨_, (p.longlong, false), rfl, by simp, huns⟩
    · split
      · rename_i hs
        exact ⟨_, (p.longlong, true), rfl, by simp, hsig (h64 hs)⟩
      · split
        · exact ⟨_, (p.longlong, false), rfl, by simp, huns⟩
        · split
          · exact ⟨_, (p.longlong, false), rfl, by simp, huns⟩
          · rename_i hlt
            exact ⟨_, (p.longlong, true), rfl, by simp, hsig (by omega)⟩
  obtain ⟨ts, t, h1, h2, h3⟩ := main
  obtain ⟨r, h4, h5⟩ := find_holds h2 h3
  exact ⟨_, intSuffix n suffix, r, rfl, natStr_constant n _, by simp only [constType, h1, Option.bind_some, h4], h5⟩

/-- A literal with a suffix has a C type with that sign and, if it is `i64` or `u64`, with at least 64 bits on all platforms;
with `u32` at least 32 bits where an `int` has as many. -/
theorem C29_suffix_type (p : Platform) (hp : Standard p) (n : Nat) :
    (∃ t s, SynLit.load (.int n c!"u64") = .ok t ∧ IsConstant t n s ∧ ∀ ty, constType p n s = some ty → 64 ≤ ty.1 ∧ ty.2 = false) ∧
    (∃ t s, SynLit.load (.int n c!"i64") = .ok t ∧ IsConstant t n s ∧ ∀ ty, constType p n s = some ty → 64 ≤ ty.1 ∧ ty.2 = true) ∧
    (∃ t s, SynLit.load (.int n c!"u32") = .ok t ∧ IsConstant t n s ∧ ∀ ty, constType p n s = some ty →
      (32 ≤ p.int → 32 ≤ ty.1) ∧ ty.2 = false) := by
  obtain ⟨h1, h2, h3, h4, h5⟩ := hp
  have mem : ∀ {s : Str} {ty : Nat × Bool} {ts : List (Nat × Bool)}, candidates p s = some ts → constType p n s = some ty → ty ∈ ts := by
    intro s ty ts h h'
    rw [constType, h, Option.bind_some] at h'
    exact List.mem_of_find?_eq_some h'
  refine ⟨⟨_, c!"ull", rfl, natStr_constant n _, fun ty ht => ?_⟩, ⟨_, c!"ll", rfl, natStr_constant n _, fun ty ht => ?_⟩,
    ⟨_, c!"u", rfl, natStr_constant n _, fun ty ht => ?_⟩⟩
  · obtain rfl := List.mem_singleton.1 (mem (ts := [(p.longlong, false)]) rfl ht)
    exact ⟨h5, rfl⟩
  · obtain rfl := List.mem_singleton.1 (mem (ts := [(p.longlong, true)]) rfl ht)
    exact ⟨h5, rfl⟩
  · have := mem (ts := [(p.int, false), (p.long, false), (p.longlong, false)]) rfl ht
    simp only [List.mem_cons, List.not_mem_nil, or_false] at this
    rcases this with rfl | rfl | rfl
    · exact ⟨id, rfl⟩
    · exact ⟨fun h => Nat.le_trans h h2, rfl⟩
    · exact ⟨fun h => Nat.le_trans h (Nat.le_trans h2 h4), rfl⟩

/-- Widths of 64-bit Linux. -/
def linux64 : Platform :=
  { short := 16, int := 32, long := 64, longlong := 64, ptr := 64, size := 64, ptrdiff := 64,
    charSigned := true }

/-- A literal of 2^64 is written with a suffix that gives it no type at all. -/
theorem C29_big_literal_has_no_type :
    SynLit.load (.int (2 ^ 64) c!"u128") = .ok c!"18446744073709551616ull" ∧
    constType linux64 (2 ^ 64) c!"ull" = none := ⟨rfl, by decide +kernel⟩

/-- In `-9223372036854775808i64` the literal is written with the suffix `ll`, but 2^63 is no `long long`. -/
theorem C29_i64_min_has_no_type :
    SynLit.load (.int (2 ^ 63) c!"i64") = .ok c!"9223372036854775808ll" ∧
    constType linux64 (2 ^ 63) c!"ll" = none := ⟨rfl, by decide +kernel⟩

/-- Without suffix it is written as `-9223372036854775808ull`, which in C is positive. -/
theorem C29_i64_min_is_positive :
    SynExpr.load id (.unary .neg (.lit (.int (2 ^ 63) []))) =
      .ok (.unary c!"-" (.expr c!"9223372036854775808ull")) ∧
    ∃ ty, constType linux64 (2 ^ 63) c!"ull" = some ty ∧ negValue ty (2 ^ 63) = 2 ^ 63 :=
  ⟨rfl, (64, false), by decide +kernel, by decide +kernel⟩

/-- The biggest `u64`, and 0, which is not octal. -/
theorem C29_integer_literal_case :
    SynLit.load (.int (2 ^ 64 - 1) []) = .ok c!"18446744073709551615ull" ∧
    constType linux64 (2 ^ 64 - 1) c!"ull" = some (64, false) ∧
    SynLit.load (.int 0 c!"u32") = .ok c!"0u" ∧ constType linux64 0 c!"u" = some (32, false) :=
  ⟨rfl, by decide +kernel, rfl, by decide +kernel⟩

end Cbindgen
