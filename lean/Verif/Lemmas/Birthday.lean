import Mathlib.Data.Fintype.CardEmbedding
import Mathlib.Tactic.Ring
import Mathlib.Tactic.Linarith
import Mathlib.SetTheory.Cardinal.Finite
/-!
# Counting draws without a repetition
-/

namespace SV2.Birthday

/-- `n` draws out of `N` that are all different. -/
theorem card_distinct (n N : Nat) :
    Nat.card {d : Fin n → Fin N // Function.Injective d} = N.descFactorial n := by
  rw [Nat.card_eq_fintype_card, Fintype.card_congr (Equiv.subtypeInjectiveEquivEmbedding (Fin n) (Fin N)),
    Fintype.card_embedding_eq, Fintype.card_fin, Fintype.card_fin]

/-- The product of `N - lo - i` for `i < 2 ^ d`, by halves. -/
def halves (N : Nat) : Nat → Nat → Nat
  | 0, lo => N - lo
  | d + 1, lo => halves N d lo * halves N d (lo + 2 ^ d)

theorem descFactorial_add (N a b : Nat) :
    N.descFactorial (a + b) = N.descFactorial a * (N - a).descFactorial b := by
  induction b with
  | zero => simp
  | succ b ih =>
    rw [← Nat.add_assoc, Nat.descFactorial_succ, ih, Nat.descFactorial_succ, Nat.sub_sub]
    ring

theorem halves_eq (N d : Nat) : ∀ lo, halves N d lo = (N - lo).descFactorial (2 ^ d) := by
  induction d with
  | zero => intro lo; rw [halves, Nat.pow_zero, Nat.descFactorial_one]
  | succ d ih =>
    intro lo
    rw [halves, ih, ih, Nat.pow_succ, Nat.mul_two, descFactorial_add, Nat.sub_sub]

/-- By the inequality of the means, factor by factor from both ends. -/
theorem desc_le (N : Nat) : ∀ n, n ≤ N + 1 → 2 ^ n * N.descFactorial n ≤ (2 * N - (n - 1)) ^ n
  | 0, _ => by simp
  | 1, _ => by simp
  | n + 2, h => by
    have ih := desc_le (N - 1) n (by omega)
    have e1 : N.descFactorial (n + 2) = N * (N - 1).descFactorial n * (N - (n + 1)) := by
      rw [Nat.descFactorial_succ (n := N) (k := n + 1), Nat.add_comm n 1, descFactorial_add, Nat.descFactorial_one]
      ring
    rcases Nat.lt_or_ge N 1 with h0 | h0
    · have : N = 0 := by omega
      subst this
      simp at h
    have e2 : 2 * (N - 1) - (n - 1) ≤ 2 * N - (n + 1) := by omega
    have e3 : 4 * (N * (N - (n + 1))) ≤ (2 * N - (n + 1)) ^ 2 := by
      obtain ⟨m, rfl⟩ : ∃ m, N = m + (n + 1) := ⟨N - (n + 1), by omega⟩
      have : 2 * (m + (n + 1)) - (n + 1) = 2 * m + (n + 1) := by omega
      rw [this, Nat.add_sub_cancel]
      nlinarith [Nat.zero_le ((n + 1) * (n + 1))]
    have e4 : n + 2 - 1 = n + 1 := rfl
    rw [e1, e4]
    calc 2 ^ (n + 2) * (N * (N - 1).descFactorial n * (N - (n + 1)))
        = (2 ^ n * (N - 1).descFactorial n) * (4 * (N * (N - (n + 1)))) := by ring
      _ ≤ (2 * N - (n + 1)) ^ n * (2 * N - (n + 1)) ^ 2 :=
        Nat.mul_le_mul (ih.trans (Nat.pow_le_pow_left e2 n)) e3
      _ = (2 * N - (n + 1)) ^ (n + 2) := by ring

/-- More draws, fewer without a repetition. -/
theorem half_mono (N n m : Nat) (h : n ≤ m) (hN : 0 < N) (hn : 2 * N.descFactorial n < N ^ n) :
    2 * N.descFactorial m < N ^ m := by
  induction m, h using Nat.le_induction with
  | base => exact hn
  | succ m _ ih =>
    rw [Nat.descFactorial_succ, pow_succ]
    calc 2 * ((N - m) * N.descFactorial m) = (2 * N.descFactorial m) * (N - m) := by ring
      _ ≤ (2 * N.descFactorial m) * N := Nat.mul_le_mul_left _ (Nat.sub_le _ _)
      _ < N ^ m * N := Nat.mul_lt_mul_of_pos_right ih hN

theorem lt_of_means (N n : Nat) (hn : n ≤ N + 1) (h : 2 * (2 * N - (n - 1)) ^ n < (2 * N) ^ n) :
    2 * N.descFactorial n < N ^ n := by
  rw [mul_pow] at h
  have h3 : 2 ^ n * (2 * N.descFactorial n) < 2 ^ n * N ^ n := by
    rw [Nat.mul_left_comm]
    exact (Nat.mul_le_mul_left 2 (desc_le N n hn)).trans_lt h
  exact Nat.lt_of_mul_lt_mul_left h3

theorem many : 2 * (2 ^ 32 - 1 : Nat).descFactorial 77164 < (2 ^ 32 - 1) ^ 77164 :=
  lt_of_means _ _ (by decide +kernel) (by decide +kernel)

/-- The product of `N - lo - i` for all `i` less than the sum of the powers. -/
def blocks (N : Nat) : List Nat → Nat → Nat
  | [], _ => 1
  | d :: ds, lo => halves N d lo * blocks N ds (lo + 2 ^ d)

theorem blocks_eq (N : Nat) (ds : List Nat) : ∀ lo,
    blocks N ds lo = (N - lo).descFactorial (ds.map (2 ^ ·)).sum := by
  induction ds with
  | nil => intro lo; simp [blocks]
  | cons d ds ih =>
    intro lo
    rw [blocks, ih, halves_eq, List.map_cons, List.sum_cons, descFactorial_add, Nat.sub_sub]

theorem le_of_blocks (N n : Nat) (ds : List Nat) (hn : (ds.map (2 ^ ·)).sum = n) (h : N ^ n ≤ 2 * blocks N ds 0) :
    N ^ n ≤ 2 * N.descFactorial n := by
  rw [blocks_eq, hn] at h
  exact h

theorem few : (2 ^ 32 - 1) ^ 77163 ≤ 2 * (2 ^ 32 - 1 : Nat).descFactorial 77163 :=
  le_of_blocks _ _ [16, 13, 11, 10, 8, 6, 5, 3, 1, 0] (by decide +kernel) (by decide +kernel)

/-- Exactly half of the draws. -/
theorem half_iff (n : Nat) : 2 * (2 ^ 32 - 1 : Nat).descFactorial n < (2 ^ 32 - 1) ^ n ↔ 77164 ≤ n := by
  refine ⟨fun h => ?_, fun h => half_mono _ _ _ h (by decide) many⟩
  by_contra hn
  have := half_mono _ _ 77163 (by omega) (by decide) h
  exact absurd few (Nat.not_le.mpr this)

/-- At least `1 - n (n - 1) / (2 N)` of the draws are without a repetition. -/
theorem bound (N n : Nat) : 2 * N * N ^ n ≤ 2 * N * N.descFactorial n + n * (n - 1) * N ^ n := by
  induction n with
  | zero => simp
  | succ n ih =>
    have h1 : N.descFactorial n ≤ N ^ n := Nat.descFactorial_le_pow N n
    have h2 : N ≤ (N - n) + n := by omega
    have h3 : n * (n - 1) + 2 * n = (n + 1) * n := by
      cases n with
      | zero => rfl
      | succ n => rw [Nat.add_sub_cancel]; ring
    rw [Nat.descFactorial_succ, Nat.add_sub_cancel, pow_succ]
    calc 2 * N * (N ^ n * N) = (2 * N * N ^ n) * N := by ring
      _ ≤ (2 * N * N.descFactorial n + n * (n - 1) * N ^ n) * N := Nat.mul_le_mul_right _ ih
      _ = 2 * N * N.descFactorial n * N + n * (n - 1) * (N ^ n * N) := by ring
      _ ≤ 2 * N * N.descFactorial n * ((N - n) + n) + n * (n - 1) * (N ^ n * N) :=
        Nat.add_le_add_right (Nat.mul_le_mul_left _ h2) _
      _ = 2 * N * ((N - n) * N.descFactorial n) + (2 * n * N * N.descFactorial n + n * (n - 1) * (N ^ n * N)) := by ring
      _ ≤ 2 * N * ((N - n) * N.descFactorial n) + (2 * n * N * N ^ n + n * (n - 1) * (N ^ n * N)) :=
        Nat.add_le_add_left (Nat.add_le_add_right (Nat.mul_le_mul_left _ h1) _) _
      _ = 2 * N * ((N - n) * N.descFactorial n) + (n * (n - 1) + 2 * n) * (N ^ n * N) := by ring
      _ = 2 * N * ((N - n) * N.descFactorial n) + (n + 1) * n * (N ^ n * N) := by rw [h3]

end SV2.Birthday
