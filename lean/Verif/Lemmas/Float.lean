import Verif.Model.Types
import Verif.Spec.Ieee
/-!
# Lemmas on `f32`: the bit masks of the model against the fields of IEEE 754
-/

namespace SV2

theorem and_exponent (n : Nat) : n &&& 0x7F800000 = n / 2 ^ 23 % 2 ^ 8 * 2 ^ 23 := by
  have h1 : (n &&& 0x7F800000) / 2 ^ 23 = n / 2 ^ 23 % 2 ^ 8 := by
    rw [Nat.and_div_two_pow]
    exact Nat.and_two_pow_sub_one_eq_mod (n / 2 ^ 23) 8
  have h2 : (n &&& 0x7F800000) % 2 ^ 23 = 0 := by
    rw [Nat.and_mod_two_pow]
    simp
  omega

theorem F32.isNaN_iff (x : F32) : x.isNaN = true ↔ Ieee.IsNaN x.bits.toNat := by
  unfold F32.isNaN Ieee.IsNaN Ieee.exponent Ieee.fraction
  have h1 : ((x.bits &&& 0x7F800000) == 0x7F800000) = true ↔ x.bits.toNat / 2 ^ 23 % 2 ^ 8 = 255 := by
    rw [beq_iff_eq, ← UInt32.toNat_inj, UInt32.toNat_and, show (0x7F800000 : UInt32).toNat = 0x7F800000 from rfl,
      and_exponent]
    omega
  have h2 : ((x.bits &&& 0x007FFFFF) != 0) = true ↔ x.bits.toNat % 2 ^ 23 ≠ 0 := by
    rw [bne_iff_ne, ne_eq, ne_eq, ← UInt32.toNat_inj, UInt32.toNat_and,
      show (0x007FFFFF : UInt32).toNat = 2 ^ 23 - 1 from rfl, Nat.and_two_pow_sub_one_eq_mod]
    rfl
  rw [Bool.and_eq_true, h1, h2]

theorem F32.isZero_iff (x : F32) : x.isZero = true ↔ x.bits.toNat % 2 ^ 31 = 0 := by
  unfold F32.isZero
  rw [beq_iff_eq, ← UInt32.toNat_inj, UInt32.toNat_and,
      show (0x7FFFFFFF : UInt32).toNat = 2 ^ 31 - 1 from rfl, Nat.and_two_pow_sub_one_eq_mod]
  rfl

/-- The magnitude grows strictly with the low 31 bits. -/
theorem Ieee.magnitude_lt {a b : Nat} (h : a % 2 ^ 31 < b % 2 ^ 31) : magnitude a < magnitude b := by
  unfold magnitude exponent fraction
  have e : a / 2 ^ 23 % 2 ^ 8 < b / 2 ^ 23 % 2 ^ 8 ∨
      (a / 2 ^ 23 % 2 ^ 8 = b / 2 ^ 23 % 2 ^ 8 ∧ a % 2 ^ 23 < b % 2 ^ 23) := by omega
  have hf : a % 2 ^ 23 < 2 ^ 23 := Nat.mod_lt _ (by decide)
  generalize a / 2 ^ 23 % 2 ^ 8 = ea at e ⊢
  generalize b / 2 ^ 23 % 2 ^ 8 = eb at e ⊢
  generalize a % 2 ^ 23 = fa at e hf ⊢
  generalize b % 2 ^ 23 = fb at e ⊢
  rcases e with e | ⟨rfl, e⟩
  · rw [if_neg (by omega : ¬ eb = 0)]
    split
    · exact Nat.lt_of_lt_of_le (by omega) (Nat.le_mul_of_pos_right _ (Nat.two_pow_pos _))
    · calc (2 ^ 23 + fa) * 2 ^ (ea - 1) < (2 ^ 23 * 2) * 2 ^ (ea - 1) :=
            Nat.mul_lt_mul_of_pos_right (by omega) (Nat.two_pow_pos _)
        _ = 2 ^ 23 * 2 ^ (ea - 1 + 1) := by rw [Nat.pow_succ 2 (ea - 1), Nat.mul_assoc, Nat.mul_comm 2 (2 ^ (ea - 1))]
        _ ≤ 2 ^ 23 * 2 ^ (eb - 1) := Nat.mul_le_mul_left _ (Nat.pow_le_pow_right (by decide) (by omega))
        _ ≤ _ := Nat.mul_le_mul_right _ (by omega)
  · split
    · exact e
    · exact Nat.mul_lt_mul_of_pos_right (by omega) (Nat.two_pow_pos _)

theorem Ieee.magnitude_eq {a b : Nat} : magnitude a = magnitude b ↔ a % 2 ^ 31 = b % 2 ^ 31 := by
  constructor
  · intro h
    rcases Nat.lt_trichotomy (a % 2 ^ 31) (b % 2 ^ 31) with g | g | g
    · have := magnitude_lt g; omega
    · exact g
    · have := magnitude_lt g; omega
  · intro h
    unfold magnitude exponent fraction
    rw [show a / 2 ^ 23 % 2 ^ 8 = b / 2 ^ 23 % 2 ^ 8 by omega, show a % 2 ^ 23 = b % 2 ^ 23 by omega]

theorem Ieee.magnitude_zero {a : Nat} : magnitude a = 0 ↔ a % 2 ^ 31 = 0 := by
  have h0 : magnitude 0 = 0 := by decide
  have := magnitude_eq (a := a) (b := 0)
  rw [h0] at this
  exact this

theorem F32.rustEq_iff (x y : F32) : x.rustEq y = true ↔ Ieee.Equal x.bits.toNat y.bits.toNat := by
  unfold F32.rustEq Ieee.Equal
  rw [Bool.and_eq_true, Bool.and_eq_true, Bool.or_eq_true, Bool.and_eq_true, F32.isZero_iff, F32.isZero_iff,
    Bool.not_eq_true', Bool.not_eq_true', ← Bool.not_eq_true, ← Bool.not_eq_true, F32.isNaN_iff, F32.isNaN_iff,
    beq_iff_eq, ← UInt32.toNat_inj, and_assoc]
  have hx := x.bits.toNat_lt
  have hy := y.bits.toNat_lt
  generalize x.bits.toNat = a at *
  generalize y.bits.toNat = b at *
  refine and_congr_right fun _ => and_congr_right fun _ => ?_
  unfold Ieee.value
  have hm := Ieee.magnitude_eq (a := a) (b := b)
  have ha := Ieee.magnitude_zero (a := a)
  have hb := Ieee.magnitude_zero (a := b)
  generalize Ieee.magnitude a = ma at *
  generalize Ieee.magnitude b = mb at *
  split <;> split <;> omega

end SV2
