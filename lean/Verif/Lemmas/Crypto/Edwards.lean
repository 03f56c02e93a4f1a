import Mathlib.Algebra.Field.Basic
import Mathlib.Algebra.Group.Even
import Mathlib.Tactic.LinearCombination
import Mathlib.Tactic.FieldSimp
import Mathlib.Tactic.Ring
/-!
# Twisted Edwards curves

The points of `-x² + y² = 1 + d x² y²` over a field with a square root of -1, for `d` not a square, are a commutative
group under the addition formula of RFC 8032, 5.1.  The cofactors in the polynomial identities were found by division.
-/

namespace SV2.Crypto.Edwards

/-- The field has a square root of -1, and `d` is not a square. -/
structure Curve (F : Type) [Field F] where
  d : F
  i : F
  i_sq : i ^ 2 = -1
  nonsquare : ¬ IsSquare d
  two : (2 : F) ≠ 0

variable {F : Type} [Field F]

/-- A point of the curve. -/
@[ext] structure Point (C : Curve F) where
  x : F
  y : F
  on : y ^ 2 - x ^ 2 = 1 + C.d * x ^ 2 * y ^ 2

theorem den_aux (C : Curve F) (x₁ y₁ x₂ y₂ s e : F) (h₁ : y₁ ^ 2 - x₁ ^ 2 = 1 + C.d * x₁ ^ 2 * y₁ ^ 2)
    (h₂ : y₂ ^ 2 - x₂ ^ 2 = 1 + C.d * x₂ ^ 2 * y₂ ^ 2) (he : e ^ 2 = 1) (ht : C.d * x₁ * x₂ * y₁ * y₂ = e)
    (hs : s ^ 2 = -1) (hne : s * x₂ + y₂ ≠ 0) : False := by
  have h0 : e ≠ 0 := by
    intro h
    rw [h] at he
    simp at he
  have hx : x₁ ≠ 0 := by
    intro h; apply h0; rw [← ht, h]; ring
  have hy : y₁ ≠ 0 := by
    intro h; apply h0; rw [← ht, h]; ring
  apply C.nonsquare
  refine ⟨(s * x₁ + e * y₁) / (x₁ * y₁ * (s * x₂ + y₂)), ?_⟩
  have key : C.d * (x₁ * y₁ * (s * x₂ + y₂)) ^ 2 = (s * x₁ + e * y₁) ^ 2 := by
    linear_combination (C.d * x₁ ^ 2 * y₁ ^ 2) * h₂ - h₁ - y₁ ^ 2 * he + (C.d * x₁ ^ 2 * y₁ ^ 2 * x₂ ^ 2 - x₁ ^ 2) * hs +
      (C.d * x₁ * x₂ * y₁ * y₂ + e + 2 * s * x₁ * y₁) * ht + he
  field_simp
  linear_combination key

theorem den_ne (C : Curve F) (P Q : Point C) (e : F) (he : e ^ 2 = 1) : C.d * P.x * Q.x * P.y * Q.y ≠ e := by
  intro ht
  by_cases h : C.i * Q.x + Q.y = 0
  · by_cases h' : -C.i * Q.x + Q.y = 0
    · have hy : Q.y = 0 := by
        have : 2 * Q.y = 0 := by linear_combination h + h'
        rcases mul_eq_zero.mp this with h | h
        · exact absurd h C.two
        · exact h
      rw [hy] at ht
      rw [← ht] at he
      simp at he
    · exact den_aux C P.x P.y Q.x Q.y (-C.i) e P.on Q.on he ht (by linear_combination C.i_sq) h'
  · exact den_aux C P.x P.y Q.x Q.y C.i e P.on Q.on he ht C.i_sq h

theorem den_pos (C : Curve F) (P Q : Point C) : 1 + C.d * P.x * Q.x * P.y * Q.y ≠ 0 := by
  intro h
  exact den_ne C P Q (-1) (by ring) (by linear_combination h)

theorem den_neg (C : Curve F) (P Q : Point C) : 1 - C.d * P.x * Q.x * P.y * Q.y ≠ 0 := by
  intro h
  exact den_ne C P Q 1 (by ring) (by linear_combination -h)

theorem closure_aux (d x₁ y₁ x₂ y₂ : F) (h₁ : y₁ ^ 2 - x₁ ^ 2 = 1 + d * x₁ ^ 2 * y₁ ^ 2)
    (h₂ : y₂ ^ 2 - x₂ ^ 2 = 1 + d * x₂ ^ 2 * y₂ ^ 2) :
    (y₁ * y₂ + x₁ * x₂) ^ 2 * (1 + d * x₁ * x₂ * y₁ * y₂) ^ 2 - (x₁ * y₂ + y₁ * x₂) ^ 2 * (1 - d * x₁ * x₂ * y₁ * y₂) ^ 2 =
    (1 + d * x₁ * x₂ * y₁ * y₂) ^ 2 * (1 - d * x₁ * x₂ * y₁ * y₂) ^ 2 +
      d * (x₁ * y₂ + y₁ * x₂) ^ 2 * (y₁ * y₂ + x₁ * x₂) ^ 2 := by
  linear_combination
    (y₂^4 - 4*x₂^2*y₂^2 - 2*x₂^2*y₂^2*d + 2*x₂^2*y₂^4 + x₂^4 - 2*x₂^4*y₂^2 - 2*x₂^4*y₂^4*d - x₂^4*y₂^4*d^2 -
      y₁^2*x₂^2*y₂^4*d + y₁^2*x₂^4*y₂^2*d + y₁^2*x₂^4*y₂^4*d^2 + x₁^2*x₂^2*y₂^4*d - x₁^2*x₂^4*y₂^2*d -
      x₁^2*x₂^4*y₂^4*d^2 + x₁^2*y₁^2*x₂^4*y₂^4*d^3) * h₁ +
    (1 + y₂^2 - x₂^2 + 2*x₂^2*y₂^2 + x₂^2*y₂^2*d - y₁^2*y₂^2 + y₁^2*x₂^2 - 2*y₁^2*x₂^2*y₂^2 - 2*y₁^2*x₂^2*y₂^2*d +
      y₁^4*x₂^2*y₂^2*d + x₁^2*y₂^2 - x₁^2*x₂^2 + 2*x₁^2*x₂^2*y₂^2 + 2*x₁^2*x₂^2*y₂^2*d + x₁^4*x₂^2*y₂^2*d) * h₂

variable {C : Curve F}

/-- RFC 8032, 5.1: the addition formula. -/
def add (P Q : Point C) : Point C where
  x := (P.x * Q.y + P.y * Q.x) / (1 + C.d * P.x * Q.x * P.y * Q.y)
  y := (P.y * Q.y + P.x * Q.x) / (1 - C.d * P.x * Q.x * P.y * Q.y)
  on := by
    have hp := den_pos C P Q
    have hn := den_neg C P Q
    have := closure_aux C.d P.x P.y Q.x Q.y P.on Q.on
    generalize 1 + C.d * P.x * Q.x * P.y * Q.y = b at *
    generalize 1 - C.d * P.x * Q.x * P.y * Q.y = e at *
    field_simp
    linear_combination this

theorem assoc_x (d x₁ y₁ x₂ y₂ x₃ y₃ : F) (h₁ : y₁ ^ 2 - x₁ ^ 2 = 1 + d * x₁ ^ 2 * y₁ ^ 2)
    (h₂ : y₂ ^ 2 - x₂ ^ 2 = 1 + d * x₂ ^ 2 * y₂ ^ 2) (h₃ : y₃ ^ 2 - x₃ ^ 2 = 1 + d * x₃ ^ 2 * y₃ ^ 2) :
    ((x₁ * y₂ + y₁ * x₂) * (1 - d * x₁ * x₂ * y₁ * y₂) * y₃ + (y₁ * y₂ + x₁ * x₂) * (1 + d * x₁ * x₂ * y₁ * y₂) * x₃) *
      ((1 + d * x₂ * x₃ * y₂ * y₃) * (1 - d * x₂ * x₃ * y₂ * y₃) +
        d * (x₂ * y₃ + y₂ * x₃) * (y₂ * y₃ + x₂ * x₃) * x₁ * y₁) =
    (x₁ * (y₂ * y₃ + x₂ * x₃) * (1 + d * x₂ * x₃ * y₂ * y₃) + y₁ * (x₂ * y₃ + y₂ * x₃) * (1 - d * x₂ * x₃ * y₂ * y₃)) *
      ((1 + d * x₁ * x₂ * y₁ * y₂) * (1 - d * x₁ * x₂ * y₁ * y₂) +
        d * (x₁ * y₂ + y₁ * x₂) * (y₁ * y₂ + x₁ * x₂) * x₃ * y₃) := by
  linear_combination
    (-y₁*x₂*y₂^4*x₃^2*y₃*d - y₁*x₂^2*y₂^3*x₃*d - y₁*x₂^2*y₂^3*x₃^3*d - y₁*x₂^3*y₂^2*y₃*d + y₁*x₂^3*y₂^2*y₃^3*d +
      y₁*x₂^3*y₂^4*x₃^2*y₃*d^2 + y₁*x₂^4*y₂*x₃*y₃^2*d + y₁*x₂^4*y₂^3*x₃*y₃^2*d^2 + x₁*x₂*y₂^4*x₃*y₃^2*d -
      x₁*x₂^2*y₂^3*y₃*d + x₁*x₂^2*y₂^3*y₃^3*d - x₁*x₂^3*y₂^2*x₃*d - x₁*x₂^3*y₂^2*x₃^3*d - x₁*x₂^3*y₂^4*x₃*y₃^2*d^2 -
      x₁*x₂^4*y₂*x₃^2*y₃*d - x₁*x₂^4*y₂^3*x₃^2*y₃*d^2) * h₁ +
    (y₁*y₂*x₃ - y₁*y₂*x₃*y₃^2 + y₁*y₂*x₃^3 + y₁*y₂*x₃^3*y₃^2*d + y₁*x₂*y₃ - y₁*x₂*y₃^3 + y₁*x₂*x₃^2*y₃ +
      y₁*x₂*x₃^2*y₃^3*d - y₁*x₂*y₂^2*x₃^2*y₃*d - y₁*x₂^2*y₂*x₃*y₃^2*d - y₁^3*y₂*x₃ + y₁^3*y₂*x₃*y₃^2 - y₁^3*y₂*x₃^3 -
      y₁^3*y₂*x₃^3*y₃^2*d - y₁^3*x₂*y₃ + y₁^3*x₂*y₃^3 - y₁^3*x₂*x₃^2*y₃ - y₁^3*x₂*x₃^2*y₃^3*d + y₁^3*x₂*y₂^2*x₃^2*y₃*d
      + y₁^3*x₂^2*y₂*x₃*y₃^2*d + x₁*y₂*y₃ - x₁*y₂*y₃^3 + x₁*y₂*x₃^2*y₃ + x₁*y₂*x₃^2*y₃^3*d + x₁*x₂*x₃ - x₁*x₂*x₃*y₃^2
      + x₁*x₂*x₃^3 + x₁*x₂*x₃^3*y₃^2*d + x₁*x₂*y₂^2*x₃*y₃^2*d + x₁*x₂^2*y₂*x₃^2*y₃*d - x₁*y₁^2*y₂*y₃ + x₁*y₁^2*y₂*y₃^3
      - x₁*y₁^2*y₂*x₃^2*y₃ - x₁*y₁^2*y₂*x₃^2*y₃^3*d - x₁*y₁^2*x₂*x₃ + x₁*y₁^2*x₂*x₃*y₃^2 - x₁*y₁^2*x₂*x₃^3 -
      x₁*y₁^2*x₂*x₃^3*y₃^2*d - x₁*y₁^2*x₂*y₂^2*x₃*y₃^2*d + x₁*y₁^2*x₂*y₂^2*x₃^3*y₃^2*d^2 - x₁*y₁^2*x₂^2*y₂*x₃^2*y₃*d -
      x₁*y₁^2*x₂^2*y₂*x₃^2*y₃^3*d^2 + x₁^2*y₁*y₂*x₃ - x₁^2*y₁*y₂*x₃*y₃^2 + x₁^2*y₁*y₂*x₃^3 + x₁^2*y₁*y₂*x₃^3*y₃^2*d +
      x₁^2*y₁*x₂*y₃ - x₁^2*y₁*x₂*y₃^3 + x₁^2*y₁*x₂*x₃^2*y₃ + x₁^2*y₁*x₂*x₃^2*y₃^3*d - x₁^2*y₁*x₂*y₂^2*x₃^2*y₃*d -
      x₁^2*y₁*x₂*y₂^2*x₃^2*y₃^3*d^2 - x₁^2*y₁*x₂^2*y₂*x₃*y₃^2*d + x₁^2*y₁*x₂^2*y₂*x₃^3*y₃^2*d^2 + x₁^3*y₂*y₃ -
      x₁^3*y₂*y₃^3 + x₁^3*y₂*x₃^2*y₃ + x₁^3*y₂*x₃^2*y₃^3*d + x₁^3*x₂*x₃ - x₁^3*x₂*x₃*y₃^2 + x₁^3*x₂*x₃^3 +
      x₁^3*x₂*x₃^3*y₃^2*d + x₁^3*x₂*y₂^2*x₃*y₃^2*d + x₁^3*x₂^2*y₂*x₃^2*y₃*d) * h₂ +
    (-y₁*y₂*x₃ + y₁*y₂^3*x₃ - y₁*x₂*y₃ + y₁*x₂*y₂^2*y₃ - y₁*x₂^2*y₂*x₃ - y₁*x₂^3*y₃ + y₁^3*y₂*x₃ - y₁^3*y₂^3*x₃ +
      y₁^3*x₂*y₃ - y₁^3*x₂*y₂^2*y₃ + y₁^3*x₂^2*y₂*x₃ + y₁^3*x₂^3*y₃ - x₁*y₂*y₃ + x₁*y₂^3*y₃ - x₁*x₂*x₃ + x₁*x₂*y₂^2*x₃
      - x₁*x₂^2*y₂*y₃ - x₁*x₂^3*x₃ + x₁*y₁^2*y₂*y₃ - x₁*y₁^2*y₂^3*y₃ + x₁*y₁^2*x₂*x₃ - x₁*y₁^2*x₂*y₂^2*x₃ -
      x₁*y₁^2*x₂*y₂^2*x₃*d + x₁*y₁^2*x₂^2*y₂*y₃ + x₁*y₁^2*x₂^2*y₂*y₃*d + x₁*y₁^2*x₂^3*x₃ - x₁^2*y₁*y₂*x₃ +
      x₁^2*y₁*y₂^3*x₃ - x₁^2*y₁*x₂*y₃ + x₁^2*y₁*x₂*y₂^2*y₃ + x₁^2*y₁*x₂*y₂^2*y₃*d - x₁^2*y₁*x₂^2*y₂*x₃ -
      x₁^2*y₁*x₂^2*y₂*x₃*d - x₁^2*y₁*x₂^3*y₃ - x₁^3*y₂*y₃ + x₁^3*y₂^3*y₃ - x₁^3*x₂*x₃ + x₁^3*x₂*y₂^2*x₃ -
      x₁^3*x₂^2*y₂*y₃ - x₁^3*x₂^3*x₃) * h₃

theorem assoc_y (d x₁ y₁ x₂ y₂ x₃ y₃ : F) (h₁ : y₁ ^ 2 - x₁ ^ 2 = 1 + d * x₁ ^ 2 * y₁ ^ 2)
    (h₂ : y₂ ^ 2 - x₂ ^ 2 = 1 + d * x₂ ^ 2 * y₂ ^ 2) (h₃ : y₃ ^ 2 - x₃ ^ 2 = 1 + d * x₃ ^ 2 * y₃ ^ 2) :
    ((y₁ * y₂ + x₁ * x₂) * (1 + d * x₁ * x₂ * y₁ * y₂) * y₃ + (x₁ * y₂ + y₁ * x₂) * (1 - d * x₁ * x₂ * y₁ * y₂) * x₃) *
      ((1 + d * x₂ * x₃ * y₂ * y₃) * (1 - d * x₂ * x₃ * y₂ * y₃) -
        d * (x₂ * y₃ + y₂ * x₃) * (y₂ * y₃ + x₂ * x₃) * x₁ * y₁) =
    (y₁ * (y₂ * y₃ + x₂ * x₃) * (1 + d * x₂ * x₃ * y₂ * y₃) + x₁ * (x₂ * y₃ + y₂ * x₃) * (1 - d * x₂ * x₃ * y₂ * y₃)) *
      ((1 + d * x₁ * x₂ * y₁ * y₂) * (1 - d * x₁ * x₂ * y₁ * y₂) -
        d * (x₁ * y₂ + y₁ * x₂) * (y₁ * y₂ + x₁ * x₂) * x₃ * y₃) := by
  linear_combination
    (y₁*x₂*y₂^4*x₃*y₃^2*d - y₁*x₂^2*y₂^3*y₃*d + y₁*x₂^2*y₂^3*y₃^3*d - y₁*x₂^3*y₂^2*x₃*d - y₁*x₂^3*y₂^2*x₃^3*d -
      y₁*x₂^3*y₂^4*x₃*y₃^2*d^2 - y₁*x₂^4*y₂*x₃^2*y₃*d - y₁*x₂^4*y₂^3*x₃^2*y₃*d^2 - x₁*x₂*y₂^4*x₃^2*y₃*d -
      x₁*x₂^2*y₂^3*x₃*d - x₁*x₂^2*y₂^3*x₃^3*d - x₁*x₂^3*y₂^2*y₃*d + x₁*x₂^3*y₂^2*y₃^3*d + x₁*x₂^3*y₂^4*x₃^2*y₃*d^2 +
      x₁*x₂^4*y₂*x₃*y₃^2*d + x₁*x₂^4*y₂^3*x₃*y₃^2*d^2) * h₁ +
    (y₁*y₂*y₃ - y₁*y₂*y₃^3 + y₁*y₂*x₃^2*y₃ + y₁*y₂*x₃^2*y₃^3*d + y₁*x₂*x₃ - y₁*x₂*x₃*y₃^2 + y₁*x₂*x₃^3 +
      y₁*x₂*x₃^3*y₃^2*d + y₁*x₂*y₂^2*x₃*y₃^2*d + y₁*x₂^2*y₂*x₃^2*y₃*d - y₁^3*y₂*y₃ + y₁^3*y₂*y₃^3 - y₁^3*y₂*x₃^2*y₃ -
      y₁^3*y₂*x₃^2*y₃^3*d - y₁^3*x₂*x₃ + y₁^3*x₂*x₃*y₃^2 - y₁^3*x₂*x₃^3 - y₁^3*x₂*x₃^3*y₃^2*d - y₁^3*x₂*y₂^2*x₃*y₃^2*d
      - y₁^3*x₂^2*y₂*x₃^2*y₃*d + x₁*y₂*x₃ - x₁*y₂*x₃*y₃^2 + x₁*y₂*x₃^3 + x₁*y₂*x₃^3*y₃^2*d + x₁*x₂*y₃ - x₁*x₂*y₃^3 +
      x₁*x₂*x₃^2*y₃ + x₁*x₂*x₃^2*y₃^3*d - x₁*x₂*y₂^2*x₃^2*y₃*d - x₁*x₂^2*y₂*x₃*y₃^2*d - x₁*y₁^2*y₂*x₃ +
      x₁*y₁^2*y₂*x₃*y₃^2 - x₁*y₁^2*y₂*x₃^3 - x₁*y₁^2*y₂*x₃^3*y₃^2*d - x₁*y₁^2*x₂*y₃ + x₁*y₁^2*x₂*y₃^3 -
      x₁*y₁^2*x₂*x₃^2*y₃ - x₁*y₁^2*x₂*x₃^2*y₃^3*d + x₁*y₁^2*x₂*y₂^2*x₃^2*y₃*d + x₁*y₁^2*x₂*y₂^2*x₃^2*y₃^3*d^2 +
      x₁*y₁^2*x₂^2*y₂*x₃*y₃^2*d - x₁*y₁^2*x₂^2*y₂*x₃^3*y₃^2*d^2 + x₁^2*y₁*y₂*y₃ - x₁^2*y₁*y₂*y₃^3 + x₁^2*y₁*y₂*x₃^2*y₃
      + x₁^2*y₁*y₂*x₃^2*y₃^3*d + x₁^2*y₁*x₂*x₃ - x₁^2*y₁*x₂*x₃*y₃^2 + x₁^2*y₁*x₂*x₃^3 + x₁^2*y₁*x₂*x₃^3*y₃^2*d +
      x₁^2*y₁*x₂*y₂^2*x₃*y₃^2*d - x₁^2*y₁*x₂*y₂^2*x₃^3*y₃^2*d^2 + x₁^2*y₁*x₂^2*y₂*x₃^2*y₃*d +
      x₁^2*y₁*x₂^2*y₂*x₃^2*y₃^3*d^2 + x₁^3*y₂*x₃ - x₁^3*y₂*x₃*y₃^2 + x₁^3*y₂*x₃^3 + x₁^3*y₂*x₃^3*y₃^2*d + x₁^3*x₂*y₃ -
      x₁^3*x₂*y₃^3 + x₁^3*x₂*x₃^2*y₃ + x₁^3*x₂*x₃^2*y₃^3*d - x₁^3*x₂*y₂^2*x₃^2*y₃*d - x₁^3*x₂^2*y₂*x₃*y₃^2*d) * h₂ +
    (-y₁*y₂*y₃ + y₁*y₂^3*y₃ - y₁*x₂*x₃ + y₁*x₂*y₂^2*x₃ - y₁*x₂^2*y₂*y₃ - y₁*x₂^3*x₃ + y₁^3*y₂*y₃ - y₁^3*y₂^3*y₃ +
      y₁^3*x₂*x₃ - y₁^3*x₂*y₂^2*x₃ + y₁^3*x₂^2*y₂*y₃ + y₁^3*x₂^3*x₃ - x₁*y₂*x₃ + x₁*y₂^3*x₃ - x₁*x₂*y₃ + x₁*x₂*y₂^2*y₃
      - x₁*x₂^2*y₂*x₃ - x₁*x₂^3*y₃ + x₁*y₁^2*y₂*x₃ - x₁*y₁^2*y₂^3*x₃ + x₁*y₁^2*x₂*y₃ - x₁*y₁^2*x₂*y₂^2*y₃ -
      x₁*y₁^2*x₂*y₂^2*y₃*d + x₁*y₁^2*x₂^2*y₂*x₃ + x₁*y₁^2*x₂^2*y₂*x₃*d + x₁*y₁^2*x₂^3*y₃ - x₁^2*y₁*y₂*y₃ +
      x₁^2*y₁*y₂^3*y₃ - x₁^2*y₁*x₂*x₃ + x₁^2*y₁*x₂*y₂^2*x₃ + x₁^2*y₁*x₂*y₂^2*x₃*d - x₁^2*y₁*x₂^2*y₂*y₃ -
      x₁^2*y₁*x₂^2*y₂*y₃*d - x₁^2*y₁*x₂^3*x₃ - x₁^3*y₂*x₃ + x₁^3*y₂^3*x₃ - x₁^3*x₂*y₃ + x₁^3*x₂*y₂^2*y₃ -
      x₁^3*x₂^2*y₂*x₃ - x₁^3*x₂^3*y₃) * h₃

theorem frac {a b c e x y d : F} (hb : b ≠ 0) (he : e ≠ 0) (s : F) :
    (a / b * y + c / e * x) / (1 + s * (d * (a / b) * x * (c / e) * y)) =
      (a * e * y + c * b * x) / (b * e + s * (d * a * c * x * y)) := by
  have h1 : a / b * y + c / e * x = (a * e * y + c * b * x) / (b * e) := by field_simp
  have h2 : 1 + s * (d * (a / b) * x * (c / e) * y) = (b * e + s * (d * a * c * x * y)) / (b * e) := by field_simp
  rw [h1, h2, div_div_div_cancel_right₀ (mul_ne_zero hb he)]

theorem den_of {a b c e x y d s : F} (hb : b ≠ 0) (he : e ≠ 0)
    (h : 1 + s * (d * (a / b) * x * (c / e) * y) ≠ 0) : b * e + s * (d * a * c * x * y) ≠ 0 := by
  intro h0
  apply h
  have h2 : 1 + s * (d * (a / b) * x * (c / e) * y) = (b * e + s * (d * a * c * x * y)) / (b * e) := by field_simp
  rw [h2, h0, zero_div]

theorem add_comm' (P Q : Point C) : add P Q = add Q P := by
  ext
  · simp only [add]
    congr 1 <;> ring
  · simp only [add]
    congr 1 <;> ring

theorem add_assoc' (P Q R : Point C) : add (add P Q) R = add P (add Q R) := by
  have hp := den_pos C P Q
  have hn := den_neg C P Q
  have hp' := den_pos C Q R
  have hn' := den_neg C Q R
  have l1 := den_pos C (add P Q) R
  have l2 := den_neg C (add P Q) R
  have r1 := den_pos C P (add Q R)
  have r2 := den_neg C P (add Q R)
  have hx := assoc_x C.d P.x P.y Q.x Q.y R.x R.y P.on Q.on R.on
  have hy := assoc_y C.d P.x P.y Q.x Q.y R.x R.y P.on Q.on R.on
  ext
  · simp only [add] at l1 r1 ⊢
    generalize 1 + C.d * P.x * Q.x * P.y * Q.y = b at *
    generalize 1 - C.d * P.x * Q.x * P.y * Q.y = e at *
    generalize 1 + C.d * Q.x * R.x * Q.y * R.y = b' at *
    generalize 1 - C.d * Q.x * R.x * Q.y * R.y = e' at *
    have f1 := den_of (s := 1) (d := C.d) (a := P.x * Q.y + P.y * Q.x) (c := P.y * Q.y + P.x * Q.x) (x := R.x)
      (y := R.y) hp hn (by intro h; apply l1; linear_combination h)
    have f2 := den_of (s := 1) (d := C.d) (a := Q.x * R.y + Q.y * R.x) (c := Q.y * R.y + Q.x * R.x) (x := P.x)
      (y := P.y) hp' hn' (by intro h; apply r1; linear_combination h)
    have g1 := frac (s := 1) (d := C.d) (a := P.x * Q.y + P.y * Q.x) (c := P.y * Q.y + P.x * Q.x) (x := R.x)
      (y := R.y) hp hn
    have g2 := frac (s := 1) (d := C.d) (a := Q.x * R.y + Q.y * R.x) (c := Q.y * R.y + Q.x * R.x) (x := P.x)
      (y := P.y) hp' hn'
    trans ((P.x * Q.y + P.y * Q.x) / b * R.y + (P.y * Q.y + P.x * Q.x) / e * R.x) /
        (1 + 1 * (C.d * ((P.x * Q.y + P.y * Q.x) / b) * R.x * ((P.y * Q.y + P.x * Q.x) / e) * R.y))
    · rw [one_mul]
    trans ((Q.x * R.y + Q.y * R.x) / b' * P.y + (Q.y * R.y + Q.x * R.x) / e' * P.x) /
        (1 + 1 * (C.d * ((Q.x * R.y + Q.y * R.x) / b') * P.x * ((Q.y * R.y + Q.x * R.x) / e') * P.y))
    · rw [g1, g2, div_eq_div_iff f1 f2]
      linear_combination hx
    · congr 1 <;> ring
  · simp only [add] at l2 r2 ⊢
    generalize 1 + C.d * P.x * Q.x * P.y * Q.y = b at *
    generalize 1 - C.d * P.x * Q.x * P.y * Q.y = e at *
    generalize 1 + C.d * Q.x * R.x * Q.y * R.y = b' at *
    generalize 1 - C.d * Q.x * R.x * Q.y * R.y = e' at *
    have f1 := den_of (s := -1) (d := C.d) (a := P.x * Q.y + P.y * Q.x) (c := P.y * Q.y + P.x * Q.x) (x := R.y)
      (y := R.x) hp hn (by intro h; apply l2; linear_combination h)
    have f2 := den_of (s := -1) (d := C.d) (a := Q.x * R.y + Q.y * R.x) (c := Q.y * R.y + Q.x * R.x) (x := P.y)
      (y := P.x) hp' hn' (by intro h; apply r2; linear_combination h)
    have g1 := frac (s := -1) (d := C.d) (a := P.x * Q.y + P.y * Q.x) (c := P.y * Q.y + P.x * Q.x) (x := R.y)
      (y := R.x) hp hn
    have g2 := frac (s := -1) (d := C.d) (a := Q.x * R.y + Q.y * R.x) (c := Q.y * R.y + Q.x * R.x) (x := P.y)
      (y := P.x) hp' hn'
    trans ((P.x * Q.y + P.y * Q.x) / b * R.x + (P.y * Q.y + P.x * Q.x) / e * R.y) /
        (1 + -1 * (C.d * ((P.x * Q.y + P.y * Q.x) / b) * R.y * ((P.y * Q.y + P.x * Q.x) / e) * R.x))
    · congr 1 <;> ring
    trans ((Q.x * R.y + Q.y * R.x) / b' * P.x + (Q.y * R.y + Q.x * R.x) / e' * P.y) /
        (1 + -1 * (C.d * ((Q.x * R.y + Q.y * R.x) / b') * P.y * ((Q.y * R.y + Q.x * R.x) / e') * P.x))
    · rw [g1, g2, div_eq_div_iff f1 f2]
      linear_combination hy
    · congr 1 <;> ring

instance : Zero (Point C) := ⟨⟨0, 1, by ring⟩⟩
instance : Add (Point C) := ⟨add⟩
instance : Neg (Point C) := ⟨fun P => ⟨-P.x, P.y, by linear_combination P.on⟩⟩

theorem zero_x : (0 : Point C).x = 0 := rfl
theorem zero_y : (0 : Point C).y = 1 := rfl
theorem neg_x (P : Point C) : (-P).x = -P.x := rfl
theorem neg_y (P : Point C) : (-P).y = P.y := rfl
theorem add_x (P Q : Point C) :
    (P + Q).x = (P.x * Q.y + P.y * Q.x) / (1 + C.d * P.x * Q.x * P.y * Q.y) := rfl
theorem add_y (P Q : Point C) :
    (P + Q).y = (P.y * Q.y + P.x * Q.x) / (1 - C.d * P.x * Q.x * P.y * Q.y) := rfl

theorem zero_add' (P : Point C) : 0 + P = P := by
  ext
  · rw [add_x, zero_x, zero_y]; simp
  · rw [add_y, zero_x, zero_y]; simp

theorem neg_add' (P : Point C) : -P + P = 0 := by
  ext
  · rw [add_x, neg_x, neg_y, zero_x, show -P.x * P.y + P.y * P.x = 0 by ring, zero_div]
  · have h := den_neg C (-P) P
    rw [neg_x, neg_y] at h
    rw [add_y, neg_x, neg_y, zero_y, div_eq_one_iff_eq h]
    linear_combination P.on

instance : AddCommGroup (Point C) where
  add_assoc := add_assoc'
  zero_add := zero_add'
  add_zero P := (add_comm' P 0).trans (zero_add' P)
  add_comm := add_comm'
  neg_add_cancel := neg_add'
  nsmul := nsmulRec
  zsmul := zsmulRec

end SV2.Crypto.Edwards
