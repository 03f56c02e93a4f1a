import Mathlib.AlgebraicGeometry.EllipticCurve.Affine.Point
import Mathlib.Tactic.LinearCombination
import Mathlib.Tactic.FieldSimp
/-!
# Montgomery curves

The doubling and differential addition formulas of the Montgomery ladder compute multiples in the group of points of
`y² = x³ + A x² + x` (Mathlib's group law), over any field.
-/

open WeierstrassCurve

namespace SV2.Crypto.Mont

variable {F : Type} [Field F]

/-- `y² = x³ + A x² + x`. -/
def curve (A : F) : WeierstrassCurve.Affine F := { a₁ := 0, a₂ := A, a₃ := 0, a₄ := 1, a₆ := 0 }

/-- `(X : Z)` is the x-coordinate of the point. -/
def Rep {A : F} : (curve A).Point → F → F → Prop
  | .zero, X, Z => X ≠ 0 ∧ Z = 0
  | .some x _ _, X, Z => Z ≠ 0 ∧ X = x * Z

theorem on_curve {A x y : F} (h : (curve A).Nonsingular x y) : y ^ 2 = x ^ 3 + A * x ^ 2 + x := by
  have := ((curve A).equation_iff x y).mp h.1
  simp [curve] at this
  linear_combination this

theorem negY_eq {A : F} (x y : F) : (curve A).negY x y = -y := by simp [curve, Affine.negY]

theorem addX_eq {A : F} (x x' l : F) : (curve A).addX x x' l = l ^ 2 - A - x - x' := by simp [curve, Affine.addX]

variable [DecidableEq F]

theorem rep_double {A : F} (h2 : (2 : F) ≠ 0) (hA : A ^ 2 ≠ 4) (P : (curve A).Point) (X Z : F) (h : Rep P X Z) :
    Rep (P + P) ((X ^ 2 - Z ^ 2) ^ 2) (4 * X * Z * (X ^ 2 + A * X * Z + Z ^ 2)) := by
  have h4 : (4 : F) ≠ 0 := by
    intro h; apply h2
    have : (2 : F) * 2 = 0 := by linear_combination h
    simpa using this
  match P, h with
  | .zero, ⟨hX, hZ⟩ =>
    subst hZ
    rw [← Affine.Point.zero_def, add_zero]
    exact ⟨by simpa using hX, by ring⟩
  | .some x y hn, ⟨hZ, hX⟩ =>
    subst hX
    have hc := on_curve hn
    by_cases hy : y = 0
    · have hneg : y = (curve A).negY x y := by rw [negY_eq, hy, neg_zero]
      rw [Affine.Point.add_self_of_Y_eq hneg]
      have h0 : x * (x ^ 2 + A * x + 1) = 0 := by rw [hy] at hc; linear_combination -hc
      refine ⟨?_, by linear_combination 4 * Z ^ 4 * h0⟩
      intro hz
      have h1 : x ^ 2 - 1 = 0 := by
        have : (x ^ 2 - 1) ^ 2 * Z ^ 4 = 0 := by linear_combination hz
        rcases mul_eq_zero.mp this with h | h
        · simpa using h
        · exact absurd (pow_eq_zero_iff (by norm_num) |>.mp h) hZ
      have hx : x ≠ 0 := by rintro rfl; simp at h1
      have h3 : A * x = -2 := by
        have := (mul_eq_zero.mp h0).resolve_left hx
        linear_combination this - h1
      exact hA (by linear_combination (A * x - 2) * h3 - A ^ 2 * h1)
    · have hneg : y ≠ (curve A).negY x y := by
        rw [negY_eq]
        intro h
        exact hy (by
          have : 2 * y = 0 := by linear_combination h
          exact (mul_eq_zero.mp this).resolve_left h2)
      rw [Affine.Point.add_self_of_Y_ne hneg]
      have hz : 4 * (x * Z) * Z * ((x * Z) ^ 2 + A * (x * Z) * Z + Z ^ 2) = 4 * Z ^ 4 * y ^ 2 := by
        linear_combination -4 * Z ^ 4 * hc
      refine ⟨?_, ?_⟩
      · rw [hz]
        exact mul_ne_zero (mul_ne_zero h4 (pow_ne_zero _ hZ)) (pow_ne_zero _ hy)
      · rw [hz, Affine.slope_of_Y_ne rfl hneg, addX_eq, negY_eq]
        simp only [curve]
        have : y - -y ≠ 0 := by
          have : y - -y = 2 * y := by ring
          rw [this]; exact mul_ne_zero h2 hy
        have e : y - -y = 2 * y := by ring
        rw [e]
        field_simp
        linear_combination (16 * A + 32 * x) * hc

theorem x_zero_double {A : F} (x y : F) (hn : (curve A).Nonsingular x y) (hx : x = 0) :
    Affine.Point.some x y hn + Affine.Point.some x y hn = 0 := by
  have hc := on_curve hn
  have hy : y = 0 := by
    rw [hx] at hc; simpa using hc
  exact Affine.Point.add_self_of_Y_eq (by rw [negY_eq, hy, neg_zero])

/-- Differential addition: `D = Q - P` with x-coordinate `d ≠ 0`. -/
theorem rep_diffAdd {A : F} (h2 : (2 : F) ≠ 0) (P Q : (curve A).Point) (d e : F)
    (hd : (curve A).Nonsingular d e) (hd0 : d ≠ 0) (hD : Q - P = .some d e hd)
    (X Z X' Z' : F) (hP : Rep P X Z) (hQ : Rep Q X' Z') :
    Rep (P + Q) ((X * X' - Z * Z') ^ 2) (d * (X * Z' - X' * Z) ^ 2) := by
  match P, hP with
  | .zero, ⟨hX, hZ⟩ =>
    subst hZ
    rw [← Affine.Point.zero_def, sub_zero] at hD
    subst hD
    rw [← Affine.Point.zero_def, zero_add]
    obtain ⟨h1, h2⟩ := hQ
    subst h2
    refine ⟨?_, by ring⟩
    simp only [mul_zero, sub_zero]
    exact mul_ne_zero hd0 (pow_ne_zero _ (mul_ne_zero hX h1))
  | .some x y hn, ⟨hZ, hX⟩ =>
    subst hX
    match Q, hQ with
    | .zero, ⟨hX', hZ'⟩ =>
      subst hZ'
      rw [← Affine.Point.zero_def, zero_sub, Affine.Point.neg_some] at hD
      obtain ⟨hx, -⟩ := Affine.Point.some.inj hD
      subst hx
      rw [← Affine.Point.zero_def, add_zero]
      refine ⟨?_, by ring⟩
      simp only [mul_zero, zero_sub]
      exact mul_ne_zero hd0 (pow_ne_zero _ (neg_ne_zero.mpr (mul_ne_zero hX' hZ)))
    | .some x' y' hn', ⟨hZ', hX'⟩ =>
      subst hX'
      have hc := on_curve hn
      have hc' := on_curve hn'
      rw [sub_eq_add_neg, Affine.Point.neg_some] at hD
      by_cases hx : x = x'
      · -- then `Q = -P`, because `Q = P` would give `D = 0`
        subst hx
        by_cases hy : y' = y
        · subst hy
          rw [Affine.Point.add_of_Y_eq rfl (by rw [negY_eq]; try rw [negY_eq]; try rw [neg_neg])] at hD
          exact absurd hD.symm (Affine.Point.some_ne_zero _)
        · have hs : y' = -y := by
            have : (y' - y) * (y' + y) = 0 := by linear_combination hc' - hc
            rcases mul_eq_zero.mp this with h | h
            · exact absurd (sub_eq_zero.mp h) hy
            · exact eq_neg_of_add_eq_zero_left h
          subst hs
          rw [Affine.Point.add_of_Y_eq rfl (by rw [negY_eq, neg_neg])]
          refine ⟨?_, by ring⟩
          have hy0 : y ≠ 0 := by rintro rfl; simp at hy
          have hne : -y ≠ (curve A).negY x ((curve A).negY x y) := by
            rw [negY_eq, negY_eq]
            intro h
            have : 2 * y = 0 := by linear_combination -h
            exact hy0 ((mul_eq_zero.mp this).resolve_left h2)
          rw [Affine.Point.add_of_Y_ne hne] at hD
          obtain ⟨h5, -⟩ := Affine.Point.some.inj hD
          rw [Affine.slope_of_Y_ne rfl hne, addX_eq, negY_eq] at h5; try rw [negY_eq] at h5
          simp only [curve] at h5
          have e1 : -y - - -y = -(2 * y) := by ring
          rw [e1] at h5
          intro hz
          have h1 : x ^ 2 - 1 = 0 := by
            have : (x ^ 2 - 1) * (Z * Z') = 0 := by
              have := pow_eq_zero_iff (n := 2) (by norm_num) |>.mp hz
              linear_combination this
            exact (mul_eq_zero.mp this).resolve_right (mul_ne_zero hZ hZ')
          apply hd0
          field_simp at h5
          have h6 : (4 * y ^ 2) * d = 0 := by
            linear_combination (x ^ 2 - 1) * h1 - h5 - (4 * A + 8 * x) * hc
          have h4 : (4 : F) ≠ 0 := by
            intro h; apply h2
            have : (2 : F) * 2 = 0 := by linear_combination h
            simpa using this
          exact (mul_eq_zero.mp h6).resolve_left (mul_ne_zero h4 (pow_ne_zero _ hy0))
      · rw [Affine.Point.add_of_X_ne hx]
        rw [Affine.Point.add_of_X_ne (Ne.symm hx)] at hD
        obtain ⟨h5, -⟩ := Affine.Point.some.inj hD
        rw [Affine.slope_of_X_ne (Ne.symm hx), addX_eq, negY_eq] at h5
        have hxx : x - x' ≠ 0 := sub_ne_zero.mpr hx
        have hxx' : x' - x ≠ 0 := sub_ne_zero.mpr (Ne.symm hx)
        refine ⟨?_, ?_⟩
        · have : x * Z * Z' - x' * Z' * Z = (x - x') * (Z * Z') := by ring
          rw [this]
          exact mul_ne_zero hd0 (pow_ne_zero _ (mul_ne_zero hxx (mul_ne_zero hZ hZ')))
        · rw [Affine.slope_of_X_ne hx, addX_eq, ← h5]
          field_simp
          linear_combination (-(y ^ 2 - y' ^ 2 + (x ^ 3 + A * x ^ 2 + x) - (x' ^ 3 + A * x' ^ 2 + x'))) * (hc - hc')
            + 2 * ((x - x') ^ 2 * (A + x + x')) * (hc + hc')

omit [DecidableEq F] in
theorem rep_scale {A : F} (P : (curve A).Point) (X Z c : F) (hc : c ≠ 0) (h : Rep P X Z) : Rep P (c * X) (c * Z) := by
  match P, h with
  | .zero, ⟨hX, hZ⟩ => exact ⟨mul_ne_zero hc hX, by rw [hZ, mul_zero]⟩
  | .some x y hn, ⟨hZ, hX⟩ => exact ⟨mul_ne_zero hc hZ, by rw [hX]; ring⟩

/-- The x-coordinate, `0` for the neutral element. -/
def xOf {A : F} : (curve A).Point → F
  | .zero => 0
  | .some x _ _ => x

omit [DecidableEq F] in
theorem rep_xOf {A : F} (P : (curve A).Point) (X Z : F) (h : Rep P X Z) : X * Z⁻¹ = xOf P := by
  match P, h with
  | .zero, ⟨_, hZ⟩ => rw [hZ]; simp [xOf]
  | .some x y hn, ⟨hZ, hX⟩ => rw [hX]; simp only [xOf]; field_simp

omit [DecidableEq F] in
theorem rep_zero_iff {A : F} (P : (curve A).Point) (X Z : F) (h : Rep P X Z) : Z = 0 ↔ P = 0 := by
  match P, h with
  | .zero, ⟨_, hZ⟩ => exact ⟨fun _ => rfl, fun _ => hZ⟩
  | .some x y hn, ⟨hZ, _⟩ =>
    exact ⟨fun h => absurd h hZ, fun h => absurd h (Affine.Point.some_ne_zero hn)⟩

end SV2.Crypto.Mont
