import Mathlib.GroupTheory.OrderOfElement
import Verif.Lemmas.Crypto.Ladder
import Verif.Lemmas.Codec
import Verif.Spec.Noise
/-!
# X25519: agreement, low-order points, public keys
-/

open WeierstrassCurve

namespace SV2.Crypto.X25519

open Mont

/-- A field in which every number is the x-coordinate of a point. -/
abbrev K := AlgebraicClosure (ZMod p)

noncomputable instance : DecidableEq K := Classical.decEq K

instance : CharP K p := charP_of_injective_algebraMap (algebraMap (ZMod p) K).injective p

noncomputable abbrev E := curve (486662 : K)

theorem nonsingular {F : Type} [Field F] {A x y : F} (h2 : (2 : F) ≠ 0) (hA : A ^ 2 ≠ 4)
    (h : y ^ 2 = x ^ 3 + A * x ^ 2 + x) : (curve A).Nonsingular x y := by
  rw [Affine.nonsingular_iff, Affine.equation_iff]
  simp only [curve]
  refine ⟨by linear_combination h, ?_⟩
  by_cases hy : y = 0
  · left
    intro hd
    have hx : x ≠ 0 := by
      rintro rfl
      simp at hd
    have h0 : x ^ 2 + A * x + 1 = 0 := by
      have : x * (x ^ 2 + A * x + 1) = 0 := by rw [hy] at h; linear_combination -h
      exact (mul_eq_zero.mp this).resolve_left hx
    have h1 : x ^ 2 - 1 = 0 := by linear_combination -hd - 2 * h0
    have h3 : A * x = -2 := by linear_combination h0 - h1
    exact hA (by linear_combination (A * x - 2) * h3 - A ^ 2 * h1)
  · right
    intro hn
    apply hy
    have : 2 * y = 0 := by linear_combination hn
    exact (mul_eq_zero.mp this).resolve_left h2

/-- Every number is an x-coordinate. -/
theorem lift (u : Nat) : ∃ e : K, E.Nonsingular (u : K) e := by
  obtain ⟨e, he⟩ := IsAlgClosed.exists_pow_nat_eq ((u : K) ^ 3 + 486662 * (u : K) ^ 2 + u) (n := 2) (by norm_num)
  exact ⟨e, nonsingular two_ne A_ne he⟩

theorem cast_inj (a b : Nat) (ha : a < p) (hb : b < p) (h : (a : K) = b) : a = b := by
  have := (CharP.natCast_eq_natCast K p).mp h
  rwa [Nat.ModEq, Nat.mod_eq_of_lt ha, Nat.mod_eq_of_lt hb] at this

theorem cast_ne (a : Nat) (ha : a < p) (h0 : a ≠ 0) : (a : K) ≠ 0 := by
  intro h
  exact h0 (cast_inj a 0 ha p_pos (by simpa using h))

theorem ladder_lt (k u : Nat) : ladder k u < p := Nat.mod_lt _ p_pos

/-- `u = 0`: the result is zero. -/
theorem ladder_zero (k : Nat) : ladder k 0 = 0 := by
  have key : ∀ t swap v, Reduced v → ((v.x2 : K) * v.z2 = 0 ∧ (v.x3 : K) * v.z3 = 0) →
      (((loop k 0 t swap v).1.x2 : K) * (loop k 0 t swap v).1.z2 = 0 ∧
        ((loop k 0 t swap v).1.x3 : K) * (loop k 0 t swap v).1.z3 = 0) := by
    intro t
    induction t with
    | zero => intro swap v _ h; exact h
    | succ t ih =>
      intro swap v hr h
      simp only [loop]
      apply ih _ _ (reduced_step _ _)
      have h' : (((cswap (swap ^^ k.testBit t) v).x2 : K) * (cswap (swap ^^ k.testBit t) v).z2 = 0 ∧
          ((cswap (swap ^^ k.testBit t) v).x3 : K) * (cswap (swap ^^ k.testBit t) v).z3 = 0) := by
        cases (swap ^^ k.testBit t)
        · exact h
        · exact ⟨h.2, h.1⟩
      obtain ⟨_, c2, _, c4⟩ := step_cast (F := K) 0 _ (reduced_cswap (swap ^^ k.testBit t) v hr)
      constructor
      · rw [c2, mul_assoc 4, h'.1]; simp
      · rw [c4]; simp
  have h := key 255 false ⟨1, 0, 0, 1⟩ ⟨show (0 : Nat) ≤ p by decide, show (1 : Nat) ≤ p by decide⟩ (by simp)
  apply cast_inj _ _ (ladder_lt k 0) p_pos
  unfold ladder
  generalize loop k 0 255 false ⟨1, 0, 0, 1⟩ = r at h
  obtain ⟨v, swap⟩ := r
  simp only at h ⊢
  have h' : ((cswap swap v).x2 : K) * (cswap swap v).z2 = 0 := by
    cases swap
    · exact h.1
    · exact h.2
  rw [powMod_eq p _ 255 (p - 2) (by decide), cast_mod, Nat.cast_mul, cast_mod, Nat.cast_pow]
  have hp : p - 2 = (p - 3) + 1 := by decide
  rw [hp, pow_succ', ← mul_assoc, h', zero_mul, Nat.cast_zero]

/-! ## Low-order points -/

theorem double_rep (P : E.Point) (q : Nat × Nat) (hq : q.2 ≤ p) (h : Rep P (q.1 : K) (q.2 : K)) :
    Rep (P + P) ((Noise.Curve.double q).1 : K) ((Noise.Curve.double q).2 : K) := by
  obtain ⟨x, z⟩ := q
  have := rep_double two_ne A_ne P _ _ h
  have e1 : (((Noise.Curve.double (x, z)).1 : Nat) : K) = ((x : K) ^ 2 - z ^ 2) ^ 2 := by
    show ((((x * x + (p - z) * z) % p) ^ 2 % p : Nat) : K) = _
    rw [cast_mod, Nat.cast_pow, cast_mod, Nat.cast_add, Nat.cast_mul, Nat.cast_mul, Nat.cast_sub hq,
      CharP.cast_eq_zero K p]
    ring
  have e2 : (((Noise.Curve.double (x, z)).2 : Nat) : K) = 4 * x * z * ((x : K) ^ 2 + 486662 * x * z + z ^ 2) := by
    show ((4 * x * z * (x * x + 486662 * x * z + z * z) % p : Nat) : K) = _
    rw [cast_mod]
    push_cast
    ring
  rw [e1, e2]
  exact this

theorem double_le (q : Nat × Nat) : (Noise.Curve.double q).2 ≤ p := le_of_lt (Nat.mod_lt _ p_pos)

/-- A low-order coordinate belongs to a point that eight times itself is neutral. -/
theorem lowOrder_iff (u : Nat) (e : K) (hd : E.Nonsingular (u : K) e) :
    Noise.Curve.LowOrder u ↔ 8 • Affine.Point.some (u : K) e hd = 0 := by
  have h0 : Rep (Affine.Point.some (u : K) e hd) (((u % p, 1) : Nat × Nat).1 : K) (((u % p, 1) : Nat × Nat).2 : K) := by
    refine ⟨by simp, ?_⟩
    show ((u % p : Nat) : K) = _
    rw [cast_mod]; simp
  have h1 := double_rep _ _ (show 1 ≤ p by decide) h0
  have h2 := double_rep _ _ (double_le _) h1
  have h3 := double_rep _ _ (double_le _) h2
  have h8 : ∀ Q : E.Point, Q + Q + (Q + Q) + (Q + Q + (Q + Q)) = 8 • Q := by intro Q; abel
  rw [h8] at h3
  rw [← rep_zero_iff _ _ _ h3]
  unfold Noise.Curve.LowOrder
  constructor
  · intro h; show (((Noise.Curve.double _).2 : Nat) : K) = 0
    exact (congrArg (Nat.cast (R := K)) h).trans Nat.cast_zero
  · intro h
    exact cast_inj _ _ (Nat.mod_lt _ p_pos) p_pos (by rw [Nat.cast_zero]; exact h)

/-- Whatever the scalar, a low-order point gives zero. -/
theorem ladder_lowOrder (m u : Nat) (hm : 8 * m < 2 ^ 255) (hu : u < p) (h : Noise.Curve.LowOrder u) :
    ladder (8 * m) u = 0 := by
  by_cases h0 : u = 0
  · rw [h0]; exact ladder_zero _
  · obtain ⟨e, hd⟩ := lift u
    apply cast_inj _ _ (ladder_lt _ u) p_pos
    rw [ladder_eq (8 * m) u hm e hd (cast_ne u hu h0), mul_comm, mul_nsmul', (lowOrder_iff u e hd).mp h, smul_zero]
    rw [Nat.cast_zero]; rfl

/-! ## The base point -/

/-- The curve has a point with the coordinate 9. -/
theorem exists_base : ∃ e : K, E.Nonsingular ((9 : Nat) : K) e := lift 9

noncomputable def baseY : K := exists_base.choose

theorem base_nonsingular : E.Nonsingular ((9 : Nat) : K) baseY := exists_base.choose_spec

noncomputable def B : E.Point := .some ((9 : Nat) : K) baseY base_nonsingular

theorem nine_ne : ((9 : Nat) : K) ≠ 0 := cast_ne 9 (by decide) (by decide)

set_option maxRecDepth 100000 in
theorem l_smul_B : l • B = 0 := by
  have h := loop_pairs l 9 baseY base_nonsingular nine_ne 255 false ⟨1, 0, 9, 1⟩
    ⟨show (0 : Nat) ≤ p by decide, show (1 : Nat) ≤ p by decide⟩ (by
      rw [Nat.div_eq_of_lt (by decide : l < 2 ^ 255), zero_nsmul, zero_add, one_nsmul]
      exact ⟨⟨by simp [cswap], by simp [cswap]⟩, ⟨by simp [cswap], by simp [cswap]⟩⟩)
  have hz : (cswap (loop l 9 255 false ⟨1, 0, 9, 1⟩).2 (loop l 9 255 false ⟨1, 0, 9, 1⟩).1).z2 = 0 := by decide +kernel
  exact (rep_zero_iff _ _ _ h.1).mp (by rw [hz, Nat.cast_zero])

instance : Fact (Nat.Prime l) := ⟨prime_l⟩

theorem order_B : addOrderOf B = l := addOrderOf_eq_prime l_smul_B (Affine.Point.some_ne_zero _)

theorem smul_B (k : Nat) : k • B = 0 ↔ l ∣ k := by rw [← order_B]; exact addOrderOf_dvd_iff_nsmul_eq_zero.symm

/-! ## Scalars -/

theorem scalar_form (k : Arr 32) : ∃ m, decodeScalar k = 8 * m ∧ 0 < m ∧ m < 2 ^ 252 := by
  refine ⟨2 ^ 251 + fromLE k.toList % 2 ^ 254 / 8, ?_, ?_, ?_⟩
  · unfold decodeScalar; omega
  · omega
  · have : fromLE k.toList % 2 ^ 254 < 2 ^ 254 := Nat.mod_lt _ (by decide)
    omega

theorem scalar_lt (k : Arr 32) : decodeScalar k < 2 ^ 255 := by
  obtain ⟨m, h, _, h'⟩ := scalar_form k
  omega

theorem not_dvd (k : Arr 32) : ¬ l ∣ 8 * decodeScalar k := by
  obtain ⟨m, h, h0, h'⟩ := scalar_form k
  rw [h]
  intro hd
  have c : Nat.Coprime l (8 * 8) := by decide +kernel
  rw [← mul_assoc] at hd
  have := Nat.le_of_dvd h0 (c.dvd_of_dvd_mul_left hd)
  have hl : 2 ^ 252 < l := by decide
  omega

/-- A public key is the coordinate of a point of order `l`, not zero. -/
theorem base_point (k : Arr 32) : ∃ (e : K) (hd : E.Nonsingular ((ladder (decodeScalar k) 9 : Nat) : K) e),
    decodeScalar k • B = .some _ e hd ∧ ladder (decodeScalar k) 9 ≠ 0 := by
  have h := ladder_eq (F := K) (decodeScalar k) 9 (scalar_lt k) baseY base_nonsingular nine_ne
  change _ = xOf (decodeScalar k • B) at h
  have hn := not_dvd k
  rw [← smul_B, mul_nsmul'] at hn
  generalize decodeScalar k • B = Q at h hn
  match Q, h, hn with
  | .zero, h, hn => exact absurd (nsmul_zero 8) hn
  | .some x y hd, h, hn =>
    change _ = x at h
    subst h
    refine ⟨y, hd, rfl, ?_⟩
    intro h0
    apply hn
    have h2 := x_zero_double _ y hd (by rw [h0, Nat.cast_zero])
    have : ∀ Q : E.Point, 8 • Q = 4 • (Q + Q) := by intro Q; abel
    rw [this, h2]
    exact nsmul_zero 4

/-- Both sides compute the same. -/
theorem agree (a b : Arr 32) : ladder (decodeScalar a) (ladder (decodeScalar b) 9) =
    ladder (decodeScalar b) (ladder (decodeScalar a) 9) := by
  obtain ⟨e, hd, he, h0⟩ := base_point b
  obtain ⟨e', hd', he', h0'⟩ := base_point a
  apply cast_inj _ _ (ladder_lt _ _) (ladder_lt _ _)
  rw [ladder_eq _ _ (scalar_lt a) e hd (cast_ne _ (ladder_lt _ _) h0),
    ladder_eq _ _ (scalar_lt b) e' hd' (cast_ne _ (ladder_lt _ _) h0'), ← he, ← he', ← mul_nsmul, ← mul_nsmul,
    mul_comm]

/-- A public key is not of low order. -/
theorem public_not_lowOrder (a : Arr 32) : ¬ Noise.Curve.LowOrder (ladder (decodeScalar a) 9) := by
  obtain ⟨e, hd, he, _⟩ := base_point a
  rw [lowOrder_iff _ e hd, ← he, ← mul_nsmul', smul_B]
  exact not_dvd a

/-! ## On bytes -/

theorem decode_encode (u : Nat) (h : u < p) : decodeU (encodeU u) = u := by
  have hp : p < 2 ^ 255 := by decide
  unfold decodeU encodeU
  simp only
  rw [fromLE_toLE 32 u (by have : (256 : Nat) ^ 32 = 2 ^ 256 := by norm_num
                           omega), Nat.mod_eq_of_lt (a := u) (b := 2 ^ 255) (by omega), Nat.mod_eq_of_lt h]

theorem x25519_comm (a b : Arr 32) : x25519 a (base b) = x25519 b (base a) := by
  unfold x25519 base
  rw [decode_encode _ (ladder_lt _ _), decode_encode _ (ladder_lt _ _), agree]

theorem leNat_eq (b : Bytes) : Noise.leNat b = fromLE b := by
  induction b with
  | nil => rfl
  | cons x xs ih => unfold Noise.leNat at ih ⊢; rw [List.foldr_cons, ih]; rfl

/-- A public key is a canonical encoding and not of low order. -/
theorem base_value (a : Arr 32) : Noise.leNat (base a).toList < p ∧
    ¬ Noise.Curve.LowOrder (Noise.leNat (base a).toList) := by
  have hp : p < 256 ^ 32 := by decide
  have : Noise.leNat (base a).toList = ladder (decodeScalar a) 9 := by
    rw [leNat_eq]
    exact fromLE_toLE 32 _ (by have := ladder_lt (decodeScalar a) 9; omega)
  rw [this]
  exact ⟨ladder_lt _ _, public_not_lowOrder a⟩

theorem lowOrder_mod (u : Nat) : Noise.Curve.LowOrder (u % p) ↔ Noise.Curve.LowOrder u := by
  unfold Noise.Curve.LowOrder
  rw [show Noise.Curve.p = p from rfl, Nat.mod_mod]

/-- Any key that X25519 reads as a low-order point gives 32 zero bytes. -/
theorem x25519_lowOrder (a k : Arr 32) (h : Noise.Curve.LowOrder (Noise.Curve.coordinate k.toList)) :
    x25519 a k = Arr.replicate 32 0 := by
  obtain ⟨m, hm, _, hlt⟩ := scalar_form a
  have hu : Noise.Curve.LowOrder (decodeU k) := by
    unfold decodeU
    rw [lowOrder_mod, ← leNat_eq]
    exact h
  unfold x25519
  have hlt' : decodeU k < p := Nat.mod_lt _ p_pos
  rw [hm, ladder_lowOrder m _ (by omega) hlt' hu]
  decide

end SV2.Crypto.X25519
