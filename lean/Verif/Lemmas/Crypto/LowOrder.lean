import Mathlib.FieldTheory.Finite.Basic
import Mathlib.Tactic.LinearCombination
import Verif.Lemmas.Crypto.X25519
/-!
# The low-order coordinates are those in the list
-/

namespace SV2.Crypto.LowOrder

open X25519 (powMod)

local instance : Fact (Nat.Prime X25519.p) := ⟨prime_p⟩

abbrev F := ZMod X25519.p

set_option maxRecDepth 100000

theorem not_square (d : Nat) (h : powMod X25519.p d 255 ((X25519.p - 1) / 2) = X25519.p - 1) (x : F) :
    x * x ≠ (d : F) := by
  intro hx
  rw [powMod_eq _ _ _ _ (by decide)] at h
  have hd : ((d : F)) ^ ((X25519.p - 1) / 2) = -1 := by
    have h2 : ((d ^ ((X25519.p - 1) / 2) : Nat) : F) = ((X25519.p - 1 : Nat) : F) := by
      rw [ZMod.natCast_eq_natCast_iff, Nat.ModEq, h, Nat.mod_eq_of_lt (by decide)]
    rw [Nat.cast_pow] at h2
    rw [h2, Nat.cast_sub (by decide)]
    simp
  by_cases h0 : x = 0
  · rw [h0, mul_zero] at hx
    rw [← hx, zero_pow (by decide)] at hd
    exact absurd hd.symm (neg_ne_zero.mpr one_ne_zero)
  · have h1 := ZMod.pow_card_sub_one_eq_one h0
    have h2 : X25519.p - 1 = 2 * ((X25519.p - 1) / 2) := by decide
    rw [h2, pow_mul, pow_two, hx, hd] at h1
    have h3 : ((2 : Nat) : F) = 0 := by push_cast; linear_combination -h1
    rw [ZMod.natCast_eq_zero_iff] at h3
    exact absurd h3 (by decide)

theorem two_ne : (2 : F) ≠ 0 := by
  have : ((2 : Nat) : F) ≠ 0 := by
    rw [Ne, ZMod.natCast_eq_zero_iff]
    decide
  exact_mod_cast this

theorem disc_not_square (x : F) : x * x ≠ 486662 * 486662 - 4 := by
  have := not_square (486662 * 486662 - 4) (by decide +kernel) x
  rwa [Nat.cast_sub (by decide), Nat.cast_mul] at this

/-- The quadratic form of the curve represents zero only trivially. -/
theorem form (a b : F) (h : a * a + 486662 * a * b + b * b = 0) : a = 0 := by
  by_cases hb : b = 0
  · subst hb
    have : a * a = 0 := by linear_combination h
    exact mul_self_eq_zero.mp this
  · exfalso
    apply disc_not_square ((2 * a + 486662 * b) / b)
    rw [div_mul_div_comm, div_eq_iff (mul_ne_zero hb hb)]
    linear_combination 4 * h

theorem four_ne : (4 : F) ≠ 0 := by
  have : (4 : F) = 2 * 2 := by norm_num
  rw [this]
  exact mul_ne_zero two_ne two_ne

/-- Where the second coordinate of a double is zero. -/
theorem zero_of_double (a b : F) (h : 4 * a * b * (a * a + 486662 * a * b + b * b) = 0) : a = 0 ∨ b = 0 := by
  rcases mul_eq_zero.mp h with h | h
  · rcases mul_eq_zero.mp h with h | h
    · exact .inl ((mul_eq_zero.mp h).resolve_left four_ne)
    · exact .inr h
  · exact .inl (form a b h)

/-- A square root of `A + 2`. -/
def s : Nat := 48802004052532134862652268456126542835229456083994414501085850622543968879637

theorem s_sq : (s : F) * s = 486664 := by
  have : ((s * s : Nat) : F) = ((486664 : Nat) : F) := by
    rw [ZMod.natCast_eq_natCast_iff]
    decide +kernel
  exact_mod_cast this

theorem sum_u : (Noise.Curve.u1 : F) + Noise.Curve.u2 = 2 + 2 * s := by
  have : ((Noise.Curve.u1 + Noise.Curve.u2 : Nat) : F) = ((2 + 2 * s : Nat) : F) := by
    rw [ZMod.natCast_eq_natCast_iff]
    decide +kernel
  exact_mod_cast this

theorem prod_u : (Noise.Curve.u1 : F) * Noise.Curve.u2 = 1 := by
  have : ((Noise.Curve.u1 * Noise.Curve.u2 : Nat) : F) = ((1 : Nat) : F) := by
    rw [ZMod.natCast_eq_natCast_iff]
    decide +kernel
  exact_mod_cast this

/-- No coordinate doubles to `-1`. -/
theorem minus_one (u : F) : (u * u - 1) ^ 2 ≠ -(4 * u * (u * u + 486662 * u + 1)) := by
  intro h
  have hu : u ≠ 0 := by
    rintro rfl
    have : (1 : F) = 0 := by linear_combination h
    exact one_ne_zero this
  have := not_square (X25519.p - 486660) (by decide +kernel) ((u + 1) * (u + 1) / (2 * u))
  apply this
  rw [Nat.cast_sub (by decide), CharP.cast_eq_zero F X25519.p, div_mul_div_comm,
    div_eq_iff (mul_ne_zero (mul_ne_zero two_ne hu) (mul_ne_zero two_ne hu))]
  push_cast
  linear_combination h

theorem plus_one (u : F) (h : (u * u - 1) ^ 2 = 4 * u * (u * u + 486662 * u + 1)) :
    u = Noise.Curve.u1 ∨ u = Noise.Curve.u2 := by
  have hf : (u * u - (2 + 2 * s) * u + 1) * (u * u - (2 - 2 * s) * u + 1) = 0 := by
    linear_combination h - 4 * u * u * s_sq
  rcases mul_eq_zero.mp hf with h1 | h1
  · have : (u - Noise.Curve.u1) * (u - Noise.Curve.u2) = 0 := by
      linear_combination h1 - u * sum_u + prod_u
    rcases mul_eq_zero.mp this with h | h
    · exact .inl (sub_eq_zero.mp h)
    · exact .inr (sub_eq_zero.mp h)
  · exfalso
    apply not_square (4 * (486664 + X25519.p - 2 * s % X25519.p)) (by decide +kernel) (2 * u - (2 - 2 * s))
    rw [Nat.cast_mul, Nat.cast_sub (by decide), Nat.cast_add, CharP.cast_eq_zero F X25519.p]
    have : ((2 * s % X25519.p : Nat) : F) = 2 * s := by
      rw [ZMod.natCast_mod]; push_cast; rfl
    rw [this]
    push_cast
    linear_combination 4 * h1 + 4 * s_sq

theorem cast_double (q : Nat × Nat) (h : q.2 ≤ X25519.p) :
    ((Noise.Curve.double q).1 : F) = ((q.1 : F) * q.1 - q.2 * q.2) ^ 2 ∧
    ((Noise.Curve.double q).2 : F) =
      4 * (q.1 : F) * q.2 * (q.1 * q.1 + 486662 * q.1 * q.2 + q.2 * q.2) := by
  obtain ⟨x, z⟩ := q
  simp only at h
  unfold Noise.Curve.double
  rw [show Noise.Curve.p = X25519.p from rfl]
  simp only
  constructor
  · rw [ZMod.natCast_mod, Nat.cast_pow, ZMod.natCast_mod]
    push_cast [Nat.cast_sub h]
    rw [CharP.cast_eq_zero F X25519.p]
    ring
  · rw [ZMod.natCast_mod]
    push_cast
    ring

theorem double_le (q : Nat × Nat) : (Noise.Curve.double q).2 ≤ X25519.p :=
  Nat.le_of_lt (Nat.mod_lt _ (show 0 < X25519.p by decide))

theorem coordinates (u : Nat) (h : Noise.Curve.LowOrder u) :
    (u : F) ∈ ([0, 1, (Noise.Curve.u1 : F), (Noise.Curve.u2 : F), -1] : List F) := by
  unfold Noise.Curve.LowOrder at h
  have c0 : ((u % Noise.Curve.p : Nat) : F) = u := ZMod.natCast_mod _ _
  obtain ⟨x1, z1⟩ := cast_double (u % Noise.Curve.p, 1) (show 1 ≤ X25519.p by decide)
  obtain ⟨x2, z2⟩ := cast_double (Noise.Curve.double (u % Noise.Curve.p, 1)) (double_le _)
  obtain ⟨_, z3⟩ := cast_double (Noise.Curve.double (Noise.Curve.double (u % Noise.Curve.p, 1))) (double_le _)
  rw [h, Nat.cast_zero] at z3
  simp only [c0, Nat.cast_one, mul_one] at x1 z1
  simp only [List.mem_cons, List.not_mem_nil, or_false]
  rcases zero_of_double _ _ z3.symm with h2 | h2
  · rw [x2, pow_two, mul_self_eq_zero, sub_eq_zero, mul_self_eq_mul_self_iff] at h2
    rcases h2 with h2 | h2
    · rw [x1, z1] at h2
      rcases plus_one _ h2 with h | h
      · exact .inr (.inr (.inl h))
      · exact .inr (.inr (.inr (.inl h)))
    · rw [x1, z1] at h2
      exact absurd h2 (minus_one _)
  · rw [z2] at h2
    rcases zero_of_double _ _ h2 with h1 | h1
    · rw [x1, pow_two, mul_self_eq_zero, sub_eq_zero, mul_self_eq_one_iff] at h1
      rcases h1 with h | h
      · exact .inr (.inl h)
      · exact .inr (.inr (.inr (.inr h)))
    · rw [z1] at h1
      have := zero_of_double (u : F) 1 (by linear_combination h1)
      exact .inl (this.resolve_right one_ne_zero)

/-- The coordinates of the points whose order divides eight. -/
theorem lowOrder_iff_mem (u : Nat) (hu : u < 2 ^ 256) : Noise.Curve.LowOrder u ↔ u ∈ Noise.Curve.lowOrder := by
  constructor
  · intro h
    have hm := coordinates u h
    have cast : ∀ v : Nat, v < X25519.p → (u : F) = v → u = v ∨ u = X25519.p + v ∨ u = 2 * X25519.p + v := by
      intro v hv he
      rw [ZMod.natCast_eq_natCast_iff, Nat.ModEq, Nat.mod_eq_of_lt hv] at he
      have hp : 2 ^ 256 = 2 * X25519.p + 38 := by decide
      have hp' : 38 < X25519.p := by decide
      have := Nat.div_add_mod u X25519.p
      have hq : u / X25519.p < 3 := by
        rw [Nat.div_lt_iff_lt_mul (by decide)]
        omega
      rw [he] at this
      generalize u / X25519.p = q at hq this
      match q, hq with
      | 0, _ => omega
      | 1, _ => omega
      | 2, _ => omega
    have hp : 2 ^ 256 = 2 * X25519.p + 38 := by decide
    have e1 : X25519.p + Noise.Curve.u1 = Noise.Curve.p + Noise.Curve.u1 := rfl
    have b1 : 38 < Noise.Curve.u1 ∧ Noise.Curve.u1 < X25519.p := by decide
    have b2 : 38 < Noise.Curve.u2 ∧ Noise.Curve.u2 < X25519.p := by decide
    have b3 : 38 < X25519.p - 1 := by decide
    have hcp : Noise.Curve.p = X25519.p := rfl
    simp only [List.mem_cons, List.not_mem_nil, or_false] at hm
    simp only [Noise.Curve.lowOrder, List.mem_cons, List.not_mem_nil, or_false, hcp]
    rcases hm with h | h | h | h | h
    · have := cast 0 (by decide) (by rw [h, Nat.cast_zero])
      omega
    · have := cast 1 (by decide) (by rw [h, Nat.cast_one])
      omega
    · have := cast _ b1.2 h
      omega
    · have := cast _ b2.2 h
      omega
    · have := cast (X25519.p - 1) (by decide) (by
        rw [h, Nat.cast_sub (by decide), CharP.cast_eq_zero F X25519.p, Nat.cast_one, zero_sub])
      omega
  · intro h
    revert u
    intro u _ h
    exact (show ∀ u ∈ Noise.Curve.lowOrder, Noise.Curve.LowOrder u by decide +kernel) u h

end SV2.Crypto.LowOrder
