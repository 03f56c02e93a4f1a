import Mathlib.FieldTheory.Finite.Basic
import Mathlib.FieldTheory.IsAlgClosed.AlgebraicClosure
import Verif.Lemmas.Crypto.Montgomery
import Verif.Lemmas.Crypto.Primes
/-!
# The ladder of X25519 computes multiples of a point
-/

open WeierstrassCurve

namespace SV2.Crypto.X25519

open Mont

instance : Fact (Nat.Prime p) := ⟨prime_p⟩

section
variable {F : Type} [Field F] [CharP F p]

theorem cast_mod (n : Nat) : ((n % p : Nat) : F) = n := (CharP.cast_eq_mod F p n).symm

theorem cast_sub (a b : Nat) (h : b ≤ p) : ((sub a b : Nat) : F) = a - b := by
  unfold sub
  rw [cast_mod, Nat.cast_add, Nat.cast_sub h, CharP.cast_eq_zero F p]
  ring

/-- The coordinates are reduced. -/
def Reduced (v : Vars) : Prop := v.z2 ≤ p ∧ v.z3 ≤ p

theorem p_pos : 0 < p := by decide

theorem reduced_step (x1 : Nat) (v : Vars) : Reduced (step x1 v) :=
  ⟨le_of_lt (Nat.mod_lt _ p_pos), le_of_lt (Nat.mod_lt _ p_pos)⟩

theorem reduced_cswap (b : Bool) (v : Vars) (h : Reduced v) : Reduced (cswap b v) := by
  cases b
  · exact h
  · exact ⟨h.2, h.1⟩

theorem step_cast (x1 : Nat) (v : Vars) (hv : Reduced v) :
    ((step x1 v).x2 : F) = ((v.x2 : F) ^ 2 - v.z2 ^ 2) ^ 2 ∧
    ((step x1 v).z2 : F) = 4 * v.x2 * v.z2 * (v.x2 ^ 2 + 486662 * v.x2 * v.z2 + v.z2 ^ 2) ∧
    ((step x1 v).x3 : F) = 4 * ((v.x2 : F) * v.x3 - v.z2 * v.z3) ^ 2 ∧
    ((step x1 v).z3 : F) = 4 * (x1 * ((v.x2 : F) * v.z3 - v.x3 * v.z2) ^ 2) := by
  have hm : ∀ n, n % p ≤ p := fun n => le_of_lt (Nat.mod_lt _ p_pos)
  simp only [step]
  refine ⟨?_, ?_, ?_, ?_⟩
  · simp only [cast_mod, Nat.cast_mul, Nat.cast_pow, Nat.cast_add, cast_sub _ _ hv.1]
    ring
  · simp only [cast_mod, Nat.cast_mul, Nat.cast_pow, Nat.cast_add, cast_sub _ _ hv.1, cast_sub _ _ (hm _), a24,
      Nat.cast_ofNat]
    ring
  · simp only [cast_mod, Nat.cast_mul, Nat.cast_pow, Nat.cast_add, cast_sub _ _ hv.1, cast_sub _ _ hv.2]
    ring
  · simp only [cast_mod, Nat.cast_mul, Nat.cast_pow, Nat.cast_add, cast_sub _ _ hv.1, cast_sub _ _ hv.2,
      cast_sub _ _ (hm _)]
    ring

theorem two_ne : (2 : F) ≠ 0 := by
  have h : ((2 : Nat) : F) ≠ 0 := by
    rw [Ne, CharP.cast_eq_zero_iff F p]
    decide +kernel
  simpa using h

theorem four_ne : (4 : F) ≠ 0 := by
  have h : ((4 : Nat) : F) ≠ 0 := by
    rw [Ne, CharP.cast_eq_zero_iff F p]
    decide +kernel
  simpa using h

theorem A_ne : (486662 : F) ^ 2 ≠ 4 := by
  intro h
  have : ((486662 ^ 2 - 4 : Nat) : F) = 0 := by
    rw [Nat.cast_sub (by norm_num)]; push_cast; linear_combination h
  rw [CharP.cast_eq_zero_iff F p] at this
  revert this
  decide +kernel

variable [DecidableEq F]

/-- The first pair stands for `P`, the second for `Q`. -/
def Pairs (P Q : (curve (486662 : F)).Point) (v : Vars) : Prop :=
  Rep P (v.x2 : F) (v.z2 : F) ∧ Rep Q (v.x3 : F) (v.z3 : F)

omit [CharP F p] [DecidableEq F] in
theorem pairs_cswap (P Q : (curve (486662 : F)).Point) (v : Vars) (h : Pairs P Q v) : Pairs Q P (cswap true v) :=
  ⟨h.2, h.1⟩

theorem step_pairs (P Q : (curve (486662 : F)).Point) (u : Nat) (e : F) (hd : (curve (486662 : F)).Nonsingular (u : F) e)
    (hu : (u : F) ≠ 0) (hD : Q - P = .some (u : F) e hd) (v : Vars) (hv : Reduced v) (h : Pairs P Q v) :
    Pairs (P + P) (P + Q) (step u v) := by
  obtain ⟨c1, c2, c3, c4⟩ := step_cast (F := F) u v hv
  constructor
  · rw [c1, c2]
    exact rep_double two_ne A_ne P _ _ h.1
  · rw [c3, c4]
    exact rep_scale _ _ _ _ four_ne (rep_diffAdd two_ne P Q _ e hd hu hD _ _ _ _ h.1 h.2)

theorem loop_pairs (k u : Nat) (e : F) (hd : (curve (486662 : F)).Nonsingular (u : F) e) (hu : (u : F) ≠ 0) :
    ∀ (t : Nat) (swap : Bool) (v : Vars), Reduced v →
      Pairs ((k / 2 ^ t) • Affine.Point.some (u : F) e hd) ((k / 2 ^ t + 1) • Affine.Point.some (u : F) e hd)
        (cswap swap v) →
      Pairs (k • Affine.Point.some (u : F) e hd) ((k + 1) • Affine.Point.some (u : F) e hd)
        (cswap (loop k u t swap v).2 (loop k u t swap v).1) := by
  intro t
  induction t with
  | zero => intro swap v _ h; simpa [loop] using h
  | succ t ih =>
    intro swap v hv h
    simp only [loop]
    apply ih _ _ (reduced_step _ _)
    generalize hm : k / 2 ^ (t + 1) = m at h
    have hk : k / 2 ^ t = 2 * m + (k.testBit t).toNat := by
      rw [Nat.testBit_eq_decide_div_mod_eq, ← hm, Nat.pow_succ, ← Nat.div_div_eq_div_mul]
      by_cases h1 : k / 2 ^ t % 2 = 1 <;> simp only [h1, decide_true, decide_false, Bool.toNat_true, Bool.toNat_false] <;>
        omega
    set D := Affine.Point.some (u : F) e hd with hDdef
    cases hb : k.testBit t
    · have hs : (swap ^^ false) = swap := by cases swap <;> rfl
      rw [hs]
      have := step_pairs (m • D) ((m + 1) • D) u e hd hu (by rw [succ_nsmul]; abel_nf; simp [hDdef]) _
        (reduced_cswap swap v hv) h
      rw [hk, hb]
      have e1 : m • D + m • D = (2 * m + false.toNat) • D := by
        rw [← add_nsmul]; congr 1; simp [two_mul]
      have e2 : m • D + (m + 1) • D = (2 * m + false.toNat + 1) • D := by
        rw [← add_nsmul]; congr 1; simp [two_mul]; omega
      rw [e1, e2] at this
      exact this
    · have hs : cswap (swap ^^ true) v = cswap true (cswap swap v) := by cases swap <;> rfl
      rw [hs]
      have hn : (curve (486662 : F)).Nonsingular (u : F) ((curve (486662 : F)).negY u e) :=
        (Affine.nonsingular_neg ..).mpr hd
      have := step_pairs ((m + 1) • D) (m • D) u _ hn hu
        (by rw [succ_nsmul, ← Affine.Point.neg_some hd, ← hDdef]; abel) _
        (reduced_cswap true _ (reduced_cswap swap v hv)) (pairs_cswap _ _ _ h)
      rw [hk, hb]
      have e1 : (m + 1) • D + (m + 1) • D = (2 * m + true.toNat + 1) • D := by
        rw [← add_nsmul]; congr 1; simp [two_mul]; omega
      have e2 : (m + 1) • D + m • D = (2 * m + true.toNat) • D := by
        rw [← add_nsmul]; congr 1; simp [two_mul]; omega
      rw [e1, e2] at this
      exact pairs_cswap _ _ _ this

/-- The result of the ladder is the x-coordinate of the multiple. -/
theorem ladder_eq (k u : Nat) (hk : k < 2 ^ 255) (e : F) (hd : (curve (486662 : F)).Nonsingular (u : F) e)
    (hu : (u : F) ≠ 0) : ((ladder k u : Nat) : F) = xOf (k • Affine.Point.some (u : F) e hd) := by
  have h := loop_pairs k u e hd hu 255 false ⟨1, 0, u, 1⟩ ⟨show (0 : Nat) ≤ p by decide, show (1 : Nat) ≤ p by decide⟩ (by
    rw [Nat.div_eq_of_lt hk, zero_nsmul, zero_add, one_nsmul]
    exact ⟨⟨by simp [cswap], by simp [cswap]⟩, ⟨by simp [cswap], by simp [cswap]⟩⟩)
  unfold ladder
  generalize loop k u 255 false ⟨1, 0, u, 1⟩ = r at h
  obtain ⟨v, swap⟩ := r
  simp only at h ⊢
  rw [← rep_xOf _ _ _ h.1, powMod_eq p _ 255 (p - 2) (by decide), cast_mod, Nat.cast_mul, cast_mod, Nat.cast_pow]
  congr 1
  generalize (cswap swap v).z2 = z
  by_cases hz : (z : F) = 0
  · rw [hz]; simp; decide
  · have hz' : ¬ p ∣ z := by rwa [CharP.cast_eq_zero_iff F p] at hz
    have h1 : (z : F) ^ (p - 1) = 1 := by
      have h2 : ((z : ZMod p)) ^ (p - 1) = 1 := by
        apply ZMod.pow_card_sub_one_eq_one
        rwa [Ne, ZMod.natCast_eq_zero_iff]
      have h3 := congrArg (ZMod.castHom (dvd_refl p) F) h2
      simpa using h3
    have hp : p - 1 = (p - 2) + 1 := by decide
    rw [hp, pow_succ] at h1
    exact eq_inv_of_mul_eq_one_left h1

end

end SV2.Crypto.X25519
