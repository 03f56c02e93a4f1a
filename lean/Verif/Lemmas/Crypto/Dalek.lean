import Verif.Lemmas.Crypto.Ed25519
/-!
# The public keys that the crate accepts
-/

namespace SV2.Crypto.Ed25519

open X25519 (p powMod)
open Edwards LowOrder

local instance : Fact (Nat.Prime p) := ⟨prime_p⟩

set_option maxRecDepth 100000

/-- A root that is found is a root. -/
theorem recoverX_root {x2 sign x : Nat} (h : recoverX x2 sign = some x) : x ≤ p ∧ (x : F) ^ 2 = (x2 : F) := by
  unfold recoverX at h
  by_cases h0 : x2 = 0
  · rw [if_pos h0] at h
    split at h
    · cases h
    · cases h; subst h0; simp
  rw [if_neg h0] at h
  simp only at h
  generalize hc : (if powMod p x2 255 ((p + 3) / 8) * powMod p x2 255 ((p + 3) / 8) % p = x2 then
      powMod p x2 255 ((p + 3) / 8) else powMod p x2 255 ((p + 3) / 8) * sqrtM1 % p) = c at h
  have hclt : c < p := by
    rw [← hc]
    split
    · rw [powMod_eq _ _ _ _ (by decide)]
      exact Nat.mod_lt _ X25519.p_pos
    · exact Nat.mod_lt _ X25519.p_pos
  by_cases hr : c * c % p = x2
  · rw [if_pos hr] at h
    have hsq : (c : F) ^ 2 = (x2 : F) := by
      rw [← hr, castF_mod, Nat.cast_mul, pow_two]
    cases h
    split
    · exact ⟨hclt.le, hsq⟩
    · refine ⟨Nat.sub_le _ _, ?_⟩
      rw [Nat.cast_sub hclt.le, CharP.cast_eq_zero F p, zero_sub, neg_sq, hsq]
  · rw [if_neg hr] at h
    cases h

theorem den_ne (y : F) : curve.d * (y * y) + 1 ≠ 0 := by
  intro h
  have hy : y ≠ 0 := by
    intro hy
    rw [hy] at h
    simp at h
  apply curve.nonsquare
  refine ⟨curve.i / y, ?_⟩
  field_simp
  linear_combination h - curve.i_sq

/-- The square that decoding computes. -/
theorem x2_eq (y : Nat) :
    ((X25519.sub (y * y % p) 1 * powMod p ((d * (y * y) + 1) % p) 255 (p - 2) % p : Nat) : F) =
      ((y : F) * y - 1) * (curve.d * ((y : F) * y) + 1)⁻¹ := by
  have hden : ((((d * (y * y) + 1) % p : Nat)) : F) = curve.d * ((y : F) * y) + 1 := by
    rw [castF_mod]
    push_cast
    rw [curve_d]
  rw [castF_mod, Nat.cast_mul, inv_eq _ (by rw [hden]; exact den_ne _), hden, castF_sub _ _ (by decide), castF_mod,
    Nat.cast_mul, Nat.cast_one]

/-- What the crate accepts is a point. -/
theorem decodeCrate_rep {b : Arr 32} {E : Ext} (h : decodeCrate b = some E) :
    ∃ P : Point curve, Rep P E ∧ P.y = ((fromLE b.toList % 2 ^ 255 : Nat) : F) := by
  unfold decodeCrate at h
  simp only [Option.map_eq_some_iff] at h
  obtain ⟨x, hx, rfl⟩ := h
  have hx2 := x2_eq (fromLE b.toList % 2 ^ 255 % p)
  generalize hy : fromLE b.toList % 2 ^ 255 % p = y at *
  generalize hq : X25519.sub (y * y % p) 1 * powMod p ((d * (y * y) + 1) % p) 255 (p - 2) % p = x2 at *
  have hroot : x ≤ p ∧ (x : F) ^ 2 = (x2 : F) := by
    by_cases h0 : x2 = 0
    · rw [if_pos h0] at hx
      cases hx
      subst h0
      simp
    · rw [if_neg h0] at hx
      exact recoverX_root hx
  have hon : (x : F) ^ 2 * (curve.d * ((y : F) * y) + 1) = (y : F) * y - 1 := by
    rw [hroot.2, hx2, mul_assoc, inv_mul_cancel₀ (den_ne _), mul_one]
  refine ⟨⟨x, y, by linear_combination -hon⟩, ⟨by simp, by simp, by simp, ?_, hroot.1, (Nat.mod_lt _ X25519.p_pos).le⟩, ?_⟩
  · simp only
    rw [castF_mod, Nat.cast_mul, Nat.cast_one, mul_one]
  · show (y : F) = _
    rw [← hy, castF_mod]

/-- The crate accepts what the RFC accepts, as the same point. -/
theorem decodeCrate_of_decode {b : Arr 32} {E : Ext} (h : decode b = some E) : decodeCrate b = some E := by
  unfold decode at h
  simp only at h
  split at h
  · rename_i hy
    unfold decodeCrate
    simp only [Nat.mod_eq_of_lt hy]
    generalize X25519.sub (fromLE b.toList % 2 ^ 255 * (fromLE b.toList % 2 ^ 255) % p) 1 *
      powMod p ((d * (fromLE b.toList % 2 ^ 255 * (fromLE b.toList % 2 ^ 255)) + 1) % p) 255 (p - 2) % p = x2 at *
    rw [← h]
    congr 1
    split
    · rename_i h0
      subst h0
      unfold recoverX at h ⊢
      rw [if_pos rfl] at h ⊢
      split
      · rename_i hs
        rw [if_pos hs] at h
        cases h
      · rfl
    · rfl
  · cases h

theorem check_eq (A : Point curve) (E : Ext) (hrep : Rep A E) (s k : Nat) (hk : k < L) (R : Bytes) :
    (decide (s < L) && decide ((encode (add (mul s base) (mul k (neg E)))).toList = R)) = true ↔
      s < L ∧ enc (s • B - k • A) = R := by
  simp only [Bool.and_eq_true, decide_eq_true_eq]
  apply and_congr_right
  intro hs
  have h1 := rep_mul s (hs.trans (L_lt.trans (by norm_num))) B base rep_base
  have h2 := rep_mul k (hk.trans (L_lt.trans (by norm_num))) (-A) (neg E) (rep_neg A E hrep)
  rw [encode_eq _ _ (rep_add _ _ _ _ h1 h2), smul_neg, sub_eq_add_neg]

theorem verifyCrate_some {key : Arr 32} {E : Ext} (hE : decodeCrate key = some E) (m : Bytes) (sig : Arr 64) :
    verifyCrate key m sig = (decide (fromLE (sig.toList.drop 32) < L) &&
      decide ((encode (add (mul (fromLE (sig.toList.drop 32)) base)
        (mul (hashModL (sig.toList.take 32 ++ key.toList ++ m)) (neg E)))).toList = sig.toList.take 32)) := by
  rw [verifyCrate, hE, check]

/-- What verification computes, for a key that the crate decodes to `A`. -/
theorem verifyCrate_eq (key : Arr 32) (E : Ext) (hE : decodeCrate key = some E) (A : Point curve) (hrep : Rep A E)
    (m : Bytes) (sig : Arr 64) :
    verifyCrate key m sig = true ↔ fromLE (sig.toList.drop 32) < L ∧
      enc (fromLE (sig.toList.drop 32) • B - hashModL (sig.toList.take 32 ++ key.toList ++ m) • A) =
        sig.toList.take 32 := by
  rw [verifyCrate_some hE]
  exact check_eq A E hrep _ _ (hashModL_lt _) _

theorem verifyCrate_of_decode {key : Arr 32} (h : (decode key).isSome = true) (m : Bytes) (sig : Arr 64) :
    verifyCrate key m sig = verify key m sig := by
  obtain ⟨E, hE⟩ := Option.isSome_iff_exists.mp h
  rw [verifyCrate, verify, decodeCrate_of_decode hE, hE, check]

/-- `x = 0` only for `y = 1` and `y = -1`. -/
theorem x2_zero {y : Nat} (hy : y < p) :
    X25519.sub (y * y % p) 1 * powMod p ((d * (y * y) + 1) % p) 255 (p - 2) % p = 0 ↔ y = 1 ∨ y = p - 1 := by
  have hx2 := x2_eq y
  constructor
  · intro h
    rw [h, Nat.cast_zero] at hx2
    have h1 : (y : F) * y - 1 = 0 := by
      rcases mul_eq_zero.mp hx2.symm with h | h
      · exact h
      · exact absurd h (inv_ne_zero (den_ne _))
    have h2 : ((y : F) - 1) * (y + 1) = 0 := by linear_combination h1
    rcases mul_eq_zero.mp h2 with h | h
    · left
      have h3 : (y : F) = ((1 : Nat) : F) := by rw [Nat.cast_one]; linear_combination h
      rw [ZMod.natCast_eq_natCast_iff, Nat.ModEq, Nat.mod_eq_of_lt hy] at h3
      rw [h3]
      decide
    · right
      have h3 : (y : F) = ((p - 1 : Nat) : F) := by
        rw [Nat.cast_sub (by decide), CharP.cast_eq_zero F p, Nat.cast_one]; linear_combination h
      rw [ZMod.natCast_eq_natCast_iff, Nat.ModEq, Nat.mod_eq_of_lt hy] at h3
      rw [h3]
      decide
  · rintro (rfl | rfl) <;> decide +kernel

/-- The numbers below 19 that are `y` of a point. -/
def smallY : List Nat := [0, 1, 3, 4, 5, 6, 9, 10, 14, 15, 16, 18]

/-- A key whose number is `n`. -/
def keyOf (n : Nat) : Arr 32 := ⟨toLE 32 n, toLE_length _ _⟩

theorem keyOf_number {n : Nat} (h : n < 2 ^ 256) : fromLE (keyOf n).toList = n := by
  show fromLE (toLE 32 n) = n
  rw [fromLE_toLE]
  norm_num
  exact h

theorem fromLE_lt256 (b : Arr 32) : fromLE b.toList < 2 ^ 256 := by
  have h := fromLE_lt b.toList
  rw [b.len] at h
  norm_num at h ⊢
  exact h

theorem keyOf_fromLE (b : Arr 32) : keyOf (fromLE b.toList) = b := by
  cases b with
  | mk l hl =>
    have h := toLE_fromLE' 32 l hl
    unfold keyOf
    simp only [h]

/-- The encodings that the crate accepts and the RFC refuses. -/
def extraKeys : List Nat :=
  smallY.map (fun y => p + y) ++ smallY.map (fun y => p + y + 2 ^ 255) ++ [1 + 2 ^ 255, p - 1 + 2 ^ 255]

theorem extra_iff (b : Arr 32) :
    ((decodeCrate b).isSome = true ∧ decode b = none) ↔ fromLE b.toList ∈ extraKeys := by
  have hlt := fromLE_lt256 b
  have hb := keyOf_fromLE b
  generalize fromLE b.toList = n at hlt hb ⊢
  subst hb
  have hkn := keyOf_number hlt
  have hp255 : p < 2 ^ 255 := p_lt
  have hpv : p = 2 ^ 255 - 19 := by decide
  by_cases hy : n % 2 ^ 255 < p
  · -- a reduced y
    have h1 : (decodeCrate (keyOf n)).isSome = true ∧ decode (keyOf n) = none ↔
        n / 2 ^ 255 = 1 ∧ (n % 2 ^ 255 = 1 ∨ n % 2 ^ 255 = p - 1) := by
      rw [← x2_zero hy]
      unfold decodeCrate decode
      simp only [hkn, Nat.mod_eq_of_lt hy, if_pos hy]
      generalize X25519.sub (n % 2 ^ 255 * (n % 2 ^ 255) % p) 1 *
        powMod p ((d * (n % 2 ^ 255 * (n % 2 ^ 255)) + 1) % p) 255 (p - 2) % p = x2
      by_cases h0 : x2 = 0
      · rw [if_pos h0]
        subst h0
        simp [recoverX]
      · rw [if_neg h0]
        cases recoverX x2 (n / 2 ^ 255) <;> simp [h0]
    rw [h1]
    unfold extraKeys
    simp only [List.mem_append, List.mem_map, List.mem_cons, List.not_mem_nil, or_false]
    constructor
    · rintro ⟨h2, h3 | h3⟩
      · right; left; omega
      · right; right; omega
    · rintro ((⟨y, hy', rfl⟩ | ⟨y, hy', rfl⟩) | rfl | rfl)
      · exfalso
        have : y < 19 := by revert y; decide
        omega
      · exfalso
        have : y < 19 := by revert y; decide
        omega
      · omega
      · omega
  · -- y = p + k with k < 19
    have hdec : decode (keyOf n) = none := by
      unfold decode
      simp only [hkn, if_neg hy]
    obtain ⟨k, hk⟩ : ∃ k, n % 2 ^ 255 = p + k := ⟨n % 2 ^ 255 - p, by omega⟩
    have hk19 : k < 19 := by omega
    have hs2 : n / 2 ^ 255 < 2 := by omega
    have hn : n = p + k + 2 ^ 255 * (n / 2 ^ 255) := by omega
    generalize n / 2 ^ 255 = s at hn hs2
    subst hn
    simp only [hdec, and_true]
    have key : ∀ s < 2, ∀ k < 19, ((decodeCrate (keyOf (p + k + 2 ^ 255 * s))).isSome = true ↔
        p + k + 2 ^ 255 * s ∈ extraKeys) := by decide +kernel
    exact key s hs2 k hk19

end SV2.Crypto.Ed25519
