import Verif.Model.Crypto.Ed25519
import Verif.Lemmas.Crypto.Edwards
import Verif.Lemmas.Crypto.LowOrder
/-!
# Ed25519: honest signatures verify
-/

namespace SV2.Crypto.Ed25519

open X25519 (p powMod)
open Edwards LowOrder

local instance : Fact (Nat.Prime p) := ⟨prime_p⟩

set_option maxRecDepth 100000

theorem castF_mod (n : Nat) : ((n % p : Nat) : F) = n := (CharP.cast_eq_mod F p n).symm

theorem castF_sub (a b : Nat) (h : b ≤ p) : ((X25519.sub a b : Nat) : F) = a - b := by
  rw [X25519.sub, castF_mod, Nat.cast_add, Nat.cast_sub h, CharP.cast_eq_zero F p]
  ring

theorem cast_eq_of (a b : Nat) (h : a % p = b % p) : (a : F) = b := by
  rw [ZMod.natCast_eq_natCast_iff, Nat.ModEq, h]

/-- `-x² + y² = 1 + d x² y²` over the integers modulo `p`. -/
def curve : Curve F where
  d := (d : F)
  i := (sqrtM1 : F)
  i_sq := by
    have h := cast_eq_of (sqrtM1 * sqrtM1) (p - 1) (by decide +kernel)
    rw [Nat.cast_mul, Nat.cast_sub (by decide), CharP.cast_eq_zero F p] at h
    rw [pow_two, h]
    simp
  nonsquare := by
    rintro ⟨r, hr⟩
    exact not_square d (by decide +kernel) r hr.symm
  two := two_ne

theorem curve_d : curve.d = (d : F) := rfl

/-- The coordinates stand for the point. -/
structure Rep (P : Point curve) (E : Ext) : Prop where
  Z : (E.Z : F) ≠ 0
  X : (E.X : F) = P.x * E.Z
  Y : (E.Y : F) = P.y * E.Z
  T : (E.T : F) = P.x * P.y * E.Z
  le : E.X ≤ p ∧ E.T ≤ p

theorem rep_zero : Rep 0 ⟨0, 1, 1, 0⟩ := by
  refine ⟨by simp, by simp [zero_x], by simp [zero_y], by simp [zero_x], by decide⟩

theorem rep_add (P Q : Point curve) (E E' : Ext) (h : Rep P E) (h' : Rep Q E') : Rep (P + Q) (add E E') := by
  have hp := den_pos curve P Q
  have hn := den_neg curve P Q
  have h2 := curve.two
  have hA : ((X25519.sub E.Y E.X * X25519.sub E'.Y E'.X % p : Nat) : F) =
      (P.y - P.x) * (Q.y - Q.x) * (E.Z * E'.Z) := by
    rw [castF_mod, Nat.cast_mul, castF_sub _ _ h.le.1, castF_sub _ _ h'.le.1, h.X, h.Y, h'.X, h'.Y]
    ring
  have hB : (((E.Y + E.X) * (E'.Y + E'.X) % p : Nat) : F) = (P.y + P.x) * (Q.y + Q.x) * (E.Z * E'.Z) := by
    rw [castF_mod, Nat.cast_mul, Nat.cast_add, Nat.cast_add, h.X, h.Y, h'.X, h'.Y]
    ring
  have hC : ((E.T * 2 * d * E'.T % p : Nat) : F) = 2 * (curve.d * P.x * Q.x * P.y * Q.y) * (E.Z * E'.Z) := by
    rw [castF_mod, Nat.cast_mul, Nat.cast_mul, Nat.cast_mul, h.T, h'.T, curve_d]
    push_cast
    ring
  have hD : ((E.Z * 2 * E'.Z % p : Nat) : F) = 2 * (E.Z * E'.Z) := by
    rw [castF_mod, Nat.cast_mul, Nat.cast_mul]
    push_cast
    ring
  have hlt : ∀ n, n % p ≤ p := fun n => le_of_lt (Nat.mod_lt _ X25519.p_pos)
  generalize hAv : X25519.sub E.Y E.X * X25519.sub E'.Y E'.X % p = A at hA
  generalize hBv : (E.Y + E.X) * (E'.Y + E'.X) % p = B at hB
  generalize hCv : E.T * 2 * d * E'.T % p = C at hC
  generalize hDv : E.Z * 2 * E'.Z % p = D at hD
  have hEF : add E E' = ⟨X25519.sub B A * X25519.sub D C % p, (D + C) % p * ((B + A) % p) % p,
      X25519.sub D C * ((D + C) % p) % p, X25519.sub B A * ((B + A) % p) % p⟩ := by
    subst hAv hBv hCv hDv
    rfl
  have hAl : A ≤ p := hAv ▸ hlt _
  have hCl : C ≤ p := hCv ▸ hlt _
  rw [hEF]
  have eE : ((X25519.sub B A : Nat) : F) = 2 * (P.x * Q.y + P.y * Q.x) * (E.Z * E'.Z) := by
    rw [castF_sub _ _ hAl, hA, hB]; ring
  have eF : ((X25519.sub D C : Nat) : F) = 2 * (1 - curve.d * P.x * Q.x * P.y * Q.y) * (E.Z * E'.Z) := by
    rw [castF_sub _ _ hCl, hC, hD]; ring
  have eG : (((D + C) % p : Nat) : F) = 2 * (1 + curve.d * P.x * Q.x * P.y * Q.y) * (E.Z * E'.Z) := by
    rw [castF_mod, Nat.cast_add, hC, hD]; ring
  have eH : (((B + A) % p : Nat) : F) = 2 * (P.y * Q.y + P.x * Q.x) * (E.Z * E'.Z) := by
    rw [castF_mod, Nat.cast_add, hA, hB]; ring
  have hz := h.Z
  have hz' := h'.Z
  refine ⟨?_, ?_, ?_, ?_, hlt _, hlt _⟩
  · simp only
    rw [castF_mod, Nat.cast_mul, eF, eG]
    exact mul_ne_zero (mul_ne_zero (mul_ne_zero h2 hn) (mul_ne_zero hz hz'))
      (mul_ne_zero (mul_ne_zero h2 hp) (mul_ne_zero hz hz'))
  · simp only
    rw [castF_mod, Nat.cast_mul, castF_mod, Nat.cast_mul, eE, eF, eG, add_x]
    generalize 1 + curve.d * P.x * Q.x * P.y * Q.y = b at hp ⊢
    generalize 1 - curve.d * P.x * Q.x * P.y * Q.y = e at hn ⊢
    field_simp
  · simp only
    rw [castF_mod (_ * _), Nat.cast_mul, castF_mod (_ * _), Nat.cast_mul, eF, eG, eH, add_y]
    generalize 1 + curve.d * P.x * Q.x * P.y * Q.y = b at hp ⊢
    generalize 1 - curve.d * P.x * Q.x * P.y * Q.y = e at hn ⊢
    field_simp
  · simp only
    rw [castF_mod (_ * _), Nat.cast_mul, castF_mod (_ * _), Nat.cast_mul, eE, eF, eG, eH, add_x, add_y]
    generalize 1 + curve.d * P.x * Q.x * P.y * Q.y = b at hp ⊢
    generalize 1 - curve.d * P.x * Q.x * P.y * Q.y = e at hn ⊢
    field_simp

theorem rep_neg (P : Point curve) (E : Ext) (h : Rep P E) : Rep (-P) (neg E) := by
  have hlt : ∀ n, X25519.sub 0 n ≤ p := fun n => le_of_lt (Nat.mod_lt _ X25519.p_pos)
  refine ⟨h.Z, ?_, ?_, ?_, hlt _, hlt _⟩
  · show ((X25519.sub 0 E.X : Nat) : F) = _
    rw [castF_sub _ _ h.le.1, h.X, neg_x]; simp [neg]
  · exact h.Y
  · show ((X25519.sub 0 E.T : Nat) : F) = _
    rw [castF_sub _ _ h.le.2, h.T, neg_x, neg_y]; simp [neg]

theorem rep_mulLoop (n s : Nat) (hs : s < 2 ^ n) (P Q : Point curve) (E E' : Ext) (h : Rep P E) (h' : Rep Q E') :
    Rep (Q + s • P) (mulLoop n s E E') := by
  induction n generalizing s P Q E E' with
  | zero =>
    obtain rfl : s = 0 := by omega
    rw [zero_smul, add_zero]
    exact h'
  | succ n ih =>
    rw [mulLoop]
    have hd := ih (s / 2) (by omega) (P + P) (if s % 2 = 1 then Q + P else Q) (add E E)
      (if s % 2 = 1 then add E' E else E') (rep_add _ _ _ _ h h)
      (by split; exact rep_add _ _ _ _ h' h; exact h')
    have : Q + s • P = (if s % 2 = 1 then Q + P else Q) + (s / 2) • (P + P) := by
      have hs2 : s = s % 2 + 2 * (s / 2) := by omega
      conv => lhs; rw [hs2]
      rw [add_smul, mul_comm 2, mul_smul, two_smul]
      rcases Nat.mod_two_eq_zero_or_one s with h0 | h1
      · rw [h0, if_neg (by omega), zero_smul, zero_add]
      · rw [h1, if_pos rfl, one_smul, add_assoc]
    rw [this]
    exact hd

theorem rep_mul (s : Nat) (hs : s < 2 ^ 256) (P : Point curve) (E : Ext) (h : Rep P E) : Rep (s • P) (mul s E) := by
  have := rep_mulLoop 256 s hs P 0 E _ h rep_zero
  rwa [zero_add] at this

/-- The encoding of a point. -/
def enc (P : Point curve) : Bytes := toLE 32 (P.y.val + 2 ^ 255 * (P.x.val % 2))

theorem inv_eq (z : Nat) (hz : (z : F) ≠ 0) : ((powMod p z 255 (p - 2) : Nat) : F) = (z : F)⁻¹ := by
  rw [powMod_eq _ _ _ _ (by decide), castF_mod, Nat.cast_pow]
  have h := ZMod.pow_card_sub_one_eq_one hz
  have hp : p - 1 = p - 2 + 1 := by decide
  rw [hp, pow_succ] at h
  exact eq_inv_of_mul_eq_one_left h

theorem val_of (n : Nat) (x : F) (h : (n : F) = x) (hn : n < p) : n = x.val := by
  rw [← h, ZMod.val_cast_of_lt hn]

theorem encode_eq (P : Point curve) (E : Ext) (h : Rep P E) : (encode E).toList = enc P := by
  have hx : E.X * powMod p E.Z 255 (p - 2) % p = P.x.val := by
    apply val_of _ _ _ (Nat.mod_lt _ X25519.p_pos)
    rw [castF_mod, Nat.cast_mul, inv_eq _ h.Z, h.X, mul_assoc, mul_inv_cancel₀ h.Z, mul_one]
  have hy : E.Y * powMod p E.Z 255 (p - 2) % p = P.y.val := by
    apply val_of _ _ _ (Nat.mod_lt _ X25519.p_pos)
    rw [castF_mod, Nat.cast_mul, inv_eq _ h.Z, h.Y, mul_assoc, mul_inv_cancel₀ h.Z, mul_one]
  simp only [encode, enc, hx, hy]

theorem p_lt : p < 2 ^ 255 := by decide

theorem val_lt (x : F) : x.val < p := ZMod.val_lt x

theorem enc_number (P : Point curve) : fromLE (enc P) = P.y.val + 2 ^ 255 * (P.x.val % 2) := by
  have h1 := val_lt P.y
  have h2 := p_lt
  rw [enc, fromLE_toLE]
  rw [show (256 : Nat) ^ 32 = 2 ^ 255 * 2 by norm_num]
  have : P.x.val % 2 < 2 := Nat.mod_lt _ (by omega)
  omega

theorem parity (q v r : Nat) (hq : q % 2 = 1) (h : q - v = r) (hv : v < q) (h0 : v ≠ 0) : ¬ r % 2 = v % 2 := by
  omega

theorem recover (x : F) : recoverX (x ^ 2).val (x.val % 2) = some x.val := by
  unfold recoverX
  by_cases h0 : x = 0
  · subst h0; simp
  have hx2 : (x ^ 2).val ≠ 0 := by
    rw [Ne, ZMod.val_eq_zero]
    exact pow_ne_zero 2 h0
  rw [if_neg hx2]
  have hfer : (x ^ ((p - 1) / 2)) ^ 2 = 1 := by
    rw [← pow_mul, show (p - 1) / 2 * 2 = p - 1 by decide]
    exact ZMod.pow_card_sub_one_eq_one h0
  have hc : (powMod p (x ^ 2).val 255 ((p + 3) / 8) : F) ^ 2 = x ^ 2 * x ^ ((p - 1) / 2) := by
    rw [powMod_eq _ _ _ _ (by decide), castF_mod, Nat.cast_pow, ZMod.natCast_zmod_val, ← pow_mul, ← pow_mul, ← pow_add,
      show 2 * ((p + 3) / 8 * 2) = 2 + (p - 1) / 2 by decide]
  have hsq : ∀ c : Nat, (c * c % p = (x ^ 2).val ↔ (c : F) ^ 2 = x ^ 2) := by
    intro c
    constructor
    · intro h
      have := congrArg (Nat.cast (R := F)) h
      rw [castF_mod, Nat.cast_mul, ZMod.natCast_zmod_val] at this
      rw [pow_two, this]
    · intro h
      apply val_of _ _ _ (Nat.mod_lt _ X25519.p_pos)
      rw [castF_mod, Nat.cast_mul, ← pow_two, h]
  generalize hcand : powMod p (x ^ 2).val 255 ((p + 3) / 8) = c at hc
  have hclt : c < p := by
    rw [← hcand, powMod_eq _ _ _ _ (by decide)]
    exact Nat.mod_lt _ X25519.p_pos
  have hroot : ∃ r : Nat, r < p ∧ (r : F) ^ 2 = x ^ 2 ∧ (if c * c % p = (x ^ 2).val then c else c * sqrtM1 % p) = r := by
    refine ⟨_, ?_, ?_, rfl⟩
    · split
      · exact hclt
      · exact Nat.mod_lt _ X25519.p_pos
    · split
      · rename_i h; exact (hsq c).mp h
      · rename_i h
        rw [hsq] at h
        rcases sq_eq_one_iff.mp hfer with h1 | h1
        · rw [h1, mul_one] at hc; exact absurd hc h
        · rw [castF_mod, Nat.cast_mul, mul_pow, hc, h1]
          have := curve.i_sq
          show x ^ 2 * -1 * curve.i ^ 2 = _
          rw [this]; ring
  obtain ⟨r, hrlt, hr, heq⟩ := hroot
  simp only [heq]
  rw [if_pos ((hsq r).mpr hr)]
  have hxv := val_lt x
  have hx0 : x.val ≠ 0 := by rwa [Ne, ZMod.val_eq_zero]
  have hodd : p % 2 = 1 := by decide
  rcases sq_eq_sq_iff_eq_or_eq_neg.mp hr with h | h
  · have : r = x.val := val_of r x h hrlt
    rw [this, if_pos rfl]
  · have hneg : p - x.val = r := by
      have h1 := val_of r (-x) h hrlt
      have h2 : p - x.val = (-x).val := by
        apply val_of _ _ _ (by omega)
        rw [Nat.cast_sub hxv.le, CharP.cast_eq_zero F p, ZMod.natCast_zmod_val, zero_sub]
      rw [h1, h2]
    have hback : p - r = x.val := by rw [← hneg, Nat.sub_sub_self hxv.le]
    rw [if_neg (parity p x.val r hodd hneg hxv hx0), hback]

theorem x_sq (P : Point curve) : P.x ^ 2 = (P.y * P.y - 1) * (curve.d * (P.y * P.y) + 1)⁻¹ ∧
    curve.d * (P.y * P.y) + 1 ≠ 0 := by
  have hne : curve.d * (P.y * P.y) + 1 ≠ 0 := by
    intro h
    have hy : P.y ≠ 0 := by
      intro hy
      rw [hy] at h
      simp at h
    apply curve.nonsquare
    refine ⟨curve.i / P.y, ?_⟩
    field_simp
    linear_combination h - curve.i_sq
  refine ⟨?_, hne⟩
  rw [eq_mul_inv_iff_mul_eq₀ hne]
  linear_combination -P.on

/-- Decoding an encoded point. -/
theorem decode_enc (P : Point curve) (b : Arr 32) (hb : b.toList = enc P) :
    ∃ E, decode b = some E ∧ Rep P E := by
  have h1 := val_lt P.y
  have h2 := p_lt
  have hbit : P.x.val % 2 < 2 := Nat.mod_lt _ (by omega)
  have hn := enc_number P
  have hmod : fromLE b.toList % 2 ^ 255 = P.y.val := by rw [hb, hn]; omega
  have hdiv : fromLE b.toList / 2 ^ 255 = P.x.val % 2 := by rw [hb, hn]; omega
  obtain ⟨hxs, hne⟩ := x_sq P
  have hx2 : X25519.sub (P.y.val * P.y.val % p) 1 * powMod p ((d * (P.y.val * P.y.val) + 1) % p) 255 (p - 2) % p =
      (P.x ^ 2).val := by
    apply val_of _ _ _ (Nat.mod_lt _ X25519.p_pos)
    have hden : ((((d * (P.y.val * P.y.val) + 1) % p : Nat)) : F) = curve.d * (P.y * P.y) + 1 := by
      rw [castF_mod]
      push_cast
      rw [ZMod.natCast_zmod_val, curve_d]
    rw [castF_mod, Nat.cast_mul, inv_eq _ (by rw [hden]; exact hne), hden, castF_sub _ _ (by decide), castF_mod,
      Nat.cast_mul, ZMod.natCast_zmod_val, Nat.cast_one, hxs]
  refine ⟨⟨P.x.val, P.y.val, 1, P.x.val * P.y.val % p⟩, ?_, ?_⟩
  · unfold decode
    simp only [hmod, hdiv, hx2, recover]
    rw [if_pos h1, Option.map_some]
  · refine ⟨by simp, by simp, by simp, ?_, (val_lt P.x).le, (Nat.mod_lt _ X25519.p_pos).le⟩
    simp only
    rw [castF_mod, Nat.cast_mul, ZMod.natCast_zmod_val, ZMod.natCast_zmod_val, Nat.cast_one, mul_one]

/-- The base point. -/
def B : Point curve where
  x := ((15112221349535400772501151409588531511454012693041857206046113283949847762202 : Nat) : F)
  y := ((46316835694926478169428394003475163141307993866256225615783033603165251855960 : Nat) : F)
  on := by
    have h := cast_eq_of
      (46316835694926478169428394003475163141307993866256225615783033603165251855960 ^ 2)
      (1 + d * 15112221349535400772501151409588531511454012693041857206046113283949847762202 ^ 2 *
        46316835694926478169428394003475163141307993866256225615783033603165251855960 ^ 2 +
        15112221349535400772501151409588531511454012693041857206046113283949847762202 ^ 2) (by decide +kernel)
    rw [Nat.cast_pow, Nat.cast_add, Nat.cast_add, Nat.cast_mul, Nat.cast_mul, Nat.cast_pow, Nat.cast_pow,
      Nat.cast_one] at h
    rw [curve_d]
    linear_combination h

theorem rep_base : Rep B base := by
  refine ⟨by simp [base], ?_, ?_, ?_, ?_⟩
  · simp only [base, B, Nat.cast_one, mul_one]
  · simp only [base, B, Nat.cast_one, mul_one]
  · simp only [base, B, Nat.cast_one, mul_one]
    rw [castF_mod, Nat.cast_mul]
  · decide +kernel

theorem eq_zero_of_rep (P : Point curve) (E : Ext) (h : Rep P E) (hX : E.X = 0) (hY : E.Y = E.Z) : P = 0 := by
  have hz := h.Z
  have hx := h.X
  have hy := h.Y
  rw [hX, Nat.cast_zero] at hx
  rw [hY] at hy
  ext
  · rw [zero_x]
    exact (mul_eq_zero.mp hx.symm).resolve_right hz
  · rw [zero_y]
    have : (P.y - 1) * E.Z = 0 := by linear_combination -hy
    exact sub_eq_zero.mp ((mul_eq_zero.mp this).resolve_right hz)

theorem L_smul_B : L • B = 0 :=
  eq_zero_of_rep _ _ (rep_mul L (by decide) B base rep_base) (by decide +kernel) (by decide +kernel)

theorem mod_smul_B (n : Nat) : (n % L) • B = n • B := by
  conv => rhs; rw [← Nat.mod_add_div n L]
  rw [add_smul, mul_smul, smul_comm, L_smul_B, smul_zero, add_zero]

theorem expand_lt (seed : Arr 32) : (expand seed).1 < 2 ^ 256 := by
  unfold expand
  simp only
  omega

theorem publicOf_eq (seed : Arr 32) : (publicOf seed).toList = enc ((expand seed).1 • B) :=
  encode_eq _ _ (rep_mul _ (expand_lt seed) B base rep_base)

theorem L_pos : 0 < L := by decide

theorem hashModL_lt (b : Bytes) : hashModL b < L := Nat.mod_lt _ L_pos

theorem L_lt : L < 2 ^ 253 := by decide

/-- What verification computes, for a key that decodes to `A`. -/
theorem verify_eq (key : Arr 32) (A : Point curve) (hA : key.toList = enc A) (m : Bytes) (sig : Arr 64) :
    verify key m sig = true ↔ fromLE (sig.toList.drop 32) < L ∧
      enc (fromLE (sig.toList.drop 32) • B - hashModL (sig.toList.take 32 ++ key.toList ++ m) • A) =
        sig.toList.take 32 := by
  obtain ⟨E, hE, hrep⟩ := decode_enc A key hA
  unfold verify
  rw [hE]
  simp only [Bool.and_eq_true, decide_eq_true_eq]
  apply and_congr_right
  intro hs
  have h1 := rep_mul _ (hs.trans (L_lt.trans (by norm_num))) B base rep_base
  have h2 := rep_mul _ ((hashModL_lt (sig.toList.take 32 ++ key.toList ++ m)).trans (L_lt.trans (by norm_num))) _ _
    (rep_neg A E hrep)
  rw [encode_eq _ _ (rep_add _ _ _ _ h1 h2), smul_neg, sub_eq_add_neg]

/-- Honest signatures verify. -/
theorem verify_sign (seed : Arr 32) (m : Bytes) : verify (publicOf seed) m (sign seed m) = true := by
  rw [verify_eq _ _ (publicOf_eq seed)]
  have hr := hashModL_lt ((expand seed).2 ++ m)
  generalize hR : encode (mul (hashModL ((expand seed).2 ++ m)) base) = R
  have hsig : (sign seed m).toList = R.toList ++ toLE 32 ((hashModL ((expand seed).2 ++ m) +
      hashModL (R.toList ++ (publicOf seed).toList ++ m) * (expand seed).1) % L) := by
    rw [← hR]; rfl
  have hRl := R.len
  have hlt : (hashModL ((expand seed).2 ++ m) +
      hashModL (R.toList ++ (publicOf seed).toList ++ m) * (expand seed).1) % L < L := Nat.mod_lt _ L_pos
  have htake : (sign seed m).toList.take 32 = R.toList := by rw [hsig]; exact List.take_left' hRl
  have hdrop : fromLE ((sign seed m).toList.drop 32) = (hashModL ((expand seed).2 ++ m) +
      hashModL (R.toList ++ (publicOf seed).toList ++ m) * (expand seed).1) % L := by
    rw [hsig, List.drop_left' hRl, fromLE_toLE]
    exact hlt.trans (L_lt.trans (by norm_num))
  rw [htake, hdrop]
  refine ⟨hlt, ?_⟩
  rw [mod_smul_B, add_smul, mul_smul, add_sub_cancel_right, ← hR]
  exact (encode_eq _ _ (rep_mul _ (hr.trans (L_lt.trans (by norm_num))) B base rep_base)).symm

theorem valid_publicOf (seed : Arr 32) : (decode (publicOf seed)).isSome = true := by
  obtain ⟨E, hE, _⟩ := decode_enc _ _ (publicOf_eq seed)
  rw [hE]; rfl

/-! ## The order of the base point, and the encoding is injective -/

theorem L_eq : L = l := by decide

instance : Fact (Nat.Prime L) := ⟨L_eq ▸ prime_l⟩

theorem B_ne : B ≠ 0 := by
  intro h
  have hx : (B.x : F) = 0 := by rw [h, zero_x]
  have h2 : ((15112221349535400772501151409588531511454012693041857206046113283949847762202 : Nat) : F) = 0 := hx
  rw [ZMod.natCast_eq_zero_iff] at h2
  exact absurd (Nat.le_of_dvd (by decide) h2) (by decide)

theorem order_B : addOrderOf B = L := addOrderOf_eq_prime L_smul_B B_ne

theorem smul_B_inj {a b : Nat} (ha : a < L) (hb : b < L) (h : a • B = b • B) : a = b := by
  refine nsmul_injOn_Iio_addOrderOf (x := B) ?_ ?_ h
  · rw [order_B]; exact ha
  · rw [order_B]; exact hb

theorem enc_inj {P Q : Point curve} (h : enc P = enc Q) : P = Q := by
  have hb : (enc P).length = 32 := toLE_length _ _
  obtain ⟨E, hE, hr⟩ := decode_enc P ⟨enc P, hb⟩ rfl
  obtain ⟨E', hE', hr'⟩ := decode_enc Q ⟨enc P, hb⟩ h
  rw [hE] at hE'
  cases hE'
  ext
  · exact mul_right_cancel₀ hr.Z (hr.X.symm.trans hr'.X)
  · exact mul_right_cancel₀ hr.Z (hr.Y.symm.trans hr'.Y)

end SV2.Crypto.Ed25519
