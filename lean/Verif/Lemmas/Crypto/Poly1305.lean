import Mathlib.Algebra.Polynomial.Roots
import Mathlib.SetTheory.Cardinal.Finite
import Verif.Model.Crypto.ChaCha20Poly1305
import Verif.Lemmas.Crypto.Primes
import Verif.Lemmas.Codec
/-!
# Poly1305: how many one-time keys give a tag, and how many give two tags
-/

namespace SV2.Crypto

set_option maxRecDepth 100000

theorem prime_32985101 : Nat.Prime 32985101 := by norm_num

theorem prime_3134801 : Nat.Prime 3134801 := by norm_num

theorem prime_4024685905107147541 : Nat.Prime 4024685905107147541 := by
  refine pratt 4024685905107147541 2 62 [2, 2, 3, 3, 5, 13, 43, 4889, 37003, 221101] ?_ (by decide +kernel)
    (by decide +kernel) (by decide +kernel) (by decide +kernel) (by decide +kernel)
  intro q hq
  simp only [List.mem_cons, List.not_mem_nil, or_false] at hq
  rcases hq with rfl | rfl | rfl | rfl | rfl | rfl | rfl | rfl | rfl | rfl <;> norm_num

theorem prime_897064739519922787230182993783 : Nat.Prime 897064739519922787230182993783 := by
  refine pratt 897064739519922787230182993783 5 100 [2, 73, 487, 3134801, 4024685905107147541] ?_ (by decide +kernel)
    (by decide +kernel) (by decide +kernel) (by decide +kernel) (by decide +kernel)
  intro q hq
  simp only [List.mem_cons, List.not_mem_nil, or_false] at hq
  rcases hq with rfl | rfl | rfl | rfl | rfl
  · norm_num
  · norm_num
  · norm_num
  · exact prime_3134801
  · exact prime_4024685905107147541

namespace Poly1305

theorem prime_p : Nat.Prime p := by
  refine pratt p 2 130 [2, 23, 32985101, 897064739519922787230182993783] ?_ (by decide +kernel)
    (by decide +kernel) (by decide +kernel) (by decide +kernel) (by decide +kernel)
  intro q hq
  simp only [List.mem_cons, List.not_mem_nil, or_false] at hq
  rcases hq with rfl | rfl | rfl | rfl
  · norm_num
  · norm_num
  · exact prime_32985101
  · exact prime_897064739519922787230182993783

local instance : Fact (Nat.Prime p) := ⟨prime_p⟩

open Polynomial

/-! ## The accumulator is a polynomial -/

/-- The polynomial of `n` blocks. -/
noncomputable def poly : Nat → Bytes → (ZMod p)[X]
  | 0, _ => 0
  | n + 1, msg => C ((fromLE (msg.take 16 ++ [1]) : ℕ) : ZMod p) * X ^ (n + 1) + poly n (msg.drop 16)

theorem accumulate_eq (r n acc : Nat) (msg : Bytes) :
    ((accumulate r n acc msg : ℕ) : ZMod p) = (acc : ZMod p) * (r : ZMod p) ^ n + (poly n msg).eval (r : ZMod p) := by
  induction n generalizing acc msg with
  | zero => simp [accumulate, poly]
  | succ n ih =>
    simp only [accumulate, ih, poly, eval_add, eval_mul, eval_C, eval_pow, eval_X, ZMod.natCast_mod]
    push_cast
    ring

theorem accumulate_lt (r n : Nat) : ∀ acc msg, acc < p → accumulate r n acc msg < p := by
  induction n with
  | zero => intro acc msg h; exact h
  | succ n ih => intro acc msg _; exact ih _ _ (Nat.mod_lt _ (by decide))

theorem coeff_above (n : Nat) : ∀ msg k, n < k → (poly n msg).coeff k = 0 := by
  induction n with
  | zero => intro msg k _; simp [poly]
  | succ n ih =>
    intro msg k hk
    simp only [poly, coeff_add, coeff_C_mul, coeff_X_pow, ih _ _ (show n < k by omega)]
    rw [if_neg (by omega)]
    simp

theorem coeff_zero (n : Nat) : ∀ msg, (poly n msg).coeff 0 = 0 := by
  induction n with
  | zero => intro msg; simp [poly]
  | succ n ih => intro msg; simp [poly, ih, coeff_X_pow]

theorem coeff_top (n : Nat) (msg : Bytes) :
    (poly (n + 1) msg).coeff (n + 1) = ((fromLE (msg.take 16 ++ [1]) : ℕ) : ZMod p) := by
  simp only [poly, coeff_add, coeff_C_mul, coeff_X_pow, coeff_above n _ (n + 1) (by omega), if_true]
  simp

theorem block_lt (msg : Bytes) : fromLE (msg.take 16 ++ [1]) < p := by
  have h := fromLE_lt (msg.take 16)
  rw [fromLE_append]
  have hl : (msg.take 16).length ≤ 16 := by simp
  have hp : 256 ^ (msg.take 16).length ≤ 256 ^ 16 := Nat.pow_le_pow_right (by decide) hl
  have : fromLE [1] = 1 := by decide
  rw [this]
  have : (256 : Nat) ^ 16 + 256 ^ 16 < p := by decide
  omega

theorem block_pos (msg : Bytes) : 0 < fromLE (msg.take 16 ++ [1]) := by
  rw [fromLE_append]
  have : fromLE [1] = 1 := by decide
  rw [this]
  have : 0 < 256 ^ (msg.take 16).length := Nat.pow_pos (by decide)
  omega

theorem cast_inj {a b : Nat} (ha : a < p) (hb : b < p) (h : (a : ZMod p) = (b : ZMod p)) : a = b := by
  rw [ZMod.natCast_eq_natCast_iff', Nat.mod_eq_of_lt ha, Nat.mod_eq_of_lt hb] at h
  exact h

/-- A block with its end marker determines the bytes. -/
theorem block_inj {a b : Bytes} (h : fromLE (a ++ [1]) = fromLE (b ++ [1])) : a = b := by
  have one : fromLE [1] = 1 := by decide
  rw [fromLE_append, fromLE_append, one] at h
  have ha := fromLE_lt a
  have hb := fromLE_lt b
  have hl : a.length = b.length := by
    rcases Nat.lt_trichotomy a.length b.length with hlt | heq | hgt
    · have : 256 ^ (a.length + 1) ≤ 256 ^ b.length := Nat.pow_le_pow_right (by decide) hlt
      rw [Nat.pow_succ] at this
      have : 0 < 256 ^ a.length := Nat.pow_pos (by decide)
      omega
    · exact heq
    · have : 256 ^ (b.length + 1) ≤ 256 ^ a.length := Nat.pow_le_pow_right (by decide) hgt
      rw [Nat.pow_succ] at this
      have : 0 < 256 ^ b.length := Nat.pow_pos (by decide)
      omega
  have hf : fromLE a = fromLE b := by rw [hl] at h; omega
  rw [← toLE_fromLE a, ← toLE_fromLE b, hl, hf]

def blocks (msg : Bytes) : Nat := (msg.length + 15) / 16

theorem poly_ne_zero (n : Nat) (msg : Bytes) : (poly (n + 1) msg).coeff (n + 1) ≠ 0 := by
  rw [coeff_top]
  intro h
  have := cast_inj (block_lt msg) (show 0 < p by decide) (by simpa using h)
  have := block_pos msg
  omega

theorem poly_inj (n : Nat) : ∀ a b : Bytes, blocks a = n → blocks b = n → poly n a = poly n b → a = b := by
  induction n with
  | zero =>
    intro a b ha hb _
    unfold blocks at ha hb
    rw [List.length_eq_zero_iff.mp (show a.length = 0 by omega), List.length_eq_zero_iff.mp (show b.length = 0 by omega)]
  | succ n ih =>
    intro a b ha hb h
    have ht := congrArg (fun q => q.coeff (n + 1)) h
    simp only [coeff_top] at ht
    have hblock := block_inj (cast_inj (block_lt a) (block_lt b) ht)
    have hrest : poly n (a.drop 16) = poly n (b.drop 16) := by
      simp only [poly, ht] at h
      exact add_left_cancel h
    have := ih _ _ (by unfold blocks at *; simp; omega) (by unfold blocks at *; simp; omega) hrest
    rw [← List.take_append_drop 16 a, ← List.take_append_drop 16 b, hblock, this]

/-- Different messages have different polynomials, even up to a constant. -/
theorem poly_ne {a b : Bytes} (h : a ≠ b) (c : ZMod p) :
    poly (blocks a) a - poly (blocks b) b - C c ≠ 0 := by
  intro h0
  have hc : ∀ k, 0 < k → (poly (blocks a) a).coeff k = (poly (blocks b) b).coeff k := by
    intro k hk
    have := congrArg (fun q => q.coeff k) h0
    simp only [coeff_sub, coeff_C, if_neg (Nat.ne_of_gt hk), Polynomial.coeff_zero, sub_zero] at this
    exact sub_eq_zero.mp this
  have heq : poly (blocks a) a = poly (blocks b) b := by
    ext k
    rcases Nat.eq_zero_or_pos k with rfl | hk
    · rw [coeff_zero, coeff_zero]
    · rw [hc k hk]
  have hn : blocks a = blocks b := by
    rcases Nat.lt_trichotomy (blocks a) (blocks b) with hlt | h' | hgt
    · obtain ⟨m, hm⟩ : ∃ m, blocks b = m + 1 := ⟨blocks b - 1, by omega⟩
      exfalso
      have h1 := coeff_above (blocks a) a (m + 1) (by omega)
      rw [heq, hm] at h1
      exact poly_ne_zero m b h1
    · exact h'
    · obtain ⟨m, hm⟩ : ∃ m, blocks a = m + 1 := ⟨blocks a - 1, by omega⟩
      exfalso
      have h1 := coeff_above (blocks b) b (m + 1) (by omega)
      rw [← heq, hm] at h1
      exact poly_ne_zero m a h1
  refine h (poly_inj (blocks a) a b rfl hn.symm ?_)
  rw [heq, hn]

theorem natDegree_poly (n : Nat) (msg : Bytes) : (poly n msg).natDegree ≤ n := by
  rw [natDegree_le_iff_coeff_eq_zero]
  exact fun k hk => coeff_above n msg k hk

/-- At most as many roots as blocks. -/
theorem card_roots_le {a b : Bytes} {L : Nat} (ha : blocks a ≤ L) (hb : blocks b ≤ L) (c : ZMod p) :
    (poly (blocks a) a - poly (blocks b) b - C c).roots.toFinset.card ≤ L := by
  refine (Multiset.toFinset_card_le _).trans ((card_roots' _).trans ?_)
  rw [natDegree_sub_C]
  refine (natDegree_sub_le _ _).trans ?_
  exact max_le ((natDegree_poly _ _).trans ha) ((natDegree_poly _ _).trans hb)

/-! ## Clamping -/

/-- The number of bits set below bit `n`. -/
def popcount : Nat → Nat → Nat
  | 0, _ => 0
  | n + 1, c => c % 2 + popcount n (c / 2)

/-- The numbers below `2 ^ n` whose bits are all set in `c`. -/
def submasks : Nat → Nat → Finset Nat
  | 0, _ => {0}
  | n + 1, c => (submasks n (c / 2) ×ˢ Finset.range (c % 2 + 1)).image fun x => 2 * x.1 + x.2

theorem mem_submasks (n : Nat) : ∀ c x, x < 2 ^ n → x &&& c = x → x ∈ submasks n c := by
  induction n with
  | zero => intro c x h _; simp only [submasks, Finset.mem_singleton]; simpa using h
  | succ n ih =>
    intro c x h hx
    have h1 := ih (c / 2) (x / 2) (by rw [Nat.pow_succ] at h; omega) (by rw [← Nat.and_div_two, hx])
    have h2 : x % 2 ≤ c % 2 := by
      rcases Nat.mod_two_eq_zero_or_one c with hc | hc
      · have : (x &&& c) % 2 = 0 := by
          have := Nat.and_mod_two_pow (a := x) (b := c) (n := 1)
          simp only [pow_one] at this
          rw [this, hc]; simp
        rw [hx] at this
        omega
      · omega
    refine Finset.mem_image.mpr ⟨(x / 2, x % 2), Finset.mem_product.mpr ⟨h1, ?_⟩, ?_⟩
    · simp only [Finset.mem_range]; omega
    · simp only []; omega

theorem card_submasks (n : Nat) : ∀ c, (submasks n c).card ≤ 2 ^ popcount n c := by
  induction n with
  | zero => intro c; simp [submasks, popcount]
  | succ n ih =>
    intro c
    refine Finset.card_image_le.trans ?_
    rw [Finset.card_product, Finset.card_range, popcount, Nat.pow_add, Nat.mul_comm]
    refine Nat.mul_le_mul ?_ (ih _)
    rcases Nat.mod_two_eq_zero_or_one c with hc | hc <;> rw [hc]

attribute [irreducible] submasks

def clampMask : Nat := 0x0ffffffc0ffffffc0ffffffc0fffffff
def clearMask : Nat := 0xf0000003f0000003f0000003f0000000

theorem clear_bits : (submasks 128 clearMask).card ≤ 2 ^ 22 := by
  have := card_submasks 128 clearMask
  rwa [show popcount 128 clearMask = 22 by decide +kernel] at this

theorem unclamp {R : Nat} (h : R < 2 ^ 128) : (R &&& clampMask) ||| (R &&& clearMask) = R := by
  rw [← Nat.and_or_distrib_left]
  have : clampMask ||| clearMask = 2 ^ 128 - 1 := by decide
  rw [this, Nat.and_two_pow_sub_one_eq_mod, Nat.mod_eq_of_lt h]

theorem clear_mem {R : Nat} (h : R < 2 ^ 128) : R &&& clearMask ∈ submasks 128 clearMask :=
  mem_submasks 128 clearMask (R &&& clearMask) (lt_of_le_of_lt Nat.and_le_left h) (by rw [Nat.and_assoc, Nat.and_self])

/-! ## Keys and tags -/

/-- The two halves of a one-time key. -/
def keyR (key : Arr 32) : Nat := fromLE (key.toList.take 16)
def keyS (key : Arr 32) : Nat := fromLE (key.toList.drop 16)

def ofRS (R S : Nat) : Arr 32 := ⟨toLE 16 R ++ toLE 16 S, by simp [toLE_length]⟩

theorem keyR_lt (key : Arr 32) : keyR key < 2 ^ 128 := by
  have := fromLE_lt (key.toList.take 16)
  have hl : (key.toList.take 16).length = 16 := by simp [key.len]
  rw [hl] at this
  exact lt_of_lt_of_eq this (by decide)

theorem keyS_lt (key : Arr 32) : keyS key < 2 ^ 128 := by
  have := fromLE_lt (key.toList.drop 16)
  have hl : (key.toList.drop 16).length = 16 := by simp [key.len]
  rw [hl] at this
  exact lt_of_lt_of_eq this (by decide)

theorem arr_eq {n : Nat} {a b : Arr n} (h : a.toList = b.toList) : a = b := by
  cases a; cases b; simp_all

theorem key_ext {k k' : Arr 32} (hr : keyR k = keyR k') (hs : keyS k = keyS k') : k = k' := by
  apply arr_eq
  have l : ∀ k : Arr 32, k.toList = toLE 16 (keyR k) ++ toLE 16 (keyS k) := by
    intro k
    unfold keyR keyS
    rw [toLE_fromLE' 16 _ (by simp [k.len]), toLE_fromLE' 16 _ (by simp [k.len]), List.take_append_drop]
  rw [l k, l k', hr, hs]

theorem keyR_ofRS {R S : Nat} (hR : R < 2 ^ 128) : keyR (ofRS R S) = R := by
  unfold keyR ofRS
  rw [List.take_left' (toLE_length _ _)]
  exact fromLE_toLE 16 R (lt_of_lt_of_eq hR (by decide))

theorem keyS_ofRS {R S : Nat} (hS : S < 2 ^ 128) : keyS (ofRS R S) = S := by
  unfold keyS ofRS
  rw [List.drop_left' (toLE_length _ _)]
  exact fromLE_toLE 16 S (lt_of_lt_of_eq hS (by decide))

theorem toLE_mod (n : Nat) : ∀ v, toLE n v = toLE n (v % 256 ^ n) := by
  intro v
  apply (fun (h : fromLE (toLE n v) = fromLE (toLE n (v % 256 ^ n))) => by
    rw [← toLE_fromLE' n (toLE n v) (toLE_length _ _), h, toLE_fromLE' n _ (toLE_length _ _)])
  rw [fromLE_toLE n _ (Nat.mod_lt _ (Nat.pow_pos (by decide)))]
  induction n generalizing v with
  | zero => simp [toLE, fromLE, Nat.mod_one]
  | succ n ih =>
    simp only [toLE, fromLE, ih]
    rw [Nat.pow_succ, Nat.mul_comm (256 ^ n), Nat.mod_mul]
    simp

/-- A tag, in numbers. -/
theorem mac_iff (msg : Bytes) (key : Arr 32) (t : Arr 16) :
    mac msg key.toList = t ↔
      (accumulate (keyR key &&& clampMask) (blocks msg) 0 msg + keyS key) % 2 ^ 128 = fromLE t.toList := by
  have h256 : (256 : Nat) ^ 16 = 2 ^ 128 := by decide
  have hd : (mac msg key.toList).toList =
      toLE 16 (accumulate (keyR key &&& clampMask) (blocks msg) 0 msg + keyS key) := rfl
  generalize accumulate (keyR key &&& clampMask) (blocks msg) 0 msg + keyS key = v at hd ⊢
  constructor
  · intro h
    rw [h, toLE_mod, h256] at hd
    rw [hd, fromLE_toLE 16 _ (by rw [h256]; exact Nat.mod_lt _ (by decide))]
  · intro h
    apply arr_eq
    rw [hd, toLE_mod, h256, h, toLE_fromLE' 16 _ t.len]

/-- Each tag comes from `2 ^ 128` keys. -/
theorem card_mac (msg : Bytes) (t : Arr 16) : Nat.card {key : Arr 32 // mac msg key.toList = t} = 2 ^ 128 := by
  have ht : fromLE t.toList < 2 ^ 128 := by
    have := fromLE_lt t.toList
    rw [t.len] at this
    exact lt_of_lt_of_eq this (by decide)
  let acc : Nat → Nat := fun R => accumulate (R &&& clampMask) (blocks msg) 0 msg
  let e : {key : Arr 32 // mac msg key.toList = t} ≃ Fin (2 ^ 128) :=
    { toFun := fun k => ⟨keyR k.1, keyR_lt k.1⟩
      invFun := fun R => ⟨ofRS R.1 ((fromLE t.toList + 2 ^ 128 - acc R.1 % 2 ^ 128) % 2 ^ 128), by
        rw [mac_iff, keyR_ofRS R.2, keyS_ofRS (Nat.mod_lt _ (by decide))]
        show (acc R.1 + _) % 2 ^ 128 = _
        omega⟩
      left_inv := fun k => by
        apply Subtype.ext
        have hk := (mac_iff _ _ _).mp k.2
        have hs := keyS_lt k.1
        apply key_ext
        · exact keyR_ofRS (keyR_lt _)
        · simp only [keyS_ofRS (Nat.mod_lt _ (show 0 < 2 ^ 128 by decide))]
          rw [← hk]
          show ((acc (keyR k.1) + keyS k.1) % 2 ^ 128 + 2 ^ 128 - acc (keyR k.1) % 2 ^ 128) % 2 ^ 128 = _
          omega
      right_inv := fun R => Fin.ext (keyR_ofRS R.2) }
  rw [Nat.card_congr e, Nat.card_fin]

/-- Two tags of different messages come from few keys. -/
theorem card_mac_two {a b : Bytes} (hne : a ≠ b) (L : Nat) (ha : blocks a ≤ L) (hb : blocks b ≤ L) (s t : Arr 16) :
    Nat.card {key : Arr 32 // mac a key.toList = s ∧ mac b key.toList = t} ≤ 8 * L * 2 ^ 22 := by
  classical
  -- the possible differences of the accumulators
  let diff : Fin 8 → Int := fun j =>
    ((fromLE s.toList + 2 ^ 128 - fromLE t.toList) % 2 ^ 128 : ℕ) + 2 ^ 128 * ((j.val : Int) - 4)
  let roots : Finset (ZMod p) := Finset.univ.biUnion fun j : Fin 8 =>
    (poly (blocks a) a - poly (blocks b) b - C ((diff j : ℤ) : ZMod p)).roots.toFinset
  have hroots : roots.card ≤ 8 * L := by
    refine Finset.card_biUnion_le.trans ((Finset.sum_le_card_nsmul _ _ L fun j _ => card_roots_le ha hb _).trans ?_)
    simp
  let target := roots ×ˢ submasks 128 clearMask
  have htarget : target.card ≤ 8 * L * 2 ^ 22 := by
    rw [Finset.card_product]
    exact Nat.mul_le_mul hroots clear_bits
  have hp2 : p < 2 ^ 130 := by decide
  have ht' : fromLE t.toList < 2 ^ 128 := by
    have := fromLE_lt t.toList
    rw [t.len] at this
    exact lt_of_lt_of_eq this (by decide)
  have hs' : fromLE s.toList < 2 ^ 128 := by
    have := fromLE_lt s.toList
    rw [s.len] at this
    exact lt_of_lt_of_eq this (by decide)
  have hmem : ∀ key : Arr 32, mac a key.toList = s → mac b key.toList = t →
      (((keyR key &&& clampMask : ℕ) : ZMod p), keyR key &&& clearMask) ∈ target := by
    intro key h1 h2
    refine Finset.mem_product.mpr ⟨?_, clear_mem (keyR_lt key)⟩
    rw [mac_iff] at h1 h2
    have l1 := accumulate_lt (keyR key &&& clampMask) (blocks a) 0 a (by decide)
    have l2 := accumulate_lt (keyR key &&& clampMask) (blocks b) 0 b (by decide)
    have e1 := accumulate_eq (keyR key &&& clampMask) (blocks a) 0 a
    have e2 := accumulate_eq (keyR key &&& clampMask) (blocks b) 0 b
    generalize accumulate (keyR key &&& clampMask) (blocks a) 0 a = x at *
    generalize accumulate (keyR key &&& clampMask) (blocks b) 0 b = y at *
    have hd : ∃ j : Fin 8, (x : Int) - y = diff j := by
      have hj : ∃ j : Nat, j < 8 ∧ (x : Int) - y =
          ((fromLE s.toList + 2 ^ 128 - fromLE t.toList) % 2 ^ 128 : ℕ) + 2 ^ 128 * ((j : Int) - 4) := by
        generalize fromLE s.toList = u at *
        generalize fromLE t.toList = v at *
        generalize keyS key = z at *
        refine ⟨((x : Int) - y - ((u + 2 ^ 128 - v) % 2 ^ 128 : ℕ) + 2 ^ 130 : Int).toNat / 2 ^ 128, ?_, ?_⟩ <;> omega
      obtain ⟨j, hj, h⟩ := hj
      exact ⟨⟨j, hj⟩, h⟩
    obtain ⟨j, hj⟩ := hd
    refine Finset.mem_biUnion.mpr ⟨j, Finset.mem_univ _, ?_⟩
    rw [Multiset.mem_toFinset, mem_roots (poly_ne hne _), IsRoot, eval_sub, eval_sub, eval_C, ← hj]
    push_cast
    rw [e1, e2]
    simp
  have hclamp : ∀ R, R &&& clampMask < p := fun R => lt_of_le_of_lt Nat.and_le_right (by decide)
  have hinj : Function.Injective (fun k : {key : Arr 32 // mac a key.toList = s ∧ mac b key.toList = t} =>
      (⟨(((keyR k.1 &&& clampMask : ℕ) : ZMod p), keyR k.1 &&& clearMask), hmem k.1 k.2.1 k.2.2⟩ : target)) := by
    intro k k' h
    have h' := congrArg Subtype.val h
    simp only [Prod.mk.injEq] at h'
    have hR : keyR k.1 = keyR k'.1 := by
      rw [← unclamp (keyR_lt k.1), ← unclamp (keyR_lt k'.1), cast_inj (hclamp _) (hclamp _) h'.1, h'.2]
    apply Subtype.ext
    refine key_ext hR ?_
    have h1 := (mac_iff _ _ _).mp k.2.1
    have h2 := (mac_iff _ _ _).mp k'.2.1
    have := keyS_lt k.1
    have := keyS_lt k'.1
    rw [hR] at h1
    omega
  have := Nat.card_le_card_of_injective _ hinj
  rw [Nat.card_eq_fintype_card (α := target), Fintype.card_coe] at this
  exact this.trans htarget

/-- There are `2 ^ 256` keys. -/
theorem card_keys : Nat.card (Arr 32) = 2 ^ 256 := by
  let e : Arr 32 ≃ Fin (2 ^ 128) × Fin (2 ^ 128) :=
    { toFun := fun k => (⟨keyR k, keyR_lt k⟩, ⟨keyS k, keyS_lt k⟩)
      invFun := fun x => ofRS x.1 x.2
      left_inv := fun k => key_ext (keyR_ofRS (S := keyS k) (keyR_lt k)) (keyS_ofRS (R := keyR k) (keyS_lt k))
      right_inv := fun x => Prod.ext (Fin.ext (keyR_ofRS (S := x.2) x.1.2)) (Fin.ext (keyS_ofRS (R := x.1) x.2.2)) }
  rw [Nat.card_congr e, Nat.card_prod, Nat.card_fin, ← Nat.pow_add]

end Poly1305
end SV2.Crypto
