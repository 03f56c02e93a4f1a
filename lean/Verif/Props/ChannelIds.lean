import Verif.Model.Rand
import Verif.Props.Network
/-!
# C53: channel ids from the words of the generator
-/

namespace SV2.Rand

/-- The multiples of `r` in `[a, a + m * r)` are `m` consecutive ones. -/
theorem multiples (r a m v : Nat) (hr : 0 < r) :
    (a ≤ v * r ∧ v * r < a + m * r) ↔ ((a + r - 1) / r ≤ v ∧ v < (a + r - 1) / r + m) := by
  have h1 : (a + r - 1) / r ≤ v ↔ a ≤ v * r := by
    rw [← Nat.lt_succ_iff, Nat.div_lt_iff_lt_mul hr, Nat.succ_mul]
    omega
  have h2 : v < (a + r - 1) / r + m ↔ v * r < a + m * r := by
    by_cases hv : v < m
    · have : v * r + r ≤ m * r := by rw [← Nat.succ_mul]; exact Nat.mul_le_mul_right _ hv
      generalize (a + r - 1) / r = q
      omega
    · obtain ⟨u, rfl⟩ : ∃ u, v = u + m := ⟨v - m, by omega⟩
      rw [Nat.add_lt_add_iff_right, Nat.add_mul, Nat.add_lt_add_iff_right,
        show u < (a + r - 1) / r ↔ u + 1 ≤ (a + r - 1) / r from Iff.rfl, Nat.le_div_iff_mul_le hr, Nat.succ_mul]
      omega
  rw [h1, h2]

theorem shift_bounds (range : UInt32) (h : range ≠ 0) :
    0 < range.toNat * 2 ^ leadingZeros range ∧ range.toNat * 2 ^ leadingZeros range < 2 ^ 32 + 1 ∧
      range.toNat * 2 ^ leadingZeros range < 2 ^ 32 := by
  have h0 : range.toNat ≠ 0 := fun e => h (UInt32.toNat_inj.mp (by simpa using e))
  have hlt := range.toNat_lt
  have hlog : range.toNat.log2 < 32 := (Nat.log2_lt h0).mpr hlt
  have hself := @Nat.lt_log2_self range.toNat
  have : range.toNat * 2 ^ leadingZeros range < 2 ^ (range.toNat.log2 + 1) * 2 ^ (31 - range.toNat.log2) := by
    rw [leadingZeros, if_neg h]
    exact Nat.mul_lt_mul_of_pos_right hself (Nat.two_pow_pos _)
  rw [← Nat.pow_add, show range.toNat.log2 + 1 + (31 - range.toNat.log2) = 32 by omega] at this
  exact ⟨Nat.mul_pos (Nat.pos_of_ne_zero h0) (Nat.two_pow_pos _), by omega, this⟩

/-- Which words give which value. -/
theorem pick_iff (low range v r : UInt32) (h : range ≠ 0) :
    pick low range v = some r ↔
      r = low + UInt32.ofNat (v.toNat * range.toNat / 2 ^ 32) ∧
      v.toNat * range.toNat % 2 ^ 32 < range.toNat * 2 ^ leadingZeros range := by
  obtain ⟨hz0, -, hz⟩ := shift_bounds range h
  have hzone : (zone range).toNat = range.toNat * 2 ^ leadingZeros range - 1 := by
    rw [zone, Nat.shiftLeft_eq, UInt32.toNat_sub_of_le]
    · rw [UInt32.toNat_ofNat_of_lt' hz]; rfl
    · rw [UInt32.le_iff_toNat_le, UInt32.toNat_ofNat_of_lt' hz]
      exact hz0
  have hlo : (UInt32.ofNat (v.toNat * range.toNat)).toNat = v.toNat * range.toNat % 2 ^ 32 := UInt32.toNat_ofNat'
  unfold pick wmul
  dsimp only
  split
  · rename_i hle
    rw [UInt32.le_iff_toNat_le, hzone, hlo] at hle
    simp only [Option.some.injEq]
    constructor
    · rintro rfl
      exact ⟨rfl, by omega⟩
    · rintro ⟨rfl, -⟩; rfl
  · rename_i hle
    rw [UInt32.le_iff_toNat_le, hzone, hlo] at hle
    simp only [reduceCtorEq, false_iff, not_and]
    omega

/-- **C53.** `gen_range` is unbiased: for each value of the range there are exactly `2 ^ leading_zeros(range)` words, one
after the other, that give it, and no word gives a value outside. -/
theorem C53_unbiased (low high : UInt32) (h : low < high) :
    (∀ r : UInt32, low ≤ r → r < high → ∃ start : Nat, start + 2 ^ leadingZeros (high - low) ≤ 2 ^ 32 ∧
      ∀ v : UInt32, genRange low high [v] = some (some r) ↔
        start ≤ v.toNat ∧ v.toNat < start + 2 ^ leadingZeros (high - low)) ∧
    (∀ words r, genRange low high words = some (some r) → low ≤ r ∧ r < high) := by
  have hlh : low.toNat < high.toNat := UInt32.lt_iff_toNat_lt.mp h
  have hrange : (high - low).toNat = high.toNat - low.toNat :=
    UInt32.toNat_sub_of_le _ _ (by rw [UInt32.le_iff_toNat_le]; omega)
  have hne : high - low ≠ 0 := fun e => by
    have := congrArg UInt32.toNat e
    rw [hrange] at this
    simp at this
    omega
  have hpos : 0 < (high - low).toNat := by omega
  have hhigh := high.toNat_lt
  have hq : ∀ v : UInt32, v.toNat * (high - low).toNat / 2 ^ 32 < (high - low).toNat := by
    intro v
    rw [Nat.div_lt_iff_lt_mul (by decide), Nat.mul_comm _ (2 ^ 32)]
    exact Nat.mul_lt_mul_of_pos_right v.toNat_lt hpos
  have hval : ∀ v : UInt32, (low + UInt32.ofNat (v.toNat * (high - low).toNat / 2 ^ 32)).toNat =
      low.toNat + v.toNat * (high - low).toNat / 2 ^ 32 := by
    intro v
    have := hq v
    rw [UInt32.toNat_add, UInt32.toNat_ofNat', Nat.mod_eq_of_lt (a := v.toNat * (high - low).toNat / 2 ^ 32) (by omega),
      Nat.mod_eq_of_lt (by omega)]
  obtain ⟨hz0, -, hz⟩ := shift_bounds (high - low) hne
  refine ⟨fun r hlr hrh => ?_, fun words r hw => ?_⟩
  · have hlr := UInt32.le_iff_toNat_le.mp hlr
    have hrh := UInt32.lt_iff_toNat_lt.mp hrh
    have hm := multiples (high - low).toNat ((r.toNat - low.toNat) * 2 ^ 32) (2 ^ leadingZeros (high - low))
    refine ⟨((r.toNat - low.toNat) * 2 ^ 32 + (high - low).toNat - 1) / (high - low).toNat, ?_, fun v => ?_⟩
    · have hp2 := Nat.two_pow_pos (leadingZeros (high - low))
      have hlast := (hm (((r.toNat - low.toNat) * 2 ^ 32 + (high - low).toNat - 1) / (high - low).toNat +
        2 ^ leadingZeros (high - low) - 1) hpos).mpr ⟨by
          generalize 2 ^ leadingZeros (high - low) = q at hp2
          exact Nat.le_sub_one_of_lt (Nat.lt_add_of_pos_right hp2), Nat.sub_one_lt (Nat.ne_of_gt (Nat.add_pos_right _ hp2))⟩
      have hlt : (((r.toNat - low.toNat) * 2 ^ 32 + (high - low).toNat - 1) / (high - low).toNat +
        2 ^ leadingZeros (high - low) - 1) * (high - low).toNat < 2 ^ 32 * (high - low).toNat := by
        have h2 := hlast.2
        rw [Nat.mul_comm (2 ^ leadingZeros _)] at h2
        omega
      have := Nat.lt_of_mul_lt_mul_right hlt
      omega
    · rw [← hm v.toNat hpos, genRange, if_pos h]
      have : loop low (high - low) [v] = pick low (high - low) v := by
        simp only [loop]; cases pick low (high - low) v <;> rfl
      rw [this, Option.some.injEq, pick_iff _ _ _ _ hne, ← UInt32.toNat_inj, hval, Nat.mul_comm (2 ^ leadingZeros _)]
      have := Nat.div_add_mod (v.toNat * (high - low).toNat) (2 ^ 32)
      have := Nat.mod_lt (v.toNat * (high - low).toNat) (show 0 < 2 ^ 32 by decide)
      generalize v.toNat * (high - low).toNat / 2 ^ 32 = a at *
      generalize v.toNat * (high - low).toNat % 2 ^ 32 = b at *
      omega
  · rw [genRange, if_pos h, Option.some.injEq] at hw
    induction words with
    | nil => simp [loop] at hw
    | cons v words ih =>
      simp only [loop] at hw
      split at hw
      · rename_i x hp
        cases hw
        obtain ⟨rfl, -⟩ := (pick_iff _ _ _ _ hne).mp hp
        have := hval v
        have := hq v
        rw [UInt32.le_iff_toNat_le, UInt32.lt_iff_toNat_lt]
        omega
      · exact ih hw

/-- **C53.** The id is decided by the first word that is not 1: 0 gives 0, every other word gives its predecessor. -/
theorem C53_words (words : List UInt32) :
    newChannelId words = some ((words.find? (· ≠ 1)).map fun v => if v = 0 then 0 else v - 1) := by
  have key : ∀ v : UInt32, pick 0 0xFFFFFFFF v = if v = 1 then none else some (if v = 0 then 0 else v - 1) := by
    intro v
    have hlz : (0xFFFFFFFF : UInt32).toNat * 2 ^ leadingZeros 0xFFFFFFFF = 4294967295 := by decide
    have hlt := v.toNat_lt
    have hp := fun r => pick_iff 0 0xFFFFFFFF v r (by decide)
    rw [hlz] at hp
    have hr : (0xFFFFFFFF : UInt32).toNat = 4294967295 := rfl
    rw [hr] at hp
    by_cases h1 : v = 1
    · rw [if_pos h1]
      subst h1
      decide
    · rw [if_neg h1, hp]
      have hv1 : v.toNat ≠ 1 := fun e => h1 (UInt32.toNat_inj.mp (by simpa using e))
      by_cases h0 : v = 0
      · subst h0; decide
      · have hv0 : v.toNat ≠ 0 := fun e => h0 (UInt32.toNat_inj.mp (by simpa using e))
        rw [if_neg h0]
        have hd : v.toNat * 4294967295 / 2 ^ 32 = v.toNat - 1 := by omega
        rw [hd]
        refine ⟨?_, by omega⟩
        apply UInt32.toNat_inj.mp
        rw [UInt32.toNat_sub_of_le _ _ (by rw [UInt32.le_iff_toNat_le]; simp; omega), UInt32.toNat_add,
          UInt32.toNat_ofNat_of_lt' (by show _ < 2 ^ 32; omega)]
        simp
        omega
  have hl : ∀ words, loop 0 0xFFFFFFFF words =
      (words.find? (· ≠ 1)).map fun v => if v = 0 then 0 else v - 1 := by
    intro words
    induction words with
    | nil => rfl
    | cons v words ih =>
      rw [loop, key]
      by_cases h1 : v = 1
      · rw [if_pos h1]
        simp [h1, ih]
      · rw [if_neg h1]
        simp [h1]
  show genRange 0 0xFFFFFFFF words = _
  rw [genRange, if_pos (by decide), show (0xFFFFFFFF : UInt32) - 0 = 0xFFFFFFFF from rfl, hl]

/-- **C53.** So every id except `u32::MAX` comes from exactly one word, and the ids are those that the model with an
abstract draw gives. -/
theorem C53_one_word (id : UInt32) :
    (id ≠ 0xFFFFFFFF → ∃ w : UInt32, ∀ v, newChannelId [v] = some (some id) ↔ v = w) ∧
    (∀ words, newChannelId words ≠ some (some 0xFFFFFFFF)) ∧
    (∀ words, newChannelId words = some (some id) → ∃ draw, SV2.newChannelId draw = id) := by
  have hnever : ∀ words, newChannelId words ≠ some (some 0xFFFFFFFF) := by
    intro words h
    have := (C53_unbiased 0 0xFFFFFFFF (by decide)).2 words _ h
    exact absurd this.2 (by decide)
  refine ⟨fun hid => ⟨if id = 0 then 0 else id + 1, fun v => ?_⟩, hnever, fun words h => ?_⟩
  · rw [C53_words]
    have hv := v.toNat_lt
    have hi := id.toNat_lt
    have hi' : id.toNat ≠ 4294967295 := fun e => hid (UInt32.toNat_inj.mp (by simpa using e))
    have hid1 : (if id = 0 then (0 : UInt32) else id + 1).toNat = if id.toNat = 0 then 0 else id.toNat + 1 := by
      by_cases h : id = 0
      · subst h; rfl
      · have h0 : id.toNat ≠ 0 := fun e => h (UInt32.toNat_inj.mp (by simpa using e))
        rw [if_neg h, if_neg h0, UInt32.toNat_add]
        simp
        omega
    rw [← UInt32.toNat_inj, hid1]
    by_cases h1 : v = 1
    · subst h1
      simp
      split <;> omega
    · have hv1 : v.toNat ≠ 1 := fun e => h1 (UInt32.toNat_inj.mp (by simpa using e))
      simp only [List.find?, ne_eq, h1, not_false_eq_true, decide_true, Option.map_some, Option.some.injEq]
      rw [← UInt32.toNat_inj]
      by_cases h0 : v = 0
      · subst h0
        simp
        exact eq_comm
      · have hv0 : v.toNat ≠ 0 := fun e => h0 (UInt32.toNat_inj.mp (by simpa using e))
        rw [if_neg h0, UInt32.toNat_sub_of_le _ _ (by rw [UInt32.le_iff_toNat_le]; simp; omega)]
        simp
        split <;> omega
  · exact (C53_range id).mpr fun e => hnever words (e ▸ h)

/-- Distinct numbers below `n` are at most `n`. -/
theorem pigeonhole (n : Nat) (l : List Nat) (h : ∀ x ∈ l, x < n) (hn : l.Nodup) : l.length ≤ n := by
  induction n generalizing l with
  | zero =>
    cases l with
    | nil => exact Nat.le_refl _
    | cons x l => exact absurd (h x List.mem_cons_self) (by omega)
  | succ n ih =>
    by_cases hm : n ∈ l
    · have := ih (l.erase n) (fun x hx => by
        obtain ⟨hx1, hx2⟩ := hn.mem_erase_iff.mp hx
        have := h x hx2
        omega) (hn.erase n)
      rw [List.length_erase_of_mem hm] at this
      omega
    · have := ih l (fun x hx => by
        have := h x hx
        have : x ≠ n := fun e => hm (e ▸ hx)
        omega) hn
      omega

/-- **C53.** Whatever the generator, among 2^32 ids (or more) two are equal. -/
theorem C53_repeats (ids : List UInt32) (h : ∀ id ∈ ids, ∃ words, newChannelId words = some (some id))
    (hl : 2 ^ 32 ≤ ids.length) : ¬ ids.Nodup := by
  intro hn
  have hnd : (ids.map UInt32.toNat).Nodup := by
    rw [List.nodup_iff_pairwise_ne, List.pairwise_map]
    exact (List.nodup_iff_pairwise_ne.mp hn).imp fun hab e => hab (UInt32.toNat_inj.mp e)
  have := pigeonhole (2 ^ 32 - 1) (ids.map UInt32.toNat) (fun x hx => by
    obtain ⟨id, hid, rfl⟩ := List.mem_map.mp hx
    obtain ⟨words, hw⟩ := h id hid
    exact UInt32.lt_iff_toNat_lt.mp ((C53_unbiased 0 0xFFFFFFFF (by decide)).2 words id hw).2) hnd
  rw [List.length_map] at this
  omega

/-- A range of 6 values: each from 2^29 words; the words between are thrown away. -/
example : (10 : UInt32) < 16 ∧ leadingZeros (16 - 10) = 29 ∧ genRange 10 16 [0] = some (some 10) ∧
    genRange 10 16 [0x20000000] = some none ∧ genRange 10 16 [0x20000000, 0xFFFFFFFF, 3579139414] = some (some 15) ∧
    genRange 16 10 [0] = none := by decide

example : newChannelId [1, 1, 0] = some (some 0) ∧ newChannelId [2] = some (some 1) ∧
    newChannelId [0xFFFFFFFF] = some (some 0xFFFFFFFE) ∧ newChannelId [1, 1] = some none := by decide

end SV2.Rand
