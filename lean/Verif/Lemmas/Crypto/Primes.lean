import Mathlib.NumberTheory.LucasPrimality
import Mathlib.Tactic.NormNum.Prime
import Verif.Model.Crypto.X25519
/-!
# Two primes

`2^255 - 19` and the order of the base point of Curve25519, by Pratt certificates.
-/

namespace SV2.Crypto

open X25519 (powMod)

theorem powMod_eq (m b : Nat) : ∀ n e, e < 2 ^ n → powMod m b n e = b ^ e % m := by
  intro n
  induction n with
  | zero => intro e he; obtain rfl : e = 0 := by omega
            rfl
  | succ n ih =>
    intro e he
    have h := ih (e / 2) (by omega)
    simp only [powMod, h]
    have hs : b ^ (e / 2) % m * (b ^ (e / 2) % m) % m = b ^ (e / 2 + e / 2) % m := by
      rw [← Nat.mul_mod, ← Nat.pow_add]
    split
    · rename_i h1
      rw [hs, Nat.mod_mul_mod]
      have he2 : e / 2 + e / 2 + 1 = e := by omega
      conv => rhs; rw [← he2]
      rw [Nat.pow_succ]
    · rename_i h1
      rw [hs]
      have he2 : e / 2 + e / 2 = e := by omega
      rw [he2]

/-- A Pratt certificate: a generator and the prime factors of `n - 1`. -/
theorem pratt (n a bits : Nat) (fs : List Nat) (hf : ∀ q ∈ fs, q.Prime) (hp : fs.prod = n - 1)
    (hn : 1 < n) (hb : n - 1 < 2 ^ bits) (h1 : powMod n a bits (n - 1) = 1)
    (h2 : ∀ q ∈ fs, powMod n a bits ((n - 1) / q) ≠ 1) : n.Prime := by
  have cast : ∀ e, e ≤ n - 1 → (((a : ZMod n) ^ e = 1) ↔ powMod n a bits e = 1) := by
    intro e he
    rw [powMod_eq n a bits e (by omega)]
    have : ((a : ZMod n) ^ e = 1) ↔ ((a ^ e : ℕ) : ZMod n) = ((1 : ℕ) : ZMod n) := by push_cast; rfl
    rw [this, ZMod.natCast_eq_natCast_iff, Nat.ModEq, Nat.mod_eq_of_lt hn]
  apply lucas_primality n (a : ZMod n)
  · exact (cast _ (le_refl _)).mpr h1
  · intro q hq hd
    have hmem : q ∈ fs := by
      rw [← hp] at hd
      obtain ⟨r, hr, hqr⟩ := (hq.prime.dvd_prod_iff).mp hd
      rwa [(Nat.prime_dvd_prime_iff_eq hq (hf r hr)).mp hqr]
    intro hc
    exact h2 q hmem ((cast _ (Nat.div_le_self _ _)).mp hc)

set_option maxRecDepth 100000

theorem prime_2773320623 : Nat.Prime 2773320623 := by
  refine pratt 2773320623 5 32 [2, 2437, 569003] ?_ (by decide +kernel) (by decide +kernel) (by decide +kernel) (by decide +kernel) (by decide +kernel)
  intro q hq
  simp only [List.mem_cons, List.not_mem_nil, or_false] at hq
  rcases hq with rfl | rfl | rfl
  · exact by norm_num
  · exact by norm_num
  · exact by norm_num

theorem prime_72106336199 : Nat.Prime 72106336199 := by
  refine pratt 72106336199 7 37 [2, 13, 2773320623] ?_ (by decide +kernel) (by decide +kernel) (by decide +kernel) (by decide +kernel) (by decide +kernel)
  intro q hq
  simp only [List.mem_cons, List.not_mem_nil, or_false] at hq
  rcases hq with rfl | rfl | rfl
  · exact by norm_num
  · exact by norm_num
  · exact prime_2773320623

theorem prime_8574133 : Nat.Prime 8574133 := by
  refine pratt 8574133 2 24 [2, 2, 3, 7, 103, 991] ?_ (by decide +kernel) (by decide +kernel) (by decide +kernel) (by decide +kernel) (by decide +kernel)
  intro q hq
  simp only [List.mem_cons, List.not_mem_nil, or_false] at hq
  rcases hq with rfl | rfl | rfl | rfl | rfl | rfl
  · exact by norm_num
  · exact by norm_num
  · exact by norm_num
  · exact by norm_num
  · exact by norm_num
  · exact by norm_num

theorem prime_1919519569386763 : Nat.Prime 1919519569386763 := by
  refine pratt 1919519569386763 2 51 [2, 3, 7, 19, 47, 47, 127, 8574133] ?_ (by decide +kernel) (by decide +kernel) (by decide +kernel) (by decide +kernel) (by decide +kernel)
  intro q hq
  simp only [List.mem_cons, List.not_mem_nil, or_false] at hq
  rcases hq with rfl | rfl | rfl | rfl | rfl | rfl | rfl | rfl
  · exact by norm_num
  · exact by norm_num
  · exact by norm_num
  · exact by norm_num
  · exact by norm_num
  · exact by norm_num
  · exact by norm_num
  · exact prime_8574133

theorem prime_75445702479781427272750846543864801 : Nat.Prime 75445702479781427272750846543864801 := by
  refine pratt 75445702479781427272750846543864801 7 116 [2, 2, 2, 2, 2, 3, 3, 5, 5, 75707, 72106336199, 1919519569386763] ?_ (by decide +kernel) (by decide +kernel) (by decide +kernel) (by decide +kernel) (by decide +kernel)
  intro q hq
  simp only [List.mem_cons, List.not_mem_nil, or_false] at hq
  rcases hq with rfl | rfl | rfl | rfl | rfl | rfl | rfl | rfl | rfl | rfl | rfl | rfl
  · exact by norm_num
  · exact by norm_num
  · exact by norm_num
  · exact by norm_num
  · exact by norm_num
  · exact by norm_num
  · exact by norm_num
  · exact by norm_num
  · exact by norm_num
  · exact by norm_num
  · exact prime_72106336199
  · exact prime_1919519569386763

theorem prime_31757755568855353 : Nat.Prime 31757755568855353 := by
  refine pratt 31757755568855353 10 55 [2, 2, 2, 3, 31, 107, 223, 4153, 430751] ?_ (by decide +kernel) (by decide +kernel) (by decide +kernel) (by decide +kernel) (by decide +kernel)
  intro q hq
  simp only [List.mem_cons, List.not_mem_nil, or_false] at hq
  rcases hq with rfl | rfl | rfl | rfl | rfl | rfl | rfl | rfl | rfl
  · exact by norm_num
  · exact by norm_num
  · exact by norm_num
  · exact by norm_num
  · exact by norm_num
  · exact by norm_num
  · exact by norm_num
  · exact by norm_num
  · exact by norm_num

theorem prime_1923133 : Nat.Prime 1923133 := by
  refine pratt 1923133 2 21 [2, 2, 3, 43, 3727] ?_ (by decide +kernel) (by decide +kernel) (by decide +kernel) (by decide +kernel) (by decide +kernel)
  intro q hq
  simp only [List.mem_cons, List.not_mem_nil, or_false] at hq
  rcases hq with rfl | rfl | rfl | rfl | rfl
  · exact by norm_num
  · exact by norm_num
  · exact by norm_num
  · exact by norm_num
  · exact by norm_num

theorem prime_74058212732561358302231226437062788676166966415465897661863160754340907 : Nat.Prime 74058212732561358302231226437062788676166966415465897661863160754340907 := by
  refine pratt 74058212732561358302231226437062788676166966415465897661863160754340907 2 236 [2, 3, 353, 57467, 132049, 1923133, 31757755568855353, 75445702479781427272750846543864801] ?_ (by decide +kernel) (by decide +kernel) (by decide +kernel) (by decide +kernel) (by decide +kernel)
  intro q hq
  simp only [List.mem_cons, List.not_mem_nil, or_false] at hq
  rcases hq with rfl | rfl | rfl | rfl | rfl | rfl | rfl | rfl
  · exact by norm_num
  · exact by norm_num
  · exact by norm_num
  · exact by norm_num
  · exact by norm_num
  · exact prime_1923133
  · exact prime_31757755568855353
  · exact prime_75445702479781427272750846543864801

theorem prime_p : Nat.Prime X25519.p := by
  refine pratt X25519.p 2 255 [2, 2, 3, 65147, 74058212732561358302231226437062788676166966415465897661863160754340907] ?_ (by decide +kernel) (by decide +kernel) (by decide +kernel) (by decide +kernel) (by decide +kernel)
  intro q hq
  simp only [List.mem_cons, List.not_mem_nil, or_false] at hq
  rcases hq with rfl | rfl | rfl | rfl | rfl
  · exact by norm_num
  · exact by norm_num
  · exact by norm_num
  · exact by norm_num
  · exact prime_74058212732561358302231226437062788676166966415465897661863160754340907

theorem prime_1224481 : Nat.Prime 1224481 := by
  refine pratt 1224481 13 21 [2, 2, 2, 2, 2, 3, 5, 2551] ?_ (by decide +kernel) (by decide +kernel) (by decide +kernel) (by decide +kernel) (by decide +kernel)
  intro q hq
  simp only [List.mem_cons, List.not_mem_nil, or_false] at hq
  rcases hq with rfl | rfl | rfl | rfl | rfl | rfl | rfl | rfl
  · exact by norm_num
  · exact by norm_num
  · exact by norm_num
  · exact by norm_num
  · exact by norm_num
  · exact by norm_num
  · exact by norm_num
  · exact by norm_num

theorem prime_1257559732178653 : Nat.Prime 1257559732178653 := by
  refine pratt 1257559732178653 2 51 [2, 2, 3, 7, 23, 531581, 1224481] ?_ (by decide +kernel) (by decide +kernel) (by decide +kernel) (by decide +kernel) (by decide +kernel)
  intro q hq
  simp only [List.mem_cons, List.not_mem_nil, or_false] at hq
  rcases hq with rfl | rfl | rfl | rfl | rfl | rfl | rfl
  · exact by norm_num
  · exact by norm_num
  · exact by norm_num
  · exact by norm_num
  · exact by norm_num
  · exact by norm_num
  · exact prime_1224481

theorem prime_4434155615661930479 : Nat.Prime 4434155615661930479 := by
  refine pratt 4434155615661930479 17 62 [2, 41, 43, 1257559732178653] ?_ (by decide +kernel) (by decide +kernel) (by decide +kernel) (by decide +kernel) (by decide +kernel)
  intro q hq
  simp only [List.mem_cons, List.not_mem_nil, or_false] at hq
  rcases hq with rfl | rfl | rfl | rfl
  · exact by norm_num
  · exact by norm_num
  · exact by norm_num
  · exact prime_1257559732178653

theorem prime_172054593956031949258510691 : Nat.Prime 172054593956031949258510691 := by
  refine pratt 172054593956031949258510691 2 88 [2, 5, 1361, 2851, 4434155615661930479] ?_ (by decide +kernel) (by decide +kernel) (by decide +kernel) (by decide +kernel) (by decide +kernel)
  intro q hq
  simp only [List.mem_cons, List.not_mem_nil, or_false] at hq
  rcases hq with rfl | rfl | rfl | rfl | rfl
  · exact by norm_num
  · exact by norm_num
  · exact by norm_num
  · exact by norm_num
  · exact prime_4434155615661930479

theorem prime_292386187 : Nat.Prime 292386187 := by
  refine pratt 292386187 2 29 [2, 3, 3, 3, 3, 307, 5879] ?_ (by decide +kernel) (by decide +kernel) (by decide +kernel) (by decide +kernel) (by decide +kernel)
  intro q hq
  simp only [List.mem_cons, List.not_mem_nil, or_false] at hq
  rcases hq with rfl | rfl | rfl | rfl | rfl | rfl | rfl
  · exact by norm_num
  · exact by norm_num
  · exact by norm_num
  · exact by norm_num
  · exact by norm_num
  · exact by norm_num
  · exact by norm_num

theorem prime_213441916511 : Nat.Prime 213441916511 := by
  refine pratt 213441916511 13 38 [2, 5, 73, 292386187] ?_ (by decide +kernel) (by decide +kernel) (by decide +kernel) (by decide +kernel) (by decide +kernel)
  intro q hq
  simp only [List.mem_cons, List.not_mem_nil, or_false] at hq
  rcases hq with rfl | rfl | rfl | rfl
  · exact by norm_num
  · exact by norm_num
  · exact by norm_num
  · exact prime_292386187

theorem prime_19757330305831588566944191468367130476339 : Nat.Prime 19757330305831588566944191468367130476339 := by
  refine pratt 19757330305831588566944191468367130476339 2 134 [2, 269, 213441916511, 172054593956031949258510691] ?_ (by decide +kernel) (by decide +kernel) (by decide +kernel) (by decide +kernel) (by decide +kernel)
  intro q hq
  simp only [List.mem_cons, List.not_mem_nil, or_false] at hq
  rcases hq with rfl | rfl | rfl | rfl
  · exact by norm_num
  · exact by norm_num
  · exact prime_213441916511
  · exact prime_172054593956031949258510691

theorem prime_276602624281642239937218680557139826668747 : Nat.Prime 276602624281642239937218680557139826668747 := by
  refine pratt 276602624281642239937218680557139826668747 2 138 [2, 7, 19757330305831588566944191468367130476339] ?_ (by decide +kernel) (by decide +kernel) (by decide +kernel) (by decide +kernel) (by decide +kernel)
  intro q hq
  simp only [List.mem_cons, List.not_mem_nil, or_false] at hq
  rcases hq with rfl | rfl | rfl
  · exact by norm_num
  · exact by norm_num
  · exact prime_19757330305831588566944191468367130476339

theorem prime_14741173 : Nat.Prime 14741173 := by
  refine pratt 14741173 2 24 [2, 2, 3, 3, 409477] ?_ (by decide +kernel) (by decide +kernel) (by decide +kernel) (by decide +kernel) (by decide +kernel)
  intro q hq
  simp only [List.mem_cons, List.not_mem_nil, or_false] at hq
  rcases hq with rfl | rfl | rfl | rfl | rfl
  · exact by norm_num
  · exact by norm_num
  · exact by norm_num
  · exact by norm_num
  · exact by norm_num

theorem prime_58964693 : Nat.Prime 58964693 := by
  refine pratt 58964693 2 26 [2, 2, 14741173] ?_ (by decide +kernel) (by decide +kernel) (by decide +kernel) (by decide +kernel) (by decide +kernel)
  intro q hq
  simp only [List.mem_cons, List.not_mem_nil, or_false] at hq
  rcases hq with rfl | rfl | rfl
  · exact by norm_num
  · exact by norm_num
  · exact prime_14741173

theorem prime_3044861653679985063343 : Nat.Prime 3044861653679985063343 := by
  refine pratt 3044861653679985063343 5 72 [2, 3, 11, 30703, 82163, 132667, 137849] ?_ (by decide +kernel) (by decide +kernel) (by decide +kernel) (by decide +kernel) (by decide +kernel)
  intro q hq
  simp only [List.mem_cons, List.not_mem_nil, or_false] at hq
  rcases hq with rfl | rfl | rfl | rfl | rfl | rfl | rfl
  · exact by norm_num
  · exact by norm_num
  · exact by norm_num
  · exact by norm_num
  · exact by norm_num
  · exact by norm_num
  · exact by norm_num

theorem prime_198211423230930754013084525763697 : Nat.Prime 198211423230930754013084525763697 := by
  refine pratt 198211423230930754013084525763697 5 108 [2, 2, 2, 2, 3, 23, 58964693, 3044861653679985063343] ?_ (by decide +kernel) (by decide +kernel) (by decide +kernel) (by decide +kernel) (by decide +kernel)
  intro q hq
  simp only [List.mem_cons, List.not_mem_nil, or_false] at hq
  rcases hq with rfl | rfl | rfl | rfl | rfl | rfl | rfl | rfl
  · exact by norm_num
  · exact by norm_num
  · exact by norm_num
  · exact by norm_num
  · exact by norm_num
  · exact by norm_num
  · exact prime_58964693
  · exact prime_3044861653679985063343

/-- The order of the base point (RFC 7748, 4.1). -/
def l : Nat := 2 ^ 252 + 0x14def9dea2f79cd65812631a5cf5d3ed

theorem prime_l : Nat.Prime l := by
  refine pratt l 2 253 [2, 2, 3, 11, 198211423230930754013084525763697, 276602624281642239937218680557139826668747] ?_ (by decide +kernel) (by decide +kernel) (by decide +kernel) (by decide +kernel) (by decide +kernel)
  intro q hq
  simp only [List.mem_cons, List.not_mem_nil, or_false] at hq
  rcases hq with rfl | rfl | rfl | rfl | rfl | rfl
  · exact by norm_num
  · exact by norm_num
  · exact by norm_num
  · exact by norm_num
  · exact prime_198211423230930754013084525763697
  · exact prime_276602624281642239937218680557139826668747

end SV2.Crypto
