import Verif.Rust.Basic
/-!
# X25519 (RFC 7748)

The function behind `curve25519::scalarmult` and `curve25519::SecretKey::get_public` of the `hacl_star` crate, which
nx-noise calls at types.rs:94, 256, 402-409 and 412.  Written from the RFC, on natural numbers.
-/

namespace SV2.Crypto.X25519

/-- The field (RFC 7748, 4.1). -/
def p : Nat := 2 ^ 255 - 19

/-- `(486662 - 2) / 4`, RFC 7748, 5. -/
def a24 : Nat := 121665

/-- Subtraction modulo `p` of reduced numbers. -/
def sub (a b : Nat) : Nat := (a + (p - b)) % p

/-- The variables `x_2, z_2, x_3, z_3` of the ladder. -/
structure Vars where
  x2 : Nat
  z2 : Nat
  x3 : Nat
  z3 : Nat
  deriving DecidableEq

/-- `cswap` on both pairs. -/
def cswap (swap : Bool) (v : Vars) : Vars := if swap then ⟨v.x3, v.z3, v.x2, v.z2⟩ else v

/-- The body of the loop after the conditional swaps. -/
def step (x1 : Nat) (v : Vars) : Vars :=
  let A := (v.x2 + v.z2) % p
  let AA := A ^ 2 % p
  let B := sub v.x2 v.z2
  let BB := B ^ 2 % p
  let E := sub AA BB
  let C := (v.x3 + v.z3) % p
  let D := sub v.x3 v.z3
  let DA := D * A % p
  let CB := C * B % p
  { x3 := ((DA + CB) % p) ^ 2 % p
    z3 := x1 * (sub DA CB ^ 2 % p) % p
    x2 := AA * BB % p
    z2 := E * ((AA + a24 * E) % p) % p }

/-- The loop `For t = bits-1 down to 0`, with the bits below `t` still to be done. -/
def loop (k x1 : Nat) : (t : Nat) → (swap : Bool) → Vars → Vars × Bool
  | 0, swap, v => (v, swap)
  | t + 1, swap, v =>
    let k_t := k.testBit t
    loop k x1 t k_t (step x1 (cswap (swap ^^ k_t) v))

/-- `b ^ e` modulo `m` for an exponent of at most `n` bits, by squaring. -/
def powMod (m b : Nat) : (n : Nat) → (e : Nat) → Nat
  | 0, _ => 1 % m
  | n + 1, e =>
    let h := powMod m b n (e / 2)
    if e % 2 = 1 then h * h % m * b % m else h * h % m

/-- `X25519(k, u)` on numbers, for 255 bits. -/
def ladder (k u : Nat) : Nat :=
  let (v, swap) := loop k u 255 false ⟨1, 0, u, 1⟩
  let v := cswap swap v
  v.x2 * powMod p v.z2 255 (p - 2) % p

/-- `decodeUCoordinate`: the top bit is ignored, non-canonical values are accepted. -/
def decodeU (u : Arr 32) : Nat := fromLE u.toList % 2 ^ 255 % p

/-- `decodeScalar25519`: bits 0, 1, 2 and 255 are cleared, bit 254 is set. -/
def decodeScalar (k : Arr 32) : Nat := 2 ^ 254 + fromLE k.toList % 2 ^ 254 / 8 * 8

theorem length_toLE (n v : Nat) : (toLE n v).length = n := by
  induction n generalizing v with
  | zero => rfl
  | succ n ih => simp [toLE, ih]

/-- `encodeUCoordinate`. -/
def encodeU (u : Nat) : Arr 32 := ⟨toLE 32 u, length_toLE 32 u⟩

/-- `X25519(k, u)`. -/
def x25519 (k u : Arr 32) : Arr 32 := encodeU (ladder (decodeScalar k) (decodeU u))

/-- `X25519(k, 9)`. -/
def base (k : Arr 32) : Arr 32 := encodeU (ladder (decodeScalar k) 9)

end SV2.Crypto.X25519
