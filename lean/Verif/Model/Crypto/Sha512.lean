import Verif.Rust.Basic
/-!
# SHA-512 (FIPS 180-4, RFC 6234)

The hash function of `ed25519_dalek`.  Written from the standard, on natural numbers below 2^64.
-/

namespace SV2.Crypto.Sha512

/-- FIPS 180-4, 4.2.3: the constants. -/
def k : List Nat := [
  0x428a2f98d728ae22, 0x7137449123ef65cd, 0xb5c0fbcfec4d3b2f, 0xe9b5dba58189dbbc, 0x3956c25bf348b538,
  0x59f111f1b605d019, 0x923f82a4af194f9b, 0xab1c5ed5da6d8118, 0xd807aa98a3030242, 0x12835b0145706fbe,
  0x243185be4ee4b28c, 0x550c7dc3d5ffb4e2, 0x72be5d74f27b896f, 0x80deb1fe3b1696b1, 0x9bdc06a725c71235,
  0xc19bf174cf692694, 0xe49b69c19ef14ad2, 0xefbe4786384f25e3, 0x0fc19dc68b8cd5b5, 0x240ca1cc77ac9c65,
  0x2de92c6f592b0275, 0x4a7484aa6ea6e483, 0x5cb0a9dcbd41fbd4, 0x76f988da831153b5, 0x983e5152ee66dfab,
  0xa831c66d2db43210, 0xb00327c898fb213f, 0xbf597fc7beef0ee4, 0xc6e00bf33da88fc2, 0xd5a79147930aa725,
  0x06ca6351e003826f, 0x142929670a0e6e70, 0x27b70a8546d22ffc, 0x2e1b21385c26c926, 0x4d2c6dfc5ac42aed,
  0x53380d139d95b3df, 0x650a73548baf63de, 0x766a0abb3c77b2a8, 0x81c2c92e47edaee6, 0x92722c851482353b,
  0xa2bfe8a14cf10364, 0xa81a664bbc423001, 0xc24b8b70d0f89791, 0xc76c51a30654be30, 0xd192e819d6ef5218,
  0xd69906245565a910, 0xf40e35855771202a, 0x106aa07032bbd1b8, 0x19a4c116b8d2d0c8, 0x1e376c085141ab53,
  0x2748774cdf8eeb99, 0x34b0bcb5e19b48a8, 0x391c0cb3c5c95a63, 0x4ed8aa4ae3418acb, 0x5b9cca4f7763e373,
  0x682e6ff3d6b2b8a3, 0x748f82ee5defb2fc, 0x78a5636f43172f60, 0x84c87814a1f0ab72, 0x8cc702081a6439ec,
  0x90befffa23631e28, 0xa4506cebde82bde9, 0xbef9a3f7b2c67915, 0xc67178f2e372532b, 0xca273eceea26619c,
  0xd186b8c721c0c207, 0xeada7dd6cde0eb1e, 0xf57d4f7fee6ed178, 0x06f067aa72176fba, 0x0a637dc5a2c898a6,
  0x113f9804bef90dae, 0x1b710b35131c471b, 0x28db77f523047d84, 0x32caab7b40c72493, 0x3c9ebe0a15c9bebc,
  0x431d67c49c100d4c, 0x4cc5d4becb3e42b6, 0x597f299cfc657e2a, 0x5fcb6fab3ad6faec, 0x6c44198c4a475817]

/-- 5.3.5: the initial hash value. -/
def init : List Nat := [
  0x6a09e667f3bcc908, 0xbb67ae8584caa73b, 0x3c6ef372fe94f82b, 0xa54ff53a5f1d36f1,
  0x510e527fade682d1, 0x9b05688c2b3e6c1f, 0x1f83d9abfb41bd6b, 0x5be0cd19137e2179]

/-- Addition modulo 2^64. -/
def add (a b : Nat) : Nat := (a + b) % 2 ^ 64

/-- Rotation to the right of a number below 2^64. -/
def rotr (n x : Nat) : Nat := (x >>> n) ||| ((x <<< (64 - n)) % 2 ^ 64)

/-- 4.1.3: the functions. -/
def ch (x y z : Nat) : Nat := (x &&& y) ^^^ ((2 ^ 64 - 1 - x) &&& z)
def maj (x y z : Nat) : Nat := (x &&& y) ^^^ (x &&& z) ^^^ (y &&& z)
def bigSigma0 (x : Nat) : Nat := rotr 28 x ^^^ rotr 34 x ^^^ rotr 39 x
def bigSigma1 (x : Nat) : Nat := rotr 14 x ^^^ rotr 18 x ^^^ rotr 41 x
def smallSigma0 (x : Nat) : Nat := rotr 1 x ^^^ rotr 8 x ^^^ (x >>> 7)
def smallSigma1 (x : Nat) : Nat := rotr 19 x ^^^ rotr 61 x ^^^ (x >>> 6)

/-- Big-endian number. -/
def fromBE (b : Bytes) : Nat := b.foldl (fun n x => n * 256 + x.toNat) 0

/-- `n` bytes of a number, big-endian. -/
def toBE (n v : Nat) : Bytes := (toLE n v).reverse

/-- The words of a block of 128 bytes, last word first. -/
def blockWords (block : Bytes) : List Nat :=
  ((List.range 16).map fun i => fromBE ((block.drop (8 * i)).take 8)).reverse

/-- 6.4.2, step 1: the message schedule, `n` more words; the list is in reverse. -/
def schedule : Nat → List Nat → List Nat
  | 0, w => w
  | n + 1, w => schedule n
      (add (add (smallSigma1 (w.getD 1 0)) (w.getD 6 0)) (add (smallSigma0 (w.getD 14 0)) (w.getD 15 0)) :: w)

/-- The working variables. -/
structure Vars where
  (a b c d e f g h : Nat)

/-- 6.4.2, step 3. -/
def step (v : Vars) (kw : Nat × Nat) : Vars :=
  let t1 := add (add (add v.h (bigSigma1 v.e)) (ch v.e v.f v.g)) (add kw.1 kw.2)
  let t2 := add (bigSigma0 v.a) (maj v.a v.b v.c)
  ⟨add t1 t2, v.a, v.b, v.c, add v.d t1, v.e, v.f, v.g⟩

/-- 6.4.2: one block. -/
def compress (h : Vars) (block : Bytes) : Vars :=
  let w := (schedule 64 (blockWords block)).reverse
  let v := (k.zip w).foldl step h
  ⟨add h.a v.a, add h.b v.b, add h.c v.c, add h.d v.d, add h.e v.e, add h.f v.f, add h.g v.g, add h.h v.h⟩

/-- 5.1.2: padding to a multiple of 128 bytes. -/
def pad (data : Bytes) : Bytes :=
  data ++ 0x80 :: List.replicate ((239 - data.length % 128) % 128) 0 ++ toBE 16 (8 * data.length)

/-- The blocks in turn, for `n` blocks. -/
def blocks : Nat → Vars → Bytes → Vars
  | 0, h, _ => h
  | n + 1, h, data => blocks n (compress h (data.take 128)) (data.drop 128)

/-- The hash value as bytes. -/
def hash (data : Bytes) : Bytes :=
  let padded := pad data
  let g := fun i => init.getD i 0
  let h := blocks (padded.length / 128) ⟨g 0, g 1, g 2, g 3, g 4, g 5, g 6, g 7⟩ padded
  [h.a, h.b, h.c, h.d, h.e, h.f, h.g, h.h].flatMap (toBE 8)

end SV2.Crypto.Sha512
