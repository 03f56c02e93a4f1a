import Verif.Model.Crypto.X25519
import Verif.Model.Crypto.Sha512
import Verif.Model.Crypto.Base58
import Verif.Model.Certificate
/-!
# Ed25519 (RFC 8032)

The functions behind `AuthorityKeyPair::sign`, `AuthorityPublicKey::verify` and `PublicKey::from_bytes` of the
`ed25519_dalek` crate (noise/types.rs:9-19 and 50, noise/certificate_format.rs:36 and 55-57, noise/signed_certificate.rs:64).  Written from the RFC, on natural
numbers modulo `p`, in the coordinates of its section 5.1.4.

`decode` and `verify` are those of the RFC, except that the equation is checked without multiplying by the cofactor and
by comparing encodings, as the crate does.  `decodeCrate` and `verifyCrate` are those of the crates `ed25519-dalek` 1 and
`curve25519-dalek` 3 (whose sources are not in the repository): they also accept encodings of `y` that are not below `p`,
and `x = 0` with the sign bit.
-/

namespace SV2.Crypto.Ed25519

open X25519 (p powMod)

/-- The order of the base point, RFC 8032, 5.1. -/
def L : Nat := 2 ^ 252 + 27742317777372353535851937790883648493

/-- `d = -121665/121666`, 5.1. -/
def d : Nat := 37095705934669439343138083508754565189542113879843219016388785533085940283555

/-- A square root of -1: `2^((p-1)/4)`, 5.1.3. -/
def sqrtM1 : Nat := 19681161376707505956807079304988542015446066515923890162744021073123829784752

/-- Extended homogeneous coordinates, 5.1.4. -/
structure Ext where
  X : Nat
  Y : Nat
  Z : Nat
  T : Nat
  deriving DecidableEq

/-- The base point, 5.1. -/
def base : Ext :=
  let x := 15112221349535400772501151409588531511454012693041857206046113283949847762202
  let y := 46316835694926478169428394003475163141307993866256225615783033603165251855960
  ⟨x, y, 1, x * y % p⟩

/-- Addition, 5.1.4. -/
def add (P Q : Ext) : Ext :=
  let A := X25519.sub P.Y P.X * X25519.sub Q.Y Q.X % p
  let B := (P.Y + P.X) * (Q.Y + Q.X) % p
  let C := P.T * 2 * d * Q.T % p
  let D := P.Z * 2 * Q.Z % p
  let E := X25519.sub B A
  let F := X25519.sub D C
  let G := (D + C) % p
  let H := (B + A) % p
  ⟨E * F % p, G * H % p, F * G % p, E * H % p⟩

/-- The negative of a point. -/
def neg (P : Ext) : Ext := ⟨X25519.sub 0 P.X, P.Y, P.Z, X25519.sub 0 P.T⟩

/-- Multiplication by the `n` low bits of `s`, added to `Q`. -/
def mulLoop : (n s : Nat) → (P Q : Ext) → Ext
  | 0, _, _, Q => Q
  | n + 1, s, P, Q => mulLoop n (s / 2) (add P P) (if s % 2 = 1 then add Q P else Q)

/-- Multiplication by a number below 2^256. -/
def mul (s : Nat) (P : Ext) : Ext := mulLoop 256 s P ⟨0, 1, 1, 0⟩

/-- 5.1.2: the encoding of a point. -/
def encode (P : Ext) : Arr 32 :=
  let zinv := powMod p P.Z 255 (p - 2)
  let x := P.X * zinv % p
  let y := P.Y * zinv % p
  ⟨toLE 32 (y + 2 ^ 255 * (x % 2)), X25519.length_toLE _ _⟩

/-- 5.1.3: the root of `x2` with the given low bit. -/
def recoverX (x2 sign : Nat) : Option Nat :=
  if x2 = 0 then (if sign = 1 then none else some 0)
  else
    let x := powMod p x2 255 ((p + 3) / 8)
    let x := if x * x % p = x2 then x else x * sqrtM1 % p
    if x * x % p = x2 then some (if x % 2 = sign then x else p - x) else none

/-- 5.1.3: decoding. -/
def decode (b : Arr 32) : Option Ext :=
  let n := fromLE b.toList
  let y := n % 2 ^ 255
  if y < p then
    let x2 := X25519.sub (y * y % p) 1 * powMod p ((d * (y * y) + 1) % p) 255 (p - 2) % p
    (recoverX x2 (n / 2 ^ 255)).map fun x => ⟨x, y, 1, x * y % p⟩
  else none

/-- 5.1.5: the secret scalar and the prefix. -/
def expand (seed : Arr 32) : Nat × Bytes :=
  let h := Sha512.hash seed.toList
  (2 ^ 254 + fromLE (h.take 32) % 2 ^ 254 / 8 * 8, h.drop 32)

/-- 5.1.5: the public key. -/
def publicOf (seed : Arr 32) : Arr 32 := encode (mul (expand seed).1 base)

/-- SHA-512 as a number modulo `L`. -/
def hashModL (b : Bytes) : Nat := fromLE (Sha512.hash b) % L

/-- 5.1.6: signing. -/
def sign (seed : Arr 32) (m : Bytes) : Arr 64 :=
  let (a, pre) := expand seed
  let A := publicOf seed
  let r := hashModL (pre ++ m)
  let R := encode (mul r base)
  let k := hashModL (R.toList ++ A.toList ++ m)
  let s := (r + k * a) % L
  ⟨R.toList ++ toLE 32 s, by simp [R.len, X25519.length_toLE]⟩

/-- 5.1.7: verification. -/
def verify (key : Arr 32) (m : Bytes) (sig : Arr 64) : Bool :=
  match decode key with
  | none => false
  | some A =>
    let R := sig.toList.take 32
    let s := fromLE (sig.toList.drop 32)
    let k := hashModL (R ++ key.toList ++ m)
    decide (s < L) && decide ((encode (add (mul s base) (mul k (neg A)))).toList = R)

/-- `CompressedEdwardsY::decompress`: `y` is reduced modulo `p`, and the sign bit of `x = 0` is ignored. -/
def decodeCrate (b : Arr 32) : Option Ext :=
  let n := fromLE b.toList
  let y := n % 2 ^ 255 % p
  let x2 := X25519.sub (y * y % p) 1 * powMod p ((d * (y * y) + 1) % p) 255 (p - 2) % p
  (if x2 = 0 then some 0 else recoverX x2 (n / 2 ^ 255)).map fun x => ⟨x, y, 1, x * y % p⟩

/-- The check of `PublicKey::verify` with a decoded key: the hash takes the bytes of the key as they were given. -/
def check (point : Option Ext) (key : Arr 32) (m : Bytes) (sig : Arr 64) : Bool :=
  match point with
  | none => false
  | some A =>
    let R := sig.toList.take 32
    let s := fromLE (sig.toList.drop 32)
    let k := hashModL (R ++ key.toList ++ m)
    decide (s < L) && decide ((encode (add (mul s base) (mul k (neg A)))).toList = R)

/-- `PublicKey::from_bytes` and `PublicKey::verify`. -/
def verifyCrate (key : Arr 32) (m : Bytes) (sig : Arr 64) : Bool := check (decodeCrate key) key m sig

/-- `Signature::new` of the `ed25519` crate since 1.3 panics if the top three bits are set. -/
def decodable (sig : Arr 64) : Bool := fromLE (sig.toList.drop 32) < 2 ^ 253

end SV2.Crypto.Ed25519
