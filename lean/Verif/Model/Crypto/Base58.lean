import Verif.Rust.Basic
/-!
# Base58

The functions behind `base58::from` (noise/certificate_format.rs:31) and `base58::encode_slice` (used by the tests and
examples to write an authority key) of `bitcoin::util::base58`, without a checksum.  Written from the definition: the
bytes are the digits of a number in base 256, the characters its digits in base 58, most significant first, and each
leading zero digit is kept as one leading zero digit.
-/

namespace SV2.Crypto.Base58

/-- The digits. -/
def alphabet : List Char := "123456789ABCDEFGHJKLMNPQRSTUVWXYZabcdefghijkmnopqrstuvwxyz".toList

/-- The value of a list of digits, most significant first. -/
def value (b : Nat) (l : List Nat) : Nat := l.foldl (fun n d => n * b + d) 0

/-- At most `fuel` digits of `n`, least significant first, without leading zeros. -/
def digits (b : Nat) : (fuel : Nat) → (n : Nat) → List Nat
  | 0, _ => []
  | fuel + 1, n => if n = 0 then [] else n % b :: digits b fuel (n / b)

/-- From base `b` to base `c`, keeping the number of leading zeros. -/
def convert (b c : Nat) (l : List Nat) : List Nat :=
  (l.takeWhile (· = 0)) ++ (digits c (value b l) (value b l)).reverse

/-- `base58::from`: `none` for a character that is not a digit. -/
def decode (s : String) : Option Bytes :=
  (s.toList.mapM (alphabet.idxOf? ·)).map fun l => (convert 58 256 l).map UInt8.ofNat

/-- `base58::encode_slice`. -/
def encode (b : Bytes) : String :=
  String.ofList ((convert 256 58 (b.map UInt8.toNat)).map fun d => alphabet.getD d '1')

end SV2.Crypto.Base58
