import Verif.Rust.Basic
/-!
# Hexadecimal text
-/

namespace SV2.Hex

/-- The digits, as ASCII. -/
def digits : Bytes := "0123456789abcdef".toUTF8.data.toList

/-- The lower-case text of some bytes, high digit first. -/
def text (b : Bytes) : Bytes :=
  b.flatMap fun x => [digits.getD (x.toNat / 16) 0, digits.getD (x.toNat % 16) 0]

/-- ASCII lower case of the letters A to F. -/
def lower (c : UInt8) : UInt8 := if 65 ≤ c.toNat ∧ c.toNat ≤ 70 then c + 32 else c

end SV2.Hex
