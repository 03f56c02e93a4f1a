/-!
# IEEE 754 single precision, stated on its own
-/

namespace SV2.Ieee

/-- The exponent field: bits 23 to 30. -/
def exponent (bits : Nat) : Nat := bits / 2 ^ 23 % 2 ^ 8

/-- The fraction field: bits 0 to 22. -/
def fraction (bits : Nat) : Nat := bits % 2 ^ 23

/-- Not a number: the largest exponent, with a fraction. -/
def IsNaN (bits : Nat) : Prop := exponent bits = 255 ∧ fraction bits ≠ 0

/-- The absolute value of the number, times 2^149: subnormal numbers have no hidden bit.  Infinity counts as 2^128, which
is above every finite number. -/
def magnitude (bits : Nat) : Nat :=
  if exponent bits = 0 then fraction bits else (2 ^ 23 + fraction bits) * 2 ^ (exponent bits - 1)

/-- The number, times 2^149: bit 31 is the sign. -/
def value (bits : Nat) : Int := if bits / 2 ^ 31 = 0 then magnitude bits else - magnitude bits

/-- `==`: no operand is NaN, and the numbers are equal. -/
def Equal (x y : Nat) : Prop := ¬ IsNaN x ∧ ¬ IsNaN y ∧ value x = value y

end SV2.Ieee
