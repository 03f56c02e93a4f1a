import Verif.Model.Network
/-!
# `gen_range` of `rand` 0.7

The dependency behind `new_channel_id` (network/channel.rs:12-14; stratumv2/Cargo.toml asks for `rand` 0.7.3):
`UniformInt::<u32>::sample_single`.  The generator is the sequence of the 32-bit words it returns.
-/

namespace SV2.Rand

/-- `u32::leading_zeros`. -/
def leadingZeros (x : UInt32) : Nat := if x = 0 then 32 else 31 - x.toNat.log2

/-- `v.wmul(range)`: the high and the low word of the product. -/
def wmul (v range : UInt32) : UInt32 × UInt32 :=
  (UInt32.ofNat (v.toNat * range.toNat / 2 ^ 32), UInt32.ofNat (v.toNat * range.toNat))

/-- `(range << range.leading_zeros()).wrapping_sub(1)`. -/
def zone (range : UInt32) : UInt32 := UInt32.ofNat (range.toNat <<< leadingZeros range) - 1

/-- One turn of the loop: the value for a word, or `none` if the word is thrown away. -/
def pick (low range v : UInt32) : Option UInt32 :=
  let (hi, lo) := wmul v range
  if lo ≤ zone range then some (low + hi) else none

/-- The loop, on the words of the generator so far; `none` while it still waits for a word. -/
def loop (low range : UInt32) : List UInt32 → Option UInt32
  | [] => none
  | v :: words => match pick low range v with
    | some r => some r
    | none => loop low range words

/-- `gen_range(low, high)`; the outer `none` is the panic of `assert!(low < high)`. -/
def genRange (low high : UInt32) (words : List UInt32) : Option (Option UInt32) :=
  if low < high then some (loop low (high - low) words) else none

/-- `new_channel_id`, network/channel.rs:12-14, on the words of the generator. -/
def newChannelId (words : List UInt32) : Option (Option UInt32) := genRange 0 0xFFFFFFFF words

end SV2.Rand
