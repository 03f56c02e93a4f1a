import Verif.Model.Codec
/-!
# `ByteParser::next_by` for other widths of `usize`
-/

namespace SV2

/-- `ByteParser::next_by`, codec/parser.rs:16-26, where `usize` has `w` bits, in a build with or without overflow
checks.  `start` and `step` are `usize` values. -/
def ByteParser.nextByWidth (w : Nat) (checks : Bool) (step : Nat) : ParseM Bytes := fun p =>
  let sum := p.start + step
  if checks && sum ≥ 2 ^ w then (.panic, p)
  else
    let offset := sum % 2 ^ w
    if p.start ≤ offset ∧ offset ≤ p.bytes.length then
      (.ok ((p.bytes.drop p.start).take (offset - p.start)), { p with start := offset })
    else (.err (.parseError "out of bounds error"), p)

end SV2
