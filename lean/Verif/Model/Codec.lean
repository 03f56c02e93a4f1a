import Verif.Model.Error
/-!
# `stratumv2/src/codec`: parser, writer, the (de)serialization traits
-/

namespace SV2

/-- `usize` is 64 bits wide in this model. -/
def usizeMax : Nat := 2 ^ 64 - 1

/-- `ByteParser`, codec/parser.rs:6-9.  Immutable bytes and a cursor. -/
structure ByteParser where
  bytes : Bytes
  start : Nat
  deriving Repr, DecidableEq

/-- A function with a `&mut ByteParser` argument. -/
abbrev ParseM (α : Type) := SM ByteParser Error α

/-- `ByteParser::next_by`, codec/parser.rs:16-26, built with overflow checks (a debug build): the
addition `self.start + step` panics when it exceeds `usize::MAX`.  `bytes.get(start..offset)` is `Some`
exactly when `start ≤ offset ≤ len`. -/
def ByteParser.nextBy (step : Nat) : ParseM Bytes := fun p =>
  let offset := p.start + step
  if offset > usizeMax then (.panic, p)
  else if p.start ≤ offset ∧ offset ≤ p.bytes.length then
    (.ok ((p.bytes.drop p.start).take (offset - p.start)), { p with start := offset })
  else (.err (.parseError "out of bounds error"), p)

/-- `ByteParser::next_by` in a release build: the same code, with the addition wrapping modulo 2^64. -/
def ByteParser.nextByRelease (step : Nat) : ParseM Bytes := fun p =>
  let offset := (p.start + step) % 2 ^ 64
  if p.start ≤ offset ∧ offset ≤ p.bytes.length then
    (.ok ((p.bytes.drop p.start).take (offset - p.start)), { p with start := offset })
  else (.err (.parseError "out of bounds error"), p)

/-- `trait Deserializable`, codec/deserialize.rs:4-8. -/
class Deserializable (α : Type) where
  deser : ParseM α

/-- `deserialize`, codec/deserialize.rs:12-15. -/
def deserialize (α : Type) [Deserializable α] (bytes : Bytes) : Result α :=
  (Deserializable.deser (α := α) ⟨bytes, 0⟩).1

/-- `W: io::Write`, as far as this crate uses it: `write` takes a buffer and returns how many of its
bytes were accepted, which may be fewer than offered (the `io::Write` contract), or an error. -/
structure Writer (σ : Type) where
  write : Bytes → SM σ Error Nat

/-- `impl Write for Vec<u8>` (Rust std): accepts everything, never fails. -/
def vecWriter : Writer Bytes where
  write b := fun s => (.ok b.length, s ++ b)

/-- `impl Write for &mut [u8]` (Rust std): accepts what still fits, never fails.  The state is what has
been written and the room that is left. -/
def sliceWriter : Writer (Bytes × Nat) where
  write b := fun s =>
    let n := min b.length s.2
    (.ok n, (s.1 ++ b.take n, s.2 - n))

/-- `trait Serializable`, codec/serialize.rs:6-8. -/
class Serializable (α : Type) where
  ser : {σ : Type} → Writer σ → α → SM σ Error Nat

/-- `serialize`, codec/serialize.rs:12-17. -/
def serialize {α : Type} [Serializable α] (val : α) : Result Bytes :=
  match Serializable.ser vecWriter val [] with
  | (.ok _, buffer) => .ok buffer
  | (.err e, _) => .err e
  | (.panic, _) => .panic

/-- `buffer.clone_from_slice(parser.next_by(n)?)` into a `[u8; n]`: `clone_from_slice` panics when the
lengths differ. -/
def readExact (n : Nat) : ParseM (Arr n) := do
  let s ← ByteParser.nextBy n
  match Arr.ofSlice? n s with
  | some a => pure a
  | none => SM.panic

/-- `writer.write(&buffer)?; Ok(buffer.len())`: the count returned is the buffer's length, whatever
`write` reported. -/
def writeBuf {σ : Type} (w : Writer σ) (buffer : Bytes) : SM σ Error Nat := do
  let _ ← w.write buffer
  pure buffer.length

end SV2
