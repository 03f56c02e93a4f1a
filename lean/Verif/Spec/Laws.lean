import Verif.Model.Codec
/-!
# What a user expects of a serializer/deserializer pair, in terms of the public entry points
-/

namespace SV2.Law

/-- The size in bytes of a Rust slice never exceeds `isize::MAX`. -/
def IsSlice (b : Bytes) : Prop := b.length < 2 ^ 63

variable {α : Type} [Serializable α] [Deserializable α]

/-- `m` is written as `e`, and reading `e` back gives `m`: whatever comes before and after `e` in the
input, the parser placed at the start of `e` returns `m` and stops right behind `e`. -/
def RoundTrips (m : α) (e : Bytes) : Prop :=
  serialize m = .ok e ∧
  (∀ rest, IsSlice (e ++ rest) → deserialize α (e ++ rest) = .ok m) ∧
  ∀ before rest, IsSlice (before ++ (e ++ rest)) →
    Deserializable.deser ⟨before ++ (e ++ rest), before.length⟩ =
      (.ok m, ⟨before ++ (e ++ rest), before.length + e.length⟩)

/-- Accepted bytes start with the serialization of the value they decode to. -/
def Canonical (α : Type) [Serializable α] [Deserializable α] : Prop :=
  ∀ (bytes : Bytes) (m : α), IsSlice bytes → deserialize α bytes = .ok m →
    ∃ e rest, serialize m = .ok e ∧ bytes = e ++ rest

/-- `m` serializes, and every strict prefix of its serialization is refused as too short. -/
def RejectsTruncated (m : α) : Prop :=
  ∃ e, serialize m = .ok e ∧
    ∀ cut missing, missing ≠ [] → cut ++ missing = e →
      ∃ msg, deserialize α cut = .err (.parseError msg)

/-- No input makes the deserializer panic, wherever the cursor is, and the cursor stays inside the input
and never moves backwards. -/
def NeverPanics (α : Type) [Deserializable α] : Prop :=
  ∀ (bytes : Bytes) (start : Nat), IsSlice bytes → start ≤ bytes.length →
    (Deserializable.deser (α := α) ⟨bytes, start⟩).1 ≠ .panic ∧
    (Deserializable.deser (α := α) ⟨bytes, start⟩).2.bytes = bytes ∧
    start ≤ (Deserializable.deser (α := α) ⟨bytes, start⟩).2.start ∧
    (Deserializable.deser (α := α) ⟨bytes, start⟩).2.start ≤ bytes.length

/-- Writing `m` to a `Vec` that already has contents appends the serialization and returns its size. -/
def CountsBytes (m : α) : Prop :=
  ∃ e, serialize m = .ok e ∧
    ∀ buf : Bytes, Serializable.ser vecWriter m buf = (.ok e.length, buf ++ e)

/-- Writing `m` to a slice with room for `room` bytes: only the first `room` bytes of the serialization
arrive, but the call returns `Ok` with the full size. -/
def IgnoresShortWrites (m : α) : Prop :=
  ∃ e, serialize m = .ok e ∧
    ∀ (out : Bytes) (room : Nat), Serializable.ser sliceWriter m (out, room) =
      (.ok e.length, (out ++ e.take room, room - e.length))

/-- With any writer at all, if the call returns `Ok(n)` then `n` is the size of the serialization,
whatever the writer reported. -/
def CountIsFixed (m : α) : Prop :=
  ∃ e, serialize m = .ok e ∧
    ∀ (σ : Type) (w : Writer σ) (s s' : σ) (n : Nat), Serializable.ser w m s = (.ok n, s') → n = e.length

end SV2.Law
