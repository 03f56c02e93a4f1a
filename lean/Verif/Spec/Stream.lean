import Verif.Model.Frame
import Verif.Spec.Laws
/-!
# Receiving bytes piece by piece

What a user of the library may expect when the input has only partly arrived, and the receive loop a user writes around
`deserialize::<Message>`.
-/

namespace SV2.Law

/-- The decoder says that the input ends too early. -/
def TooShort {α : Type} (r : Result α) : Prop := ∃ msg, r = .err (.parseError msg)

/-- Unless the decoder says that the input ends too early, its answer is final: with more input behind, the result and
the place where the cursor stops are the same. -/
def Final (α : Type) [Deserializable α] : Prop :=
  ∀ (bytes more : Bytes) (start : Nat),
    ¬ TooShort (Deserializable.deser (α := α) ⟨bytes, start⟩).1 →
    Deserializable.deser (α := α) ⟨bytes ++ more, start⟩ =
      ((Deserializable.deser (α := α) ⟨bytes, start⟩).1,
        ⟨bytes ++ more, (Deserializable.deser (α := α) ⟨bytes, start⟩).2.start⟩)

/-- What lies before the cursor has no influence. -/
def PositionFree (α : Type) [Deserializable α] : Prop :=
  ∀ (before bytes : Bytes), IsSlice (before ++ bytes) →
    Deserializable.deser (α := α) ⟨before ++ bytes, before.length⟩ =
      ((Deserializable.deser (α := α) ⟨bytes, 0⟩).1,
        ⟨before ++ bytes, before.length + (Deserializable.deser (α := α) ⟨bytes, 0⟩).2.start⟩)

/-- The decoder never uses more than `n` bytes, and never asks for more when `n` are there. -/
def AsksAtMost (α : Type) [Deserializable α] (n : Nat) : Prop :=
  ∀ (bytes : Bytes) (start : Nat), IsSlice bytes → start ≤ bytes.length →
    (Deserializable.deser (α := α) ⟨bytes, start⟩).2.start ≤ start + n ∧
    (start + n ≤ bytes.length → ¬ TooShort (Deserializable.deser (α := α) ⟨bytes, start⟩).1)

end SV2.Law

namespace SV2.Stream

/-- The state of a receiver: the frames delivered so far, the bytes not yet used, the error that ended it. -/
structure Receiver where
  got : List Message
  buffer : Bytes
  failed : Option Error
  deriving DecidableEq

/-- Take frames from the front of the buffer until it ends too early or an error is final.  A frame takes six bytes and
its payload.  At most as many frames as bytes. -/
def drain : Nat → Bytes → List Message × Bytes × Option Error
  | 0, b => ([], b, none)
  | n + 1, b =>
    match deserialize Message b with
    | .ok m => (m :: (drain n (b.drop (6 + m.payload.length))).1, (drain n (b.drop (6 + m.payload.length))).2)
    | .err (.parseError _) => ([], b, none)
    | .err e => ([], [], some e)
    | .panic => ([], b, none)

/-- A piece arrives.  After an error nothing is taken any more. -/
def Receiver.feed (r : Receiver) (piece : Bytes) : Receiver :=
  match r.failed with
  | some _ => r
  | none =>
    let d := drain (r.buffer ++ piece).length (r.buffer ++ piece)
    ⟨r.got ++ d.1, d.2.1, d.2.2⟩

/-- Nothing has arrived. -/
def Receiver.start : Receiver := ⟨[], [], none⟩

/-- The pieces arrive one after the other. -/
def Receiver.receive (pieces : List Bytes) : Receiver := pieces.foldl Receiver.feed Receiver.start

end SV2.Stream
