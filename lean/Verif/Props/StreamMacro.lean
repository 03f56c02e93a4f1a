import Verif.Lemmas.Stream
import Verif.Lemmas.Macro
/-!
# C75 for every message that `impl_message!` can declare
-/

namespace SV2.Macro
open Law

/-- The longest encoding that the length fields of a type can announce. -/
def Ty.longest : Ty → Nat
  | .bool => 1
  | .u8 => 1
  | .u16 => 2
  | .u24 => 3
  | .u32 => 4
  | .f32 => 4
  | .u256 => 32
  | .b0_64K => 2 + 65535
  | .b0_16M => 3 + 16777215
  | .flags _ => 4
  | _ => 1 + 255

theorem Ty.streams (t : Ty) : Streams t.deser := by
  cases t
  · exact streamed_bool
  · exact streamed_u8
  · exact streamed_u16
  · exact streamed_u24
  · exact streamed_u32
  · exact streamed_f32
  · exact streamed_u256
  · exact streamed_str
  · exact streamed_str
  · exact streamed_b8
  · exact streamed_b8
  · exact streamed_b8
  · exact streamed_b16
  · exact streamed_b24
  · exact streamed_flags
  · exact streamed_code
  · exact streamed_code

theorem Ty.asks (t : Ty) : Asks t.deser t.longest := by
  cases t
  · exact asks_bool
  · exact asks_u8
  · exact asks_u16
  · exact asks_u24
  · exact asks_u32
  · exact asks_f32
  · exact asks_u256
  · exact asks_str
  · exact asks_str
  · exact asks_b8
  · exact asks_b8
  · exact asks_b8
  · exact asks_b16
  · exact asks_b24
  · exact asks_flags
  · exact asks_setupCode
  · exact asks_openCode

theorem streams_fields (ts : List Ty) : Streams (deserFields ts) := by
  induction ts with
  | nil => exact Streams.pure _
  | cons t ts ih => exact Streams.bind t.streams fun _ => Streams.bind ih fun _ => Streams.pure _

theorem asks_fields (ts : List Ty) : Asks (deserFields ts) (ts.map Ty.longest).sum := by
  induction ts with
  | nil => exact Asks.pure _
  | cons t ts ih =>
    have := Asks.bind (f := fun x => do let xs ← deserFields ts; pure (x, xs)) t.asks
      fun _ => Asks.bind ih fun _ => Asks.pure _
    simpa [deserFields] using this

/-- For any fields in any order and any constructor: an answer of the decoder other than "too short" is final, and what
lies in front of the cursor has no influence.  If the constructor has no "too short" of its own, the decoder uses and asks
for at most the longest encodings of its fields. -/
theorem C75_any_declaration (d : Decl) :
    Final (Msg d) ∧ PositionFree (Msg d) ∧
    ((∀ v, ¬ TooShort (d.new v)) → AsksAtMost (Msg d) (d.fields.map Ty.longest).sum) := by
  have hs : Streamed (Msg d) :=
    Streams.bind (streams_fields _) fun _ => Streams.bind (Streams.lift _) fun _ => Streams.pure _
  refine ⟨hs.final, hs.positionFree, fun hn => Asks.deser ?_⟩
  exact Asks.bind (n := 0) (asks_fields _) fun v => Asks.bind (n := 0) (Asks.lift (hn v)) fun _ => Asks.pure _

/-- A declaration that is not in the library. -/
def sampleDecl : Decl where
  fields := [.bool, .b0_16M, .u24]
  new := .ok
  messageType := .newMiningJob

example : AsksAtMost (Msg sampleDecl) 16777222 :=
  (C75_any_declaration sampleDecl).2.2 fun v => by rintro ⟨msg, h⟩; cases h

/-- The bound is met: with one byte less this input is too short. -/
example : (deserialize (Msg ⟨[.bool, .u16], .ok, .newMiningJob⟩) [1, 2]) = .err (.parseError "out of bounds error") := by
  rfl

end SV2.Macro
