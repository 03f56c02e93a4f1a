import Verif.Spec.Wire
import Verif.Spec.Laws
/-!
# Reading a frame, stated with plain arithmetic on the bytes
-/

namespace SV2.Wire

/-- What a frame reader can say about its input. -/
inductive Verdict where
  | tooShort
  | unknownType
  | wrongChannelBit (bit : Bool)
  | frame (t : MessageType) (payload : Bytes)
  deriving DecidableEq

/-- All message types. -/
def allTypes : List MessageType :=
  [.setupConnection, .setupConnectionSuccess, .setupConnectionError, .channelEndpointChanged,
   .openStandardMiningChannel, .openStandardMiningChannelSuccess, .openStandardMiningChannelError,
   .openExtendedMiningChannel, .openExtendedMiningChannelSuccess, .openExtendedMiningChannelError,
   .updateChannel, .updateChannelError, .closeChannel, .setExtranoncePrefix, .submitSharesStandard,
   .submitSharesExtended, .submitSharesSuccess, .submitSharesError, .newMiningJob,
   .newExtendedMiningJob, .setNewPrevHash, .setTarget, .setCustomMiningJob, .setCustomMiningJobSuccess,
   .setCustomMiningJobError, .reconnect, .setGroupChannel, .testMessage1, .testMessage2]

/-- The message type with this number, in extension 0. -/
def typeOf (ext num : Nat) : Option MessageType :=
  allTypes.find? fun t => ext = 0 && msgNumber t = num

/-- The extension is the low 15 bits of the first two bytes, the channel bit is the top one; then the
message number, three bytes of length, the payload. -/
def readFrame : Bytes → Verdict
  | b0 :: b1 :: b2 :: rest =>
    match typeOf (b0.toNat + 256 * (b1.toNat % 128)) b2.toNat with
    | none => .unknownType
    | some t =>
      if decide (128 ≤ b1.toNat) ≠ hasChannel b2.toNat then .wrongChannelBit (decide (128 ≤ b1.toNat))
      else
        match rest with
        | l0 :: l1 :: l2 :: body =>
          if body.length < l0.toNat + 256 * l1.toNat + 65536 * l2.toNat then .tooShort
          else .frame t (body.take (l0.toNat + 256 * l1.toNat + 65536 * l2.toNat))
        | _ => .tooShort
  | _ => .tooShort

/-- How a verdict appears to the caller of `deserialize`. -/
def Verdict.Appears : Verdict → Result Message → Prop
  | .tooShort, r => ∃ msg, r = .err (.parseError msg)
  | .unknownType, r => r = .err .unknownMessageType
  | .wrongChannelBit b, r => r = .err (.unexpectedChannelBit b)
  | .frame t payload, r => r = .ok ⟨t, payload⟩

end SV2.Wire

namespace SV2.Law

/-- One parser, used again and again, returns these values one after the other. -/
def Yields (α : Type) [Deserializable α] : ByteParser → List α → ByteParser → Prop
  | p, [], p' => p = p'
  | p, m :: ms, p' => ∃ q, Deserializable.deser p = (.ok m, q) ∧ Yields α q ms p'

/-- The bytes of several values one after the other. -/
def WireStream {α : Type} [Serializable α] : List α → Bytes → Prop
  | [], b => b = []
  | m :: ms, b => ∃ e b', serialize m = .ok e ∧ WireStream ms b' ∧ b = e ++ b'

/-- `m` is put into a frame of its type, the frame is sent, received and opened again: the result is
`m`. -/
def FramesBack {α : Type} [Frameable α] (m : α) : Prop :=
  ∃ f bytes, frame m = .ok f ∧ f.message_type = Frameable.messageType α ∧ serialize f = .ok bytes ∧
    ∀ rest, IsSlice (bytes ++ rest) →
      ∃ f', deserialize Message (bytes ++ rest) = .ok f' ∧ unframe α f' = .ok m

/-- `m` takes at most `n` bytes on the wire. -/
def SizeAtMost {α : Type} [Serializable α] (m : α) (n : Nat) : Prop :=
  ∃ e, serialize m = .ok e ∧ e.length ≤ n

end SV2.Law
