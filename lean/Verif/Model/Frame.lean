import Verif.Model.Types
/-!
# `stratumv2/src/types/message_type.rs` and `stratumv2/src/codec/frame.rs`
-/

namespace SV2

/-- `enum MessageType`, types/message_type.rs:5-41. -/
inductive MessageType where
  | setupConnection
  | setupConnectionSuccess
  | setupConnectionError
  | channelEndpointChanged
  | openStandardMiningChannel
  | openStandardMiningChannelSuccess
  | openStandardMiningChannelError
  | openExtendedMiningChannel
  | openExtendedMiningChannelSuccess
  | openExtendedMiningChannelError
  | updateChannel
  | updateChannelError
  | closeChannel
  | setExtranoncePrefix
  | submitSharesStandard
  | submitSharesExtended
  | submitSharesSuccess
  | submitSharesError
  | newMiningJob
  | newExtendedMiningJob
  | setNewPrevHash
  | setTarget
  | setCustomMiningJob
  | setCustomMiningJobSuccess
  | setCustomMiningJobError
  | reconnect
  | setGroupChannel
  | testMessage1
  | testMessage2
  deriving Repr, DecidableEq

namespace MessageType

/-- `MessageType::new`, types/message_type.rs:46-51 with the table at 74-105: the arms of the `match` are
tried in the order of the table. -/
def new (ext_type : UInt16) (msg_type : UInt8) : Result MessageType :=
  if ext_type = 0x0000 ∧ msg_type = 0x00 then .ok .setupConnection
  else if ext_type = 0x0000 ∧ msg_type = 0x01 then .ok .setupConnectionSuccess
  else if ext_type = 0x0000 ∧ msg_type = 0x02 then .ok .setupConnectionError
  else if ext_type = 0x0000 ∧ msg_type = 0x03 then .ok .channelEndpointChanged
  else if ext_type = 0x0000 ∧ msg_type = 0x10 then .ok .openStandardMiningChannel
  else if ext_type = 0x0000 ∧ msg_type = 0x11 then .ok .openStandardMiningChannelSuccess
  else if ext_type = 0x0000 ∧ msg_type = 0x12 then .ok .openStandardMiningChannelError
  else if ext_type = 0x0000 ∧ msg_type = 0x13 then .ok .openExtendedMiningChannel
  else if ext_type = 0x0000 ∧ msg_type = 0x14 then .ok .openExtendedMiningChannelSuccess
  else if ext_type = 0x0000 ∧ msg_type = 0x15 then .ok .openExtendedMiningChannelError
  else if ext_type = 0x0000 ∧ msg_type = 0x16 then .ok .updateChannel
  else if ext_type = 0x0000 ∧ msg_type = 0x17 then .ok .updateChannelError
  else if ext_type = 0x0000 ∧ msg_type = 0x18 then .ok .closeChannel
  else if ext_type = 0x0000 ∧ msg_type = 0x19 then .ok .setExtranoncePrefix
  else if ext_type = 0x0000 ∧ msg_type = 0x1a then .ok .submitSharesStandard
  else if ext_type = 0x0000 ∧ msg_type = 0x1b then .ok .submitSharesExtended
  else if ext_type = 0x0000 ∧ msg_type = 0x1c then .ok .submitSharesSuccess
  else if ext_type = 0x0000 ∧ msg_type = 0x1d then .ok .submitSharesError
  else if ext_type = 0x0000 ∧ msg_type = 0x1e then .ok .newMiningJob
  else if ext_type = 0x0000 ∧ msg_type = 0x1f then .ok .newExtendedMiningJob
  else if ext_type = 0x0000 ∧ msg_type = 0x20 then .ok .setNewPrevHash
  else if ext_type = 0x0000 ∧ msg_type = 0x21 then .ok .setTarget
  else if ext_type = 0x0000 ∧ msg_type = 0x22 then .ok .setCustomMiningJob
  else if ext_type = 0x0000 ∧ msg_type = 0x23 then .ok .setCustomMiningJobSuccess
  else if ext_type = 0x0000 ∧ msg_type = 0x24 then .ok .setCustomMiningJobError
  else if ext_type = 0x0000 ∧ msg_type = 0x25 then .ok .reconnect
  else if ext_type = 0x0000 ∧ msg_type = 0x26 then .ok .setGroupChannel
  else if ext_type = 0x0000 ∧ msg_type = 0xfe then .ok .testMessage1
  else if ext_type = 0x0000 ∧ msg_type = 0xff then .ok .testMessage2
  else .err .unknownMessageType

/-- `MessageType::ext_type`, types/message_type.rs:53-57, 74-105. -/
def extType : MessageType → UInt16
  | .setupConnection => 0x0000
  | .setupConnectionSuccess => 0x0000
  | .setupConnectionError => 0x0000
  | .channelEndpointChanged => 0x0000
  | .openStandardMiningChannel => 0x0000
  | .openStandardMiningChannelSuccess => 0x0000
  | .openStandardMiningChannelError => 0x0000
  | .openExtendedMiningChannel => 0x0000
  | .openExtendedMiningChannelSuccess => 0x0000
  | .openExtendedMiningChannelError => 0x0000
  | .updateChannel => 0x0000
  | .updateChannelError => 0x0000
  | .closeChannel => 0x0000
  | .setExtranoncePrefix => 0x0000
  | .submitSharesStandard => 0x0000
  | .submitSharesExtended => 0x0000
  | .submitSharesSuccess => 0x0000
  | .submitSharesError => 0x0000
  | .newMiningJob => 0x0000
  | .newExtendedMiningJob => 0x0000
  | .setNewPrevHash => 0x0000
  | .setTarget => 0x0000
  | .setCustomMiningJob => 0x0000
  | .setCustomMiningJobSuccess => 0x0000
  | .setCustomMiningJobError => 0x0000
  | .reconnect => 0x0000
  | .setGroupChannel => 0x0000
  | .testMessage1 => 0x0000
  | .testMessage2 => 0x0000

/-- `MessageType::msg_type`, types/message_type.rs:59-63, 74-105. -/
def msgType : MessageType → UInt8
  | .setupConnection => 0x00
  | .setupConnectionSuccess => 0x01
  | .setupConnectionError => 0x02
  | .channelEndpointChanged => 0x03
  | .openStandardMiningChannel => 0x10
  | .openStandardMiningChannelSuccess => 0x11
  | .openStandardMiningChannelError => 0x12
  | .openExtendedMiningChannel => 0x13
  | .openExtendedMiningChannelSuccess => 0x14
  | .openExtendedMiningChannelError => 0x15
  | .updateChannel => 0x16
  | .updateChannelError => 0x17
  | .closeChannel => 0x18
  | .setExtranoncePrefix => 0x19
  | .submitSharesStandard => 0x1a
  | .submitSharesExtended => 0x1b
  | .submitSharesSuccess => 0x1c
  | .submitSharesError => 0x1d
  | .newMiningJob => 0x1e
  | .newExtendedMiningJob => 0x1f
  | .setNewPrevHash => 0x20
  | .setTarget => 0x21
  | .setCustomMiningJob => 0x22
  | .setCustomMiningJobSuccess => 0x23
  | .setCustomMiningJobError => 0x24
  | .reconnect => 0x25
  | .setGroupChannel => 0x26
  | .testMessage1 => 0xfe
  | .testMessage2 => 0xff

/-- `MessageType::channel_bit`, types/message_type.rs:65-69, 74-105. -/
def channelBit : MessageType → Bool
  | .setupConnection => false
  | .setupConnectionSuccess => false
  | .setupConnectionError => false
  | .channelEndpointChanged => true
  | .openStandardMiningChannel => false
  | .openStandardMiningChannelSuccess => false
  | .openStandardMiningChannelError => false
  | .openExtendedMiningChannel => false
  | .openExtendedMiningChannelSuccess => false
  | .openExtendedMiningChannelError => false
  | .updateChannel => true
  | .updateChannelError => true
  | .closeChannel => true
  | .setExtranoncePrefix => true
  | .submitSharesStandard => true
  | .submitSharesExtended => true
  | .submitSharesSuccess => true
  | .submitSharesError => true
  | .newMiningJob => true
  | .newExtendedMiningJob => true
  | .setNewPrevHash => true
  | .setTarget => true
  | .setCustomMiningJob => false
  | .setCustomMiningJobSuccess => false
  | .setCustomMiningJobError => false
  | .reconnect => false
  | .setGroupChannel => false
  | .testMessage1 => false
  | .testMessage2 => true

end MessageType

/-- `CHANNEL_BIT_MASK`, codec/frame.rs:8. -/
def CHANNEL_BIT_MASK : UInt16 := 0x8000
/-- `EXTENSION_TYPE_MASK`, codec/frame.rs:12. -/
def EXTENSION_TYPE_MASK : UInt16 := 0x7FFF

/-- `Message`, codec/frame.rs:18-22: a network frame. -/
structure Message where
  message_type : MessageType
  payload : Bytes
  deriving Repr, DecidableEq

/-- codec/frame.rs:33-54.  `self.payload.len() as u32` keeps the low 32 bits of the length.  The length
check comes before the first write.  The last item of the sum is what `write` returned. -/
instance : Serializable Message where
  ser w m := do
    let extension_type : UInt16 :=
      if m.message_type.channelBit then m.message_type.extType ||| CHANNEL_BIT_MASK
      else m.message_type.extType
    let message_length ← SM.lift (U24.new (UInt32.ofNat m.payload.length))
    let n1 ← Serializable.ser w extension_type
    let n2 ← Serializable.ser w m.message_type.msgType
    let n3 ← Serializable.ser w message_length
    let n4 ← w.write m.payload
    pure (n1 + n2 + n3 + n4)

/-- codec/frame.rs:56-74. -/
instance : Deserializable Message where
  deser := do
    let ext ← Deserializable.deser (α := UInt16)
    let channel_bit : Bool := (ext &&& CHANNEL_BIT_MASK) != 0
    let extension_type := ext &&& EXTENSION_TYPE_MASK
    let msg_type ← Deserializable.deser (α := UInt8)
    let message_type ← SM.lift (MessageType.new extension_type msg_type)
    if message_type.channelBit != channel_bit then
      SM.fail (.unexpectedChannelBit channel_bit)
    else do
      let message_length ← Deserializable.deser (α := U24)
      let payload ← ByteParser.nextBy message_length.val.toNat
      pure { message_type := message_type, payload := payload }

/-- `trait Frameable`, codec/frame.rs:77-79. -/
class Frameable (α : Type) extends Serializable α, Deserializable α where
  messageType : MessageType

/-- `frame`, codec/frame.rs:83-85. -/
def frame {α : Type} [Frameable α] (payload : α) : Result Message :=
  match serialize payload with
  | .ok bytes => .ok { message_type := Frameable.messageType α, payload := bytes }
  | .err e => .err e
  | .panic => .panic

/-- `unframe`, codec/frame.rs:89-101. -/
def unframe (α : Type) [Frameable α] (message : Message) : Result α :=
  let expected := Frameable.messageType α
  if expected ≠ message.message_type then
    .err (.unexpectedMessageType expected.extType expected.msgType)
  else deserialize α message.payload

end SV2
