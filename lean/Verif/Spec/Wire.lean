import Verif.Model.Messages
/-!
# The Stratum V2 wire format and the validity rules, stated on their own

Nothing here uses the model's parser, writer, serializers, deserializers or constructors; only the record
types of the messages are shared, since they are what the statements talk about.
-/

namespace SV2.Wire

/-- One byte. -/
def u8 (x : UInt8) : Bytes := [x]

/-- Two bytes, little-endian. -/
def u16 (x : UInt16) : Bytes :=
  [UInt8.ofNat (x.toNat % 256), UInt8.ofNat (x.toNat / 256)]

/-- Three bytes, little-endian. -/
def u24 (n : Nat) : Bytes :=
  [UInt8.ofNat (n % 256), UInt8.ofNat (n / 256 % 256), UInt8.ofNat (n / 65536 % 256)]

/-- Four bytes, little-endian. -/
def u32 (x : UInt32) : Bytes :=
  [UInt8.ofNat (x.toNat % 256), UInt8.ofNat (x.toNat / 256 % 256),
   UInt8.ofNat (x.toNat / 65536 % 256), UInt8.ofNat (x.toNat / 16777216)]

/-- The value of a little-endian byte string: byte `i` weighs `256 ^ i`. -/
def leValue (b : Bytes) : Nat := (b.zipIdx.map fun p => p.1.toNat * 256 ^ p.2).sum

/-- A string: its byte length in one byte, then its UTF-8 bytes. -/
def str (s : String) : Bytes := UInt8.ofNat s.utf8ByteSize :: s.toByteArray.data.toList

/-- Short bytes: the length in one byte, then the bytes. -/
def bytes8 (b : Bytes) : Bytes := UInt8.ofNat b.length :: b

/-- Medium bytes: the length in two little-endian bytes, then the bytes. -/
def bytes16 (b : Bytes) : Bytes := u16 (UInt16.ofNat b.length) ++ b

/-- Long bytes: the length in three little-endian bytes, then the bytes. -/
def bytes24 (b : Bytes) : Bytes := u24 b.length ++ b

/-- A `STR0` record is what a constructor makes: within the bound, and its length field is the length. -/
def StrOK {max : Nat} (s : Str0 max) : Prop :=
  s.data.utf8ByteSize ≤ max ∧ s.length.toNat = s.data.utf8ByteSize

/-- A `B0` record with a `u8` length is what a constructor makes. -/
def B8OK {max : Nat} (b : B0 UInt8 max) : Prop := b.data.length ≤ max ∧ b.length.toNat = b.data.length

/-- A `B0` record with a `u16` length is what a constructor makes. -/
def B16OK {max : Nat} (b : B0 UInt16 max) : Prop := b.data.length ≤ max ∧ b.length.toNat = b.data.length

/-- A `B0` record with a `U24` length is what a constructor makes. -/
def B24OK {max : Nat} (b : B0 U24 max) : Prop :=
  b.data.length ≤ max ∧ b.length.val.toNat = b.data.length

/-- The protocol's identifier strings. -/
def setupErrorString : SetupConnectionErrorCode → String
  | .unsupportedFeatureFlags => "unsupported-feature-flags"
  | .unsupportedProtocol => "unsupported-protocol"
  | .protocolVersionMismatch => "protocol-version-mismatch"

/-- The protocol's identifier strings. -/
def openErrorString : OpenMiningChannelErrorCode → String
  | .unknownUser => "unknown-user"
  | .maxTargetOutOfRange => "max-target-out-of-range"

/-! ## Message bodies -/

/-- SetupConnection without the protocol byte. -/
def setupConnectionMsg {all : UInt32} (m : SetupConnectionMsg all) : Bytes :=
  u16 m.min_version ++ u16 m.max_version ++ u32 m.flags.bits ++ str m.endpoint_host.data ++
  u16 m.endpoint_port ++ str m.vendor.data ++ str m.hardware_version.data ++ str m.firmware.data ++
  str m.device_id.data

/-- The rules for a SetupConnection. -/
structure SetupConnectionMsgOK {all : UInt32} (m : SetupConnectionMsg all) : Prop where
  min : 2 ≤ m.min_version.toNat
  max : 2 ≤ m.max_version.toNat
  vendorNe : m.vendor.data ≠ ""
  firmwareNe : m.firmware.data ≠ ""
  host : StrOK m.endpoint_host
  vendor : StrOK m.vendor
  hw : StrOK m.hardware_version
  fw : StrOK m.firmware
  dev : StrOK m.device_id

/-- SetupConnection of the enum: protocol byte, then the body. -/
def setupConnection : SetupConnection → Bytes
  | .mining v => 0 :: setupConnectionMsg v
  | .jobNegotiation v => 1 :: setupConnectionMsg v

/-- The rules for a SetupConnection of the enum. -/
def SetupConnectionOK : SetupConnection → Prop
  | .mining v => SetupConnectionMsgOK v
  | .jobNegotiation v => SetupConnectionMsgOK v

def setupConnectionSuccess {all : UInt32} (m : SetupConnectionSuccess all) : Bytes :=
  u16 m.used_version ++ u32 m.flags.bits

def setupConnectionError {all : UInt32} (m : SetupConnectionError all) : Bytes :=
  u32 m.flags.bits ++ str (setupErrorString m.error_code)

/-- The rule for a SetupConnectionError. -/
def SetupConnectionErrorOK {all : UInt32} (m : SetupConnectionError all) : Prop :=
  m.error_code = .unsupportedFeatureFlags → m.flags.bits ≠ 0

def channelEndpointChanged (m : ChannelEndpointChanged) : Bytes := u32 m.channel_id

def openStandardMiningChannel (m : OpenStandardMiningChannel) : Bytes :=
  u32 m.request_id ++ str m.user_identity.data ++ u32 m.nominal_hash_rate.bits ++
  m.max_target.val.toList

def openStandardMiningChannelSuccess (m : OpenStandardMiningChannelSuccess) : Bytes :=
  u32 m.request_id ++ u32 m.channel_id ++ m.target.val.toList ++ bytes8 m.extranonce_prefix.data ++
  u32 m.group_channel_id

def openExtendedMiningChannel (m : OpenExtendedMiningChannel) : Bytes :=
  u32 m.request_id ++ str m.user_identity.data ++ u32 m.nominal_hash_rate.bits ++
  m.max_target.val.toList ++ u16 m.min_extranonce_size

def openExtendedMiningChannelSuccess (m : OpenExtendedMiningChannelSuccess) : Bytes :=
  u32 m.request_id ++ u32 m.channel_id ++ m.target.val.toList ++ u16 m.extranonce_size ++
  bytes8 m.extranonce_prefix.data

def openMiningChannelError {kind : ChannelKind} (m : OpenMiningChannelError kind) : Bytes :=
  u32 m.request_id ++ str (openErrorString m.error_code)

def updateChannel (m : UpdateChannel) : Bytes :=
  u32 m.channel_id ++ u32 m.nominal_hash_rate.bits ++ m.max_target.val.toList

/-! ## Frames -/

/-- The message numbers with the channel bit set. -/
def hasChannel (msgType : Nat) : Bool :=
  msgType = 3 || (0x16 ≤ msgType && msgType ≤ 0x21) || msgType = 0xff

/-- The 29 message numbers in use, all of extension 0. -/
def msgNumber : MessageType → Nat
  | .setupConnection => 0x00
  | .setupConnectionSuccess => 0x01
  | .setupConnectionError => 0x02
  | .channelEndpointChanged => 0x03
  | .openStandardMiningChannel => 0x10
  | .openStandardMiningChannelSuccess => 0x11
  | .openStandardMiningChannelError => 0x12
  | .openExtendedMiningChannel => 0x13
  | .openExtendedMiningChannelSuccess => 0x14
  | .openExtendedMiningChannelError => 0x15
  | .updateChannel => 0x16
  | .updateChannelError => 0x17
  | .closeChannel => 0x18
  | .setExtranoncePrefix => 0x19
  | .submitSharesStandard => 0x1a
  | .submitSharesExtended => 0x1b
  | .submitSharesSuccess => 0x1c
  | .submitSharesError => 0x1d
  | .newMiningJob => 0x1e
  | .newExtendedMiningJob => 0x1f
  | .setNewPrevHash => 0x20
  | .setTarget => 0x21
  | .setCustomMiningJob => 0x22
  | .setCustomMiningJobSuccess => 0x23
  | .setCustomMiningJobError => 0x24
  | .reconnect => 0x25
  | .setGroupChannel => 0x26
  | .testMessage1 => 0xfe
  | .testMessage2 => 0xff

/-- A frame: extension 0 with the channel bit in the top bit (little-endian, so the second byte), the
message number, the payload length in three bytes, the payload. -/
def frame (m : Message) : Bytes :=
  [0, if hasChannel (msgNumber m.message_type) then 0x80 else 0] ++
  [UInt8.ofNat (msgNumber m.message_type)] ++ u24 m.payload.length ++ m.payload

/-- What a frame can carry. -/
def FrameOK (m : Message) : Prop := m.payload.length < 2 ^ 24

end SV2.Wire
