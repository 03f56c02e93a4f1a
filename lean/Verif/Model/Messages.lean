import Verif.Model.Frame
/-!
# The messages: `common/`, `mining/`, `job_negotiation/`, `macro_message/`

`impl_message!` (macro_message/message.rs:11-54) gives each struct: a `Serializable` that serializes the
fields in order and sums the counts (30-38), a `Deserializable` that deserializes the fields in order and
passes them to `new` (40-46), and a `Frameable` (48-52).  Each expansion is written out below.  The
`usize` sum is an unbounded `Nat` sum.
-/

namespace SV2

/-! ## Error codes -/

/-- `SetupConnectionErrorCode`, common/setup_connection_error_code.rs:5-18. -/
inductive SetupConnectionErrorCode where
  | unsupportedFeatureFlags
  | unsupportedProtocol
  | protocolVersionMismatch
  deriving Repr, DecidableEq

/-- common/setup_connection_error_code.rs:20-25. -/
instance : ErrorCode SetupConnectionErrorCode where
  toStr
    | .unsupportedFeatureFlags => "unsupported-feature-flags"
    | .unsupportedProtocol => "unsupported-protocol"
    | .protocolVersionMismatch => "protocol-version-mismatch"
  fromStr s :=
    if s = "unsupported-feature-flags" then .ok .unsupportedFeatureFlags
    else if s = "unsupported-protocol" then .ok .unsupportedProtocol
    else if s = "protocol-version-mismatch" then .ok .protocolVersionMismatch
    else .err .unknownErrorCode

/-- types/error_code.rs:71-75 for `SetupConnectionErrorCode`. -/
instance : Serializable SetupConnectionErrorCode := ⟨ErrorCode.ser⟩
/-- types/error_code.rs:77-83 for `SetupConnectionErrorCode`. -/
instance : Deserializable SetupConnectionErrorCode := ⟨ErrorCode.deser⟩

/-- `OpenMiningChannelErrorCode`, mining/open_mining_channel_error.rs:7-11. -/
inductive OpenMiningChannelErrorCode where
  | unknownUser
  | maxTargetOutOfRange
  deriving Repr, DecidableEq

/-- mining/open_mining_channel_error.rs:13-18. -/
instance : ErrorCode OpenMiningChannelErrorCode where
  toStr
    | .unknownUser => "unknown-user"
    | .maxTargetOutOfRange => "max-target-out-of-range"
  fromStr s :=
    if s = "unknown-user" then .ok .unknownUser
    else if s = "max-target-out-of-range" then .ok .maxTargetOutOfRange
    else .err .unknownErrorCode

/-- types/error_code.rs:71-75 for `OpenMiningChannelErrorCode`. -/
instance : Serializable OpenMiningChannelErrorCode := ⟨ErrorCode.ser⟩
/-- types/error_code.rs:77-83 for `OpenMiningChannelErrorCode`. -/
instance : Deserializable OpenMiningChannelErrorCode := ⟨ErrorCode.deser⟩

/-! ## Flag sets: the union of the declared flags -/

/-- `REQUIRES_STANDARD_JOBS`, mining/setup_connection.rs:9. -/
abbrev bitRequiresStandardJobs : UInt32 := (1 : UInt32) <<< 0
/-- `REQUIRES_WORK_SELECTION`, mining/setup_connection.rs:13. -/
abbrev bitRequiresWorkSelection : UInt32 := (1 : UInt32) <<< 1
/-- `REQUIRES_VERSION_ROLLING`, mining/setup_connection.rs:17. -/
abbrev bitRequiresVersionRolling : UInt32 := (1 : UInt32) <<< 2
/-- `NONE`, mining/setup_connection_success.rs:7 and job_negotiation/setup_connection_success.rs:7. -/
abbrev bitNone : UInt32 := 0
/-- `REQUIRES_FIXED_VERSION`, mining/setup_connection_success.rs:8. -/
abbrev bitRequiresFixedVersion : UInt32 := (1 : UInt32) <<< 0
/-- `REQUIRES_EXTENDED_CHANNELS`, mining/setup_connection_success.rs:9. -/
abbrev bitRequiresExtendedChannels : UInt32 := (1 : UInt32) <<< 1
/-- `REQUIRES_ASYNC_JOB_MINING`, job_negotiation/setup_connection.rs:11. -/
abbrev bitRequiresAsyncJobMining : UInt32 := (1 : UInt32) <<< 0

/-- mining/setup_connection.rs:6-18. -/
abbrev miningSetupFlags : UInt32 :=
  bitRequiresStandardJobs ||| bitRequiresWorkSelection ||| bitRequiresVersionRolling
/-- mining/setup_connection_success.rs:6-10. -/
abbrev miningSuccessFlags : UInt32 := bitNone ||| bitRequiresFixedVersion ||| bitRequiresExtendedChannels
/-- job_negotiation/setup_connection.rs:6-12. -/
abbrev jobNegotiationSetupFlags : UInt32 := bitRequiresAsyncJobMining
/-- job_negotiation/setup_connection_success.rs:6-8: NONE only. -/
abbrev jobNegotiationSuccessFlags : UInt32 := bitNone

/-! ## SetupConnection (`impl_setup_connection!`), generic in the flag set -/

/-- `SetupConnection`, macro_message/setup_connection.rs:18-101. -/
structure SetupConnectionMsg (all : UInt32) where
  min_version : UInt16
  max_version : UInt16
  flags : Flags all
  endpoint_host : STR0_255
  endpoint_port : UInt16
  vendor : STR0_255
  hardware_version : STR0_255
  firmware : STR0_255
  device_id : STR0_255
  deriving Repr, DecidableEq

/-- `SetupConnection::new`, macro_message/setup_connection.rs:104-148.  `String::is_empty` is a zero byte
length.  The string arguments are already `String`s (`Into<String>`). -/
def SetupConnectionMsg.new {all : UInt32} (min_version max_version : UInt16) (flags : Flags all)
    (endpoint_host : String) (endpoint_port : UInt16)
    (vendor hardware_version firmware device_id : String) : Result (SetupConnectionMsg all) :=
  if (strBytes vendor).length = 0 then
    .err (.requirementError "vendor field in SetupConnection MUST NOT be empty")
  else if (strBytes firmware).length = 0 then
    .err (.requirementError "firmware field in SetupConnection MUST NOT be empty")
  else if min_version < 2 then .err (.versionError "min_version must be atleast 2")
  else if max_version < 2 then .err (.versionError "max_version must be atleast 2")
  else do
    let endpoint_host ← Str0.new endpoint_host
    let vendor ← Str0.new vendor
    let hardware_version ← Str0.new hardware_version
    let firmware ← Str0.new firmware
    let device_id ← Str0.new device_id
    pure { min_version, max_version, flags, endpoint_host, endpoint_port, vendor, hardware_version,
           firmware, device_id }

/-- macro_message/message.rs:30-52 for macro_message/setup_connection.rs:18-101.  `new` receives the
decoded strings converted back with `From<STR0_255> for String` (types/strings.rs:50-54). -/
instance {all : UInt32} : Frameable (SetupConnectionMsg all) where
  ser w m := do
    let n1 ← Serializable.ser w m.min_version
    let n2 ← Serializable.ser w m.max_version
    let n3 ← Serializable.ser w m.flags
    let n4 ← Serializable.ser w m.endpoint_host
    let n5 ← Serializable.ser w m.endpoint_port
    let n6 ← Serializable.ser w m.vendor
    let n7 ← Serializable.ser w m.hardware_version
    let n8 ← Serializable.ser w m.firmware
    let n9 ← Serializable.ser w m.device_id
    pure (n1 + n2 + n3 + n4 + n5 + n6 + n7 + n8 + n9)
  deser := do
    let min_version ← Deserializable.deser (α := UInt16)
    let max_version ← Deserializable.deser (α := UInt16)
    let flags ← Deserializable.deser (α := Flags all)
    let endpoint_host ← Deserializable.deser (α := STR0_255)
    let endpoint_port ← Deserializable.deser (α := UInt16)
    let vendor ← Deserializable.deser (α := STR0_255)
    let hardware_version ← Deserializable.deser (α := STR0_255)
    let firmware ← Deserializable.deser (α := STR0_255)
    let device_id ← Deserializable.deser (α := STR0_255)
    SM.lift (SetupConnectionMsg.new min_version max_version flags endpoint_host.data endpoint_port
      vendor.data hardware_version.data firmware.data device_id.data)
  messageType := .setupConnection

/-- mining/setup_connection.rs:22. -/
abbrev MiningSetupConnection := SetupConnectionMsg miningSetupFlags
/-- job_negotiation/setup_connection.rs:16. -/
abbrev JobNegotiationSetupConnection := SetupConnectionMsg jobNegotiationSetupFlags

/-! ## SetupConnectionSuccess (`impl_setup_connection_success!`) -/

/-- `SetupConnectionSuccess`, macro_message/setup_connection_success.rs:14-42. -/
structure SetupConnectionSuccess (all : UInt32) where
  used_version : UInt16
  flags : Flags all
  deriving Repr, DecidableEq

/-- macro_message/setup_connection_success.rs:46-51. -/
def SetupConnectionSuccess.new {all : UInt32} (used_version : UInt16) (flags : Flags all) :
    Result (SetupConnectionSuccess all) := .ok { used_version, flags }

/-- macro_message/message.rs:30-52 for macro_message/setup_connection_success.rs:14-42. -/
instance {all : UInt32} : Frameable (SetupConnectionSuccess all) where
  ser w m := do
    let n1 ← Serializable.ser w m.used_version
    let n2 ← Serializable.ser w m.flags
    pure (n1 + n2)
  deser := do
    let used_version ← Deserializable.deser (α := UInt16)
    let flags ← Deserializable.deser (α := Flags all)
    SM.lift (SetupConnectionSuccess.new used_version flags)
  messageType := .setupConnectionSuccess

/-! ## SetupConnectionError (`impl_setup_connection_error!`) -/

/-- `SetupConnectionError`, macro_message/setup_connection_error.rs:16-50. -/
structure SetupConnectionError (all : UInt32) where
  flags : Flags all
  error_code : SetupConnectionErrorCode
  deriving Repr, DecidableEq

/-- macro_message/setup_connection_error.rs:53-66. -/
def SetupConnectionError.new {all : UInt32} (flags : Flags all)
    (error_code : SetupConnectionErrorCode) : Result (SetupConnectionError all) :=
  if flags.isEmpty = true ∧ error_code = .unsupportedFeatureFlags then
    .err (.requirementError "a full set of unsupported flags MUST be returned to the client")
  else .ok { flags, error_code }

/-- macro_message/message.rs:30-52 for macro_message/setup_connection_error.rs:16-50. -/
instance {all : UInt32} : Frameable (SetupConnectionError all) where
  ser w m := do
    let n1 ← Serializable.ser w m.flags
    let n2 ← Serializable.ser w m.error_code
    pure (n1 + n2)
  deser := do
    let flags ← Deserializable.deser (α := Flags all)
    let error_code ← Deserializable.deser (α := SetupConnectionErrorCode)
    SM.lift (SetupConnectionError.new flags error_code)
  messageType := .setupConnectionError

/-! ## common/channel_endpoint_changed.rs -/

/-- `ChannelEndpointChanged`, common/channel_endpoint_changed.rs:9-19. -/
structure ChannelEndpointChanged where
  channel_id : UInt32
  deriving Repr, DecidableEq

/-- common/channel_endpoint_changed.rs:22-24. -/
def ChannelEndpointChanged.new (channel_id : UInt32) : Result ChannelEndpointChanged :=
  .ok { channel_id }

/-- macro_message/message.rs:30-52 for common/channel_endpoint_changed.rs:9-19. -/
instance : Frameable ChannelEndpointChanged where
  ser w m := do
    let n1 ← Serializable.ser w m.channel_id
    pure n1
  deser := do
    let channel_id ← Deserializable.deser (α := UInt32)
    SM.lift (ChannelEndpointChanged.new channel_id)
  messageType := .channelEndpointChanged

/-! ## common/setup_connection.rs -/

/-- `Protocol`, common/setup_connection.rs:12-30. -/
inductive Protocol where
  | mining
  | jobNegotiation
  | templateDistribution
  | jobDistribution
  deriving Repr, DecidableEq

/-- `From<&Protocol> for u8`, common/setup_connection.rs:32-41. -/
def Protocol.toU8 : Protocol → UInt8
  | .mining => 0
  | .jobNegotiation => 1
  | .templateDistribution => 2
  | .jobDistribution => 3

/-- `TryFrom<u8> for Protocol`, common/setup_connection.rs:49-64. -/
def Protocol.tryFrom (byte : UInt8) : Result Protocol :=
  if byte = 0 then .ok .mining
  else if byte = 1 then .ok .jobNegotiation
  else if byte = 2 then .ok .templateDistribution
  else if byte = 3 then .ok .jobDistribution
  else .err (.deserializationError "received unknown protocol byte in setup connection message")

/-- common/setup_connection.rs:66-70. -/
instance : Serializable Protocol where
  ser w p := Serializable.ser w p.toU8

/-- common/setup_connection.rs:72-76. -/
instance : Deserializable Protocol where
  deser := do
    let byte ← Deserializable.deser (α := UInt8)
    SM.lift (Protocol.tryFrom byte)

/-- `enum SetupConnection`, common/setup_connection.rs:81-86. -/
inductive SetupConnection where
  | mining (v : MiningSetupConnection)
  | jobNegotiation (v : JobNegotiationSetupConnection)
  deriving Repr, DecidableEq

/-- `SetupConnection::new_mining`, common/setup_connection.rs:109-131. -/
def SetupConnection.newMining (min_version max_version : UInt16) (flags : Flags miningSetupFlags)
    (endpoint_host : String) (endpoint_port : UInt16)
    (vendor hardware_version firmware device_id : String) : Result SetupConnection := do
  let v ← SetupConnectionMsg.new min_version max_version flags endpoint_host endpoint_port vendor
    hardware_version firmware device_id
  pure (.mining v)

/-- `SetupConnection::new_job_negotation`, common/setup_connection.rs:153-177. -/
def SetupConnection.newJobNegotiation (min_version max_version : UInt16)
    (flags : Flags jobNegotiationSetupFlags) (endpoint_host : String) (endpoint_port : UInt16)
    (vendor hardware_version firmware device_id : String) : Result SetupConnection := do
  let v ← SetupConnectionMsg.new min_version max_version flags endpoint_host endpoint_port vendor
    hardware_version firmware device_id
  pure (.jobNegotiation v)

/-- common/setup_connection.rs:180-227. -/
instance : Frameable SetupConnection where
  ser w m := match m with
    | .mining v => do
      let n1 ← Serializable.ser w Protocol.mining
      let n2 ← Serializable.ser w v
      pure (n1 + n2)
    | .jobNegotiation v => do
      let n1 ← Serializable.ser w Protocol.jobNegotiation
      let n2 ← Serializable.ser w v
      pure (n1 + n2)
  deser := do
    let protocol ← Deserializable.deser (α := Protocol)
    match protocol with
    | .mining => do
      let v ← Deserializable.deser (α := MiningSetupConnection)
      pure (.mining v)
    | .jobNegotiation => do
      let v ← Deserializable.deser (α := JobNegotiationSetupConnection)
      pure (.jobNegotiation v)
    | _ => SM.fail .unimplemented
  messageType := .setupConnection

/-! ## mining/ -/

/-- `OpenStandardMiningChannel`, mining/open_standard_mining_channel.rs:5-32. -/
structure OpenStandardMiningChannel where
  request_id : UInt32
  user_identity : STR0_255
  nominal_hash_rate : F32
  max_target : U256
  deriving Repr, DecidableEq

/-- mining/open_standard_mining_channel.rs:35-47. -/
def OpenStandardMiningChannel.new (request_id : UInt32) (user_identity : String)
    (nominal_hash_rate : F32) (max_target : U256) : Result OpenStandardMiningChannel := do
  let user_identity ← Str0.new user_identity
  pure { request_id, user_identity, nominal_hash_rate, max_target }

/-- macro_message/message.rs:30-52 for mining/open_standard_mining_channel.rs:5-32. -/
instance : Frameable OpenStandardMiningChannel where
  ser w m := do
    let n1 ← Serializable.ser w m.request_id
    let n2 ← Serializable.ser w m.user_identity
    let n3 ← Serializable.ser w m.nominal_hash_rate
    let n4 ← Serializable.ser w m.max_target
    pure (n1 + n2 + n3 + n4)
  deser := do
    let request_id ← Deserializable.deser (α := UInt32)
    let user_identity ← Deserializable.deser (α := STR0_255)
    let nominal_hash_rate ← Deserializable.deser (α := F32)
    let max_target ← Deserializable.deser (α := U256)
    SM.lift (OpenStandardMiningChannel.new request_id user_identity.data nominal_hash_rate max_target)
  messageType := .openStandardMiningChannel

/-- `==` of `OpenStandardMiningChannel` (`derive(PartialEq)`, macro_message/message.rs:22): all fields
equal, the `f32` by IEEE equality. -/
def OpenStandardMiningChannel.rustEq (a b : OpenStandardMiningChannel) : Bool :=
  a.request_id == b.request_id && a.user_identity == b.user_identity &&
  a.nominal_hash_rate.rustEq b.nominal_hash_rate && a.max_target == b.max_target

/-- `OpenStandardMiningChannelSuccess`, mining/open_standard_mining_channel_success.rs:5-27. -/
structure OpenStandardMiningChannelSuccess where
  request_id : UInt32
  channel_id : UInt32
  target : U256
  extranonce_prefix : B0_32
  group_channel_id : UInt32
  deriving Repr, DecidableEq

/-- mining/open_standard_mining_channel_success.rs:30-44. -/
def OpenStandardMiningChannelSuccess.new (request_id channel_id : UInt32) (target : U256)
    (extranonce_prefix : Bytes) (group_channel_id : UInt32) :
    Result OpenStandardMiningChannelSuccess := do
  let extranonce_prefix ← B0.new extranonce_prefix
  pure { request_id, channel_id, target, extranonce_prefix, group_channel_id }

/-- macro_message/message.rs:30-52 for mining/open_standard_mining_channel_success.rs:5-27.  `new`
receives `extranonce_prefix` through `From<B0_32> for Vec<u8>` (types/bytes.rs:55-59). -/
instance : Frameable OpenStandardMiningChannelSuccess where
  ser w m := do
    let n1 ← Serializable.ser w m.request_id
    let n2 ← Serializable.ser w m.channel_id
    let n3 ← Serializable.ser w m.target
    let n4 ← Serializable.ser w m.extranonce_prefix
    let n5 ← Serializable.ser w m.group_channel_id
    pure (n1 + n2 + n3 + n4 + n5)
  deser := do
    let request_id ← Deserializable.deser (α := UInt32)
    let channel_id ← Deserializable.deser (α := UInt32)
    let target ← Deserializable.deser (α := U256)
    let extranonce_prefix ← Deserializable.deser (α := B0_32)
    let group_channel_id ← Deserializable.deser (α := UInt32)
    SM.lift (OpenStandardMiningChannelSuccess.new request_id channel_id target
      extranonce_prefix.data group_channel_id)
  messageType := .openStandardMiningChannelSuccess

/-- `OpenExtendedMiningChannel`, mining/open_extended_mining_channel.rs:6-35. -/
structure OpenExtendedMiningChannel where
  request_id : UInt32
  user_identity : STR0_255
  nominal_hash_rate : F32
  max_target : U256
  min_extranonce_size : UInt16
  deriving Repr, DecidableEq

/-- mining/open_extended_mining_channel.rs:38-52. -/
def OpenExtendedMiningChannel.new (request_id : UInt32) (user_identity : String)
    (nominal_hash_rate : F32) (max_target : U256) (min_extranonce_size : UInt16) :
    Result OpenExtendedMiningChannel := do
  let user_identity ← Str0.new user_identity
  pure { request_id, user_identity, nominal_hash_rate, max_target, min_extranonce_size }

/-- macro_message/message.rs:30-52 for mining/open_extended_mining_channel.rs:6-35. -/
instance : Frameable OpenExtendedMiningChannel where
  ser w m := do
    let n1 ← Serializable.ser w m.request_id
    let n2 ← Serializable.ser w m.user_identity
    let n3 ← Serializable.ser w m.nominal_hash_rate
    let n4 ← Serializable.ser w m.max_target
    let n5 ← Serializable.ser w m.min_extranonce_size
    pure (n1 + n2 + n3 + n4 + n5)
  deser := do
    let request_id ← Deserializable.deser (α := UInt32)
    let user_identity ← Deserializable.deser (α := STR0_255)
    let nominal_hash_rate ← Deserializable.deser (α := F32)
    let max_target ← Deserializable.deser (α := U256)
    let min_extranonce_size ← Deserializable.deser (α := UInt16)
    SM.lift (OpenExtendedMiningChannel.new request_id user_identity.data nominal_hash_rate max_target
      min_extranonce_size)
  messageType := .openExtendedMiningChannel

/-- `==` of `OpenExtendedMiningChannel` (`derive(PartialEq)`, macro_message/message.rs:22). -/
def OpenExtendedMiningChannel.rustEq (a b : OpenExtendedMiningChannel) : Bool :=
  a.request_id == b.request_id && a.user_identity == b.user_identity &&
  a.nominal_hash_rate.rustEq b.nominal_hash_rate && a.max_target == b.max_target &&
  a.min_extranonce_size == b.min_extranonce_size

/-- `OpenExtendedMiningChannelSuccess`, mining/open_extended_mining_channel_success.rs:5-28. -/
structure OpenExtendedMiningChannelSuccess where
  request_id : UInt32
  channel_id : UInt32
  target : U256
  extranonce_size : UInt16
  extranonce_prefix : B0_32
  deriving Repr, DecidableEq

/-- mining/open_extended_mining_channel_success.rs:31-45. -/
def OpenExtendedMiningChannelSuccess.new (request_id channel_id : UInt32) (target : U256)
    (extranonce_size : UInt16) (extranonce_prefix : Bytes) :
    Result OpenExtendedMiningChannelSuccess := do
  let extranonce_prefix ← B0.new extranonce_prefix
  pure { request_id, channel_id, target, extranonce_size, extranonce_prefix }

/-- macro_message/message.rs:30-52 for mining/open_extended_mining_channel_success.rs:5-28. -/
instance : Frameable OpenExtendedMiningChannelSuccess where
  ser w m := do
    let n1 ← Serializable.ser w m.request_id
    let n2 ← Serializable.ser w m.channel_id
    let n3 ← Serializable.ser w m.target
    let n4 ← Serializable.ser w m.extranonce_size
    let n5 ← Serializable.ser w m.extranonce_prefix
    pure (n1 + n2 + n3 + n4 + n5)
  deser := do
    let request_id ← Deserializable.deser (α := UInt32)
    let channel_id ← Deserializable.deser (α := UInt32)
    let target ← Deserializable.deser (α := U256)
    let extranonce_size ← Deserializable.deser (α := UInt16)
    let extranonce_prefix ← Deserializable.deser (α := B0_32)
    SM.lift (OpenExtendedMiningChannelSuccess.new request_id channel_id target extranonce_size
      extranonce_prefix.data)
  messageType := .openExtendedMiningChannelSuccess

/-- Which of the two structs `impl_open_mining_channel_error!` was expanded for
(mining/open_standard_mining_channel_error.rs:5, mining/open_extended_mining_channel_error.rs:6). -/
inductive ChannelKind where
  | standard
  | extended
  deriving Repr, DecidableEq

/-- `OpenStandardMiningChannelError` / `OpenExtendedMiningChannelError`,
mining/open_mining_channel_error.rs:31-42. -/
structure OpenMiningChannelError (kind : ChannelKind) where
  request_id : UInt32
  error_code : OpenMiningChannelErrorCode
  deriving Repr, DecidableEq

/-- mining/open_mining_channel_error.rs:45-50. -/
def OpenMiningChannelError.new {kind : ChannelKind} (request_id : UInt32)
    (error_code : OpenMiningChannelErrorCode) : Result (OpenMiningChannelError kind) :=
  .ok { request_id, error_code }

/-- `MessageType::$struct_name` (macro_message/message.rs:50) for the two struct names. -/
def ChannelKind.messageType : ChannelKind → MessageType
  | .standard => .openStandardMiningChannelError
  | .extended => .openExtendedMiningChannelError

/-- macro_message/message.rs:30-52 for mining/open_mining_channel_error.rs:31-42. -/
instance {kind : ChannelKind} : Frameable (OpenMiningChannelError kind) where
  ser w m := do
    let n1 ← Serializable.ser w m.request_id
    let n2 ← Serializable.ser w m.error_code
    pure (n1 + n2)
  deser := do
    let request_id ← Deserializable.deser (α := UInt32)
    let error_code ← Deserializable.deser (α := OpenMiningChannelErrorCode)
    SM.lift (OpenMiningChannelError.new request_id error_code)
  messageType := kind.messageType

/-- `UpdateChannel`, mining/update_channel.rs:3-22. -/
structure UpdateChannel where
  channel_id : UInt32
  nominal_hash_rate : F32
  max_target : U256
  deriving Repr, DecidableEq

/-- mining/update_channel.rs:25-35. -/
def UpdateChannel.new (channel_id : UInt32) (nominal_hash_rate : F32) (max_target : U256) :
    Result UpdateChannel := .ok { channel_id, nominal_hash_rate, max_target }

/-- macro_message/message.rs:30-52 for mining/update_channel.rs:3-22. -/
instance : Frameable UpdateChannel where
  ser w m := do
    let n1 ← Serializable.ser w m.channel_id
    let n2 ← Serializable.ser w m.nominal_hash_rate
    let n3 ← Serializable.ser w m.max_target
    pure (n1 + n2 + n3)
  deser := do
    let channel_id ← Deserializable.deser (α := UInt32)
    let nominal_hash_rate ← Deserializable.deser (α := F32)
    let max_target ← Deserializable.deser (α := U256)
    SM.lift (UpdateChannel.new channel_id nominal_hash_rate max_target)
  messageType := .updateChannel

/-- `==` of `UpdateChannel` (`derive(PartialEq)`, macro_message/message.rs:22). -/
def UpdateChannel.rustEq (a b : UpdateChannel) : Bool :=
  a.channel_id == b.channel_id && a.nominal_hash_rate.rustEq b.nominal_hash_rate &&
  a.max_target == b.max_target

end SV2
