import Verif.Rust.Basic
/-!
# `stratumv2/src/error.rs` and `nx-noise/src/error.rs`
-/

namespace SV2

/-- `NoiseError`, nx-noise/src/error.rs:3-19.  `Hex` carries no payload here: `decode_str_32` never
returns it (types.rs:13-25 maps every hex failure to `InvalidInputError`). -/
inductive NoiseError where
  | decryptionError
  | unsupportedMessageLengthError
  | exhaustedNonceError
  | invalidKeyError
  | invalidPublicKeyError
  | emptyKeyError
  | invalidInputError
  | derivePublicKeyFromEmptyKeyError
  | hex
  | missingnsError
  | missingneError
  | missingHsMacError
  | missingrsError
  | missingreError
  deriving Repr, DecidableEq

/-- `Error`, stratumv2/src/error.rs:4-62.  Variants that wrap a foreign error (`Base58Error`, `IOError`,
`Utf8Error`, `FromUtf8Error`, `AuthorityKeyError`, `SystemTimeError`, `TryFromSliceError`) carry no
payload here: only the variant is modelled. -/
inductive Error where
  | base58Error
  | versionError (msg : String)
  | ioError
  | utf8Error
  | fromUtf8Error
  | protocolMismatchError (msg : String)
  | requirementError (msg : String)
  | deserializationError (msg : String)
  | parseError (msg : String)
  | authorityKeyError
  | systemTimeError
  | tryFromSliceError
  | unimplemented
  | unknownErrorCode
  | unknownMessageType
  | unknownFlags
  | unexpectedMessageType (ext : UInt16) (msg : UInt8)
  | unexpectedChannelBit (bit : Bool)
  | noiseError (e : NoiseError)
  deriving Repr, DecidableEq

/-- `error::Result<T>`, error.rs:65, plus panics. -/
abbrev Result (α : Type) := Out Error α

end SV2
