import Verif.Model.Error
/-!
# The `Display` and `std::error::Error` implementations of `NoiseError` and `Error`
-/

namespace SV2

/-- The error values of other crates that the two types wrap: how they print and what their `source` is. -/
structure Foreign where
  Obj : Type
  display : Obj → String
  source : Obj → Option Obj

/-- `Display for NoiseError`, nx-noise/src/error.rs:21-46.  `inner` is the value that `Hex` wraps. -/
def NoiseError.display (F : Foreign) (inner : F.Obj) : NoiseError → String
  | .decryptionError => "Unsuccesful decryption."
  | .unsupportedMessageLengthError => "Unsupported Message Length."
  | .exhaustedNonceError => "Reached maximum number of messages that can be sent for this session."
  | .derivePublicKeyFromEmptyKeyError => "Unable to derive PublicKey."
  | .invalidKeyError => "Invalid Key."
  | .invalidPublicKeyError => "Invalid Public Key."
  | .emptyKeyError => "Empty Key."
  | .invalidInputError => "Invalid input length."
  | .missingnsError => "Invalid message length."
  | .missingHsMacError => "Invalid message length."
  | .missingneError => "Invalid message length."
  | .missingrsError => "Invalid message length."
  | .missingreError => "Invalid message length."
  | .hex => F.display inner

/-- The `Display` of an unsigned integer (Rust std): decimal digits. -/
def uintDisplay (n : Nat) : String := Nat.repr n

/-- `bool`'s `Display` (Rust std). -/
def boolDisplay (b : Bool) : String := if b then "true" else "false"

/-- stratumv2/src/error.rs:54, with the two numbers already printed. -/
def unexpectedTypeText (ext msg : String) : String :=
  "parsed message type `" ++ ext ++ "/" ++ msg ++ "` does not match expected message"

/-- stratumv2/src/error.rs:57, with the bit already printed. -/
def unexpectedBitText (bit : String) : String :=
  "parsed channel bit `" ++ bit ++ "` does not match expected message"

/-- `Display for Error`, the `#[error(..)]` attributes of stratumv2/src/error.rs:4-62; `transparent` forwards to
the wrapped value `inner`. -/
def Error.display (F : Foreign) (inner : F.Obj) : Error → String
  | .base58Error => F.display inner
  | .versionError m => "`" ++ m ++ "`"
  | .ioError => F.display inner
  | .utf8Error => F.display inner
  | .fromUtf8Error => F.display inner
  | .protocolMismatchError m => "`" ++ m ++ "`"
  | .requirementError m => "`" ++ m ++ "`"
  | .deserializationError m => "`" ++ m ++ "`"
  | .parseError m => "`" ++ m ++ "`"
  | .authorityKeyError => F.display inner
  | .systemTimeError => F.display inner
  | .tryFromSliceError => F.display inner
  | .unimplemented => "Unimplemented"
  | .unknownErrorCode => "The error code is invalid"
  | .unknownMessageType => "the received message type is unknown"
  | .unknownFlags => "the received flags are unknown"
  | .unexpectedMessageType ext msg => unexpectedTypeText (uintDisplay ext.toNat) (uintDisplay msg.toNat)
  | .unexpectedChannelBit b => unexpectedBitText (boolDisplay b)
  | .noiseError e => e.display F inner

/-- A `&dyn Error`: an error of one of the two types, with what it wraps, or one of another crate. -/
inductive ErrorRef (F : Foreign) where
  | lib (e : Error) (inner : F.Obj)
  | noise (e : NoiseError) (inner : F.Obj)
  | other (o : F.Obj)

/-- `Error::source` of the value behind the reference.  `NoiseError`: `Some(self)`, nx-noise/src/error.rs:48-52.
`Error`: derived by `thiserror`, stratumv2/src/error.rs:4-62: `transparent` variants forward to the wrapped
value, the others have no field marked as a source. -/
def ErrorRef.source {F : Foreign} : ErrorRef F → Option (ErrorRef F)
  | .noise e inner => some (.noise e inner)
  | .other o => (F.source o).map .other
  | .lib e inner =>
    match e with
    | .noiseError n => some (.noise n inner)
    | .base58Error | .ioError | .utf8Error | .fromUtf8Error | .authorityKeyError | .systemTimeError
    | .tryFromSliceError => (F.source inner).map .other
    | .versionError _ | .protocolMismatchError _ | .requirementError _ | .deserializationError _
    | .parseError _ | .unimplemented | .unknownErrorCode | .unknownMessageType | .unknownFlags
    | .unexpectedMessageType _ _ | .unexpectedChannelBit _ => none

end SV2
