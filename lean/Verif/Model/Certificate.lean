import Verif.Model.Types
import Verif.Model.Noise.Session
/-!
# `stratumv2/src/noise` (certificates) and `stratumv2/src/types/unix_timestamp.rs`
-/

namespace SV2

/-! ## unix_timestamp.rs -/

/-- `std::time::SystemTime`: nanoseconds since (negative: before) the Unix epoch. -/
structure SystemTime where
  nanos : Int
  deriving Repr, DecidableEq

/-- `system_unix_time_to_u32`, types/unix_timestamp.rs:5-9.  `duration_since` fails before the epoch;
`as_secs() as u32` keeps the low 32 bits of the whole seconds. -/
def systemUnixTimeToU32 (time : SystemTime) : Result UInt32 :=
  if time.nanos < 0 then .err .systemTimeError
  else .ok (UInt32.ofNat (time.nanos.toNat / 1000000000))

/-- `unix_u32_now`, types/unix_timestamp.rs:12-14; `now` is what the system clock says. -/
def unixU32Now (now : SystemTime) : Result UInt32 := systemUnixTimeToU32 now

/-! ## noise/types.rs -/

/-- The dependencies `ed25519_dalek` and `bitcoin::util::base58` as functions; parameters of the model. -/
structure SigScheme where
  /-- `AuthorityKeyPair` (`ed25519_dalek::Keypair`). -/
  KeyPair : Type
  /-- `keypair.public.to_bytes()`. -/
  publicOf : KeyPair → Arr 32
  /-- Which 64 bytes `Signature::new` turns into a signature.  In `ed25519` before 1.3 all of them; from
  1.3 on it panics when the top three bits of the last byte are not zero. -/
  decodable : Arr 64 → Bool
  /-- `keypair.sign(msg)`. -/
  sign : KeyPair → Bytes → Arr 64
  /-- A signature made by `sign` is a `Signature`. -/
  sign_decodable : ∀ kp m, decodable (sign kp m) = true
  /-- Which 32 bytes `PublicKey::from_bytes` accepts. -/
  validKey : Arr 32 → Bool
  /-- `public_key.verify(msg, signature)`. -/
  verify : Arr 32 → Bytes → Arr 64 → Bool
  /-- `base58::from`. -/
  base58 : String → Option Bytes

variable {E : SigScheme}

/-- `Signature`, noise/types.rs:50 (`ed25519_dalek::Signature`). -/
structure Signature (E : SigScheme) where
  bytes : Arr 64
  ok : E.decodable bytes = true

/-- noise/types.rs:52-59. -/
instance : Serializable (Signature E) where
  ser w s := writeBuf w s.bytes.toList

/-- noise/types.rs:61-66. -/
instance : Deserializable (Signature E) where
  deser := do
    let signature_bytes ← ByteParser.nextBy 64
    match Arr.ofSlice? 64 signature_bytes with
    | none => SM.fail .tryFromSliceError
    | some a => if h : E.decodable a = true then pure ⟨a, h⟩ else SM.panic

/-- `StaticPublicKey`, noise/types.rs:24 (`noiseexplorer_nx::types::PublicKey`). -/
abbrev StaticPublicKey := Arr 32

/-- noise/types.rs:26-33. -/
instance : Serializable StaticPublicKey where
  ser w k := writeBuf w k.toList

/-! ## noise/signed_certificate.rs -/

/-- `SignedCertificate`, noise/signed_certificate.rs:12-17. -/
structure SignedCertificate where
  version : UInt16
  valid_from : UInt32
  not_valid_after : UInt32
  public_key : StaticPublicKey
  deriving Repr, DecidableEq

/-- `SignedCertificate::new`, noise/signed_certificate.rs:20-39. -/
def SignedCertificate.new (version : UInt16) (valid_from not_valid_after : UInt32)
    (public_key : StaticPublicKey) : Result SignedCertificate :=
  if valid_from ≥ not_valid_after then
    .err (.requirementError
      "the valid_from time cannot be greater than or equal to the not_valid_after time")
  else .ok ⟨version, valid_from, not_valid_after, public_key⟩

/-- noise/signed_certificate.rs:41-52. -/
instance : Serializable SignedCertificate where
  ser w c := do
    let n1 ← Serializable.ser w c.version
    let n2 ← Serializable.ser w c.valid_from
    let n3 ← Serializable.ser w c.not_valid_after
    let n4 ← Serializable.ser w c.public_key
    pure (n1 + n2 + n3 + n4)

/-- `authority_sign_cert`, noise/signed_certificate.rs:57-65. -/
def authoritySignCert (keypair : E.KeyPair) (cert : SignedCertificate) : Result (Signature E) :=
  match Serializable.ser vecWriter cert [] with
  | (.ok _, signed_cert) => .ok ⟨E.sign keypair signed_cert, E.sign_decodable _ _⟩
  | (.err e, _) => .err e
  | (.panic, _) => .panic

/-! ## noise/signature_noise_message.rs -/

/-- `SignatureNoiseMessage`, noise/signature_noise_message.rs:17-22. -/
structure SignatureNoiseMessage (E : SigScheme) where
  version : UInt16
  valid_from : UInt32
  not_valid_after : UInt32
  signature : Signature E

/-- `SignatureNoiseMessage::new`, noise/signature_noise_message.rs:25-32. -/
def SignatureNoiseMessage.new (cert : SignedCertificate) (signature : Signature E) :
    SignatureNoiseMessage E :=
  ⟨cert.version, cert.valid_from, cert.not_valid_after, signature⟩

/-- `SignatureNoiseMessage::from_auth_key`, noise/signature_noise_message.rs:37-47. -/
def SignatureNoiseMessage.fromAuthKey (authority_keypair : E.KeyPair) (cert : SignedCertificate) :
    Result (SignatureNoiseMessage E) :=
  match authoritySignCert authority_keypair cert with
  | .ok signature => .ok ⟨cert.version, cert.valid_from, cert.not_valid_after, signature⟩
  | .err e => .err e
  | .panic => .panic

/-- noise/signature_noise_message.rs:50-61. -/
instance : Serializable (SignatureNoiseMessage E) where
  ser w m := do
    let n1 ← Serializable.ser w m.version
    let n2 ← Serializable.ser w m.valid_from
    let n3 ← Serializable.ser w m.not_valid_after
    let n4 ← Serializable.ser w m.signature
    pure (n1 + n2 + n3 + n4)

/-- noise/signature_noise_message.rs:63-79. -/
instance : Deserializable (SignatureNoiseMessage E) where
  deser := do
    let version ← Deserializable.deser (α := UInt16)
    let valid_from ← Deserializable.deser (α := UInt32)
    let not_valid_after ← Deserializable.deser (α := UInt32)
    let signature ← Deserializable.deser (α := Signature E)
    pure ⟨version, valid_from, not_valid_after, signature⟩

/-! ## noise/certificate_format.rs -/

/-- `CertificateFormat`, noise/certificate_format.rs:18-22.  The authority's key is held as the 32 bytes
it was made from. -/
structure CertificateFormat (E : SigScheme) where
  authority_public_key : Arr 32
  static_public_key : StaticPublicKey
  signature_noise_message : SignatureNoiseMessage E

/-- `CertificateFormat::new`, noise/certificate_format.rs:25-40. -/
def CertificateFormat.new (authority_public_key : String) (static_public_key : StaticPublicKey)
    (signature_noise_message : SignatureNoiseMessage E) : Result (CertificateFormat E) :=
  match E.base58 authority_public_key with
  | none => .err .base58Error
  | some bytes =>
    match Arr.ofSlice? 32 bytes with
    | none => .err (.parseError "Failed to deserialize the base58 public key")
    | some key_bytes =>
      if E.validKey key_bytes then .ok ⟨key_bytes, static_public_key, signature_noise_message⟩
      else .err .authorityKeyError

/-- noise/certificate_format.rs:65-78: without the signature. -/
instance : Serializable (CertificateFormat E) where
  ser w c := do
    let n1 ← Serializable.ser w c.signature_noise_message.version
    let n2 ← Serializable.ser w c.signature_noise_message.valid_from
    let n3 ← Serializable.ser w c.signature_noise_message.not_valid_after
    let n4 ← Serializable.ser w c.static_public_key
    pure (n1 + n2 + n3 + n4)

/-- `CertificateFormat::verify`, noise/certificate_format.rs:45-58; `now` is what the clock says. -/
def CertificateFormat.verify (c : CertificateFormat E) (now : SystemTime) : Result Unit :=
  match unixU32Now now with
  | .err e => .err e
  | .panic => .panic
  | .ok t =>
    if t ≥ c.signature_noise_message.not_valid_after then
      .err (.requirementError "the signature noise message is expired")
    else
      match Serializable.ser vecWriter c [] with
      | (.err e, _) => .err e
      | (.panic, _) => .panic
      | (.ok _, certificate) =>
        if E.verify c.authority_public_key certificate c.signature_noise_message.signature.bytes then
          .ok ()
        else .err .authorityKeyError

end SV2
