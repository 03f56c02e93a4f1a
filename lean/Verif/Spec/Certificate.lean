import Verif.Spec.Wire
import Verif.Model.Certificate
/-!
# Certificates: wire format, laws of the signature scheme, forgeries
-/

namespace SV2.Wire
variable {E : SigScheme}

/-- The bytes that the authority signs. -/
def certBytes (version : UInt16) (valid_from not_valid_after : UInt32) (key : StaticPublicKey) : Bytes :=
  u16 version ++ u32 valid_from ++ u32 not_valid_after ++ key.toList

/-- The message with the signature. -/
def signatureNoiseMessage (m : SignatureNoiseMessage E) : Bytes :=
  u16 m.version ++ u32 m.valid_from ++ u32 m.not_valid_after ++ m.signature.bytes.toList

end SV2.Wire

namespace SV2

/-- What is expected of the signature scheme (ed25519): honest signatures verify, and the public key of a
key pair is a valid key. -/
structure SigLaws (E : SigScheme) : Prop where
  verify_sign : ∀ kp m, E.verify (E.publicOf kp) m (E.sign kp m) = true
  valid : ∀ kp, E.validKey (E.publicOf kp) = true

/-- `sig` is a signature that verifies for the bytes `m`, which were never signed. -/
def Forges (E : SigScheme) (publicKey : Arr 32) (signed : List Bytes) (m : Bytes) (sig : Arr 64) : Prop :=
  m ∉ signed ∧ E.verify publicKey m sig = true

/-- Whole seconds since the epoch. -/
def SystemTime.seconds (t : SystemTime) : Int := t.nanos / 1000000000

/-- A scheme that satisfies the laws, to show that they can be met: the signature repeats the public key,
and is not tied to the message. -/
def toyScheme : SigScheme where
  KeyPair := Arr 32
  publicOf kp := kp
  decodable _ := true
  sign kp _ := ⟨kp.toList ++ kp.toList, by simp [kp.len]⟩
  sign_decodable _ _ := rfl
  validKey _ := true
  verify pk _ sig := sig.toList = pk.toList ++ pk.toList
  base58 s := if s = "key" then some (List.replicate 32 7) else none

theorem toyScheme_laws : SigLaws toyScheme :=
  ⟨fun _ _ => by simp [toyScheme], fun _ => rfl⟩

end SV2
