import Verif.Model.Crypto.Scheme
import Verif.Lemmas.Crypto.Ed25519
import Verif.Lemmas.Crypto.Base58
import Verif.Props.Certificate
import Verif.Props.ExampleHandshake
import Verif.Props.Rfc
/-!
# Certificates with Ed25519 (RFC 8032) and base58
-/

namespace SV2
open Crypto Noise Examples Handshake

set_option maxRecDepth 100000

/-! ## C71: the dependencies of the certificates -/

/-- `Crypto.Sha512`, `Crypto.Ed25519` and `Crypto.Base58` compute the published test vectors: FIPS 180-4 ("abc"), RFC
8032, 7.1 (TEST 1 and TEST 2), and the ones that usually accompany base58. -/
theorem C71_vectors :
    Sha512.hash (strBytes "abc") = hexBytes 64
      0xddaf35a193617abacc417349ae20413112e6fa4e89a97ea20a9eeee64b55d39a2192992a274fc1a836ba3c23a3feebbd454d4423643ce80e2a9ac94fa54ca49f ∧
    Ed25519.publicOf (hexKey 0x9d61b19deffd5a60ba844af492ec2cc44449c5697b326919703bac031cae7f60) =
      hexKey 0xd75a980182b10ab7d54bfed3c964073a0ee172f3daa62325af021a68f707511a ∧
    (Ed25519.sign (hexKey 0x9d61b19deffd5a60ba844af492ec2cc44449c5697b326919703bac031cae7f60) []).toList = hexBytes 64
      0xe5564300c360ac729086e2cc806e828a84877f1eb8e5d974d873e065224901555fb8821590a33bacc61e39701cf9b46bd25bf5f0595bbe24655141438e7a100b ∧
    Ed25519.publicOf (hexKey 0x4ccd089b28ff96da9db6c346ec114e0f5b8a319f35aba624da8cf6ed4fb8a6fb) =
      hexKey 0x3d4017c3e843895a92b70aa74d1b7ebc9c982ccf2ec4968cc0cd55f12af4660c ∧
    (Ed25519.sign (hexKey 0x4ccd089b28ff96da9db6c346ec114e0f5b8a319f35aba624da8cf6ed4fb8a6fb) [0x72]).toList = hexBytes 64
      0x92a009a9f0d4cab8720e820b5f642540a2b27b5416503f8fb3762223ebdb69da085ac1e43e15996e458f3613d0f11d8c387b2eaeb4302aeeb00d291612bb0c00 ∧
    Base58.encode (strBytes "Hello World!") = "2NEpo7TZRRrLZSi2U" ∧
    Base58.encode (hexBytes 6 0x0000287fb4cd) = "11233QC4" := by decide +kernel

theorem authority_publicOf (strict : Bool) : (authority strict).publicOf = Ed25519.publicOf := rfl
theorem authority_verify (strict : Bool) : (authority strict).verify = Ed25519.verify := rfl
theorem authority_sign (strict : Bool) : (authority strict).sign = Ed25519.sign := rfl
theorem authority_base58 (strict : Bool) : (authority strict).base58 = Base58.decode := rfl
theorem authority_validKey (strict : Bool) (k : Arr 32) :
    (authority strict).validKey k = (Ed25519.decode k).isSome := rfl

/-- Ed25519 satisfies what C32 and C58 assume: for every key and message the signature verifies, and the public key is
accepted. -/
theorem C71_laws (strict : Bool) : SigLaws (authority strict) where
  verify_sign kp m := by
    rw [authority_verify, authority_publicOf, authority_sign]
    exact Ed25519.verify_sign kp m
  valid kp := by
    rw [authority_validKey, authority_publicOf]
    exact Ed25519.valid_publicOf kp

/-- Base58 and bytes correspond one to one: every byte string has exactly one text. -/
theorem C71_base58 (b : Bytes) (text : String) : Base58.decode text = some b ↔ text = Base58.encode b := by
  constructor
  · intro h
    exact (Base58.encode_decode text b h).symm
  · rintro rfl
    exact Base58.decode_encode b

/-- Given the first half of a signature, at most one second half is accepted for a message: signatures cannot be
altered in the second half. -/
theorem C71_second_half (seed : Arr 32) (m : Bytes) (sig sig' : Arr 64)
    (hR : sig.toList.take 32 = sig'.toList.take 32)
    (h : Ed25519.verify (Ed25519.publicOf seed) m sig = true)
    (h' : Ed25519.verify (Ed25519.publicOf seed) m sig' = true) : sig = sig' := by
  rw [Ed25519.verify_eq _ _ (Ed25519.publicOf_eq seed)] at h h'
  rw [← hR] at h'
  have hlen : ∀ s : Arr 64, (s.toList.drop 32).length = 32 := fun s => by rw [List.length_drop, s.len]
  have hs : fromLE (sig.toList.drop 32) = fromLE (sig'.toList.drop 32) :=
    Ed25519.smul_B_inj h.1 h'.1 (sub_left_injective (Ed25519.enc_inj (h.2.trans h'.2.symm)))
  apply arr_ext
  rw [← List.take_append_drop 32 sig.toList, ← List.take_append_drop 32 sig'.toList, hR,
    ← toLE_fromLE' 32 _ (hlen sig), ← toLE_fromLE' 32 _ (hlen sig'), hs]

/- Accepted signatures exist (C71_laws), and a changed second half is refused. -/
example : Ed25519.verify (Ed25519.publicOf (hexKey 5)) [1] (Ed25519.sign (hexKey 5) [1]) = true ∧
    Ed25519.verify (Ed25519.publicOf (hexKey 5)) [1]
      ⟨(Ed25519.sign (hexKey 5) [1]).toList.set 40 0, by rw [List.length_set, Arr.len]⟩ = false :=
  ⟨Ed25519.verify_sign _ _, by decide +kernel⟩

/-- C32 without assumptions: a certificate issued with the authority's key, sent, decoded and checked with the base58
text of the authority's public key is accepted exactly while the clock, in seconds modulo 2^32, is before
`not_valid_after`. -/
theorem C71_certificate (strict : Bool) (seed : Arr 32) (c : SignedCertificate) (now : SystemTime)
    (hnow : 0 ≤ now.nanos) :
    ∃ m sent, SignatureNoiseMessage.fromAuthKey (E := authority strict) seed c = .ok m ∧ serialize m = .ok sent ∧
    ∃ m' cf, deserialize (SignatureNoiseMessage (authority strict)) sent = .ok m' ∧
      CertificateFormat.new (Base58.encode (Ed25519.publicOf seed).toList) c.public_key m' = .ok cf ∧
      (cf.verify now = .ok () ↔ now.seconds % 2 ^ 32 < c.not_valid_after.toNat) ∧
      (¬ now.seconds % 2 ^ 32 < c.not_valid_after.toNat →
        ∃ msg, cf.verify now = .err (.requirementError msg)) := by
  refine C32_honest (C71_laws strict) seed c _ ?_ now hnow
  rw [authority_base58, authority_publicOf]
  exact Base58.decode_encode _

/-- C58 without assumptions on the primitives: `examples/noise_handshake.rs`, where the miner has the base58 text of the
authority's public key, with the primitives of the RFCs. -/
theorem C71_example (strict : Bool) (seed : Arr 32) (sI : Keypair) (eI eR sR : Arr 32)
    (now1 now2 t1 t2 : SystemTime) (hn1 : 0 ≤ now1.nanos) (hn2 : 0 ≤ now2.nanos) (ht2 : 0 ≤ t2.nanos)
    (hwin : now1.seconds % 2 ^ 32 < (now2.seconds + 5) % 2 ^ 32)
    (hk : (exampleRun rfc eI eR sR).KeysNonzero rfc) (hkt : ((exampleRun rfc eI eR sR).keys rfc).2 ≠ NX.zeros) :
    ∃ i1 w1 pool w2 w3 m,
      send rfc (Keypair.default rfc eI)
        (Miner.new rfc sI (Base58.encode (Ed25519.publicOf seed).toList)).noise_session freshBuffer = .ok (i1, w1) ∧
      (Pool.new (E := authority strict) rfc seed sR).handle rfc (Keypair.default rfc eR) now1 now2
        (tryRead freshBuffer w1) = .ok (pool, w2, w3) ∧
      Miner.listen rfc (authority strict) ⟨Base58.encode (Ed25519.publicOf seed).toList, i1⟩ freshBuffer
          [(t1, w2), (t2, w3)] =
        ([decide (t2.seconds % 2 ^ 32 < (now2.seconds + 5) % 2 ^ 32)], .ok m) ∧
      m.noise_session.getRemoteStaticPublicKey = some (rfc.publicOf sR) ∧
      InSync m.noise_session pool.noise_session ((exampleRun rfc eI eR sR).keys rfc) 0 1 := by
  refine C58_honest rfc (authority strict) rfc_correct rfc_dh (C71_laws strict) seed _ ?_ sI eI eR sR now1 now2 t1 t2
    hn1 hn2 ht2 hwin hk hkt
  rw [authority_base58, authority_publicOf]
  exact Base58.decode_encode _

/- The derived keys for the sample keys of C68. -/
example : (exampleRun rfc sampleRun.eI sampleRun.eR sampleRun.sR).KeysNonzero rfc ∧
    ((exampleRun rfc sampleRun.eI sampleRun.eR sampleRun.sR).keys rfc).2 ≠ NX.zeros := by
  unfold NX.Run.KeysNonzero
  decide +kernel

/-! ## C72: an authority key of low order -/

/-- The neutral point as a key: 1, then 31 zero bytes. -/
def neutralKey : Arr 32 := ⟨1 :: List.replicate 31 0, by decide⟩

/-- One signature for everything: the neutral point and 0. -/
def neutralSignature : Arr 64 := ⟨1 :: List.replicate 63 0, by decide⟩

theorem neutral_enc : neutralKey.toList = Ed25519.enc 0 := by
  rw [← Ed25519.encode_eq _ _ Ed25519.rep_zero]
  decide +kernel

/-- `CertificateFormat::new` accepts the text of the neutral point as an authority key, and then every message with one
constant signature is accepted for every static key until it expires. -/
theorem C72_accepted (strict : Bool) (key : StaticPublicKey) (version : UInt16) (valid_from not_valid_after : UInt32)
    (now : SystemTime) (h0 : 0 ≤ now.nanos) (h : now.seconds % 2 ^ 32 < not_valid_after.toNat) :
    ∃ m : SignatureNoiseMessage (authority strict), m.version = version ∧ m.valid_from = valid_from ∧
      m.not_valid_after = not_valid_after ∧ m.signature.bytes = neutralSignature ∧
      ∃ cf, CertificateFormat.new "4uQeVj5tqViQh7yWWGStvkEG1Zmhx6uasJtWCJziofM" key m = .ok cf ∧
        cf.verify now = .ok () := by
  refine ⟨⟨version, valid_from, not_valid_after, ⟨neutralSignature, ?_⟩⟩, rfl, rfl, rfl, rfl,
    ⟨neutralKey, key, ⟨version, valid_from, not_valid_after, ⟨neutralSignature, ?_⟩⟩⟩, ?_, ?_⟩
  · cases strict <;> decide +kernel
  · cases strict <;> decide +kernel
  · refine (C55_new _ key _).2.2.2 _ ?_ ?_
    · rw [authority_base58]
      decide +kernel
    · rw [authority_validKey]
      obtain ⟨E, hE, _⟩ := Ed25519.decode_enc _ _ neutral_enc
      rw [hE]
      rfl
  · refine verify_ok _ _ (by omega) h ?_
    rw [authority_verify]
    simp only
    rw [Ed25519.verify_eq _ _ neutral_enc]
    have ht : neutralSignature.toList.take 32 = neutralKey.toList := by decide
    have hd : fromLE (neutralSignature.toList.drop 32) = 0 := by decide
    rw [hd, ht]
    refine ⟨by decide, ?_⟩
    rw [zero_smul, smul_zero, sub_zero]
    exact neutral_enc.symm

/- No certificate needs to have been issued: any key, any window. -/
example : (1700000000 : Int) % 2 ^ 32 < (0xFFFFFFFF : UInt32).toNat := by decide

end SV2
