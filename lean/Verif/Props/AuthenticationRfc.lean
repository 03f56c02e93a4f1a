import Verif.Props.Authority
import Verif.Props.Authentication
import Verif.Props.HandshakeProgram
/-!
# C81 and C82 with the primitives of the RFCs
-/

namespace SV2
open Crypto Noise Examples Handshake

/-- The assumptions of C81 on the primitives hold for BLAKE2s, ChaCha20-Poly1305, X25519, Ed25519 and base58 as
specified: what is left are the clocks and three derived keys that must not be zero. -/
theorem C81_rfc (strict : Bool) (seed eI eR sR : Arr 32) (now1 now2 clock : SystemTime)
    (h1 : 0 ≤ now1.nanos) (h2 : 0 ≤ now2.nanos) (h3 : 0 ≤ clock.nanos)
    (hwin : now1.seconds % 2 ^ 32 < (now2.seconds + 5) % 2 ^ 32)
    (hk : (exampleRun rfc eI eR sR).KeysNonzero rfc) (hkt : ((exampleRun rfc eI eR sR).keys rfc).2 ≠ NX.zeros) :
    ExampleOK rfc (authority strict) seed (Base58.encode (Ed25519.publicOf seed).toList) eI eR sR now1 now2 clock := by
  refine ⟨rfc_correct, rfc_dh, C71_laws strict, ?_, h1, h2, h3, hwin, hk, hkt⟩
  rw [authority_base58, authority_publicOf]
  exact Base58.decode_encode _

/-- C82 with nothing assumed of the primitives: an authority that issued certificates only for the keys of some servers,
and a client that knows its key, finished a handshake and found a certificate valid.  It is connected to one of the
servers; or there is an Ed25519 signature that the authority did not make, a ChaCha20-Poly1305 ciphertext that the server
did not make, under a key that takes the X25519 secret of the client's ephemeral and the server's static key; or a
collision of BLAKE2s. -/
theorem C82_rfc (strict : Bool) (authorityKey : Arr 32) (issued : List SignedCertificate) (signed : List Bytes)
    (hsigned : ∀ b, b ∈ signed ↔ ∃ c ∈ issued, serialize c = .ok b)
    (servers : List (Arr 32 × List Answer)) (hg : ∀ s ∈ servers, ∀ a ∈ s.2, a.Genuine rfc s.1)
    (hissued : ∀ c ∈ issued, ∃ s ∈ servers, c.public_key = rfc.publicOf s.1)
    (prologue : Bytes) (kp : Keypair) (eI : Arr 32) (buf1 w1 w2 out : Bytes) (i1 i2 : NoiseSession)
    (h1 : (NoiseSession.initSession rfc true prologue kp).sendMessage rfc (Keypair.default rfc eI) buf1 =
      (.ok (), i1, w1))
    (h2 : i1.recvMessage rfc w2 = (.ok (), i2, out)) (rs : StaticPublicKey)
    (hrs : i2.getRemoteStaticPublicKey = some rs) (m : SignatureNoiseMessage (authority strict))
    (cf : CertificateFormat (authority strict)) (now : SystemTime)
    (hcf : CertificateFormat.new (Base58.encode authorityKey.toList) rs m = .ok cf) (hok : cf.verify now = .ok ()) :
    Connected rfc servers prologue i2 w1 w2 out rs ∨
    Forges (authority strict) authorityKey signed (Wire.certBytes m.version m.valid_from m.not_valid_after rs)
      m.signature.bytes ∨
    Impersonated rfc servers prologue eI w1 w2 := by
  rcases C82_certified rfc (authority strict) rfc_correct rfc_tight rfc_dh issued signed hsigned servers hg hissued prologue
    kp eI buf1 w1 w2 out i1 i2 h1 h2 rs hrs _ m cf now hcf hok with h | ⟨pk, hpk, hf⟩ | h
  · exact .inl h
  · have : pk = authorityKey := by
      rw [authority_base58, Base58.decode_encode] at hpk
      exact arr_ext (Option.some.inj hpk).symm
    subst this
    exact .inr (.inl hf)
  · exact .inr (.inr h)

/- All the hypotheses of `C82_rfc`, with the keys of the sample handshake of C68. -/
example : ∃ a : Answer, ∃ i1 i2 w1 w2 out, ∃ m : SignatureNoiseMessage (authority true), ∃ cf,
    a.Genuine rfc sampleRun.sR ∧
    (NoiseSession.initSession rfc true [] Keypair.empty).sendMessage rfc (Keypair.default rfc sampleRun.eI)
      (List.replicate 48 0) = (.ok (), i1, w1) ∧
    i1.recvMessage rfc w2 = (.ok (), i2, out) ∧
    i2.getRemoteStaticPublicKey = some (rfc.publicOf sampleRun.sR) ∧
    CertificateFormat.new (Base58.encode (Ed25519.publicOf (hexKey 5)).toList) (rfc.publicOf sampleRun.sR) m = .ok cf ∧
    cf.verify ⟨1003 * 1000000000⟩ = .ok () := by
  obtain ⟨i1, i2, r1, r2, out, h1, h2, h3, h4, _, _, _, _, _, _, h5, _⟩ := C38_handshake rfc rfc_correct rfc_dh
    [] Keypair.empty sampleRun.eI sampleRun.eR sampleRun.sR (List.replicate 48 0) (List.replicate 96 0)
    (by decide) (by decide) (by decide) (by decide) _ rfl (by unfold NX.Run.KeysNonzero; decide +kernel)
  obtain ⟨_, _, _, _, m, cf, _, h6, h7, _⟩ := C71_certificate true (hexKey 5)
    ⟨0, 1000, 1005, rfc.publicOf sampleRun.sR⟩ ⟨1003 * 1000000000⟩ (by decide)
  exact ⟨⟨[], sampleRun.eR, _, List.replicate 96 0, _, r2⟩, i1, i2, _, _, out, m, cf, ⟨r1, _, h2, h3⟩, h1, h4, h5, h6,
    h7.2 (by simp only [SystemTime.seconds]; decide)⟩

end SV2
