import Verif.Lemmas.Certificate
/-!
# C30-C35, C55: certificates and time
-/

namespace SV2
open Law
variable {E : SigScheme}

/-! ## C30 -/

/-- `SignedCertificate::new` succeeds exactly when the window is not empty, and keeps the four values. -/
theorem C30_new_iff (v : UInt16) (f u : UInt32) (k : StaticPublicKey) (c : SignedCertificate) :
    SignedCertificate.new v f u k = .ok c ↔
      f.toNat < u.toNat ∧ c.version = v ∧ c.valid_from = f ∧ c.not_valid_after = u ∧ c.public_key = k := by
  unfold SignedCertificate.new
  split
  · rename_i h
    have : ¬ f.toNat < u.toNat := by
      have : u.toNat ≤ f.toNat := h
      omega
    simp [this]
  · rename_i h
    have : f.toNat < u.toNat := by
      have : ¬ u.toNat ≤ f.toNat := h
      omega
    simp only [Out.ok.injEq, this, true_and]
    constructor
    · rintro rfl
      exact ⟨rfl, rfl, rfl, rfl⟩
    · cases c
      rintro ⟨rfl, rfl, rfl, rfl⟩
      rfl

/-- An empty window is refused with a requirement error. -/
theorem C30_new_refused (v : UInt16) (f u : UInt32) (k : StaticPublicKey) (h : u.toNat ≤ f.toNat) :
    ∃ msg, SignedCertificate.new v f u k = .err (.requirementError msg) := by
  refine ⟨"the valid_from time cannot be greater than or equal to the not_valid_after time", ?_⟩
  unfold SignedCertificate.new
  rw [if_pos (show f ≥ u from h)]

/-- A certificate with a one-hour window. -/
def sampleCert : SignedCertificate := ⟨0, 1000, 4600, Arr.replicate 32 9⟩

example : SignedCertificate.new 0 1000 4600 (Arr.replicate 32 9) = .ok sampleCert := by decide
example : (4600 : UInt32).toNat ≤ (4600 : UInt32).toNat := by decide

/-! ## C31 -/

/-- Every message is written as its 74 bytes and read back unchanged; strict prefixes are refused; the
count is right; accepted bytes are the serialization of the value. -/
theorem C31_codec (m : SignatureNoiseMessage E) :
    RoundTrips m (Wire.signatureNoiseMessage m) ∧ (Wire.signatureNoiseMessage m).length = 74 ∧
    RejectsTruncated m ∧ CountsBytes m ∧ Canonical (SignatureNoiseMessage E) := by
  refine ⟨⟨(emits_signatureNoiseMessage m).serialize, (reads_signatureNoiseMessage m).deserialize,
    (reads_signatureNoiseMessage m).at⟩, signatureNoiseMessage_length m, ?_, ?_, ?_⟩
  · refine ⟨_, (emits_signatureNoiseMessage m).serialize, fun cut missing hm hc => ⟨_,
      (rejects_signatureNoiseMessage m.version m.valid_from m.not_valid_after
        m.signature.bytes).deserialize ?_ cut missing hm hc⟩⟩
    show (Wire.signatureNoiseMessage m).length < _
    rw [signatureNoiseMessage_length]
    decide
  · exact ⟨_, (emits_signatureNoiseMessage m).serialize,
      fun buf => (emits_signatureNoiseMessage m).run_vec buf⟩
  · intro bytes m hs hd
    obtain ⟨e, rest, h1, h2⟩ := inverts_signatureNoiseMessage.deserialize hs hd
    subst h2
    exact ⟨_, rest, (emits_signatureNoiseMessage m).serialize, h1⟩

/-- The outcome for every input: shorter than 74 bytes is a parse error; otherwise the first 74 bytes decide: bytes
10..74 that are a signature for the library give the message with exactly these 74 bytes, and if they are not the
call panics. -/
theorem C31_decision (bytes : Bytes) (hs : IsSlice bytes) :
    (bytes.length < 74 → ∃ msg, deserialize (SignatureNoiseMessage E) bytes = .err (.parseError msg)) ∧
    ∀ s : Arr 64, 74 ≤ bytes.length → s.toList = (bytes.drop 10).take 64 →
      (E.decodable s = true → ∃ m, deserialize (SignatureNoiseMessage E) bytes = .ok m ∧
        Wire.signatureNoiseMessage m = bytes.take 74) ∧
      (E.decodable s = false → deserialize (SignatureNoiseMessage E) bytes = .panic) := by
  constructor
  · intro hl
    obtain ⟨v, f, u, s, hb, _⟩ := split74 (bytes ++ List.replicate (74 - bytes.length) 0)
      (by simp; omega)
    exact ⟨_, (rejects_signatureNoiseMessage (E := E) v f u s).deserialize
      (by rw [← hb]; unfold IsSlice; simp; omega) bytes (List.replicate (74 - bytes.length) 0)
      (by intro h; have := congrArg List.length h; simp at this; omega) hb⟩
  · intro s hl hsb
    obtain ⟨v, f, u, s', hb, hs'⟩ := split74 (bytes.take 74) (by simp; omega)
    have : s' = s := by
      apply arr_ext
      rw [hs', hsb, List.drop_take]
    subst this
    have hsplit : bytes = (Wire.u16 v ++ Wire.u32 f ++ Wire.u32 u ++ s'.toList) ++ bytes.drop 74 := by
      rw [← hb, List.take_append_drop]
    constructor
    · intro hd
      have hr := reads_signatureNoiseMessage (E := E) ⟨v, f, u, ⟨s', hd⟩⟩
      refine ⟨⟨v, f, u, ⟨s', hd⟩⟩, ?_, hb.symm⟩
      have := hr.deserialize (bytes.drop 74)
        (by show IsSlice ((Wire.u16 v ++ Wire.u32 f ++ Wire.u32 u ++ s'.toList) ++ _)
            rw [← hsplit]; exact hs)
      rw [← this]
      exact congrArg _ hsplit
    · intro hd
      exact panics_signatureNoiseMessage v f u s' hd ⟨bytes, 0⟩ (valid_zero hs) (bytes.drop 74)
        (by rw [rest_zero]; exact hsplit)

/-- With a library that takes any 64 bytes as a signature, no input panics, and every 74 bytes are a message. -/
theorem C31_total (hE : ∀ b, E.decodable b = true) :
    NeverPanics (SignatureNoiseMessage E) ∧
    ∀ bytes : Bytes, bytes.length = 74 → ∃ m, deserialize (SignatureNoiseMessage E) bytes = .ok m ∧
      serialize m = .ok bytes := by
  refine ⟨(safe_signatureNoiseMessage hE).neverPanics, fun bytes hl => ?_⟩
  obtain ⟨m, h1, h2⟩ := ((C31_decision bytes (by unfold IsSlice; omega)).2
    ⟨(bytes.drop 10).take 64, by simp [hl]⟩ (by omega) rfl).1 (hE _)
  refine ⟨m, h1, ?_⟩
  rw [(emits_signatureNoiseMessage m).serialize, h2, List.take_of_length_le (by omega)]

/-- The library that refuses signatures whose last byte has one of its top three bits set. -/
def strictScheme : SigScheme :=
  { toyScheme with
    decodable := fun b => b.toList.getLast! &&& 0xe0 = 0
    sign := fun _ _ => Arr.replicate 64 0
    sign_decodable := fun _ _ => by decide
    verify := fun _ _ _ => true }

example : SigLaws strictScheme := ⟨fun _ _ => rfl, fun _ => rfl⟩
example : ∀ b, toyScheme.decodable b = true := fun _ => rfl
example : deserialize (SignatureNoiseMessage strictScheme) (List.replicate 74 255) = .panic := by
  exact ((C31_decision _ (by unfold IsSlice; simp)).2 (Arr.replicate 64 255) (by simp) (by decide)).2 (by decide)
example : IsSlice (List.replicate 74 255) := by unfold IsSlice; simp

/-! ## C35 -/

/-- Times before 1970 are an error, all others give the whole seconds modulo 2^32. -/
theorem C35_value (t : SystemTime) :
    (t.nanos < 0 → systemUnixTimeToU32 t = .err .systemTimeError) ∧
    (0 ≤ t.nanos → ∃ n, systemUnixTimeToU32 t = .ok n ∧ (n.toNat : Int) = t.seconds % 2 ^ 32) := by
  constructor
  · intro h
    simp [systemUnixTimeToU32, h]
  · intro h
    refine ⟨_, by rw [systemUnixTimeToU32, if_neg (by omega)], ?_⟩
    rw [UInt32.toNat_ofNat', SystemTime.seconds]
    omega

/-- Below 2^32 seconds the conversion is exact, hence monotone. -/
theorem C35_exact_monotone (t t' : SystemTime) (n n' : UInt32) (h0 : t.nanos ≤ t'.nanos)
    (h1 : t'.seconds < 2 ^ 32) (h : systemUnixTimeToU32 t = .ok n) (h' : systemUnixTimeToU32 t' = .ok n') :
    (n.toNat : Int) = t.seconds ∧ (n'.toNat : Int) = t'.seconds ∧ n ≤ n' := by
  have key : ∀ (t : SystemTime) (n : UInt32), t.seconds < 2 ^ 32 → systemUnixTimeToU32 t = .ok n →
      (n.toNat : Int) = t.seconds := by
    intro t n hlt h
    unfold systemUnixTimeToU32 at h
    split at h
    · cases h
    · cases h
      rw [UInt32.toNat_ofNat']
      unfold SystemTime.seconds at *
      omega
  have a := key t n (by unfold SystemTime.seconds at *; omega) h
  have b := key t' n' h1 h'
  refine ⟨a, b, ?_⟩
  show n.toNat ≤ n'.toNat
  unfold SystemTime.seconds at *
  omega

/-- Across 2^32 seconds the converted time goes backwards. -/
theorem C35_not_monotone : ∃ t t' n n', t.nanos < t'.nanos ∧ systemUnixTimeToU32 t = .ok n ∧
    systemUnixTimeToU32 t' = .ok n' ∧ n' < n :=
  ⟨⟨4294967295 * 1000000000⟩, ⟨4294967296 * 1000000000⟩, 4294967295, 0, by decide⟩

example : systemUnixTimeToU32 ⟨1600000000999999999⟩ = .ok 1600000000 := by decide

/-! ## C32 -/

/-- The outcome of `verify` for every certificate and clock. -/
theorem verify_eq (cf : CertificateFormat E) (now : SystemTime) :
    cf.verify now = if now.nanos < 0 then .err .systemTimeError else
      if (now.seconds % 2 ^ 32) ≥ (cf.signature_noise_message.not_valid_after.toNat : Int) then
        .err (.requirementError "the signature noise message is expired")
      else if E.verify cf.authority_public_key (Wire.certBytes cf.signature_noise_message.version
          cf.signature_noise_message.valid_from cf.signature_noise_message.not_valid_after
          cf.static_public_key) cf.signature_noise_message.signature.bytes then .ok ()
      else .err .authorityKeyError := by
  unfold CertificateFormat.verify unixU32Now
  by_cases h0 : now.nanos < 0
  · rw [(C35_value now).1 h0, if_pos h0]
  · obtain ⟨n, hn, hv⟩ := (C35_value now).2 (by omega)
    rw [hn, if_neg h0, ← hv]
    simp only
    have hser := (emits_certificateFormat cf).run_vec []
    simp only [encoder, List.nil_append] at hser
    rw [hser]
    by_cases h1 : n ≥ cf.signature_noise_message.not_valid_after
    · rw [if_pos h1, if_pos]
      have : cf.signature_noise_message.not_valid_after.toNat ≤ n.toNat := h1
      omega
    · rw [if_neg h1, if_neg]
      have : ¬ cf.signature_noise_message.not_valid_after.toNat ≤ n.toNat := h1
      omega

theorem verify_ok (cf : CertificateFormat E) (now : SystemTime) (h0 : ¬ now.nanos < 0)
    (h1 : now.seconds % 2 ^ 32 < (cf.signature_noise_message.not_valid_after.toNat : Int))
    (h2 : E.verify cf.authority_public_key (Wire.certBytes cf.signature_noise_message.version
          cf.signature_noise_message.valid_from cf.signature_noise_message.not_valid_after
          cf.static_public_key) cf.signature_noise_message.signature.bytes = true) :
    cf.verify now = .ok () := by
  rw [verify_eq, if_neg h0, if_neg (by omega), if_pos h2]

/-- What `from_auth_key` returns: the certificate's fields and the authority's signature of its bytes. -/
theorem fromAuthKey_eq (kp : E.KeyPair) (c : SignedCertificate) :
    SignatureNoiseMessage.fromAuthKey kp c = .ok ⟨c.version, c.valid_from, c.not_valid_after,
      ⟨E.sign kp (Wire.certBytes c.version c.valid_from c.not_valid_after c.public_key),
        E.sign_decodable _ _⟩⟩ := by
  have hser := (emits_signedCertificate c).run_vec []
  simp only [encoder, List.nil_append] at hser
  unfold SignatureNoiseMessage.fromAuthKey authoritySignCert
  rw [hser]

/-- Issuing never fails. -/
theorem C32_issue (kp : E.KeyPair) (c : SignedCertificate) :
    ∃ m, SignatureNoiseMessage.fromAuthKey kp c = .ok m ∧ m.version = c.version ∧
      m.valid_from = c.valid_from ∧ m.not_valid_after = c.not_valid_after :=
  ⟨_, fromAuthKey_eq kp c, rfl, rfl, rfl⟩

/-- The two steps done apart, `authority_sign_cert` and then `SignatureNoiseMessage::new`, give the same message; and `new`
with any other signature keeps the fields of the certificate and that signature. -/
theorem C32_new (kp : E.KeyPair) (c : SignedCertificate) (s : Signature E) :
    (∃ sig m, authoritySignCert kp c = .ok sig ∧ SignatureNoiseMessage.fromAuthKey kp c = .ok m ∧
      SignatureNoiseMessage.new c sig = m) ∧
    (SignatureNoiseMessage.new c s).version = c.version ∧
    (SignatureNoiseMessage.new c s).valid_from = c.valid_from ∧
    (SignatureNoiseMessage.new c s).not_valid_after = c.not_valid_after ∧
    (SignatureNoiseMessage.new c s).signature = s := by
  refine ⟨⟨_, _, ?_, fromAuthKey_eq kp c, rfl⟩, rfl, rfl, rfl, rfl⟩
  have hser := (emits_signedCertificate c).run_vec []
  simp only [encoder, List.nil_append] at hser
  unfold authoritySignCert
  rw [hser]

/-- A certificate issued by the authority for the server's static key, sent as a message, decoded by the client
and checked with the authority's public key (as base58 text `text`), is accepted exactly when the clock, in seconds
modulo 2^32, is before `not_valid_after`; otherwise the error says it is expired. -/
theorem C32_honest (hE : SigLaws E) (kp : E.KeyPair) (c : SignedCertificate) (text : String)
    (htext : E.base58 text = some (E.publicOf kp).toList) (now : SystemTime) (hnow : 0 ≤ now.nanos) :
    ∃ m sent, SignatureNoiseMessage.fromAuthKey kp c = .ok m ∧ serialize m = .ok sent ∧
    ∃ m' cf, deserialize (SignatureNoiseMessage E) sent = .ok m' ∧
      CertificateFormat.new text c.public_key m' = .ok cf ∧
      (cf.verify now = .ok () ↔ now.seconds % 2 ^ 32 < c.not_valid_after.toNat) ∧
      (¬ now.seconds % 2 ^ 32 < c.not_valid_after.toNat →
        ∃ msg, cf.verify now = .err (.requirementError msg)) := by
  refine ⟨_, _, fromAuthKey_eq kp c, (emits_signatureNoiseMessage _).serialize,
    ⟨c.version, c.valid_from, c.not_valid_after,
      ⟨E.sign kp (Wire.certBytes c.version c.valid_from c.not_valid_after c.public_key),
        E.sign_decodable _ _⟩⟩,
    ⟨E.publicOf kp, c.public_key, c.version, c.valid_from, c.not_valid_after,
      ⟨E.sign kp (Wire.certBytes c.version c.valid_from c.not_valid_after c.public_key),
        E.sign_decodable _ _⟩⟩, ?_, ?_, ?_, ?_⟩
  · have := (reads_signatureNoiseMessage (E := E) ⟨c.version, c.valid_from, c.not_valid_after,
      ⟨E.sign kp (Wire.certBytes c.version c.valid_from c.not_valid_after c.public_key),
        E.sign_decodable _ _⟩⟩).deserialize [] (by
          unfold IsSlice; rw [List.append_nil, signatureNoiseMessage_length]; decide)
    rwa [List.append_nil] at this
  · unfold CertificateFormat.new
    rw [htext]
    have : Arr.ofSlice? 32 (E.publicOf kp).toList = some (E.publicOf kp) := by
      simp [Arr.ofSlice?, (E.publicOf kp).len]
    simp only [this]
    rw [if_pos (hE.valid kp)]
  · rw [verify_eq, if_neg (by omega)]
    simp only [hE.verify_sign]
    split <;> simp <;> omega
  · intro h
    refine ⟨"the signature noise message is expired", ?_⟩
    rw [verify_eq, if_neg (by omega), if_pos (by simp only; omega)]

example : toyScheme.base58 "key" = some (toyScheme.publicOf (Arr.replicate 32 7 : Arr 32)).toList := by decide

/-! ## C33 -/

/-- Two certificates with the same signed bytes have the same fields. -/
theorem C33_injective (c c' : SignedCertificate) (b : Bytes) (h : serialize c = .ok b)
    (h' : serialize c' = .ok b) : c = c' := by
  rw [(emits_signedCertificate c).serialize] at h
  rw [(emits_signedCertificate c').serialize, ← h] at h'
  have h := Out.ok.inj h'
  simp only [Wire.certBytes] at h
  obtain ⟨h, h4⟩ := List.append_inj' h (by simp [c.public_key.len, c'.public_key.len])
  obtain ⟨h, h3⟩ := List.append_inj' h (by simp [Wire.u32])
  obtain ⟨h1, h2⟩ := List.append_inj' h (by simp [Wire.u32])
  cases c; cases c'
  simp only [SignedCertificate.mk.injEq]
  exact ⟨(u16_inj h1).symm, (u32_inj h2).symm, (u32_inj h3).symm, (arr_ext h4).symm⟩

/-- If the client accepts a message for a static key, then the authority issued a certificate with exactly this
version, window and key, or the signature in the message is a forgery: it verifies for the bytes of this certificate,
which the authority never signed. -/
theorem C33_signed_or_forged (issued : List SignedCertificate) (signed : List Bytes)
    (hsigned : ∀ b, b ∈ signed ↔ ∃ c ∈ issued, serialize c = .ok b)
    (text : String) (key : StaticPublicKey) (m : SignatureNoiseMessage E) (cf : CertificateFormat E)
    (now : SystemTime) (hcf : CertificateFormat.new text key m = .ok cf) (hok : cf.verify now = .ok ()) :
    (⟨m.version, m.valid_from, m.not_valid_after, key⟩ : SignedCertificate) ∈ issued ∨
    ∃ pk, E.base58 text = some pk.toList ∧
      Forges E pk signed (Wire.certBytes m.version m.valid_from m.not_valid_after key) m.signature.bytes := by
  have hnew : ∃ pk : Arr 32, E.base58 text = some pk.toList ∧ cf = ⟨pk, key, m⟩ := by
    unfold CertificateFormat.new at hcf
    split at hcf
    · cases hcf
    · rename_i bytes hb
      split at hcf
      · cases hcf
      · rename_i k hk
        have : k.toList = bytes := by
          unfold Arr.ofSlice? at hk
          split at hk
          · cases hk; rfl
          · cases hk
        split at hcf
        · cases hcf
          exact ⟨k, by rw [hb, this], rfl⟩
        · cases hcf
  obtain ⟨pk, hpk, rfl⟩ := hnew
  rw [verify_eq] at hok
  split at hok
  · cases hok
  split at hok
  · cases hok
  split at hok
  · rename_i hv
    by_cases hm : Wire.certBytes m.version m.valid_from m.not_valid_after key ∈ signed
    · left
      obtain ⟨c, hc, hs⟩ := (hsigned _).mp hm
      have := C33_injective ⟨m.version, m.valid_from, m.not_valid_after, key⟩ c _
        (emits_signedCertificate _).serialize hs
      rw [this]
      exact hc
    · right
      exact ⟨pk, hpk, hm, hv⟩
  · cases hok

/-! ## C34 -/

/-- While the clock is below 2^32 seconds, an accepted certificate is unexpired. -/
theorem C34_unexpired (cf : CertificateFormat E) (now : SystemTime) (hnow : now.seconds < 2 ^ 32)
    (h : cf.verify now = .ok ()) :
    0 ≤ now.seconds ∧ now.seconds < cf.signature_noise_message.not_valid_after.toNat := by
  rw [verify_eq] at h
  split at h
  · cases h
  split at h
  · cases h
  · unfold SystemTime.seconds at *
    omega

/-- The lower bound is not enforced: for every authority and static key there is a certificate it can issue,
accepted although `valid_from` is in the future. -/
theorem C34_not_yet_valid_accepted (hE : SigLaws E) (kp : E.KeyPair) (key : StaticPublicKey) :
    ∃ (c : SignedCertificate) (m : SignatureNoiseMessage E) (now : SystemTime),
      SignedCertificate.new 0 c.valid_from c.not_valid_after key = .ok c ∧
      SignatureNoiseMessage.fromAuthKey kp c = .ok m ∧ now.seconds < c.valid_from.toNat ∧
      CertificateFormat.verify ⟨E.publicOf kp, key, m⟩ now = .ok () := by
  refine ⟨⟨0, 100, 200, key⟩, _, ⟨50 * 1000000000⟩, rfl, fromAuthKey_eq kp _,
    (by decide : ((50 * 1000000000 : Int) / 1000000000 < ((100:UInt32).toNat : Int))), ?_⟩
  exact verify_ok _ _ (by decide) (by decide :
    (((50 * 1000000000 : Int) / 1000000000) % 2 ^ 32 < ((200 : UInt32).toNat : Int))) (hE.verify_sign kp _)

/-- The upper bound is not enforced after 2^32 seconds: an expired certificate is accepted again. -/
theorem C34_expired_accepted (hE : SigLaws E) (kp : E.KeyPair) (key : StaticPublicKey) :
    ∃ (c : SignedCertificate) (m : SignatureNoiseMessage E) (now : SystemTime),
      SignedCertificate.new 0 c.valid_from c.not_valid_after key = .ok c ∧
      SignatureNoiseMessage.fromAuthKey kp c = .ok m ∧ c.not_valid_after.toNat + 4000000000 < now.seconds ∧
      CertificateFormat.verify ⟨E.publicOf kp, key, m⟩ now = .ok () := by
  refine ⟨⟨0, 100, 200, key⟩, _, ⟨(2 ^ 32 + 50) * 1000000000⟩, rfl, fromAuthKey_eq kp _,
    (by decide : ((200:UInt32).toNat : Int) + 4000000000 < ((2^32+50) * 1000000000 : Int) / 1000000000), ?_⟩
  exact verify_ok _ _ (by decide) (by decide :
    ((((2 ^ 32 + 50) * 1000000000 : Int) / 1000000000) % 2 ^ 32 < ((200 : UInt32).toNat : Int))) (hE.verify_sign kp _)

example : CertificateFormat.verify (E := toyScheme) ⟨Arr.replicate 32 7, Arr.replicate 32 9, 0, 1000, 4600,
    ⟨Arr.replicate 64 7, rfl⟩⟩ ⟨4599 * 1000000000⟩ = .ok () := by decide

/-! ## C55 -/

/-- The outcome of `CertificateFormat::new` for every string. -/
theorem C55_new (text : String) (key : StaticPublicKey) (m : SignatureNoiseMessage E) :
    (E.base58 text = none → CertificateFormat.new text key m = .err .base58Error) ∧
    (∀ b, E.base58 text = some b → b.length ≠ 32 →
      ∃ msg, CertificateFormat.new text key m = .err (.parseError msg)) ∧
    (∀ k : Arr 32, E.base58 text = some k.toList → E.validKey k = false →
      CertificateFormat.new text key m = .err .authorityKeyError) ∧
    (∀ k : Arr 32, E.base58 text = some k.toList → E.validKey k = true →
      CertificateFormat.new text key m = .ok ⟨k, key, m⟩) := by
  have hk : ∀ k : Arr 32, Arr.ofSlice? 32 k.toList = some k := fun k => by simp [Arr.ofSlice?, k.len]
  refine ⟨?_, ?_, ?_, ?_⟩
  · intro h
    simp [CertificateFormat.new, h]
  · intro b h hl
    refine ⟨"Failed to deserialize the base58 public key", ?_⟩
    simp [CertificateFormat.new, h, Arr.ofSlice?, hl]
  · intro k h hv
    simp [CertificateFormat.new, h, hk, hv]
  · intro k h hv
    simp [CertificateFormat.new, h, hk, hv]

example : toyScheme.base58 "no" = none ∧ (toyScheme.base58 "key").isSome := by decide

end SV2
