import Verif.Model.Config
import Verif.Props.ExampleHandshake
/-!
# C83: a server configured with `NoiseConfig`

`NoiseConfig` says what it is for: the server uses `static_key` in all its sessions and sends `sig_noise_msg` at the end of
each handshake.  No code of the library does that yet; `serve` does it, in the way the example does it with a certificate
made on the spot.
-/

namespace SV2
open Law Noise Examples Handshake

variable (P : Prims) {E : SigScheme}

/-- A server that is configured with `cfg` answers the first message of a client and sends its stored message: the session
and the two messages written. -/
def serve (cfg : NoiseConfig E) (rnd : Keypair) (buffer : Bytes) : Out Empty (NoiseSession × Bytes × Bytes) := do
  let (s, buffer) ← recv P (newNoiseResponder P rnd (some cfg.static_key)) buffer
  let (s, out1) ← send P rnd s buffer
  let serialized_msg ← unwrap (serialize cfg.sig_noise_msg)
  let buf ← intoBuffer serialized_msg
  let (s, out2) ← send P rnd s buf
  pure (s, out1, out2)

/-- The client of the example talks to a server with any configuration: nobody panics, and the client accepts exactly if
its clock is before the end of the window in the stored message and the stored signature is one of the authority for this
window and the public half of the configured key. -/
theorem C83_verdict (hA : AeadCorrect P) (hD : DhLaws P) (pk : Arr 32) (text : String)
    (htext : E.base58 text = some pk.toList) (hvalid : E.validKey pk = true) (msg : SignatureNoiseMessage E)
    (sI : Keypair) (eI eR sR : Arr 32) (t1 t2 : SystemTime) (ht2 : 0 ≤ t2.nanos)
    (hk : (exampleRun P eI eR sR).KeysNonzero P) (hkt : ((exampleRun P eI eR sR).keys P).2 ≠ NX.zeros) :
    ∃ i1 w1 s w2 w3 m,
      send P (Keypair.default P eI) (Miner.new P sI text).noise_session freshBuffer = .ok (i1, w1) ∧
      serve P (NoiseConfig.new msg (Keypair.default P sR)) (Keypair.default P eR) (tryRead freshBuffer w1) =
        .ok (s, w2, w3) ∧
      Miner.listen P E ⟨text, i1⟩ freshBuffer [(t1, w2), (t2, w3)] =
        ([decide (t2.seconds % 2 ^ 32 < (msg.not_valid_after.toNat : Int)) &&
          E.verify pk (Wire.certBytes msg.version msg.valid_from msg.not_valid_after (P.publicOf sR))
            msg.signature.bytes], .ok m) ∧
      InSync m.noise_session s ((exampleRun P eI eR sR).keys P) 0 1 := by
  have hwl := exampleRun_wire1_length P eI eR sR
  have hfl := freshBuffer_length
  obtain ⟨i1, i2, r1, r2, out, hs1, hr1, hs2, hr2, hpay, _, hti, htr, _, _, hkey, _, hag⟩ :=
    C38_handshake P hA hD [] sI eI eR sR freshBuffer ((exampleRun P eI eR sR).wire1 P)
      (by omega) (by omega) (by omega) (by omega) (exampleRun P eI eR sR) rfl hk
  have hser : serialize msg = .ok (Wire.signatureNoiseMessage msg) := (C31_codec msg).1.1
  have hml : (Wire.signatureNoiseMessage msg).length = 74 := (C31_codec msg).2.1
  generalize hbuf : Wire.signatureNoiseMessage msg ++ List.replicate (1024 - (Wire.signatureNoiseMessage msg).length) 0 =
    buf
  have hbl : buf.length = 1024 := by rw [← hbuf, List.length_append, List.length_replicate]; omega
  obtain ⟨i3, r3, w3, hs3, hw3, hr3, hag3, hhs, htr3⟩ := transfer hA hag hkt (by decide)
    (Keypair.default P eR) buf (by omega) (by omega)
  have hw2 : ((exampleRun P eI eR sR).wire2 P).length = 1024 := by
    have := (NoiseSession.send_basic (P := P) (Keypair.default P eR) r1 ((exampleRun P eI eR sR).wire1 P)).len
    rw [hs2] at this
    simp only at this
    omega
  have hout : out.length = 1024 := by
    have := (NoiseSession.recv_basic (P := P) i1 ((exampleRun P eI eR sR).wire2 P)).len
    rw [hr2] at this
    simp only at this
    omega
  have hdec : deserialize (SignatureNoiseMessage E) (body buf ++ tag w3) = .ok msg := by
    have h1 : body buf = Wire.signatureNoiseMessage msg ++ (body buf).drop 74 := by
      have : (body buf).take 74 = Wire.signatureNoiseMessage msg := by
        show (buf.take (buf.length - 16)).take 74 = _
        rw [List.take_take, hbl, ← hbuf]
        exact List.take_left' hml
      rw [← this, List.take_append_drop]
    rw [h1, List.append_assoc]
    refine (C31_codec msg).1.2.1 _ ?_
    unfold IsSlice
    have h2 := NoiseSession.body_length buf (by omega)
    have h3 := tag_length (b := w3) (by omega)
    rw [← List.append_assoc, ← h1, List.length_append]
    omega
  have hcf : CertificateFormat.new text (P.publicOf sR) msg = .ok ⟨pk, P.publicOf sR, msg⟩ :=
    (C55_new text (P.publicOf sR) msg).2.2.2 _ htext hvalid
  have hver : (CertificateFormat.verify ⟨pk, P.publicOf sR, msg⟩ t2).isOk =
      (decide (t2.seconds % 2 ^ 32 < (msg.not_valid_after.toNat : Int)) &&
        E.verify pk (Wire.certBytes msg.version msg.valid_from msg.not_valid_after (P.publicOf sR))
          msg.signature.bytes) := by
    rw [verify_eq, if_neg (by omega)]
    by_cases h : t2.seconds % 2 ^ 32 < (msg.not_valid_after.toNat : Int)
    · rw [if_neg (by simp only; omega)]
      simp only [h, decide_true, Bool.true_and]
      split
      · rename_i hv
        simp only [Out.isOk, hv]
      · rename_i hv
        simp only [Out.isOk]
        simpa using hv
    · rw [if_pos (by simp only; omega)]
      simp only [Out.isOk, h, decide_false, Bool.false_and]
  have hi1 : i1.isTransport = false := by
    have := (NoiseSession.send_basic (P := P) (Keypair.default P eI) (NoiseSession.initSession P true [] sI)
      freshBuffer).transport
    rw [hs1] at this
    exact this
  refine ⟨i1, (exampleRun P eI eR sR).wire1 P, r3, (exampleRun P eI eR sR).wire2 P, w3, ⟨text, i3⟩, ?_, ?_, ?_, hag3⟩
  · show send P (Keypair.default P eI) (NoiseSession.initSession P true [] sI) freshBuffer = _
    unfold send
    rw [hs1]
  · rw [tryRead_full _ _ (by omega)]
    have e1 : recv P (newNoiseResponder P (Keypair.default P eR) (some (Keypair.default P sR)))
        ((exampleRun P eI eR sR).wire1 P) = .ok (r1, (exampleRun P eI eR sR).wire1 P) := by
      show recv P (NoiseSession.initSession P false [] (Keypair.default P sR)) _ = _
      unfold recv
      rw [hr1]
    have e2 : send P (Keypair.default P eR) r1 ((exampleRun P eI eR sR).wire1 P) =
        .ok (r2, (exampleRun P eI eR sR).wire2 P) := by
      unfold send
      rw [hs2]
    have e3 : intoBuffer (Wire.signatureNoiseMessage msg) = .ok buf := by
      unfold intoBuffer
      rw [if_pos (by omega), hbuf]
    have e4 : send P (Keypair.default P eR) r2 buf = .ok (r3, w3) := by
      unfold send
      rw [hs3]
    unfold serve
    simp only [NoiseConfig.new, e1, e2, unwrap, hser, e3, e4, bind, Out.bind, pure]
  · have e1 : recv P i1 (tryRead freshBuffer ((exampleRun P eI eR sR).wire2 P)) = .ok (i2, out) := by
      rw [tryRead_full _ _ (by omega)]
      unfold recv
      rw [hr2]
    have e2 : recv P i2 (tryRead out w3) = .ok (i3, body buf ++ tag w3) := by
      rw [tryRead_full _ _ (by omega)]
      unfold recv
      rw [hr3]
    have e3 : i3.getRemoteStaticPublicKey = some (P.publicOf sR) := by
      rw [← hkey]
      simp only [NoiseSession.getRemoteStaticPublicKey, hhs, htr3]
    simp only [Miner.listen, Miner.handle, hi1, e1, bind, Out.bind, pure, hti, if_true, e2, hdec, unwrap, e3,
      unwrapOption, hcf, hver, Option.toList, Bool.false_eq_true, if_false, List.nil_append, List.append_nil]

/-- The configuration as intended: the authority signed a certificate for the configured key.  The client accepts exactly
as long as the window has not ended, whenever the server was configured; the server goes on sending the message
afterwards. -/
theorem C83_matching (hA : AeadCorrect P) (hD : DhLaws P) (hE : SigLaws E) (kp : E.KeyPair) (text : String)
    (htext : E.base58 text = some (E.publicOf kp).toList) (c : SignedCertificate) (sR : Arr 32)
    (hc : c.public_key = P.publicOf sR) (msg : SignatureNoiseMessage E)
    (hmsg : SignatureNoiseMessage.fromAuthKey kp c = .ok msg) (sI : Keypair) (eI eR : Arr 32) (t1 t2 : SystemTime)
    (ht2 : 0 ≤ t2.nanos)
    (hk : (exampleRun P eI eR sR).KeysNonzero P) (hkt : ((exampleRun P eI eR sR).keys P).2 ≠ NX.zeros) :
    ∃ i1 w1 s w2 w3 m,
      send P (Keypair.default P eI) (Miner.new P sI text).noise_session freshBuffer = .ok (i1, w1) ∧
      serve P (NoiseConfig.new msg (Keypair.default P sR)) (Keypair.default P eR) (tryRead freshBuffer w1) =
        .ok (s, w2, w3) ∧
      Miner.listen P E ⟨text, i1⟩ freshBuffer [(t1, w2), (t2, w3)] =
        ([decide (t2.seconds % 2 ^ 32 < (c.not_valid_after.toNat : Int))], .ok m) := by
  obtain ⟨i1, w1, s, w2, w3, m, h1, h2, h3, _⟩ := C83_verdict P hA hD (E.publicOf kp) text htext (hE.valid kp) msg sI eI
    eR sR t1 t2 ht2 hk hkt
  refine ⟨i1, w1, s, w2, w3, m, h1, h2, ?_⟩
  rw [fromAuthKey_eq] at hmsg
  have hmsg := Out.ok.inj hmsg
  rw [h3, ← hmsg]
  simp only [hc, hE.verify_sign, Bool.and_true]

/-- `NoiseConfig::new` takes a message that was signed for another key, and the server starts and talks.  But no client
that checks accepts it, at any time: whoever it is accepted by holds a signature over bytes that the authority never
signed. -/
theorem C83_mismatch (hA : AeadCorrect P) (hD : DhLaws P) (issued : List SignedCertificate)
    (signed : List Bytes) (hsigned : ∀ b, b ∈ signed ↔ ∃ c ∈ issued, serialize c = .ok b)
    (pk : Arr 32) (text : String) (htext : E.base58 text = some pk.toList) (hvalid : E.validKey pk = true)
    (sR : Arr 32) (hnot : ∀ c ∈ issued, c.public_key ≠ P.publicOf sR) (msg : SignatureNoiseMessage E)
    (sI : Keypair) (eI eR : Arr 32) (t1 t2 : SystemTime) (ht2 : 0 ≤ t2.nanos)
    (hk : (exampleRun P eI eR sR).KeysNonzero P) (hkt : ((exampleRun P eI eR sR).keys P).2 ≠ NX.zeros) :
    ∃ i1 w1 s w2 w3 m verdict,
      send P (Keypair.default P eI) (Miner.new P sI text).noise_session freshBuffer = .ok (i1, w1) ∧
      serve P (NoiseConfig.new msg (Keypair.default P sR)) (Keypair.default P eR) (tryRead freshBuffer w1) =
        .ok (s, w2, w3) ∧
      Miner.listen P E ⟨text, i1⟩ freshBuffer [(t1, w2), (t2, w3)] = ([verdict], .ok m) ∧
      (verdict = true → Forges E pk signed
        (Wire.certBytes msg.version msg.valid_from msg.not_valid_after (P.publicOf sR)) msg.signature.bytes) := by
  obtain ⟨i1, w1, s, w2, w3, m, h1, h2, h3, _⟩ := C83_verdict P hA hD pk text htext hvalid msg sI eI eR sR t1 t2 ht2 hk
    hkt
  refine ⟨i1, w1, s, w2, w3, m, _, h1, h2, h3, fun hv => ?_⟩
  rw [Bool.and_eq_true] at hv
  refine ⟨fun hm => ?_, hv.2⟩
  obtain ⟨c, hc, hb⟩ := (hsigned _).1 hm
  have hser : serialize (⟨msg.version, msg.valid_from, msg.not_valid_after, P.publicOf sR⟩ : SignedCertificate) =
    .ok (Wire.certBytes msg.version msg.valid_from msg.not_valid_after (P.publicOf sR)) :=
    (emits_signedCertificate _).serialize
  have := C33_injective _ _ _ hb hser
  exact hnot c hc (by rw [this])

/-- Storing the message and reading it back gives the same configuration. -/
theorem C83_reload (msg : SignatureNoiseMessage E) (key : Keypair) :
    ∃ stored, serialize msg = .ok stored ∧ ∃ msg', deserialize (SignatureNoiseMessage E) stored = .ok msg' ∧
      NoiseConfig.new msg' key = NoiseConfig.new msg key := by
  refine ⟨_, (C31_codec msg).1.1, msg, ?_, rfl⟩
  have := (C31_codec msg).1.2.1 [] (by
    unfold IsSlice
    rw [List.append_nil, (C31_codec msg).2.1]
    omega)
  rwa [List.append_nil] at this

/-! Concrete, with the toy primitives and the toy scheme. -/

/-- A certificate for the configured key, valid until 2000: accepted at 1003, refused at 2000. -/
example : ∀ t2 ∈ [(1003, true), (2000, false)], ∃ msg i1 w1 s w2 w3 m,
    SignatureNoiseMessage.fromAuthKey (E := toyScheme) (Arr.replicate 32 7)
      ⟨0, 1000, 2000, toyPrims.publicOf (Arr.replicate 32 5)⟩ = .ok msg ∧
    serve toyPrims (NoiseConfig.new msg (Keypair.default toyPrims (Arr.replicate 32 5)))
      (Keypair.default toyPrims (Arr.replicate 32 4)) (tryRead freshBuffer w1) = .ok (s, w2, w3) ∧
    Miner.listen toyPrims toyScheme ⟨"key", i1⟩ freshBuffer [(⟨0⟩, w2), (⟨t2.1 * 1000000000⟩, w3)] =
      ([t2.2], .ok m) := by
  intro t2 ht2
  have h0 : 0 ≤ (⟨t2.1 * 1000000000⟩ : SystemTime).nanos := by
    revert t2; decide
  obtain ⟨i1, w1, s, w2, w3, m, -, h2, h3⟩ := C83_matching toyPrims toy_correct toy_dh toyScheme_laws
    (Arr.replicate 32 7) "key" (by decide) ⟨0, 1000, 2000, toyPrims.publicOf (Arr.replicate 32 5)⟩ (Arr.replicate 32 5)
    rfl _ (fromAuthKey_eq _ _) Keypair.empty (Arr.replicate 32 3) (Arr.replicate 32 4) ⟨0⟩ ⟨t2.1 * 1000000000⟩ h0
    (toy_keysNonzero _) (toy_hkdf_ne_zeros _ _)
  refine ⟨_, i1, w1, s, w2, w3, m, fromAuthKey_eq _ _, h2, ?_⟩
  rw [h3]
  revert t2
  simp only [List.mem_cons, List.not_mem_nil, or_false, forall_eq_or_imp, forall_eq]
  intros
  constructor <;> intros <;> congr 2

/-- A message with another signature: refused. -/
example : ∃ i1 w1 s w2 w3 m,
    serve toyPrims (NoiseConfig.new (E := toyScheme) ⟨0, 1000, 2000, ⟨Arr.replicate 64 8, rfl⟩⟩
      (Keypair.default toyPrims (Arr.replicate 32 5))) (Keypair.default toyPrims (Arr.replicate 32 4))
      (tryRead freshBuffer w1) = .ok (s, w2, w3) ∧
    Miner.listen toyPrims toyScheme ⟨"key", i1⟩ freshBuffer [(⟨0⟩, w2), (⟨1003 * 1000000000⟩, w3)] =
      ([false], .ok m) := by
  obtain ⟨i1, w1, s, w2, w3, m, -, h2, h3, -⟩ := C83_verdict toyPrims toy_correct toy_dh (E := toyScheme)
    (Arr.replicate 32 7) "key" (by decide) rfl ⟨0, 1000, 2000, ⟨Arr.replicate 64 8, rfl⟩⟩ Keypair.empty
    (Arr.replicate 32 3) (Arr.replicate 32 4) (Arr.replicate 32 5) ⟨0⟩ ⟨1003 * 1000000000⟩ (by decide)
    (toy_keysNonzero _) (toy_hkdf_ne_zeros _ _)
  refine ⟨i1, w1, s, w2, w3, m, h2, ?_⟩
  rw [h3]
  congr 2

/-- The authority has signed for one key, the server is configured with another one: the hypotheses of `C83_mismatch`. -/
example : let c : SignedCertificate := ⟨0, 1000, 2000, toyPrims.publicOf (Arr.replicate 32 6)⟩
    (∀ b, b ∈ [Wire.certBytes c.version c.valid_from c.not_valid_after c.public_key] ↔
      ∃ c' ∈ [c], serialize c' = .ok b) ∧
    ∀ c' ∈ [c], c'.public_key ≠ toyPrims.publicOf (Arr.replicate 32 5) := by
  intro c
  refine ⟨fun b => ?_, ?_⟩
  · simp only [List.mem_singleton, exists_eq_left, (emits_signedCertificate c).serialize, Out.ok.injEq]
    exact eq_comm
  · simp only [List.mem_singleton, forall_eq]
    decide +kernel

end SV2
