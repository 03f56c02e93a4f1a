import Verif.Lemmas.Examples
import Verif.Props.NoiseHandshake
import Verif.Spec.Toy
/-!
# `examples/noise_handshake.rs`
-/

namespace SV2
open Law Noise Examples Handshake

variable (P : Prims) (E : SigScheme)

/-! ## C58 -/

theorem freshBuffer_length : freshBuffer.length = 1024 := List.length_replicate

/-- The handshake of the example: empty prologue, the miner's payload is the zeros of its buffer, and the pool's payload
is what the miner's message left in the pool's buffer. -/
def exampleRun (eI eR sR : Arr 32) : NX.Run :=
  ⟨[], eI, eR, sR, freshBuffer.drop 32, plain (((P.publicOf eI).toList ++ freshBuffer.drop 32).drop 80)⟩

theorem exampleRun_wire1 (eI eR sR : Arr 32) :
    (exampleRun P eI eR sR).wire1 P = (P.publicOf eI).toList ++ freshBuffer.drop 32 := rfl

theorem exampleRun_wire1_length (eI eR sR : Arr 32) : ((exampleRun P eI eR sR).wire1 P).length = 1024 := by
  rw [exampleRun_wire1, List.length_append, List.length_drop, freshBuffer_length, (P.publicOf eI).len]

theorem seconds_plusFive (t : SystemTime) : (plusFive t).seconds = t.seconds + 5 := by
  unfold plusFive SystemTime.seconds
  simp only
  omega

/-- Pool and miner, with a network that delivers: neither panics, the miner's session has the pool's static key, and the
miner prints one verdict.  The verdict is whether the clock of the miner, in the low 32 bits of the seconds, is before
the end of the window that the pool wrote into the certificate.  The sessions can go on talking. -/
theorem C58_honest (hA : AeadCorrect P) (hD : DhLaws P) (hE : SigLaws E) (kp : E.KeyPair) (text : String)
    (htext : E.base58 text = some (E.publicOf kp).toList) (sI : Keypair) (eI eR sR : Arr 32)
    (now1 now2 t1 t2 : SystemTime) (hn1 : 0 ≤ now1.nanos) (hn2 : 0 ≤ now2.nanos) (ht2 : 0 ≤ t2.nanos)
    (hwin : now1.seconds % 2 ^ 32 < (now2.seconds + 5) % 2 ^ 32)
    (hk : (exampleRun P eI eR sR).KeysNonzero P) (hkt : ((exampleRun P eI eR sR).keys P).2 ≠ NX.zeros) :
    ∃ i1 w1 pool w2 w3 m,
      send P (Keypair.default P eI) (Miner.new P sI text).noise_session freshBuffer = .ok (i1, w1) ∧
      (Pool.new (E := E) P kp sR).handle P (Keypair.default P eR) now1 now2 (tryRead freshBuffer w1) =
        .ok (pool, w2, w3) ∧
      Miner.listen P E ⟨text, i1⟩ freshBuffer [(t1, w2), (t2, w3)] =
        ([decide (t2.seconds % 2 ^ 32 < (now2.seconds + 5) % 2 ^ 32)], .ok m) ∧
      m.noise_session.getRemoteStaticPublicKey = some (P.publicOf sR) ∧
      InSync m.noise_session pool.noise_session ((exampleRun P eI eR sR).keys P) 0 1 := by
  have hwl := exampleRun_wire1_length P eI eR sR
  have hfl := freshBuffer_length
  obtain ⟨i1, i2, r1, r2, out, hs1, hr1, hs2, hr2, hpay, _, hti, htr, _, _, hkey, _, hag⟩ :=
    C38_handshake P hA hD [] sI eI eR sR freshBuffer ((exampleRun P eI eR sR).wire1 P)
      (by omega) (by omega) (by omega) (by omega) (exampleRun P eI eR sR) rfl hk
  obtain ⟨f, hf, hfv⟩ := (C35_value now1).2 hn1
  obtain ⟨u, hu, huv⟩ := (C35_value (plusFive now2)).2 (by unfold plusFive; simp only; omega)
  rw [seconds_plusFive] at huv
  have hlt : f.toNat < u.toNat := by omega
  have hcert : SignedCertificate.new 0 f u (P.publicOf sR) = .ok ⟨0, f, u, P.publicOf sR⟩ :=
    (C30_new_iff _ _ _ _ _).2 ⟨hlt, rfl, rfl, rfl, rfl⟩
  have hmsg := fromAuthKey_eq kp ⟨0, f, u, P.publicOf sR⟩
  generalize hsig : (⟨E.sign kp (Wire.certBytes 0 f u (P.publicOf sR)), E.sign_decodable _ _⟩ : Signature E) = sig at hmsg
  have hsigb : sig.bytes = E.sign kp (Wire.certBytes 0 f u (P.publicOf sR)) := by rw [← hsig]
  let msg : SignatureNoiseMessage E := ⟨0, f, u, sig⟩
  have hser : serialize msg = .ok (Wire.signatureNoiseMessage msg) := (C31_codec msg).1.1
  have hml : (Wire.signatureNoiseMessage msg).length = 74 := (C31_codec msg).2.1
  generalize hbuf : Wire.signatureNoiseMessage msg ++ List.replicate (1024 - (Wire.signatureNoiseMessage msg).length) 0 =
    buf
  have hbl : buf.length = 1024 := by rw [← hbuf, List.length_append, List.length_replicate]; omega
  obtain ⟨i3, r3, w3, hs3, hw3, hr3, hag3, hhs, htr3⟩ := transfer hA hag hkt (by decide)
    (Keypair.default P eR) buf (by omega) (by omega)
  have hw2 : ((exampleRun P eI eR sR).wire2 P).length = 1024 := by
    have := (NoiseSession.send_basic (P := P) (Keypair.default P eR) r1 ((exampleRun P eI eR sR).wire1 P)).len
    rw [hs2] at this
    simp only at this
    omega
  have hout : out.length = 1024 := by
    have := (NoiseSession.recv_basic (P := P) i1 ((exampleRun P eI eR sR).wire2 P)).len
    rw [hr2] at this
    simp only at this
    omega
  have hdec : deserialize (SignatureNoiseMessage E) (body buf ++ tag w3) = .ok msg := by
    have h1 : body buf = Wire.signatureNoiseMessage msg ++ (body buf).drop 74 := by
      have : (body buf).take 74 = Wire.signatureNoiseMessage msg := by
        show (buf.take (buf.length - 16)).take 74 = _
        rw [List.take_take, hbl, ← hbuf]
        exact List.take_left' hml
      rw [← this, List.take_append_drop]
    rw [h1, List.append_assoc]
    refine (C31_codec msg).1.2.1 _ ?_
    unfold IsSlice
    have h2 := NoiseSession.body_length buf (by omega)
    have h3 := tag_length (b := w3) (by omega)
    rw [← List.append_assoc, ← h1, List.length_append]
    omega
  have hcf : CertificateFormat.new text (P.publicOf sR) msg = .ok ⟨E.publicOf kp, P.publicOf sR, msg⟩ :=
    (C55_new text (P.publicOf sR) msg).2.2.2 _ htext (hE.valid kp)
  have hver : (CertificateFormat.verify ⟨E.publicOf kp, P.publicOf sR, msg⟩ t2).isOk =
      decide (t2.seconds % 2 ^ 32 < (now2.seconds + 5) % 2 ^ 32) := by
    rw [verify_eq, if_neg (by omega), ← huv]
    by_cases h : t2.seconds % 2 ^ 32 < (u.toNat : Int)
    · have hv : E.verify (E.publicOf kp) (Wire.certBytes 0 f u (P.publicOf sR)) sig.bytes = true := by
        rw [hsigb]; exact hE.verify_sign kp _
      rw [if_neg (by simp only [msg]; omega), if_pos hv]
      simp only [Out.isOk, h, decide_true, decide_false]
    · rw [if_pos (by simp only [msg]; omega)]
      simp only [Out.isOk, h, decide_true, decide_false]
  have hi1 : i1.isTransport = false := by
    have := (NoiseSession.send_basic (P := P) (Keypair.default P eI) (NoiseSession.initSession P true [] sI)
      freshBuffer).transport
    rw [hs1] at this
    exact this
  refine ⟨i1, (exampleRun P eI eR sR).wire1 P, { Pool.new (E := E) P kp sR with noise_session := r3 },
    (exampleRun P eI eR sR).wire2 P, w3, ⟨text, i3⟩, ?_, ?_, ?_, ?_, hag3⟩
  · show send P (Keypair.default P eI) (NoiseSession.initSession P true [] sI) freshBuffer = _
    unfold send
    rw [hs1]
  · rw [tryRead_full _ _ (by omega)]
    have e1 : recv P (Pool.new (E := E) P kp sR).noise_session ((exampleRun P eI eR sR).wire1 P) =
        .ok (r1, (exampleRun P eI eR sR).wire1 P) := by
      show recv P (NoiseSession.initSession P false [] (Keypair.default P sR)) _ = _
      unfold recv
      rw [hr1]
    have e2 : send P (Keypair.default P eR) r1 ((exampleRun P eI eR sR).wire1 P) =
        .ok (r2, (exampleRun P eI eR sR).wire2 P) := by
      unfold send
      rw [hs2]
    have e3 : intoBuffer (Wire.signatureNoiseMessage msg) = .ok buf := by
      unfold intoBuffer
      rw [if_pos (by omega), hbuf]
    have e4 : send P (Keypair.default P eR) r2 buf = .ok (r3, w3) := by
      unfold send
      rw [hs3]
    have e5 : SignedCertificate.new 0 f u (Pool.new (E := E) P kp sR).static_keypair.public_key =
        .ok ⟨0, f, u, P.publicOf sR⟩ := hcert
    have e6 : SignatureNoiseMessage.fromAuthKey (Pool.new (E := E) P kp sR).authority_keypair
        ⟨0, f, u, P.publicOf sR⟩ = .ok msg := hmsg
    unfold Pool.handle
    simp only [e1, e2, unixU32Now, hf, hu, unwrap, e5, e6, hser, e3, e4, bind, Out.bind, pure]
  · have e1 : recv P i1 (tryRead freshBuffer ((exampleRun P eI eR sR).wire2 P)) = .ok (i2, out) := by
      rw [tryRead_full _ _ (by omega)]
      unfold recv
      rw [hr2]
    have e2 : recv P i2 (tryRead out w3) = .ok (i3, body buf ++ tag w3) := by
      rw [tryRead_full _ _ (by omega)]
      unfold recv
      rw [hr3]
    have e3 : i3.getRemoteStaticPublicKey = some (P.publicOf sR) := by
      rw [← hkey]
      simp only [NoiseSession.getRemoteStaticPublicKey, hhs, htr3]
    simp only [Miner.listen, Miner.handle, hi1, e1, bind, Out.bind, pure, hti, if_true, e2, hdec, unwrap, e3,
      unwrapOption, hcf, hver, Option.toList, Bool.false_eq_true, if_false, List.nil_append, List.append_nil]
  · rw [← hkey]
    simp only [NoiseSession.getRemoteStaticPublicKey, hhs, htr3]

/-- The miner's buffer when the bytes `a` have arrived: 1024 bytes that start with `a`, as far as there is room. -/
def Holds (buffer a : Bytes) : Prop := buffer.length = 1024 ∧ buffer.take a.length = a.take 1024

/-- What a printed `true` means, whoever sends the messages: the first arrival was a second handshake message from
somebody with a static key `rs`; a later one, number `j`, was encrypted under the transport key that requires the shared
secrets with `rs`, with nonce `j`, and holds a signed message that is not expired; and the authority issued that
certificate for `rs`, or its signature was forged. -/
theorem C58_authenticated (hA : AeadCorrect P) (hT : AeadTight P) (issued : List SignedCertificate)
    (signed : List Bytes) (hsigned : ∀ b, b ∈ signed ↔ ∃ c ∈ issued, serialize c = .ok b) (text : String)
    (sI : Keypair) (eI : Arr 32) (i1 : NoiseSession) (w1 : Bytes) (arrivals : List (SystemTime × Bytes))
    (h1 : send P (Keypair.default P eI) (Miner.new P sI text).noise_session freshBuffer = .ok (i1, w1))
    (htrue : true ∈ (Miner.listen P E ⟨text, i1⟩ freshBuffer arrivals).1) :
    ∃ t1 a1 rest b1 er rs payload encS, arrivals = (t1, a1) :: rest ∧ Holds b1 a1 ∧
      encS = NX.encryptedStatic P [] (w1.take 32) (w1.drop 32) er.toList (P.dh eI er) rs.toList ∧
      b1 = er.toList ++ encS ++ NX.encryptedPayload P [] (w1.take 32) (w1.drop 32) er.toList encS
        (P.dh eI er) (P.dh eI rs) payload ∧
      ∃ j now a c mac p, ∃ msg : SignatureNoiseMessage E, rest[j]? = some (now, a) ∧ Holds (c ++ mac.toList) a ∧
        P.aeadOpen (NX.transportKeys P (P.dh eI er) (P.dh eI rs)).2 (NX.nonce j) [] c mac = some p ∧
        p.take 74 = Wire.signatureNoiseMessage msg ∧
        0 ≤ now.nanos ∧ now.seconds % 2 ^ 32 < (msg.not_valid_after.toNat : Int) ∧
        ((⟨msg.version, msg.valid_from, msg.not_valid_after, rs⟩ : SignedCertificate) ∈ issued ∨
          ∃ pk, E.base58 text = some pk.toList ∧ Forges E pk signed
            (Wire.certBytes msg.version msg.valid_from msg.not_valid_after rs) msg.signature.bytes) := by
  have hfl := freshBuffer_length
  have hs1 : (NoiseSession.initSession P true [] sI).sendMessage P (Keypair.default P eI) freshBuffer =
      (.ok (), i1, w1) := by
    have h1 : send P (Keypair.default P eI) (NoiseSession.initSession P true [] sI) freshBuffer = .ok (i1, w1) := h1
    unfold send at h1
    split at h1
    · cases h1
      assumption
    · cases h1
  have hi1 : i1.isTransport = false := by
    have := (NoiseSession.send_basic (P := P) (Keypair.default P eI) (NoiseSession.initSession P true [] sI)
      freshBuffer).transport
    rw [hs1] at this
    exact this
  cases arrivals with
  | nil => simp [Miner.listen] at htrue
  | cons x rest =>
    obtain ⟨t1, a1⟩ := x
    have hl := tryRead_length freshBuffer a1
    have hta := tryRead_take freshBuffer a1
    rw [hfl] at hl hta
    generalize hb1 : tryRead freshBuffer a1 = b1 at hl hta
    generalize hr : i1.recvMessage P b1 = r
    have hbasic := NoiseSession.recv_basic (P := P) i1 b1
    rw [hr] at hbasic
    obtain ⟨o, i2, out⟩ := r
    unfold Miner.listen at htrue
    rw [hb1] at htrue
    simp only [Miner.handle, hi1, recv, hr] at htrue
    cases o with
    | err e => simp [bind, Out.bind] at htrue
    | panic => simp [bind, Out.bind] at htrue
    | ok u =>
      simp only [bind, Out.bind, pure, Bool.false_eq_true, if_false, Option.toList, List.nil_append] at htrue
      have hok : (i1.recvMessage P b1).1 = .ok () := by rw [hr]
      obtain ⟨er, rs, payload, _, _, _, _, _, encS, he, hb, hrs, hkeys, _⟩ :=
        (C45_accepted_iff P hA hT true [] sI eI freshBuffer w1 b1 i1 hs1).1 hok
      rw [hr] at hrs hkeys
      simp only at hrs hkeys
      obtain ⟨hmid, _⟩ := send_first_ok hs1
      rw [hmid] at hr
      obtain ⟨_, _, _, _, _, _, _, _, _, hdone⟩ := recv_second_ok hr
      have hcs2 : i2.cs2.n = 0 := by rw [hdone]; rfl
      have hmc : i2.mc = 2 := by rw [hdone]; rfl
      have hii : i2.i = true := by rw [hdone]; rfl
      have htt : i2.is_transport = true := by rw [hdone]; rfl
      have hrs' : i2.hs.rs = rs := by
        have h := hrs
        simp only [NoiseSession.getRemoteStaticPublicKey, htt, if_true, Option.some.injEq] at h
        exact h
      have hk2 : i2.cs2.k = (NX.transportKeys P (P.dh eI er) (P.dh eI rs)).2 := by rw [← hkeys]
      obtain ⟨j, now, a, c, mac, p, msg, cf, g1, g2, g3, g4, g5, g6, g7⟩ :=
        listen_transport rs _ rest 0 ⟨text, i2⟩ out htt hii (by simp only; omega) hrs' hk2
          (by simp only; rw [hcs2]; rfl) (by have := hbasic.len; simp only at this; omega) htrue
      refine ⟨t1, a1, rest, b1, er, rs, payload, encS, rfl, ⟨hl, hta⟩, he, hb, j, now, a, c, mac, p, msg, g1, ⟨g2, g3⟩,
        by simpa using g4, g5, ?_, ?_, C33_signed_or_forged issued signed hsigned text rs msg cf now g6 g7⟩
      · by_cases h : now.nanos < 0
        · rw [verify_eq, if_pos h] at g7; cases g7
        · omega
      · have hcf : cf.signature_noise_message = msg := by
          unfold CertificateFormat.new at g6
          split at g6
          · cases g6
          split at g6
          · cases g6
          split at g6
          · cases g6
            rfl
          · cases g6
        rw [verify_eq, hcf] at g7
        split at g7
        · cases g7
        split at g7
        · cases g7
        · omega

/-- All the hypotheses of `C58_honest` and of `C58_authenticated` together: the pool answers at second 1000, the miner
checks at second 1003 and prints `true`. -/
example : ∃ i1 w1 arrivals,
    send toyPrims (Keypair.default toyPrims (Arr.replicate 32 3)) (Miner.new toyPrims Keypair.empty "key").noise_session
      freshBuffer = .ok (i1, w1) ∧
    true ∈ (Miner.listen toyPrims toyScheme ⟨"key", i1⟩ freshBuffer arrivals).1 := by
  obtain ⟨i1, w1, _, w2, w3, _, h1, _, h3, _⟩ := C58_honest toyPrims toyScheme toy_correct toy_dh toyScheme_laws
    (Arr.replicate 32 7) "key" (by decide) Keypair.empty (Arr.replicate 32 3) (Arr.replicate 32 4) (Arr.replicate 32 5)
    ⟨1000 * 1000000000⟩ ⟨1000 * 1000000000⟩ ⟨0⟩ ⟨1003 * 1000000000⟩ (by decide) (by decide) (by decide) (by decide)
    (toy_keysNonzero _) (toy_hkdf_ne_zeros _ _)
  refine ⟨i1, w1, [(⟨0⟩, w2), (⟨1003 * 1000000000⟩, w3)], h1, ?_⟩
  rw [h3]
  exact List.mem_singleton.mpr (by decide)

/-- A peer that connects to the miner and closes the connection again, after the miner's first message, makes the miner
panic: `try_read` gives `Ok(0)`, and the miner takes the zeros of its buffer for a message. -/
theorem C58_empty_connection (text : String) (sI rnd : Keypair) (now : SystemTime)
    (rest : List (SystemTime × Bytes)) :
    ∃ i1 w1, send P rnd (Miner.new P sI text).noise_session freshBuffer = .ok (i1, w1) ∧
      Miner.listen P E ⟨text, i1⟩ freshBuffer ((now, []) :: rest) = ([], .panic) := by
  have hfl := freshBuffer_length
  have hs := send_first (P := P) true [] sI rnd freshBuffer (by omega) (by omega)
  refine ⟨_, _, by
    show send P rnd (NoiseSession.initSession P true [] sI) freshBuffer = _
    unfold send
    rw [hs], ?_⟩
  generalize hmid : mid P true [] sI rnd EMPTY rnd.public_key.toList (freshBuffer.drop 32) = i1
  have ht : i1.isTransport = false := by rw [← hmid]; rfl
  have hb : tryRead freshBuffer [] = freshBuffer := by
    unfold tryRead
    rw [List.take_nil]
    rfl
  have hr : ∀ s' w, i1.recvMessage P freshBuffer ≠ (.ok (), s', w) := by
    intro s' w h
    rw [← hmid] at h
    obtain ⟨re, _, _, hre, hf, _⟩ := recv_second_ok h
    apply hf
    rw [hre]
    have : freshBuffer.take 32 = List.replicate 32 0 := by
      unfold freshBuffer
      rw [List.take_replicate]
      rfl
    rw [this]
    decide
  have hrecv : recv P i1 freshBuffer = .panic := by
    unfold recv
    split
    · rename_i heq
      exact absurd heq (hr _ _)
    · rfl
  unfold Miner.listen
  rw [hb]
  simp [Miner.handle, ht, hrecv, bind, Out.bind]

end SV2
