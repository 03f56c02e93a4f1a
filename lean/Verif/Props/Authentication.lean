import Verif.Spec.Authentication
import Verif.Props.ExampleHandshake
import Verif.Props.NoiseTransport
/-!
# C82: who is at the other end

A client that has finished a handshake with the static key of a server, among any number of servers and connections and
with a network that does what it likes.
-/

namespace SV2.Noise
variable (P : Prims)

/-- What a successful second message looks like on the wire. -/
theorem send_second_wire {i : Bool} {prologue : Bytes} {s e rnd : Keypair} {re : Arr 32} {ei p1 b w : Bytes}
    {s' : NoiseSession} (h : (mid P i prologue s e re ei p1).sendMessage P rnd b = (.ok (), s', w)) :
    ∃ encS, encS = NX.encryptedStatic P prologue ei p1 (chosen e rnd).public_key.toList
        (P.dh (chosen e rnd).private_key re) s.public_key.toList ∧
      w = (chosen e rnd).public_key.toList ++ encS ++ NX.encryptedPayload P prologue ei p1
        (chosen e rnd).public_key.toList encS (P.dh (chosen e rnd).private_key re) (P.dh s.private_key re)
        (plain (b.drop 80)) := by
  by_cases hb : b.length < 16 ∨ 65535 < b.length
  · rw [NoiseSession.send_badLength rnd _ b hb] at h
    cases h
  have hE := useE_mid (P := P) i prologue s e rnd re ei p1
  have hA := wrA_mid (P := P) prologue s (chosen e rnd) re ei p1 i
  have hB := wrB_mid (P := P) prologue s (chosen e rnd) re ei p1 i
  rcases HandshakeState.writeB_cases (P := P) rnd (mid P i prologue s e re ei p1).hs b with
    ⟨hl, hw⟩ | ⟨_, hl, b', _, hw⟩ | ⟨_, hk, b', _, hw⟩ | ⟨_, hl, _, b', _, hw⟩ | ⟨_, _, hk, b', _, hw⟩ |
    ⟨hl, hk1, hk2, hw⟩
  case inr.inr.inr.inr.inr =>
    rw [hE, hA] at hk1
    rw [hE, hB] at hk2
    have := send_second_any (P := P) i prologue s e rnd re ei p1 b hl (by omega) hk1 hk2
    rw [this] at h
    simp only [Prod.mk.injEq, true_and] at h
    obtain ⟨_, rfl⟩ := h
    exact ⟨_, rfl, rfl⟩
  all_goals
    rw [NoiseSession.send_one rnd _ b hb rfl, hw] at h
    cases h

theorem enc_injective (hA : AeadCorrect P) {k : Arr 32} {n : Nat} {ad p q : Bytes}
    (h : NX.enc P k n ad p = NX.enc P k n ad q) : p = q := by
  unfold NX.enc at h
  obtain ⟨h1, h2⟩ := List.append_inj' h (by rw [Arr.len, Arr.len])
  have e1 := hA k (NX.nonce n) ad p
  rw [h1, arr_ext h2, hA k (NX.nonce n) ad q] at e1
  exact (Option.some.inj e1).symm

/-- What a server's answer consists of. -/
theorem Answer.Genuine.shape {sR : Arr 32} {a : Answer} (h : a.Genuine P sR) :
    ∃ ei : Arr 32, ei.toList = a.first.take 32 ∧
      (∃ encS, encS = NX.encryptedStatic P a.prologue (a.first.take 32) (a.first.drop 32) (P.publicOf a.eR).toList
          (P.dh a.eR ei) (P.publicOf sR).toList ∧
        a.second = (P.publicOf a.eR).toList ++ encS ++ NX.encryptedPayload P a.prologue (a.first.take 32)
          (a.first.drop 32) (P.publicOf a.eR).toList encS (P.dh a.eR ei) (P.dh sR ei) a.payload) ∧
      a.session = done false EMPTY (NX.transcript P (NX.parts a.prologue a.first a.second))
        (NX.transportKeys P (P.dh a.eR ei) (P.dh sR ei)) 1 := by
  obtain ⟨r1, out, h1, h2⟩ := h
  obtain ⟨ei, hei, _, rfl, _⟩ := recv_first_ok h1
  have hc : chosen Keypair.empty (Keypair.default P a.eR) = Keypair.default P a.eR := rfl
  obtain ⟨hs, _⟩ := send_second_ok h2
  obtain ⟨encS, he, hw⟩ := send_second_wire P h2
  rw [hc] at hs he hw
  exact ⟨ei, hei, ⟨encS, he, hw⟩, hs⟩

/-- A client sent its first message and accepted an answer with the static key of a server.  Then it was the server: one
of its connections had this prologue, received exactly the client's message and sent exactly this answer, the client has
the payload that the server put into it, and the two sessions share hash and transport keys.  Otherwise the answer is a
forgery under a key that takes the shared secret of the client's ephemeral key and the server's static key, or two
different inputs of the hash function with the same hash are found among those of the client and of one of the server's
connections. -/
theorem C82_authenticated (hA : AeadCorrect P) (hT : AeadTight P) (hD : DhLaws P) (sR : Arr 32) (answers : List Answer)
    (hg : ∀ a ∈ answers, a.Genuine P sR) (prologue : Bytes) (kp : Keypair) (eI : Arr 32) (buf1 w1 w2 out : Bytes)
    (i1 i2 : NoiseSession)
    (h1 : (NoiseSession.initSession P true prologue kp).sendMessage P (Keypair.default P eI) buf1 = (.ok (), i1, w1))
    (h2 : i1.recvMessage P w2 = (.ok (), i2, out)) (hk : i2.getRemoteStaticPublicKey = some (P.publicOf sR)) :
    (∃ a ∈ answers, a.prologue = prologue ∧ a.first = w1 ∧ a.second = w2 ∧ plain (out.drop 80) = a.payload ∧
      i2.getHandshakeHash = a.session.getHandshakeHash ∧ ∃ keys, Agreed i2 a.session keys) ∨
    ForgedAnswer P sR answers prologue eI w1 w2 ∨
    ∃ a ∈ answers, NX.Collision P (NX.hashInputs P (NX.h0 P) (NX.parts prologue w1 w2))
      (NX.hashInputs P (NX.h0 P) (NX.parts a.prologue a.first a.second)) := by
  obtain ⟨er, rs, payload, _, _, _, _, _, encS, he, hw, hrs, hkeys, hpay⟩ :=
    (C45_accepted_iff P hA hT true prologue kp eI buf1 w1 w2 i1 h1).1 (by rw [h2])
  rw [h2] at hrs hkeys hpay
  simp only at hrs hkeys hpay
  have hrs' : rs = P.publicOf sR := Option.some.inj (hrs.symm.trans hk)
  subst hrs'
  obtain ⟨hmid, hpub, _⟩ := send_first_ok h1
  rw [hmid] at h2
  obtain ⟨re, rs, _, hre, _, _, _, _, _, hdone⟩ := recv_second_ok h2
  have hlS : encS.length = 48 := by
    rw [he]
    unfold NX.encryptedStatic
    rw [enc_length, (P.publicOf sR).len]
  have ht1 : w2.take 32 = er.toList := by rw [hw, take_three er.len]
  have ht2 : (w2.drop 32).take 48 = encS := by rw [hw, take_mid_three er.len hlS]
  have ht3 : w2.drop 80 = NX.encryptedPayload P prologue (w1.take 32) (w1.drop 32) er.toList encS (P.dh eI er)
      (P.dh eI (P.publicOf sR)) payload := by rw [hw, drop_three er.len hlS]
  by_cases hs : ∃ a ∈ answers, a.Sealed P sR (NX.afterES P (P.dh eI er) (P.dh eI (P.publicOf sR))).2
      (NX.payloadHash P prologue w1 w2) (w2.drop 80)
  · obtain ⟨a, ha, ⟨ei, hei, hkey⟩, had, hwire⟩ := hs
    obtain ⟨ei', hei', ⟨encS', he', hw'⟩, hses⟩ := (hg a ha).shape
    have : ei' = ei := arr_ext (by rw [hei, hei'])
    subst this
    have hsix : NX.transcript P (NX.parts prologue w1 w2) = NX.transcript P (NX.parts a.prologue a.first a.second) := by
      have e1 := transcript_snoc (P := P) [prologue, w1.take 32, w1.drop 32, w2.take 32, (w2.drop 32).take 48] (w2.drop 80)
      have e2 := transcript_snoc (P := P) [a.prologue, a.first.take 32, a.first.drop 32, a.second.take 32,
        (a.second.drop 32).take 48] (a.second.drop 80)
      simp only [List.cons_append, List.nil_append] at e1 e2
      unfold NX.payloadHash at had
      rw [NX.parts, NX.parts, e1, e2, had, hwire]
    rcases transcript_binding_aux P (NX.parts prologue w1 w2) (NX.parts a.prologue a.first a.second) rfl
      (NX.h0 P) (NX.h0 P) hsix with ⟨_, hp⟩ | hc
    · refine .inl ⟨a, ha, ?_⟩
      simp only [NX.parts, List.cons.injEq, and_true] at hp
      obtain ⟨hp0, ha1, ha2, hb1, hb2, hb3⟩ := hp
      have hf : w1 = a.first := by rw [← List.take_append_drop 32 w1, ha1, ha2, List.take_append_drop]
      have hsplit : ∀ w : Bytes, w = w.take 32 ++ ((w.drop 32).take 48 ++ w.drop 80) := by
        intro w
        rw [show w.drop 80 = (w.drop 32).drop 48 by rw [List.drop_drop], List.take_append_drop, List.take_append_drop]
      have hsec : w2 = a.second := by rw [hsplit w2, hb1, hb2, hb3, ← hsplit]
      have hei2 : ei' = P.publicOf eI := arr_ext (by rw [hei', ← hf, hpub]; rfl)
      have hlS' : encS'.length = 48 := by
        rw [he']
        unfold NX.encryptedStatic
        rw [enc_length, (P.publicOf sR).len]
      have her : er = P.publicOf a.eR := arr_ext (by rw [← ht1, hsec, hw', take_three (P.publicOf a.eR).len])
      have hS : encS = encS' := by rw [← ht2, hsec, hw', take_mid_three (P.publicOf a.eR).len hlS']
      have ht3' : a.second.drop 80 = NX.encryptedPayload P a.prologue (a.first.take 32) (a.first.drop 32)
          (P.publicOf a.eR).toList encS' (P.dh a.eR ei') (P.dh sR ei') a.payload := by
        conv => lhs; rw [hw']
        exact drop_three (P.publicOf a.eR).len hlS'
      have hq : payload = a.payload := by
        rw [hsec, ht3', ← hp0, ← hf, ← hS, hei2, her, hD.comm a.eR eI, hD.comm sR eI] at ht3
        exact (enc_injective P hA ht3).symm
      have hre2 : re = P.publicOf a.eR := arr_ext (by rw [hre, ht1, her])
      have hrs2 : rs = P.publicOf sR := by
        rw [hdone] at hrs
        exact Option.some.inj hrs
      refine ⟨hp0.symm, hf.symm, hsec.symm, by rw [hpay, hq], ?_,
        NX.transportKeys P (P.dh eI (P.publicOf a.eR)) (P.dh eI (P.publicOf sR)), ?_⟩
      · rw [hdone, hses, ← hsix]
        rfl
      · rw [hses, hdone, hre2, hrs2, hei2, hD.comm a.eR eI, hD.comm sR eI]
        exact ⟨⟨rfl, rfl⟩, ⟨rfl, rfl⟩, ⟨rfl, rfl⟩, rfl, rfl⟩
    · exact .inr (.inr ⟨a, ha, hc⟩)
  · refine .inr (.inl ⟨er, _, (P.aeadSeal _ (NX.nonce 0) (NX.payloadHash P prologue w1 w2).toList payload).1,
      (P.aeadSeal _ (NX.nonce 0) (NX.payloadHash P prologue w1 w2).toList payload).2, payload, ht1.symm, rfl, ?_, hA .., ?_⟩)
    · rw [ht3]
      unfold NX.encryptedPayload NX.enc NX.payloadHash
      rw [ht1, ht2]
    · intro a ha hse
      exact hs ⟨a, ha, hse⟩

/-- A server with one connection, and the client that made it. -/
example : ∃ a : Answer, ∃ i1 i2 w1 w2 out, a.Genuine toyPrims (Arr.replicate 32 5) ∧
    (NoiseSession.initSession toyPrims true [1, 2] Keypair.empty).sendMessage toyPrims
      (Keypair.default toyPrims (Arr.replicate 32 3)) (List.replicate 50 8) = (.ok (), i1, w1) ∧
    i1.recvMessage toyPrims w2 = (.ok (), i2, out) ∧
    i2.getRemoteStaticPublicKey = some (toyPrims.publicOf (Arr.replicate 32 5)) := by
  obtain ⟨i1, i2, r1, r2, out, h1, h2, h3, h4, _, _, _, _, _, _, h5, _⟩ := C38_handshake toyPrims toy_correct toy_dh
    [1, 2] Keypair.empty (Arr.replicate 32 3) (Arr.replicate 32 4) (Arr.replicate 32 5) (List.replicate 50 8)
    (List.replicate 100 9) (by decide) (by decide) (by decide) (by decide) _ rfl (toy_keysNonzero _)
  exact ⟨⟨[1, 2], Arr.replicate 32 4, _, List.replicate 100 9, _, r2⟩, i1, i2, _, _, out, ⟨r1, _, h2, h3⟩, h1, h4, h5⟩

end SV2.Noise

namespace SV2
open Law Noise Examples Handshake

variable (P : Prims) (E : SigScheme)

/-- The same with certificates.  An authority issued certificates only for the static keys of some servers.  A client
finished a handshake, and its check of a certificate for the static key it learned, against the key of that authority,
returned `Ok`.  Then it is connected to one of these servers, or somebody forged a signature of the authority, or somebody
forged an answer of one of the servers, or there is a collision of the hash function. -/
theorem C82_certified (hA : AeadCorrect P) (hT : AeadTight P) (hD : DhLaws P)
    (issued : List SignedCertificate) (signed : List Bytes)
    (hsigned : ∀ b, b ∈ signed ↔ ∃ c ∈ issued, serialize c = .ok b)
    (servers : List (Arr 32 × List Answer)) (hg : ∀ s ∈ servers, ∀ a ∈ s.2, a.Genuine P s.1)
    (hissued : ∀ c ∈ issued, ∃ s ∈ servers, c.public_key = P.publicOf s.1)
    (prologue : Bytes) (kp : Keypair) (eI : Arr 32) (buf1 w1 w2 out : Bytes) (i1 i2 : NoiseSession)
    (h1 : (NoiseSession.initSession P true prologue kp).sendMessage P (Keypair.default P eI) buf1 = (.ok (), i1, w1))
    (h2 : i1.recvMessage P w2 = (.ok (), i2, out)) (rs : StaticPublicKey)
    (hrs : i2.getRemoteStaticPublicKey = some rs) (text : String) (m : SignatureNoiseMessage E)
    (cf : CertificateFormat E) (now : SystemTime) (hcf : CertificateFormat.new text rs m = .ok cf)
    (hok : cf.verify now = .ok ()) :
    Connected P servers prologue i2 w1 w2 out rs ∨
    (∃ pk, E.base58 text = some pk.toList ∧
      Forges E pk signed (Wire.certBytes m.version m.valid_from m.not_valid_after rs) m.signature.bytes) ∨
    Impersonated P servers prologue eI w1 w2 := by
  rcases C33_signed_or_forged issued signed hsigned text rs m cf now hcf hok with hc | hf
  · obtain ⟨s, hs, hpk⟩ := hissued _ hc
    simp only at hpk
    rcases C82_authenticated P hA hT hD s.1 s.2 (hg s hs) prologue kp eI buf1 w1 w2 out i1 i2 h1 h2
      (by rw [hrs, hpk]) with ⟨a, ha, g1, g2, g3, g4, _, keys, hag⟩ | hf | hc
    · refine .inl ⟨s, hs, hpk, a, ha, g1, g2, g3, g4, ?_⟩
      intro acts n
      obtain ⟨p1, p2⟩ := C40_prefix_or_forged P hA i2 a.session keys 0 0 hag acts
      have e1 : i2.cs1.k = keys.1 := by rw [hag.initiator.1]
      have e2 : i2.cs2.k = keys.2 := by rw [hag.initiator.2]
      rw [e1, e2]
      exact ⟨p2.imp_left (·.1), p1.imp_left (·.1)⟩
    · exact .inr (.inr ⟨s, hs, .inl hf⟩)
    · exact .inr (.inr ⟨s, hs, .inr hc⟩)
  · exact .inr (.inl hf)

/-- What has happened when the miner of the example prints `true`. -/
theorem listen_true (text : String) (i1 : NoiseSession) (sI rnd : Keypair) (w1 : Bytes)
    (hs1 : (NoiseSession.initSession P true [] sI).sendMessage P rnd freshBuffer = (.ok (), i1, w1))
    (arrivals : List (SystemTime × Bytes))
    (htrue : true ∈ (Miner.listen P E ⟨text, i1⟩ freshBuffer arrivals).1) :
    ∃ t1 a1 rest b1 i2 out rs now, ∃ m : SignatureNoiseMessage E, ∃ cf : CertificateFormat E,
      arrivals = (t1, a1) :: rest ∧ Holds b1 a1 ∧
      i1.recvMessage P b1 = (.ok (), i2, out) ∧ i2.getRemoteStaticPublicKey = some rs ∧
      CertificateFormat.new text rs m = .ok cf ∧ cf.verify now = .ok () := by
  have hfl := freshBuffer_length
  have hi1 : i1.isTransport = false := by
    have := (NoiseSession.send_basic (P := P) rnd (NoiseSession.initSession P true [] sI) freshBuffer).transport
    rw [hs1] at this
    exact this
  cases arrivals with
  | nil => simp [Miner.listen] at htrue
  | cons x rest =>
    obtain ⟨t1, a1⟩ := x
    have hl := tryRead_length freshBuffer a1
    have hta := tryRead_take freshBuffer a1
    rw [hfl] at hl hta
    generalize hb1 : tryRead freshBuffer a1 = b1 at hl hta
    generalize hr : i1.recvMessage P b1 = r
    have hbasic := NoiseSession.recv_basic (P := P) i1 b1
    rw [hr] at hbasic
    obtain ⟨o, i2, out⟩ := r
    unfold Miner.listen at htrue
    rw [hb1] at htrue
    simp only [Miner.handle, hi1, recv, hr] at htrue
    cases o with
    | err e => simp [bind, Out.bind] at htrue
    | panic => simp [bind, Out.bind] at htrue
    | ok u =>
      simp only [bind, Out.bind, pure, Bool.false_eq_true, if_false, Option.toList, List.nil_append] at htrue
      have hr' := hr
      obtain ⟨hmid, _⟩ := send_first_ok hs1
      rw [hmid] at hr
      obtain ⟨_, rs, _, _, _, _, _, _, _, hdone⟩ := recv_second_ok hr
      obtain ⟨_, now, _, _, _, _, msg, cf, _, _, _, _, _, g6, g7⟩ :=
        listen_transport rs _ rest _ ⟨text, i2⟩ out (by rw [hdone]; rfl) (by rw [hdone]; rfl)
          (by rw [hdone]; exact Nat.le_refl 2) (by rw [hdone]; rfl) rfl rfl
          (by have := hbasic.len; simp only at this; omega) htrue
      exact ⟨t1, a1, rest, b1, i2, out, rs, now, msg, cf, rfl, ⟨hl, hta⟩, hr', by rw [hdone]; rfl, g6, g7⟩

/-- The miner of the example: if it ever prints `true`, its session is connected to one of the servers that the authority
whose key it has issued certificates for, or there was a forgery or a collision. -/
theorem C82_example (hA : AeadCorrect P) (hT : AeadTight P) (hD : DhLaws P)
    (issued : List SignedCertificate) (signed : List Bytes)
    (hsigned : ∀ b, b ∈ signed ↔ ∃ c ∈ issued, serialize c = .ok b)
    (servers : List (Arr 32 × List Answer)) (hg : ∀ s ∈ servers, ∀ a ∈ s.2, a.Genuine P s.1)
    (hissued : ∀ c ∈ issued, ∃ s ∈ servers, c.public_key = P.publicOf s.1)
    (text : String) (sI : Keypair) (eI : Arr 32) (i1 : NoiseSession) (w1 : Bytes) (arrivals : List (SystemTime × Bytes))
    (h1 : send P (Keypair.default P eI) (Miner.new P sI text).noise_session freshBuffer = .ok (i1, w1))
    (htrue : true ∈ (Miner.listen P E ⟨text, i1⟩ freshBuffer arrivals).1) :
    ∃ t1 a1 rest b1 i2 out rs, arrivals = (t1, a1) :: rest ∧ Holds b1 a1 ∧ i1.recvMessage P b1 = (.ok (), i2, out) ∧
      (Connected P servers [] i2 w1 b1 out rs ∨
      (∃ pk sig m, E.base58 text = some pk.toList ∧ Forges E pk signed m sig) ∨
      Impersonated P servers [] eI w1 b1) := by
  have hs1 : (NoiseSession.initSession P true [] sI).sendMessage P (Keypair.default P eI) freshBuffer =
      (.ok (), i1, w1) := by
    have h1 : send P (Keypair.default P eI) (NoiseSession.initSession P true [] sI) freshBuffer = .ok (i1, w1) := h1
    unfold send at h1
    split at h1
    · cases h1
      assumption
    · cases h1
  obtain ⟨t1, a1, rest, b1, i2, out, rs, now, m, cf, he, hh, hr, hk, hcf, hok⟩ :=
    listen_true P E text i1 sI (Keypair.default P eI) w1 hs1 arrivals htrue
  refine ⟨t1, a1, rest, b1, i2, out, rs, he, hh, hr, ?_⟩
  rcases C82_certified P E hA hT hD issued signed hsigned servers hg hissued [] sI eI freshBuffer w1 b1 out i1 i2 hs1 hr
    rs hk text m cf now hcf hok with h | ⟨pk, hpk, hf⟩ | h
  · exact .inl h
  · exact .inr (.inl ⟨pk, _, _, hpk, hf⟩)
  · exact .inr (.inr h)

/-- All the hypotheses of `C82_certified`: the server's only connection is the one with the client, and the authority
signed a certificate for it, which is checked at second 1003. -/
example : ∃ a : Answer, ∃ i1 i2 w1 w2 out, ∃ m : SignatureNoiseMessage toyScheme, ∃ cf,
    a.Genuine toyPrims (Arr.replicate 32 5) ∧
    (NoiseSession.initSession toyPrims true [1, 2] Keypair.empty).sendMessage toyPrims
      (Keypair.default toyPrims (Arr.replicate 32 3)) (List.replicate 50 8) = (.ok (), i1, w1) ∧
    i1.recvMessage toyPrims w2 = (.ok (), i2, out) ∧
    i2.getRemoteStaticPublicKey = some (toyPrims.publicOf (Arr.replicate 32 5)) ∧
    CertificateFormat.new "key" (toyPrims.publicOf (Arr.replicate 32 5)) m = .ok cf ∧
    cf.verify ⟨1003 * 1000000000⟩ = .ok () := by
  obtain ⟨i1, i2, r1, r2, out, h1, h2, h3, h4, _, _, _, _, _, _, h5, _⟩ := C38_handshake toyPrims toy_correct toy_dh
    [1, 2] Keypair.empty (Arr.replicate 32 3) (Arr.replicate 32 4) (Arr.replicate 32 5) (List.replicate 50 8)
    (List.replicate 100 9) (by decide) (by decide) (by decide) (by decide) _ rfl (toy_keysNonzero _)
  obtain ⟨_, _, _, _, m, cf, _, h6, h7, _⟩ := C32_honest toyScheme_laws (Arr.replicate 32 7 : Arr 32)
    ⟨0, 1000, 1005, toyPrims.publicOf (Arr.replicate 32 5)⟩ "key" (by decide) ⟨1003 * 1000000000⟩ (by decide)
  exact ⟨⟨[1, 2], Arr.replicate 32 4, _, List.replicate 100 9, _, r2⟩, i1, i2, _, _, out, m, cf, ⟨r1, _, h2, h3⟩, h1, h4,
    h5, h6, h7.2 (by decide)⟩

end SV2
