import Verif.Lemmas.Noise.Step
/-!
# The handshake of the code is the NX handshake of the specification
-/

namespace SV2.Noise
variable {P : Prims}

theorem hmac_eq (k : Arr 32) (d : Bytes) : hmac P k d = NX.hmac P k d := by
  have h : ∀ pad : UInt8, hmacPad pad k = (k.toList ++ List.replicate 32 0).map (· ^^^ pad) := by
    intro pad
    simp only [hmacPad, List.map_append, List.map_replicate]
    congr 1
    · apply List.map_congr_left
      intro a _
      exact UInt8.xor_comm _ _
    · simp
  simp only [hmac, NX.hmac, h]

theorem hkdf_eq (ck : Arr 32) (d : Bytes) : hkdf2 P ck d = NX.hkdf P ck d := by
  simp [hkdf2, NX.hkdf, hmac_eq]

theorem zeros_eq : NX.zeros = EMPTY := rfl

theorem name_eq : protocolName = NX.name.toUTF8.data.toList := by decide

theorem initializeSymmetric_eq : SymmetricState.initializeSymmetric P protocolName =
    ⟨⟨EMPTY, 0⟩, NX.h0 P, NX.h0 P⟩ := by
  unfold SymmetricState.initializeSymmetric
  rw [dif_neg (by decide)]
  simp only [NX.h0, ← name_eq]
  rfl

theorem transcript_snoc (l : List Bytes) (d : Bytes) :
    NX.transcript P (l ++ [d]) = P.hash ((NX.transcript P l).toList ++ d) := by
  simp [NX.transcript, List.foldl_append]

theorem init_ss (prologue : Bytes) (s : Keypair) (psk : Arr 32) :
    (HandshakeState.init P prologue s psk).ss = ⟨⟨EMPTY, 0⟩, NX.h0 P, NX.transcript P [prologue]⟩ := by
  simp only [HandshakeState.init, initializeSymmetric_eq]
  rfl

/-- The fresh handshake state. -/
theorem init_eq (prologue : Bytes) (s : Keypair) : HandshakeState.init P prologue s EMPTY =
    ⟨⟨⟨EMPTY, 0⟩, NX.h0 P, NX.transcript P [prologue]⟩, s, Keypair.empty, EMPTY, EMPTY, EMPTY⟩ := by
  have := init_ss (P := P) prologue s EMPTY
  unfold HandshakeState.init at *
  simp only at this ⊢
  rw [this]

/-- The session after the first message: `h` covers the prologue, the key and the payload. -/
def mid (P : Prims) (initiator : Bool) (prologue : Bytes) (s e : Keypair) (re : Arr 32) (ei p1 : Bytes) :
    NoiseSession :=
  { hs := ⟨⟨⟨EMPTY, 0⟩, NX.h0 P, NX.transcript P [prologue, ei, p1]⟩, s, e, EMPTY, re, EMPTY⟩
    h := EMPTY, cs1 := ⟨EMPTY, 0⟩, cs2 := ⟨EMPTY, 0⟩, mc := 1, i := initiator, is_transport := false }

/-- Sending the first message. -/
theorem send_first (initiator : Bool) (prologue : Bytes) (s rnd : Keypair) (b : Bytes)
    (h1 : 32 ≤ b.length) (h2 : b.length ≤ 65535) :
    (NoiseSession.initSession P initiator prologue s).sendMessage P rnd b =
      (.ok (), mid P initiator prologue s rnd EMPTY rnd.public_key.toList (b.drop 32),
        rnd.public_key.toList ++ b.drop 32) := by
  rw [NoiseSession.send_zero rnd _ b (by omega) rfl, HandshakeState.writeA_ok rnd _ b h1]
  have : ((NoiseSession.initSession P initiator prologue s).hs.useE rnd) =
      { (NoiseSession.initSession P initiator prologue s).hs with e := rnd } := rfl
  rw [this]
  simp only [NoiseSession.initSession, init_eq]
  rfl

/-- Receiving the first message. -/
theorem recv_first (initiator : Bool) (prologue : Bytes) (s : Keypair) (re : Arr 32) (p1 : Bytes)
    (h1 : 16 ≤ p1.length) (h2 : p1.length ≤ 65503) (hf : re.toList ∉ forbiddenCurveValues) :
    (NoiseSession.initSession P initiator prologue s).recvMessage P (re.toList ++ p1) =
      (.ok (), mid P initiator prologue s Keypair.empty re re.toList p1, re.toList ++ p1) := by
  have hl := re.len
  have ht : (re.toList ++ p1).take 32 = re.toList := by simp [hl]
  have hd : (re.toList ++ p1).drop 32 = p1 := by simp [hl]
  rw [NoiseSession.recv_zero _ _ (by simp [hl]; omega) rfl,
    HandshakeState.readA_ok _ _ (by simp [hl]; omega) (by rw [ht]; exact hf)]
  have hfirst : first32 (re.toList ++ p1) (by simp [hl]) = re := by
    apply arr_ext
    exact ht
  simp only [hfirst, ht, hd]
  simp only [NoiseSession.initSession, init_eq]
  rfl

/-- The session in transport mode, right after the handshake. -/
def done (initiator : Bool) (rs : Arr 32) (h : Arr 32) (keys : Arr 32 × Arr 32) (ssn : UInt64) :
    NoiseSession :=
  { hs := ⟨⟨⟨EMPTY, ssn⟩, EMPTY, h⟩, Keypair.empty, Keypair.empty, rs, EMPTY, EMPTY⟩
    h := h, cs1 := ⟨keys.1, 0⟩, cs2 := ⟨keys.2, 0⟩, mc := 2, i := initiator, is_transport := true }

section
variable (prologue : Bytes) (s e : Keypair) (re : Arr 32) (ei p1 : Bytes) (i : Bool)

/-- The keys `k1`, `k2` and the ciphertexts of the second message, for a writer with these values. -/
theorem wrA_mid : ((mid P i prologue s e re ei p1).hs.wrA P).ss =
    ⟨⟨(NX.afterEE P (P.dh e.private_key re)).2, 0⟩, (NX.afterEE P (P.dh e.private_key re)).1,
      NX.transcript P [prologue, ei, p1, e.public_key.toList]⟩ := by
  have := transcript_snoc (P := P) [prologue, ei, p1] e.public_key.toList
  simp only [List.cons_append, List.nil_append] at this
  simp only [HandshakeState.wrA, mid, SymmetricState.mixKey, hkdf_eq, this]
  rfl

theorem wrS_mid : (mid P i prologue s e re ei p1).hs.wrS P =
    NX.encryptedStatic P prologue ei p1 e.public_key.toList (P.dh e.private_key re) s.public_key.toList := by
  simp only [HandshakeState.wrS, wrA_mid, sealed_eq]
  rfl

theorem wrB_mid : ((mid P i prologue s e re ei p1).hs.wrB P).ss =
    ⟨⟨(NX.afterES P (P.dh e.private_key re) (P.dh s.private_key re)).2, 0⟩,
      (NX.afterES P (P.dh e.private_key re) (P.dh s.private_key re)).1,
      NX.transcript P [prologue, ei, p1, e.public_key.toList,
        (mid P i prologue s e re ei p1).hs.wrS P]⟩ := by
  have := transcript_snoc (P := P) [prologue, ei, p1, e.public_key.toList]
    ((mid P i prologue s e re ei p1).hs.wrS P)
  simp only [List.cons_append, List.nil_append] at this
  simp only [HandshakeState.wrB, wrA_mid, SymmetricState.mixKey, hkdf_eq, this]
  rfl

theorem wrP_mid (p2 : Bytes) : (mid P i prologue s e re ei p1).hs.wrP P p2 =
    NX.encryptedPayload P prologue ei p1 e.public_key.toList ((mid P i prologue s e re ei p1).hs.wrS P)
      (P.dh e.private_key re) (P.dh s.private_key re) p2 := by
  simp only [HandshakeState.wrP, wrB_mid, sealed_eq]
  rfl

theorem wrSS_mid (p2 : Bytes) : (mid P i prologue s e re ei p1).hs.wrSS P p2 =
    ⟨⟨(NX.afterES P (P.dh e.private_key re) (P.dh s.private_key re)).2, 1⟩,
      (NX.afterES P (P.dh e.private_key re) (P.dh s.private_key re)).1,
      NX.transcript P [prologue, ei, p1, e.public_key.toList,
        (mid P i prologue s e re ei p1).hs.wrS P, (mid P i prologue s e re ei p1).hs.wrP P p2]⟩ := by
  have := transcript_snoc (P := P) [prologue, ei, p1, e.public_key.toList,
    (mid P i prologue s e re ei p1).hs.wrS P] ((mid P i prologue s e re ei p1).hs.wrP P p2)
  simp only [List.cons_append, List.nil_append] at this
  simp only [HandshakeState.wrSS, wrB_mid, this]

end

/-- Sending the second message, with an ephemeral key made on the spot. -/
theorem send_second (i : Bool) (prologue : Bytes) (s rnd : Keypair) (re : Arr 32) (ei p1 b : Bytes)
    (h1 : 96 ≤ b.length) (h2 : b.length ≤ 65535)
    (hk1 : (NX.afterEE P (P.dh rnd.private_key re)).2 ≠ NX.zeros)
    (hk2 : (NX.afterES P (P.dh rnd.private_key re) (P.dh s.private_key re)).2 ≠ NX.zeros) :
    let ee := P.dh rnd.private_key re
    let es := P.dh s.private_key re
    let er := rnd.public_key.toList
    let encS := NX.encryptedStatic P prologue ei p1 er ee s.public_key.toList
    let encP := NX.encryptedPayload P prologue ei p1 er encS ee es (body (b.drop 80))
    (mid P i prologue s Keypair.empty re ei p1).sendMessage P rnd b =
      (.ok (), done i EMPTY (NX.transcript P [prologue, ei, p1, er, encS, encP])
        (NX.transportKeys P ee es) 1, er ++ encS ++ encP) := by
  intro ee es er encS encP
  rw [NoiseSession.send_one rnd _ b (by omega) rfl]
  have hE : (mid P i prologue s Keypair.empty re ei p1).hs.useE rnd = (mid P i prologue s rnd re ei p1).hs :=
    rfl
  have hA := wrA_mid (P := P) prologue s rnd re ei p1 i
  have hS := wrS_mid (P := P) prologue s rnd re ei p1 i
  have hB := wrB_mid (P := P) prologue s rnd re ei p1 i
  have hP := wrP_mid (P := P) prologue s rnd re ei p1 i (body (b.drop 80))
  have hSS := wrSS_mid (P := P) prologue s rnd re ei p1 i (body (b.drop 80))
  rcases HandshakeState.writeB_cases (P := P) rnd (mid P i prologue s Keypair.empty re ei p1).hs b with
    ⟨hl, h⟩ | ⟨_, hl, b', hb, h⟩ | ⟨_, hk, b', hb, h⟩ | ⟨_, hl, _, b', hb, h⟩ | ⟨_, _, hk, b', hb, h⟩ |
    ⟨hl, _, _, h⟩
  · omega
  · omega
  · rw [hE, hA] at hk
    exact absurd hk hk1
  · omega
  · rw [hE, hB] at hk
    exact absurd hk hk2
  · rw [h]
    simp only [hE, hSS, hP, hS]
    simp only [SymmetricState.split, hkdf_eq]
    rfl

/-! ### Reading -/

section
variable (prologue : Bytes) (s e : Keypair) (re0 re : Arr 32) (ei p1 : Bytes) (i : Bool)

theorem rdA_mid : ((mid P i prologue s e re0 ei p1).hs.rdA P re).ss =
    ⟨⟨(NX.afterEE P (P.dh e.private_key re)).2, 0⟩, (NX.afterEE P (P.dh e.private_key re)).1,
      NX.transcript P [prologue, ei, p1, re.toList]⟩ := by
  have := transcript_snoc (P := P) [prologue, ei, p1] re.toList
  simp only [List.cons_append, List.nil_append] at this
  simp only [HandshakeState.rdA, mid, SymmetricState.mixKey, hkdf_eq, this]
  rfl

theorem rdB_mid (encS : Bytes) (rs : Arr 32) :
    ((mid P i prologue s e re0 ei p1).hs.rdB P re encS rs).ss =
    ⟨⟨(NX.afterES P (P.dh e.private_key re) (P.dh e.private_key rs)).2, 0⟩,
      (NX.afterES P (P.dh e.private_key re) (P.dh e.private_key rs)).1,
      NX.transcript P [prologue, ei, p1, re.toList, encS]⟩ := by
  have := transcript_snoc (P := P) [prologue, ei, p1, re.toList] encS
  simp only [List.cons_append, List.nil_append] at this
  simp only [HandshakeState.rdB, HandshakeState.rdS, rdA_mid, SymmetricState.mixKey, hkdf_eq, this]
  rfl

theorem rdSS_mid (encS : Bytes) (rs : Arr 32) (encP : Bytes) :
    (mid P i prologue s e re0 ei p1).hs.rdSS P re encS rs encP =
    ⟨⟨(NX.afterES P (P.dh e.private_key re) (P.dh e.private_key rs)).2, 1⟩,
      (NX.afterES P (P.dh e.private_key re) (P.dh e.private_key rs)).1,
      NX.transcript P [prologue, ei, p1, re.toList, encS, encP]⟩ := by
  have := transcript_snoc (P := P) [prologue, ei, p1, re.toList, encS] encP
  simp only [List.cons_append, List.nil_append] at this
  simp only [HandshakeState.rdSS, rdB_mid, this]

end

theorem enc_length (k : Arr 32) (n : Nat) (ad p : Bytes) : (NX.enc P k n ad p).length = p.length + 16 := by
  simp [NX.enc, P.seal_length, (P.aeadSeal k (NX.nonce n) ad p).2.len]

theorem body_enc (k : Arr 32) (n : Nat) (ad p : Bytes) :
    body (NX.enc P k n ad p) = (P.aeadSeal k (NX.nonce n) ad p).1 := body_append _ _

theorem tagArr_enc (k : Arr 32) (n : Nat) (ad p : Bytes) (h : 16 ≤ (NX.enc P k n ad p).length) :
    CipherState.tagArr (NX.enc P k n ad p) h = (P.aeadSeal k (NX.nonce n) ad p).2 := by
  apply arr_ext
  exact tag_append _ _

theorem prepNonce_zero : prepNonce 0 = NX.nonce 0 := prepNonce_eq 0

/-- The static key that a genuine second message carries decrypts. -/
theorem openS_mid (hA : AeadCorrect P) (i : Bool) (prologue : Bytes) (s e : Keypair) (re0 re rs : Arr 32)
    (ei p1 rest : Bytes) (hk1 : (NX.afterEE P (P.dh e.private_key re)).2 ≠ NX.zeros) (b : Bytes)
    (hb : b = re.toList ++
      NX.encryptedStatic P prologue ei p1 re.toList (P.dh e.private_key re) rs.toList ++ rest)
    (h : 80 ≤ b.length) :
    (mid P i prologue s e re0 ei p1).hs.openS P b h = some rs.toList := by
  have hfirst : first32 b (by omega) = re := by
    apply arr_ext
    show b.take 32 = _
    rw [hb, List.append_assoc]
    simp [re.len]
  have hS : HandshakeState.partS b =
      NX.encryptedStatic P prologue ei p1 re.toList (P.dh e.private_key re) rs.toList := by
    unfold HandshakeState.partS
    rw [hb, List.append_assoc, List.drop_append_of_le_length (by rw [re.len]; omega)]
    rw [List.drop_of_length_le (by rw [re.len]; omega), List.nil_append, List.take_append_of_le_length]
    · rw [List.take_of_length_le]
      unfold NX.encryptedStatic
      rw [enc_length, rs.len]; omega
    · unfold NX.encryptedStatic
      rw [enc_length, rs.len]; omega
  unfold HandshakeState.openS
  simp only [hfirst, rdA_mid]
  rw [if_neg (by exact hk1)]
  have hbody : body (HandshakeState.partS b) = (P.aeadSeal (NX.afterEE P (P.dh e.private_key re)).2
      (NX.nonce 0) (NX.transcript P [prologue, ei, p1, re.toList]).toList rs.toList).1 := by
    rw [hS]; exact body_enc _ _ _ _
  have htag : ∀ h, CipherState.tagArr (HandshakeState.partS b) h =
      (P.aeadSeal (NX.afterEE P (P.dh e.private_key re)).2
      (NX.nonce 0) (NX.transcript P [prologue, ei, p1, re.toList]).toList rs.toList).2 := by
    intro h
    apply arr_ext
    show tag (HandshakeState.partS b) = _
    rw [hS]; exact tag_append _ _
  rw [hbody, htag, prepNonce_zero]
  exact hA _ _ _ _

/-- Receiving the second message that a responder made. -/
theorem recv_second (hA : AeadCorrect P) (i : Bool) (prologue : Bytes) (s e : Keypair) (re0 re rs : Arr 32)
    (ei p1 p2 : Bytes) (hre : re.toList ∉ forbiddenCurveValues) (hrs : rs.toList ∉ forbiddenCurveValues)
    (hl : p2.length ≤ 2032)
    (hk1 : (NX.afterEE P (P.dh e.private_key re)).2 ≠ NX.zeros)
    (hk2 : (NX.afterES P (P.dh e.private_key re) (P.dh e.private_key rs)).2 ≠ NX.zeros) :
    let ee := P.dh e.private_key re
    let es := P.dh e.private_key rs
    let encS := NX.encryptedStatic P prologue ei p1 re.toList ee rs.toList
    let encP := NX.encryptedPayload P prologue ei p1 re.toList encS ee es p2
    (mid P i prologue s e re0 ei p1).recvMessage P (re.toList ++ encS ++ encP) =
      (.ok (), done i rs (NX.transcript P [prologue, ei, p1, re.toList, encS, encP])
        (NX.transportKeys P ee es) 1,
        re.toList ++ (rs.toList ++ tag encS) ++ (p2 ++ tag encP)) := by
  intro ee es encS encP
  have hlS : encS.length = 48 := by
    show (NX.encryptedStatic P prologue ei p1 re.toList ee rs.toList).length = _
    unfold NX.encryptedStatic
    rw [enc_length, rs.len]
  have hlP : encP.length = p2.length + 16 := enc_length _ _ _ _
  generalize hb : re.toList ++ encS ++ encP = b
  have hbl : b.length = 80 + encP.length := by rw [← hb]; simp [re.len, hlS]; omega
  have htake : b.take 32 = re.toList := by
    rw [← hb, List.append_assoc]
    simp [re.len]
  have hfirst : ∀ h, first32 b h = re := by
    intro h
    apply arr_ext
    exact htake
  have hS : HandshakeState.partS b = encS := by
    unfold HandshakeState.partS
    rw [← hb, List.append_assoc, List.drop_append_of_le_length (by rw [re.len]; omega)]
    rw [List.drop_of_length_le (by rw [re.len]; omega), List.nil_append,
      List.take_append_of_le_length (by omega), List.take_of_length_le (by omega)]
  have hP : b.drop 80 = encP := by
    rw [← hb]
    exact List.drop_left' (by simp [re.len, hlS])
  have hoS : ∀ h, (mid P i prologue s e re0 ei p1).hs.openS P b h = some rs.toList :=
    openS_mid hA i prologue s e re0 re rs ei p1 encP hk1 b hb.symm
  have hoP : ∀ h, (mid P i prologue s e re0 ei p1).hs.openP P b h rs = some p2 := by
    intro h
    unfold HandshakeState.openP
    simp only [hfirst, hS, rdB_mid]
    rw [if_neg (by exact hk2)]
    have hbody : body (b.drop 80) = (P.aeadSeal (NX.afterES P ee es).2
        (NX.nonce 0) (NX.transcript P [prologue, ei, p1, re.toList, encS]).toList p2).1 := by
      rw [hP]; exact body_enc _ _ _ _
    have htag : ∀ h, CipherState.tagArr (b.drop 80) h = (P.aeadSeal (NX.afterES P ee es).2
        (NX.nonce 0) (NX.transcript P [prologue, ei, p1, re.toList, encS]).toList p2).2 := by
      intro h
      apply arr_ext
      show tag (b.drop 80) = _
      rw [hP]; exact tag_append _ _
    rw [hbody, htag, prepNonce_zero]
    exact hA _ _ _ _
  rw [NoiseSession.recv_one _ b (by omega) rfl]
  rcases HandshakeState.readB_cases (P := P) (mid P i prologue s e re0 ei p1).hs b with ⟨h, _⟩ |
    ⟨_, hf, _⟩ | ⟨_, _, h, _⟩ | ⟨h, _, _, ho, _⟩ | ⟨_, p, _, ho, hf, _⟩ | ⟨_, p, _, _, ho, _, h, _⟩ |
    ⟨_, p, hp, _, _, ho, _, _, hq, _⟩ | ⟨_, p, hp, q, _, ho, _, _, hq, h⟩
  · omega
  · rw [htake] at hf
    exact absurd hf hre
  · omega
  · rw [hoS] at ho
    cases ho
  · rw [hoS] at ho
    cases ho
    exact absurd hf hrs
  · omega
  · rw [hoS] at ho
    cases ho
    have : HandshakeState.rsOf rs.toList hp = rs := rfl
    rw [this, hoP] at hq
    cases hq
  · rw [hoS] at ho
    cases ho
    have : HandshakeState.rsOf rs.toList hp = rs := rfl
    rw [this, hoP] at hq
    cases hq
    rw [h]
    simp only [hfirst, hS, hP, htake, this, rdSS_mid]
    simp only [SymmetricState.split, hkdf_eq]
    rfl

end SV2.Noise
