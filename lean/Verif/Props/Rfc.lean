import Verif.Lemmas.Crypto.Rfc
import Verif.Lemmas.Crypto.LowOrder
import Verif.Props.NoiseTransport
import Verif.Props.Network
/-!
# C68, C69: the real primitives

The laws that other theorems assume, proved for BLAKE2s, ChaCha20-Poly1305 and X25519 as the RFCs define them; what
follows for the handshake without assumptions on the primitives; the key values that cancel a secret key.
-/

namespace SV2
open Noise Crypto

set_option maxRecDepth 100000

/-! ## C68 -/

/-- Bytes written as one hexadecimal number. -/
def hexBytes (n v : Nat) : Bytes := (toLE n v).reverse
def hexKey (v : Nat) : Arr 32 := ⟨hexBytes 32 v, by simp [hexBytes, X25519.length_toLE]⟩

/-- The plaintext of the example in section 2.8.2 of RFC 8439. -/
def sunscreen : Bytes := strBytes "Ladies and Gentlemen of the class of '99: If I could offer you only one tip for the future, sunscreen would be it."

/-- The functions reproduce the test vectors of RFC 7693 (appendix B), RFC 7748 (5.2), and RFC 8439 (2.8.2), two more
values of BLAKE2s computed by another implementation (Python's hashlib), and the key pair that the documentation of types.rs (77, 499)
uses. -/
theorem C68_vectors :
    (rfc.hash [0x61, 0x62, 0x63]).toList =
      hexBytes 32 0x508c5e8c327c14e2e1a72ba34eeb452f37458b209ed63a294d999b4c86675982 ∧
    (rfc.hash ((List.range 64).map UInt8.ofNat)).toList =
      hexBytes 32 0x56f34e8b96557e90c1f24b52d0c89d51086acf1b00f634cf1dde9233b8eaaa3e ∧
    (rfc.hash ((List.range 200).map UInt8.ofNat)).toList =
      hexBytes 32 0x6d244e1a06ce4ef578dd0f63aff0936706735119ca9c8d22d86c801414ab9741 ∧
    rfc.dh (hexKey 0xa546e36bf0527c9d3b16154b82465edd62144c0ac1fc5a18506a2244ba449ac4)
      (hexKey 0xe6db6867583030db3594c1a424b15f7c726624ec26b3353b10a903a6d0ab1c4c) =
      hexKey 0xc3da55379de9c6908e94ea4df28d084f32eccf03491c71f754b4075577a28552 ∧
    rfc.dh (hexKey 0x4b66e9d4d1b4673c5ad22691957d6af5c11b6421e0ea01d42ca4169e7918ba0d)
      (hexKey 0xe5210f12786811d3f4b7959d0538ae2c31dbe7106fc03c3efc4cd549c715a493) =
      hexKey 0x95cbde9476e8907d7aade45cb4b873f88b595a68799fa152e6f8f7647aac7957 ∧
    rfc.publicOf (hexKey (9 * 256 ^ 31)) =
      hexKey 0x422c8e7a6227d7bca1350b3e2bb7279f7897b87bb6854b783c60e80311ae3079 ∧
    rfc.publicOf (hexKey 0x4a3acbfdb163dec651dfa3194dece676d437029c62a408b4c5ea9114246e4893) =
      hexKey 0x31e0303fd6418d2f8c0e78b91f22e8caed0fbe48656dcf4767e4834f701b8f62 ∧
    rfc.aeadSeal ⟨(List.range 32).map (fun i => UInt8.ofNat (i + 0x80)), rfl⟩
      ⟨[7, 0, 0, 0, 0x40, 0x41, 0x42, 0x43, 0x44, 0x45, 0x46, 0x47], rfl⟩
      [0x50, 0x51, 0x52, 0x53, 0xc0, 0xc1, 0xc2, 0xc3, 0xc4, 0xc5, 0xc6, 0xc7] sunscreen =
      (hexBytes 114 0xd31a8d34648e60db7b86afbc53ef7ec2a4aded51296e08fea9e2b5a736ee62d63dbea45e8ca9671282fafb69da92728b1a71de0a9e060b2905d6a5b67ecd3b3692ddbd7f2d778b8c9803aee328091b58fab324e4fad675945585808b4831d7bc3ff4def08e4b7a9de576d26586cec64b6116,
        ⟨hexBytes 16 0x1ae10b594f09e26a7e902ecbd0600691, rfl⟩) := by
  decide +kernel
/-- The laws that the theorems on sessions assume hold for these primitives. -/
theorem C68_laws : AeadCorrect rfc ∧ AeadTight rfc ∧ DhLaws rfc := ⟨rfc_correct, rfc_tight, rfc_dh⟩

/-- The handshake of two honest parties (C38), with no assumption on the primitives left but that the two keys
derived for the second message are not zero. -/
theorem C68_handshake (prologue : Bytes) (sI : Keypair) (eI eR sR : Arr 32) (buf1 buf2 : Bytes)
    (h1 : 48 ≤ buf1.length) (h1' : buf1.length ≤ 65535) (h2 : 96 ≤ buf2.length) (h2' : buf2.length ≤ 2128)
    (x : NX.Run) (hx : x = ⟨prologue, eI, eR, sR, buf1.drop 32, plain (buf2.drop 80)⟩) (hk : x.KeysNonzero rfc) :
    ∃ i1 i2 r1 r2 out,
      (NoiseSession.initSession rfc true prologue sI).sendMessage rfc (Keypair.default rfc eI) buf1 =
        (.ok (), i1, x.wire1 rfc) ∧
      (NoiseSession.initSession rfc false prologue (Keypair.default rfc sR)).recvMessage rfc (x.wire1 rfc) =
        (.ok (), r1, x.wire1 rfc) ∧
      r1.sendMessage rfc (Keypair.default rfc eR) buf2 = (.ok (), r2, x.wire2 rfc) ∧
      i1.recvMessage rfc (x.wire2 rfc) = (.ok (), i2, out) ∧
      plain (out.drop 80) = x.payload2 ∧ (out.drop 32).take 32 = (rfc.publicOf sR).toList ∧
      i2.isTransport = true ∧ r2.isTransport = true ∧
      i2.getHandshakeHash = some (x.hash rfc) ∧ r2.getHandshakeHash = some (x.hash rfc) ∧
      i2.getRemoteStaticPublicKey = some (rfc.publicOf sR) ∧ r2.getRemoteStaticPublicKey = some NX.zeros ∧
      Agreed i2 r2 (x.keys rfc) :=
  C38_handshake rfc rfc_correct rfc_dh prologue sI eI eR sR buf1 buf2 h1 h1' h2 h2' x hx hk

/-- A run with the keys of the documentation of types.rs. -/
def sampleRun : NX.Run where
  prologue := strBytes "John Galt"
  eI := hexKey 0x893e28b9dc6ca8d611ab664754b8ceb7bac5117349a4439a6b0569da977c464a
  eR := hexKey 0xbbdb4cdbd309f1a1f2e1456967fe288cadd6f712d65dc7b7793d5e63da6b375b
  sR := hexKey 0x4a3acbfdb163dec651dfa3194dece676d437029c62a408b4c5ea9114246e4893
  payload1 := strBytes "Ludwig von Mises"
  payload2 := strBytes "Murray Rothbard"

example : sampleRun.KeysNonzero rfc := by unfold NX.Run.KeysNonzero; decide +kernel

/-- In a session of two parties that finished a handshake, whatever the network does, each side accepts a prefix of
what the other sent, or one of the accepted messages is a forgery of ChaCha20-Poly1305 (C40). -/
theorem C68_transport (i r : NoiseSession) (keys : Arr 32 × Arr 32) (n1 n2 : UInt64) (h : InSync i r keys n1 n2)
    (acts : List Act) :
    let n := Net.run rfc { i := i, r := r } acts
    ((accepted n.gotR <+: n.sentI.map (·.1) ∧ acceptedWires n.gotR <+: n.sentI.map (·.2)) ∨
      ∃ j, ForgedAt rfc keys.1 n1.toNat n.sentI (acceptedWires n.gotR) j) ∧
    ((accepted n.gotI <+: n.sentR.map (·.1) ∧ acceptedWires n.gotI <+: n.sentR.map (·.2)) ∨
      ∃ j, ForgedAt rfc keys.2 n2.toNat n.sentR (acceptedWires n.gotI) j) ∧
    (Net.Faithful rfc { i := i, r := r } acts →
      (∀ g ∈ n.gotR, g.2.1 = .ok ()) ∧ (∀ g ∈ n.gotI, g.2.1 = .ok ()) ∧
      n.gotR.map (fun g => plain g.2.2) = (n.sentI.map (·.1)).take n.gotR.length ∧
      n.gotI.map (fun g => plain g.2.2) = (n.sentR.map (·.1)).take n.gotI.length) :=
  ⟨(C40_prefix_or_forged rfc rfc_correct i r keys n1 n2 h acts).1,
    (C40_prefix_or_forged rfc rfc_correct i r keys n1 n2 h acts).2,
    fun hf => C39_fifo rfc rfc_correct i r keys n1 n2 h acts hf⟩

/-- What an initiator accepts as the second message (C45). -/
theorem C68_initiator (initiator : Bool) (prologue : Bytes) (kp : Keypair) (eI : Arr 32) (buf1 w1 w2 : Bytes)
    (s1 : NoiseSession)
    (h1 : (NoiseSession.initSession rfc initiator prologue kp).sendMessage rfc (Keypair.default rfc eI) buf1 =
      (.ok (), s1, w1)) :
    (s1.recvMessage rfc w2).1 = .ok () ↔ ∃ (er rs : Arr 32) (payload : Bytes),
      leNat er.toList ∉ Curve.lowOrder ∧ leNat rs.toList ∉ Curve.lowOrder ∧ payload.length ≤ 2032 ∧
      (NX.afterEE rfc (rfc.dh eI er)).2 ≠ NX.zeros ∧
      (NX.afterES rfc (rfc.dh eI er) (rfc.dh eI rs)).2 ≠ NX.zeros ∧
      ∃ encS, encS = NX.encryptedStatic rfc prologue (w1.take 32) (w1.drop 32) er.toList (rfc.dh eI er) rs.toList ∧
      w2 = er.toList ++ encS ++ NX.encryptedPayload rfc prologue (w1.take 32) (w1.drop 32) er.toList encS
        (rfc.dh eI er) (rfc.dh eI rs) payload ∧
      (s1.recvMessage rfc w2).2.1.getRemoteStaticPublicKey = some rs ∧
      ((s1.recvMessage rfc w2).2.1.cs1.k, (s1.recvMessage rfc w2).2.1.cs2.k) =
        NX.transportKeys rfc (rfc.dh eI er) (rfc.dh eI rs) ∧
      plain ((s1.recvMessage rfc w2).2.2.drop 80) = payload :=
  C45_accepted_iff rfc rfc_correct rfc_tight initiator prologue kp eI buf1 w1 w2 s1 h1

/-- `rekey` does not compute `REKEY(k)` of the Noise specification (C56): not even for the key of zeros that a cleared
session has, where it installs the key on the right. -/
theorem C56_rfc :
    (CipherState.new.rekey rfc).k ≠ NX.zeros ∧
    (CipherState.new.rekey rfc).k.toList ≠ NX.rekey rfc CipherState.new.k := by decide +kernel

/-! ## C47: the list of refused keys -/

/-- The numbers below `2^256` whose residue is the coordinate of a point of order 1, 2, 4 or 8 are exactly the twelve
in the list. -/
theorem C47_complete (u : Nat) (h : u < 2 ^ 256) : Curve.LowOrder u ↔ u ∈ Curve.lowOrder :=
  LowOrder.lowOrder_iff_mem u h

/-- The keys that X25519 reads as such a point and that `PublicKey::from_bytes` still accepts are exactly seven. -/
theorem C47_accepted (k : Arr 32) : (publicKeyFromBytes k = .ok k ∧ Curve.LowOrder (Curve.coordinate k.toList)) ↔
    leNat k.toList ∈ [0, 1, Curve.u1, Curve.u2, Curve.p - 1, Curve.p, Curve.p + 1].map (2 ^ 255 + ·) := by
  have hlt : leNat k.toList < 2 ^ 256 := by
    rw [X25519.leNat_eq]
    have := fromLE_lt k.toList
    rw [k.len] at this
    exact this
  rw [(C47_from_bytes k).2]
  unfold Curve.coordinate
  generalize leNat k.toList = v at hlt
  constructor
  · rintro ⟨hn, hl⟩
    rw [C47_complete _ (by omega)] at hl
    have hv : v % 2 ^ 255 ≠ v := fun h => hn (h ▸ hl)
    have he : v = 2 ^ 255 + v % 2 ^ 255 := by omega
    have hw : v % 2 ^ 255 < 2 ^ 255 := by omega
    generalize v % 2 ^ 255 = w at hl he hw
    subst he
    exact List.mem_map.mpr ⟨w, (show ∀ w ∈ Curve.lowOrder, w < 2 ^ 255 →
      w ∈ [0, 1, Curve.u1, Curve.u2, Curve.p - 1, Curve.p, Curve.p + 1] by decide +kernel) w hl hw, rfl⟩
  · intro h
    clear hlt
    revert v
    decide +kernel

/-! ## C69: keys that cancel the secret -/

/-- Whatever the secret key, X25519 with a key read as a point of low order gives 32 zero bytes. -/
theorem C69_zero (secret k : Arr 32) (h : Curve.LowOrder (Curve.coordinate k.toList)) :
    rfc.dh secret k = NX.zeros := by
  rw [rfc_dh_eq]
  exact X25519.x25519_lowOrder secret k h

theorem zero_ee : NX.afterEE rfc NX.zeros =
    (hexKey 0x9cc8b75fed149ec52b5ed1ea535514f8c9b84cdc6767cf020f9bc19bd92c2162,
      hexKey 0x55f08190ad4e336ddd6fb1f07f6747364e22fdc2db3afd808a6e6908b16d3c1e) := by decide +kernel

theorem zero_es : NX.afterES rfc NX.zeros NX.zeros =
    (hexKey 0x5d1ae3737a4c83387a3414f19f620332059ec973d8d0a60fa27c795d46c69cb2,
      hexKey 0xb4920c601f2f6ea7bf01c265e30ce4298f9bc18fdd3057d191d23fa180ff5136) := by
  unfold NX.afterES
  rw [zero_ee]
  decide +kernel

/-- The two transport keys when both shared secrets are zero. -/
theorem C69_keys : NX.transportKeys rfc NX.zeros NX.zeros =
    (hexKey 0x93eb363cca31ea3d3892e400f4997e746323725512ced9661de2b83d9d95a934,
      hexKey 0x8b0d0db0d238d214d1be4df8989e3c6007174f7577c0a0b1369d0872cb27cba0) := by
  unfold NX.transportKeys
  rw [zero_es]
  decide +kernel

/-- With such a key both shared secrets are zero, and neither derived key is the empty key. -/
theorem zero_keys : (NX.afterEE rfc NX.zeros).2 ≠ NX.zeros ∧ (NX.afterES rfc NX.zeros NX.zeros).2 ≠ NX.zeros ∧
    (NX.transportKeys rfc NX.zeros NX.zeros).1 ≠ NX.zeros ∧
    (NX.transportKeys rfc NX.zeros NX.zeros).2 ≠ NX.zeros := by
  rw [zero_ee, zero_es, C69_keys]
  decide +kernel

/-- A second handshake message made from public values: the prologue, the first message, and two low-order keys. -/
def publicMessage2 (P : Prims) (prologue w1 : Bytes) (er rs : Arr 32) (payload : Bytes) : Bytes :=
  let encS := NX.encryptedStatic P prologue (w1.take 32) (w1.drop 32) er.toList NX.zeros rs.toList
  er.toList ++ encS ++
    NX.encryptedPayload P prologue (w1.take 32) (w1.drop 32) er.toList encS NX.zeros NX.zeros payload

section
variable {P : Prims}

/-- The first transport message of a session with given keys. -/
theorem send_done (initiator : Bool) (rs h : Arr 32) (keys : Arr 32 × Arr 32) (rnd : Keypair) (buf : Bytes)
    (hl : 16 ≤ buf.length) (hl' : buf.length ≤ 65535) (h1 : keys.1 ≠ NX.zeros) (h2 : keys.2 ≠ NX.zeros) :
    ((done initiator rs h keys 1).sendMessage P rnd buf).1 = .ok () ∧
    ((done initiator rs h keys 1).sendMessage P rnd buf).2.2 =
      NX.enc P (if initiator then keys.1 else keys.2) 0 [] (plain buf) := by
  have hcs : (done initiator rs h keys 1).sendCs = ⟨if initiator then keys.1 else keys.2, 0⟩ := by
    cases initiator <;> rfl
  rw [NoiseSession.send_transport rnd _ buf (by omega) (by show 2 ≤ 2; omega), hcs,
    CipherState.write_ok _ buf hl (show (0 : UInt64) ≠ MAX_NONCE by decide) (by
      cases initiator
      · exact h2
      · exact h1)]
  simp only
  rw [NoiseSession.count_ok _ _ (by cases initiator <;> (show 2 + 1 < 2 ^ 128; decide))]
  refine ⟨rfl, ?_⟩
  simp only [sealed_eq]
  rfl

theorem initiator_public (hA : AeadCorrect P) (initiator : Bool) (prologue : Bytes) (kp : Keypair) (eI : Arr 32)
    (buf1 w1 : Bytes) (s1 : NoiseSession)
    (h1 : (NoiseSession.initSession P initiator prologue kp).sendMessage P (Keypair.default P eI) buf1 =
      (.ok (), s1, w1)) (er rs : Arr 32) (payload : Bytes) (hl : payload.length ≤ 2032)
    (hf : er.toList ∉ forbiddenCurveValues) (hfs : rs.toList ∉ forbiddenCurveValues)
    (hee : P.dh eI er = NX.zeros) (hes : P.dh eI rs = NX.zeros)
    (hk1 : (NX.afterEE P NX.zeros).2 ≠ NX.zeros) (hk2 : (NX.afterES P NX.zeros NX.zeros).2 ≠ NX.zeros) :
    ∃ h out, s1.recvMessage P (publicMessage2 P prologue w1 er rs payload) =
      (.ok (), done initiator rs h (NX.transportKeys P NX.zeros NX.zeros) 1, out) := by
  obtain ⟨rfl, _⟩ := send_first_ok h1
  have := recv_second (P := P) hA initiator prologue kp (Keypair.default P eI) EMPTY er rs (w1.take 32)
    (w1.drop 32) payload hf hfs hl
    (by show (NX.afterEE P (P.dh eI er)).2 ≠ _; rw [hee]; exact hk1)
    (by show (NX.afterES P (P.dh eI er) (P.dh eI rs)).2 ≠ _; rw [hee, hes]; exact hk2)
  simp only [Keypair.default, hee, hes] at this ⊢
  exact ⟨_, _, this⟩

theorem responder_public (initiator : Bool) (prologue : Bytes) (sR eR : Arr 32) (k : Arr 32) (p1 buf2 : Bytes)
    (hp : 16 ≤ p1.length) (hp' : p1.length ≤ 65503) (h2 : 96 ≤ buf2.length) (h2' : buf2.length ≤ 65535)
    (hf : k.toList ∉ forbiddenCurveValues)
    (hee : P.dh eR k = NX.zeros) (hes : P.dh sR k = NX.zeros)
    (hk1 : (NX.afterEE P NX.zeros).2 ≠ NX.zeros) (hk2 : (NX.afterES P NX.zeros NX.zeros).2 ≠ NX.zeros) :
    ∃ s1 h, (NoiseSession.initSession P initiator prologue (Keypair.default P sR)).recvMessage P (k.toList ++ p1) =
        (.ok (), s1, k.toList ++ p1) ∧
      s1.sendMessage P (Keypair.default P eR) buf2 =
        (.ok (), done initiator EMPTY h (NX.transportKeys P NX.zeros NX.zeros) 1,
          publicMessage2 P prologue (k.toList ++ p1) (P.publicOf eR) (P.publicOf sR) (plain (buf2.drop 80))) := by
  have := send_second (P := P) initiator prologue (Keypair.default P sR) (Keypair.default P eR) k k.toList p1 buf2
    h2 h2'
    (by show (NX.afterEE P (P.dh eR k)).2 ≠ _; rw [hee]; exact hk1)
    (by show (NX.afterES P (P.dh eR k) (P.dh sR k)).2 ≠ _; rw [hee, hes]; exact hk2)
  simp only [Keypair.default, hee, hes] at this
  have hm := recv_first (P := P) initiator prologue (Keypair.default P sR) k p1 hp hp' hf
  have hpm : ∀ er rs p2, publicMessage2 P prologue (k.toList ++ p1) er rs p2 =
      er.toList ++ NX.encryptedStatic P prologue k.toList p1 er.toList NX.zeros rs.toList ++
      NX.encryptedPayload P prologue k.toList p1 er.toList
        (NX.encryptedStatic P prologue k.toList p1 er.toList NX.zeros rs.toList) NX.zeros NX.zeros p2 := by
    intro er rs p2
    unfold publicMessage2
    rw [List.take_left' k.len, List.drop_left' k.len]
  rw [hpm]
  exact ⟨_, _, hm, this⟩
end

/-- A keyless attacker in front of an initiator: from the prologue and the first message, with no secret at all, anyone
can make a second message that every initiator accepts, with any payload.  It then has the same two transport keys in
every such session, and encrypts its first message with one of them. -/
theorem C69_initiator (prologue : Bytes) (kp : Keypair) (eI : Arr 32) (buf1 w1 : Bytes) (s1 : NoiseSession)
    (h1 : (NoiseSession.initSession rfc true prologue kp).sendMessage rfc (Keypair.default rfc eI) buf1 =
      (.ok (), s1, w1)) (er rs : Arr 32)
    (her : publicKeyFromBytes er = .ok er ∧ Curve.LowOrder (Curve.coordinate er.toList))
    (hrs : publicKeyFromBytes rs = .ok rs ∧ Curve.LowOrder (Curve.coordinate rs.toList))
    (payload : Bytes) (hl : payload.length ≤ 2032) :
    let r := s1.recvMessage rfc (publicMessage2 rfc prologue w1 er rs payload)
    r.1 = .ok () ∧ r.2.1.isTransport = true ∧ r.2.1.getRemoteStaticPublicKey = some rs ∧
    (r.2.1.cs1.k, r.2.1.cs2.k) = NX.transportKeys rfc NX.zeros NX.zeros ∧
    ∀ rnd buf, 16 ≤ buf.length → buf.length ≤ 65535 →
      (r.2.1.sendMessage rfc rnd buf).1 = .ok () ∧
      (r.2.1.sendMessage rfc rnd buf).2.2 = NX.enc rfc (NX.transportKeys rfc NX.zeros NX.zeros).1 0 [] (plain buf) := by
  have hf : ∀ k : Arr 32, publicKeyFromBytes k = .ok k → k.toList ∉ forbiddenCurveValues := fun k h hm =>
    ((C47_from_bytes k).2.mp h) ((forbidden_iff k).mp hm)
  obtain ⟨h, out, hr⟩ := initiator_public rfc_correct true prologue kp eI buf1 w1 s1 h1 er rs payload hl
    (hf er her.1) (hf rs hrs.1) (C69_zero eI er her.2) (C69_zero eI rs hrs.2) zero_keys.1 zero_keys.2.1
  intro r
  have hr' : r = _ := hr
  clear_value r
  subst hr'
  exact ⟨rfl, rfl, rfl, rfl, fun rnd buf hl hl' =>
    send_done true rs h _ rnd buf hl hl' zero_keys.2.2.1 zero_keys.2.2.2⟩

/-- The same in front of a responder: after a first message with such a key, the second message and both transport keys
do not depend on the secret keys of the responder, and anyone who saw the two messages can compute them. -/
theorem C69_responder (prologue : Bytes) (sR eR k : Arr 32) (p1 buf2 : Bytes)
    (hp : 16 ≤ p1.length) (hp' : p1.length ≤ 65503) (h2 : 96 ≤ buf2.length) (h2' : buf2.length ≤ 65535)
    (hk : publicKeyFromBytes k = .ok k ∧ Curve.LowOrder (Curve.coordinate k.toList)) :
    ∃ s1 s2, (NoiseSession.initSession rfc false prologue (Keypair.default rfc sR)).recvMessage rfc (k.toList ++ p1) =
        (.ok (), s1, k.toList ++ p1) ∧
      s1.sendMessage rfc (Keypair.default rfc eR) buf2 = (.ok (), s2,
        publicMessage2 rfc prologue (k.toList ++ p1) (rfc.publicOf eR) (rfc.publicOf sR) (plain (buf2.drop 80))) ∧
      s2.isTransport = true ∧ (s2.cs1.k, s2.cs2.k) = NX.transportKeys rfc NX.zeros NX.zeros ∧
      ∀ rnd buf, 16 ≤ buf.length → buf.length ≤ 65535 →
        (s2.sendMessage rfc rnd buf).1 = .ok () ∧
        (s2.sendMessage rfc rnd buf).2.2 = NX.enc rfc (NX.transportKeys rfc NX.zeros NX.zeros).2 0 [] (plain buf) := by
  have hf : k.toList ∉ forbiddenCurveValues := fun hm => ((C47_from_bytes k).2.mp hk.1) ((forbidden_iff k).mp hm)
  obtain ⟨s1, h, hr, hs⟩ := responder_public (P := rfc) false prologue sR eR k p1 buf2 hp hp' h2 h2' hf
    (C69_zero eR k hk.2) (C69_zero sR k hk.2) zero_keys.1 zero_keys.2.1
  exact ⟨s1, _, hr, hs, rfl, rfl, fun rnd buf hl hl' =>
    send_done false EMPTY h _ rnd buf hl hl' zero_keys.2.2.1 zero_keys.2.2.2⟩

/-- Zero with the top bit set: such a key exists. -/
example : let k : Arr 32 := ⟨List.replicate 31 0 ++ [0x80], rfl⟩
    publicKeyFromBytes k = .ok k ∧ Curve.LowOrder (Curve.coordinate k.toList) := by decide +kernel

end SV2
