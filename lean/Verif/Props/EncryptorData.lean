import Verif.Props.EncryptorHistory
import Verif.Props.Authentication
/-!
# C84: what travels through connection encryptors
-/

namespace SV2
open Noise

variable (P : Prims)

/-- Two encryptors that hand every result of `recv_handshake` to the other one: `b` gets `wire` first.  The results of the
calls until one fails, at most as many as there are key pairs, and the encryptors afterwards: the one whose turn it is, and
the other. -/
def volley (a b : ConnectionEncryptor) (wire : Bytes) :
    List Keypair → List Bytes × ConnectionEncryptor × ConnectionEncryptor
  | [] => ([], b, a)
  | rnd :: rnds =>
    match b.recvHandshake P rnd wire with
    | (.ok v, b', _) => (v :: (volley b' a v rnds).1, (volley b' a v rnds).2)
    | (_, b', _) => ([], b', a)

variable {P}

/-- One call on a session in transport mode that gets a message made for it. -/
theorem recvHandshake_transport (hA : AeadCorrect P) (s : NoiseSession) (rnd : Keypair) (k k' : Arr 32) (n n' : UInt64)
    (p : Bytes) (hm : 2 ≤ s.mc) (hmax : s.mc + 2 < 2 ^ 128) (hr : s.recvCs = ⟨k, n⟩) (hs : s.sendCs = ⟨k', n'⟩)
    (hk : k ≠ NX.zeros) (hk' : k' ≠ NX.zeros) (hn : n ≠ MAX_NONCE) (hn' : n' ≠ MAX_NONCE) (hp : p.length + 16 ≤ 65535) :
    ∃ s', (⟨s⟩ : ConnectionEncryptor).recvHandshake P rnd (NX.enc P k n.toNat [] p) =
        (.ok (NX.enc P k' n'.toNat [] p), ⟨s'⟩, NX.enc P k' n'.toNat [] p) ∧
      s'.mc = s.mc + 2 ∧ s'.recvCs = ⟨k, n + 1⟩ ∧ s'.sendCs = ⟨k', n' + 1⟩ ∧ s'.i = s.i := by
  have hl := enc_length (P := P) k n.toNat [] p
  have hread : (s.recvMessage P (NX.enc P k n.toNat [] p)) =
      (.ok (), { s.setRecv ⟨k, n + 1⟩ with mc := s.mc + 1 }, p ++ tag (NX.enc P k n.toNat [] p)) := by
    rw [NoiseSession.recv_transport s _ (by omega) (by omega), hr, CipherState.read_eq _ _ (by omega),
      body_enc, tagArr_enc _ _ _ _ (by omega),
      CipherState.decrypt_some _ _ _ p _ hn hk (by rw [prepNonce_eq]; exact hA _ _ _ _)]
    simp only
    rw [NoiseSession.count_ok _ _ (by simp; omega)]
    simp
  have htl := tag_length (b := NX.enc P k n.toNat [] p) (by omega)
  have hplain : body (p ++ tag (NX.enc P k n.toNat [] p)) = p := by
    unfold body
    rw [List.length_append, htl, Nat.add_sub_cancel]
    exact List.take_left' rfl
  generalize hs1 : ({ s.setRecv ⟨k, n + 1⟩ with mc := s.mc + 1 } : NoiseSession) = s1 at hread
  have h1m : s1.mc = s.mc + 1 := by rw [← hs1]
  have h1i : s1.i = s.i := by rw [← hs1]; simp
  have h1r : s1.recvCs = ⟨k, n + 1⟩ := by
    rw [← hs1]
    rcases hi : s.i with _ | _ <;> simp [NoiseSession.recvCs, NoiseSession.setRecv, hi]
  have h1s : s1.sendCs = ⟨k', n'⟩ := by
    rw [← hs1, ← hs]
    rcases hi : s.i with _ | _ <;> simp [NoiseSession.sendCs, NoiseSession.setRecv, hi]
  have hsend : s1.sendMessage P rnd (p ++ tag (NX.enc P k n.toNat [] p)) =
      (.ok (), { s1.setSend ⟨k', n' + 1⟩ with mc := s1.mc + 1 }, NX.enc P k' n'.toNat [] p) := by
    rw [NoiseSession.send_transport rnd s1 _ (by simp [htl]; omega) (by omega), h1s,
      CipherState.write_ok _ _ (by simp [htl]) hn' hk', hplain]
    simp only
    rw [NoiseSession.count_ok _ _ (by simp; omega)]
    simp [sealed_eq]
  refine ⟨{ s1.setSend ⟨k', n' + 1⟩ with mc := s1.mc + 1 }, ?_, ?_, ?_, ?_, ?_⟩
  · simp only [ConnectionEncryptor.recvHandshake, hread, hsend]
  · simp [h1m]
  · rw [← h1r]
    rcases hi : s1.i with _ | _ <;> simp [NoiseSession.recvCs, NoiseSession.setSend, hi]
  · rcases hi : s1.i with _ | _ <;> simp [NoiseSession.sendCs, NoiseSession.setSend, hi]
  · simp [h1i]

/-- One side waits for a message, the other one has just sent it. -/
structure Waiting (a b : NoiseSession) (k k' : Arr 32) (n n' : UInt64) : Prop where
  mc : 2 ≤ a.mc ∧ 2 ≤ b.mc
  recv : b.recvCs = ⟨k, n⟩
  send : b.sendCs = ⟨k', n'⟩
  recv' : a.recvCs = ⟨k', n'⟩
  send' : a.sendCs = ⟨k, n + 1⟩

theorem volley_ok (hA : AeadCorrect P) (p : Bytes) (hp : p.length + 16 ≤ 65535) (rnds : List Keypair) :
    ∀ (a b : NoiseSession) (k k' : Arr 32) (n n' : UInt64), Waiting a b k k' n n' → k ≠ NX.zeros → k' ≠ NX.zeros →
      n.toNat + rnds.length / 2 + 1 < 2 ^ 64 → n'.toNat + (rnds.length + 1) / 2 < 2 ^ 64 →
      a.mc + 2 * rnds.length < 2 ^ 128 → b.mc + 2 * rnds.length < 2 ^ 128 →
      (volley P ⟨a⟩ ⟨b⟩ (NX.enc P k n.toNat [] p) rnds).1 = (List.range rnds.length).map fun j =>
        if j % 2 = 0 then NX.enc P k' (n'.toNat + j / 2) [] p else NX.enc P k (n.toNat + 1 + j / 2) [] p := by
  induction rnds with
  | nil => intros; rfl
  | cons rnd rnds ih =>
    intro a b k k' n n' w hk hk' h1 h2 h3 h4
    simp only [List.length_cons] at h1 h2 h3 h4
    have hn : n ≠ MAX_NONCE := by
      intro h; rw [h, MAX_NONCE_toNat] at h1; omega
    have hn' : n' ≠ MAX_NONCE := by
      intro h; rw [h, MAX_NONCE_toNat] at h2; omega
    obtain ⟨b', hb, hm, hr, hs, _⟩ := recvHandshake_transport hA b rnd k k' n n' p w.mc.2 (by omega) w.recv w.send hk hk'
      hn hn' hp
    have e1 : (n + 1).toNat = n.toNat + 1 := toNat_succ hn
    have e2 : (n' + 1).toNat = n'.toNat + 1 := toNat_succ hn'
    have := ih b' a k' k n' (n + 1) ⟨⟨by omega, w.mc.1⟩, w.recv', w.send', hr, hs⟩ hk' hk (by omega) (by omega)
      (by omega) (by omega)
    simp only [volley, hb, this, List.length_cons, List.range_succ_eq_map, List.map_cons, List.map_map]
    congr 1
    apply List.map_congr_left
    intro j _
    simp only [Function.comp, e1]
    by_cases hj : j % 2 = 0
    · rw [if_pos hj, if_neg (by omega)]
      congr 1; omega
    · rw [if_neg hj, if_pos (by omega)]
      congr 1; omega

variable (P)

/-- A server's encryptor answers a first message: the payload that it encrypts is the received message without its
first 80 and its last 16 bytes, whatever that message was. -/
theorem C84_answer (s rnd unused : Keypair) (given : Bool) (wire v : Bytes)
    (h : ((if given then ConnectionEncryptor.newInbound P unused (some s)
      else ConnectionEncryptor.newInbound P s none).recvHandshake P rnd wire).1 = .ok v) :
    ∃ ei : Arr 32, ei.toList = wire.take 32 ∧
      ∃ encS, encS = NX.encryptedStatic P [] (wire.take 32) (wire.drop 32) rnd.public_key.toList
          (P.dh rnd.private_key ei) s.public_key.toList ∧
        v = rnd.public_key.toList ++ encS ++ NX.encryptedPayload P [] (wire.take 32) (wire.drop 32)
          rnd.public_key.toList encS (P.dh rnd.private_key ei) (P.dh s.private_key ei) (plain (wire.drop 80)) := by
  have hinb : (if given then ConnectionEncryptor.newInbound P unused (some s)
      else ConnectionEncryptor.newInbound P s none) = ⟨NoiseSession.initSession P false [] s⟩ := by
    cases given <;> rfl
  rw [hinb] at h
  simp only [ConnectionEncryptor.recvHandshake] at h
  rcases hr : (NoiseSession.initSession P false [] s).recvMessage P wire with ⟨r, s1, b⟩
  rw [hr] at h
  rcases r with _ | _ | _
  · simp only at h
    obtain ⟨ei, hei, hf, rfl, h48, hmax⟩ := recv_first_ok hr
    have hb : b = wire := by
      have := recv_first (P := P) false [] s ei (wire.drop 32) (by simp; omega) (by simp; omega) hf
      rw [hei, List.take_append_drop, hr] at this
      exact congrArg (·.2.2) this
    rcases hs : (mid P false [] s Keypair.empty ei (wire.take 32) (wire.drop 32)).sendMessage P rnd b with ⟨r, s2, w⟩
    rw [hs] at h
    rcases r with _ | _ | _
    · simp only at h
      cases h
      obtain ⟨encS, he, hw⟩ := send_second_wire P hs
      rw [chosen_empty] at he hw
      subst hb
      exact ⟨ei, hei, encS, he, hw⟩
    · cases h
    · cases h
  · cases h
  · cases h

/-- An honest client gets back what it sent: the payload of the server's answer is the client's own first message, so
that the server cannot send anything, such as a certificate, in its handshake message. -/
theorem C84_echo (hA : AeadCorrect P) (hD : DhLaws P) (sI : Keypair) (eI eR sR : Arr 32) (unused : Keypair)
    (given : Bool) (buf : Bytes) (h1 : 96 ≤ buf.length) (h2 : buf.length ≤ 2128) (x : NX.Run)
    (hx : x = ⟨[], eI, eR, sR, buf.drop 32, plain (buf.drop 80)⟩) (hk : x.KeysNonzero P) :
    ∃ i1 i2 inb out,
      (newNoiseInitiator P sI).sendMessage P (Keypair.default P eI) buf = (.ok (), i1, x.wire1 P) ∧
      (if given then ConnectionEncryptor.newInbound P unused (some (Keypair.default P sR))
        else ConnectionEncryptor.newInbound P (Keypair.default P sR) none).recvHandshake P
          (Keypair.default P eR) (x.wire1 P) = (.ok (x.wire2 P), inb, x.wire2 P) ∧
      i1.recvMessage P (x.wire2 P) = (.ok (), i2, out) ∧ plain (out.drop 80) = plain (buf.drop 80) ∧
      Agreed i2 inb.noise_session (x.keys P) := by
  have hinb : (if given then ConnectionEncryptor.newInbound P unused (some (Keypair.default P sR))
      else ConnectionEncryptor.newInbound P (Keypair.default P sR) none) =
      ⟨NoiseSession.initSession P false [] (Keypair.default P sR)⟩ := by
    cases given <;> rfl
  rw [hinb]
  have hw : x.wire1 P = (P.publicOf eI).toList ++ buf.drop 32 := by subst hx; rfl
  have hl : (x.wire1 P).length = buf.length := by
    rw [hw, List.length_append, Arr.len, List.length_drop]; omega
  have hd : (x.wire1 P).drop 80 = buf.drop 80 := by
    rw [hw, List.drop_append, List.drop_of_length_le (by rw [Arr.len]; omega), Arr.len, List.drop_drop, List.nil_append]
  obtain ⟨i1, i2, r1, r2, o, e1, e2, e3, e4, hp, -, -, -, -, -, -, -, hag⟩ :=
    C38_handshake P hA hD [] sI eI eR sR buf (x.wire1 P) (by omega) (by omega) (by omega) (by omega) x
      (by rw [hd]; exact hx) hk
  refine ⟨i1, i2, ⟨r2⟩, o, e1, ?_, e4, ?_, hag⟩
  · simp only [ConnectionEncryptor.recvHandshake, e2, e3]
  · rw [hp, hx]

/-- What `recv_handshake` gives to its caller once the first message is behind: never what it has read, always a
transport message for the other side that contains it, sealed with the session's own sending key. -/
theorem C84_sealed (c : ConnectionEncryptor) (rnd : Keypair) (wire v : Bytes) (hc : 1 ≤ c.noise_session.getMessageCount)
    (h : (c.recvHandshake P rnd wire).1 = .ok v) :
    ∃ s out, c.noise_session.recvMessage P wire = (.ok (), s, out) ∧ (c.recvHandshake P rnd wire).2.2 = v ∧
      v = NX.enc P (if s.i then s.cs1 else s.cs2).k (if s.i then s.cs1 else s.cs2).n.toNat [] (plain out) := by
  have hb := NoiseSession.recv_basic (P := P) c.noise_session wire
  simp only [ConnectionEncryptor.recvHandshake] at h ⊢
  rcases hr : c.noise_session.recvMessage P wire with ⟨r, s, out⟩
  rw [hr] at h hb
  rcases r with _ | _ | _
  · simp only at h ⊢
    refine ⟨s, out, rfl, ?_⟩
    have hm : 2 ≤ s.mc := by
      have := hb.mc
      simp [Out.isOk] at this
      simp only [NoiseSession.getMessageCount] at hc
      omega
    rcases NoiseSession.send_cases (P := P) rnd s out hm with ⟨_, _, _, _, hs⟩ | ⟨e, hs⟩
    · rcases NoiseSession.count_cases (s.setSend ⟨s.sendCs.k, s.sendCs.n + 1⟩)
        (CipherState.sealed P s.sendCs.k s.sendCs.n [] (body out)) with ⟨_, hcnt⟩ | ⟨_, hcnt⟩
      · rw [hcnt] at hs
        rw [hs] at h ⊢
        simp only at h ⊢
        have := Out.ok.inj h
        refine ⟨this, ?_⟩
        rw [← this, sealed_eq]
        rfl
      · rw [hcnt] at hs
        rw [hs] at h
        cases h
    · rw [hs] at h
      cases h
  · cases h
  · cases h

/-- After the handshake of two encryptors, every result of `recv_handshake` handed to the other side is accepted, and
answered, for ever: nonces go up, the plaintext stays what it was. -/
theorem C84_volley (hA : AeadCorrect P) (i2 out2 r : NoiseSession) (keys : Arr 32 × Arr 32) (rnd : Keypair)
    (buf z : Bytes) (hag : Agreed i2 r keys) (hs : i2.sendMessage P rnd buf = (.ok (), out2, z))
    (hk2 : keys.2 ≠ NX.zeros) (rnds : List Keypair) (hn : rnds.length < 2 ^ 64) :
    z = NX.enc P keys.1 0 [] (plain buf) ∧
    (volley P ⟨out2⟩ ⟨r⟩ z rnds).1 = (List.range rnds.length).map fun j =>
      if j % 2 = 0 then NX.enc P keys.2 (j / 2) [] (plain buf) else NX.enc P keys.1 (1 + j / 2) [] (plain buf) := by
  have hm : i2.mc = 2 := hag.count.1
  have hmr : r.mc = 2 := hag.count.2
  have hsc : i2.sendCs = ⟨keys.1, 0⟩ := by
    simp only [NoiseSession.sendCs, hag.roles.1, if_true]
    exact hag.initiator.1
  have hic : i2.recvCs = ⟨keys.2, 0⟩ := by
    simp only [NoiseSession.recvCs, hag.roles.1, if_true]
    exact hag.initiator.2
  have hrc : r.recvCs = ⟨keys.1, 0⟩ := by
    simp only [NoiseSession.recvCs, hag.roles.2]
    exact hag.responder.1
  have hrs : r.sendCs = ⟨keys.2, 0⟩ := by
    simp only [NoiseSession.sendCs, hag.roles.2]
    exact hag.responder.2
  rcases NoiseSession.send_cases (P := P) rnd i2 buf (by omega) with ⟨h16, hl, _, hk, hr⟩ | ⟨e, hr⟩
  · rw [NoiseSession.count_ok _ _ (by simp; omega), hs] at hr
    simp only [Prod.mk.injEq, true_and, hsc] at hr
    obtain ⟨ho2, hz⟩ := hr
    rw [sealed_eq] at hz
    rw [hsc] at hk
    refine ⟨hz, ?_⟩
    have hw : Waiting out2 r keys.1 keys.2 0 0 := by
      refine ⟨⟨by rw [ho2]; simp; omega, by omega⟩, hrc, hrs, ?_, ?_⟩
      · rw [ho2, ← hic]
        rcases hi : i2.i with _ | _ <;> simp [NoiseSession.recvCs, NoiseSession.setSend, hi]
      · rw [ho2]
        rcases hi : i2.i with _ | _ <;> simp [NoiseSession.sendCs, NoiseSession.setSend, hi]
    have h0 : (0 : UInt64).toNat = 0 := rfl
    have := volley_ok hA (plain buf) (by simp [plain]; omega) rnds out2 r keys.1 keys.2 0 0 hw hk hk2
      (by rw [h0]; omega) (by rw [h0]; omega) (by rw [ho2]; simp; omega) (by omega)
    rw [hz]
    simp only [h0, Nat.zero_add] at this ⊢
    exact this
  · rw [hs] at hr
    cases hr

/-! Concrete, with the toy primitives: a client that sends 100 bytes of value 9 gets a payload of four 9s back, and five
calls of a volley succeed. -/

example : let buf : Bytes := List.replicate 100 9
    let x : NX.Run := ⟨[], (toyPair 1).private_key, (toyPair 2).private_key, (toyPair 3).private_key, buf.drop 32,
      plain (buf.drop 80)⟩
    AeadCorrect toyPrims ∧ DhLaws toyPrims ∧ x.KeysNonzero toyPrims ∧ plain (buf.drop 80) = [9, 9, 9, 9] ∧
    ((ConnectionEncryptor.newInbound toyPrims (toyPair 3) none).recvHandshake toyPrims (toyPair 2)
      (x.wire1 toyPrims)).1 = .ok (x.wire2 toyPrims) :=
  ⟨toy_correct, toy_dh, toy_keysNonzero _, by decide +kernel, by decide +kernel⟩

example : let z := (toyI.sendMessage toyPrims Keypair.empty (List.replicate 32 7)).2.2
    let o := (toyI.sendMessage toyPrims Keypair.empty (List.replicate 32 7)).2.1
    Agreed toyI toyR (Arr.replicate 32 3, Arr.replicate 32 4) ∧
    toyI.sendMessage toyPrims Keypair.empty (List.replicate 32 7) = (.ok (), o, z) ∧
    (volley toyPrims ⟨o⟩ ⟨toyR⟩ z (List.replicate 5 Keypair.empty)).1.length = 5 ∧
    1 ≤ toyR.getMessageCount ∧
    ((⟨toyR⟩ : ConnectionEncryptor).recvHandshake toyPrims Keypair.empty z).1 =
      .ok (NX.enc toyPrims (Arr.replicate 32 4) 0 [] (List.replicate 16 7)) :=
  ⟨toy_inSync, by decide +kernel, by decide +kernel, by decide +kernel, by decide +kernel⟩

end SV2
