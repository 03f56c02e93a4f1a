import Verif.Lemmas.Noise.Accepted
import Verif.Spec.Toy
/-!
# C38, C44: the handshake
-/

namespace SV2
open Noise

variable (P : Prims)

/-! ## C38 -/

/-- Two honest parties that follow the pattern complete the handshake: the messages on the wire are those of
`Noise_NX_25519_ChaChaPoly_BLAKE2s`, both sides end in transport mode with the same hash and the same keys, the
initiator has the responder's static key and reads its payload. -/
theorem C38_handshake (hA : AeadCorrect P) (hD : DhLaws P) (prologue : Bytes) (sI : Keypair)
    (eI eR sR : Arr 32) (buf1 buf2 : Bytes) (h1 : 48 ≤ buf1.length) (h1' : buf1.length ≤ 65535)
    (h2 : 96 ≤ buf2.length) (h2' : buf2.length ≤ 2128) (x : NX.Run)
    (hx : x = ⟨prologue, eI, eR, sR, buf1.drop 32, plain (buf2.drop 80)⟩) (hk : x.KeysNonzero P) :
    ∃ i1 i2 r1 r2 out,
      (NoiseSession.initSession P true prologue sI).sendMessage P (Keypair.default P eI) buf1 =
        (.ok (), i1, x.wire1 P) ∧
      (NoiseSession.initSession P false prologue (Keypair.default P sR)).recvMessage P (x.wire1 P) =
        (.ok (), r1, x.wire1 P) ∧
      r1.sendMessage P (Keypair.default P eR) buf2 = (.ok (), r2, x.wire2 P) ∧
      i1.recvMessage P (x.wire2 P) = (.ok (), i2, out) ∧
      plain (out.drop 80) = x.payload2 ∧ (out.drop 32).take 32 = (P.publicOf sR).toList ∧
      i2.isTransport = true ∧ r2.isTransport = true ∧
      i2.getHandshakeHash = some (x.hash P) ∧ r2.getHandshakeHash = some (x.hash P) ∧
      i2.getRemoteStaticPublicKey = some (P.publicOf sR) ∧ r2.getRemoteStaticPublicKey = some NX.zeros ∧
      Agreed i2 r2 (x.keys P) := by
  subst hx
  have hee : P.dh eI (P.publicOf eR) = P.dh eR (P.publicOf eI) := hD.comm _ _
  have hes : P.dh eI (P.publicOf sR) = P.dh sR (P.publicOf eI) := hD.comm _ _
  have hb : body (buf2.drop 80) = plain (buf2.drop 80) := rfl
  refine ⟨mid P true prologue sI (Keypair.default P eI) EMPTY (P.publicOf eI).toList (buf1.drop 32),
    done true (P.publicOf sR) (NX.Run.hash P ⟨prologue, eI, eR, sR, buf1.drop 32, plain (buf2.drop 80)⟩)
      (NX.Run.keys P ⟨prologue, eI, eR, sR, buf1.drop 32, plain (buf2.drop 80)⟩) 1,
    mid P false prologue (Keypair.default P sR) Keypair.empty (P.publicOf eI) (P.publicOf eI).toList
      (buf1.drop 32),
    done false EMPTY (NX.Run.hash P ⟨prologue, eI, eR, sR, buf1.drop 32, plain (buf2.drop 80)⟩)
      (NX.Run.keys P ⟨prologue, eI, eR, sR, buf1.drop 32, plain (buf2.drop 80)⟩) 1,
    (P.publicOf eR).toList ++ ((P.publicOf sR).toList ++
        tag (NX.Run.encS P ⟨prologue, eI, eR, sR, buf1.drop 32, plain (buf2.drop 80)⟩)) ++
      (plain (buf2.drop 80) ++ tag (NX.Run.encP P ⟨prologue, eI, eR, sR, buf1.drop 32, plain (buf2.drop 80)⟩)),
    ?_, ?_, ?_, ?_, ?_, ?_, rfl, rfl, rfl, rfl, rfl, rfl, ⟨⟨rfl, rfl⟩, ⟨rfl, rfl⟩, ⟨rfl, rfl⟩, ⟨rfl, rfl⟩⟩⟩
  · exact send_first true prologue sI (Keypair.default P eI) buf1 (by omega) h1'
  · exact recv_first false prologue (Keypair.default P sR) (P.publicOf eI) (buf1.drop 32) (by simp; omega)
      (by simp; omega) (hD.public_ok _)
  · exact send_second false prologue (Keypair.default P sR) (Keypair.default P eR) (P.publicOf eI)
      (P.publicOf eI).toList (buf1.drop 32) buf2 h2 (by omega) hk.1 hk.2
  · have := recv_second (P := P) hA true prologue sI (Keypair.default P eI) EMPTY (P.publicOf eR)
      (P.publicOf sR) (P.publicOf eI).toList (buf1.drop 32) (plain (buf2.drop 80)) (hD.public_ok _)
      (hD.public_ok _) (by simp [plain]; omega)
      (by show (NX.afterEE P (P.dh eI (P.publicOf eR))).2 ≠ _; rw [hee]; exact hk.1)
      (by show (NX.afterES P (P.dh eI (P.publicOf eR)) (P.dh eI (P.publicOf sR))).2 ≠ _
          rw [hee, hes]; exact hk.2)
    simp only [Keypair.default, hee, hes] at this
    exact this
  · have hl : ((P.publicOf sR).toList ++
        tag (NX.Run.encS P ⟨prologue, eI, eR, sR, buf1.drop 32, plain (buf2.drop 80)⟩)).length = 48 := by
      rw [List.length_append,
        tag_length (by unfold NX.Run.encS NX.encryptedStatic; rw [enc_length]; omega), Arr.len]
    rw [drop_three (Arr.len _) hl]
    have hb : ∀ p b : Bytes, 16 ≤ b.length → plain (p ++ tag b) = p := by
      intro p b h
      unfold plain
      rw [List.length_append, tag_length h, Nat.add_sub_cancel]
      exact List.take_left' rfl
    apply hb
    unfold NX.Run.encP NX.encryptedPayload
    rw [enc_length]; omega
  · rw [List.append_assoc, List.drop_left' (Arr.len _), List.append_assoc, List.take_left' (Arr.len _)]

example (x : NX.Run) : AeadCorrect toyPrims ∧ DhLaws toyPrims ∧ x.KeysNonzero toyPrims :=
  ⟨toy_correct, toy_dh, toy_keysNonzero x⟩

/-- Buffers of 32 to 47 bytes are accepted for the first message, but no peer accepts what is sent. -/
theorem C38_short_first_message (initiator : Bool) (prologue : Bytes) (kp kp' : Keypair) (e : Arr 32) (buf : Bytes)
    (h : 32 ≤ buf.length ∧ buf.length < 48) :
    ∃ s w, (NoiseSession.initSession P initiator prologue kp).sendMessage P (Keypair.default P e) buf =
        (.ok (), s, w) ∧
      ∀ i' prologue', let peer := NoiseSession.initSession P i' prologue' kp'
        peer.recvMessage P w = (.err .missingreError, peer, w) := by
  refine ⟨_, _, send_first initiator prologue kp (Keypair.default P e) buf h.1 (by omega), ?_⟩
  intro i' prologue' peer
  have hl : ((Keypair.default P e).public_key.toList ++ buf.drop 32).length = buf.length := by
    simp [Arr.len]; omega
  rw [NoiseSession.recv_zero _ _ (by omega) rfl, HandshakeState.readA_short _ _ (by omega)]

/-- A responder may send a second message of up to 65535 bytes, but one above 2128 makes every honest initiator panic
(C43). -/
theorem C38_long_second_message (hA : AeadCorrect P) (hD : DhLaws P) (prologue : Bytes) (sI : Keypair)
    (eI eR sR : Arr 32) (buf1 buf2 : Bytes) (h1 : 48 ≤ buf1.length) (h1' : buf1.length ≤ 65535)
    (h2 : 2128 < buf2.length) (h2' : buf2.length ≤ 65535) (x : NX.Run)
    (hx : x = ⟨prologue, eI, eR, sR, buf1.drop 32, plain (buf2.drop 80)⟩) (hk : x.KeysNonzero P) :
    ∃ i1 r1 r2,
      (NoiseSession.initSession P true prologue sI).sendMessage P (Keypair.default P eI) buf1 =
        (.ok (), i1, x.wire1 P) ∧
      (NoiseSession.initSession P false prologue (Keypair.default P sR)).recvMessage P (x.wire1 P) =
        (.ok (), r1, x.wire1 P) ∧
      r1.sendMessage P (Keypair.default P eR) buf2 = (.ok (), r2, x.wire2 P) ∧ r2.isTransport = true ∧
      (i1.recvMessage P (x.wire2 P)).1 = .panic := by
  subst hx
  have hee : P.dh eI (P.publicOf eR) = P.dh eR (P.publicOf eI) := hD.comm _ _
  refine ⟨_, _, _, send_first true prologue sI (Keypair.default P eI) buf1 (by omega) h1',
    recv_first false prologue (Keypair.default P sR) (P.publicOf eI) (buf1.drop 32) (by simp; omega)
      (by simp; omega) (hD.public_ok _),
    send_second false prologue (Keypair.default P sR) (Keypair.default P eR) (P.publicOf eI)
      (P.publicOf eI).toList (buf1.drop 32) buf2 (by omega) (by omega) hk.1 hk.2, rfl, ?_⟩
  generalize hw : NX.Run.wire2 P ⟨prologue, eI, eR, sR, buf1.drop 32, plain (buf2.drop 80)⟩ = w
  have hlS : (NX.Run.encS P ⟨prologue, eI, eR, sR, buf1.drop 32, plain (buf2.drop 80)⟩).length = 48 := by
    simp [NX.Run.encS, NX.encryptedStatic, enc_length, Arr.len]
  have hlP : (NX.Run.encP P ⟨prologue, eI, eR, sR, buf1.drop 32, plain (buf2.drop 80)⟩).length =
      buf2.length - 80 := by
    simp [NX.Run.encP, NX.encryptedPayload, enc_length, plain]; omega
  have hl : w.length = buf2.length := by
    rw [← hw]
    simp [NX.Run.wire2, hlS, hlP, NX.Run.er, Arr.len]; omega
  have htake : w.take 32 = (P.publicOf eR).toList := by
    rw [← hw]; exact take_three (Arr.len _)
  have ho : ∀ h, (mid P true prologue sI (Keypair.default P eI) EMPTY (Keypair.default P eI).public_key.toList
      (buf1.drop 32)).hs.openS P w h = some (P.publicOf sR).toList := by
    intro h
    refine openS_mid hA true prologue sI (Keypair.default P eI) EMPTY (P.publicOf eR) (P.publicOf sR) _ _
      (NX.Run.encP P ⟨prologue, eI, eR, sR, buf1.drop 32, plain (buf2.drop 80)⟩) ?_ w ?_ h
    · show (NX.afterEE P (P.dh eI (P.publicOf eR))).2 ≠ _
      rw [hee]; exact hk.1
    · rw [← hw]
      simp only [Keypair.default, hee]
      rfl
  rw [NoiseSession.recv_one _ w (by omega) rfl]
  rcases HandshakeState.readB_cases (P := P) (mid P true prologue sI (Keypair.default P eI) EMPTY
      (Keypair.default P eI).public_key.toList (buf1.drop 32)).hs w with ⟨h, _⟩ |
    ⟨_, hf, _⟩ | ⟨_, _, h, _⟩ | ⟨h, _, _, ho', _⟩ | ⟨_, p, _, ho', hf, _⟩ | ⟨_, p, _, _, ho', _, h, _, _, hr⟩ |
    ⟨_, p, hp, _, _, ho', _, h, hq, _⟩ | ⟨_, p, hp, q, _, ho', _, h, hq, _⟩
  · omega
  · rw [htake] at hf
    exact absurd hf (hD.public_ok _)
  · omega
  · rw [ho] at ho'
    cases ho'
  · rw [ho] at ho'
    cases ho'
    exact absurd hf (hD.public_ok _)
  · rw [hr]
  · omega
  · omega

/-! ## C44 -/

/-- Whatever the peer or the network did: after two successful handshake calls on a new session, its hash is the hash
of the prologue and of the two messages as they were on the wire. -/
theorem C44_hash (initiator : Bool) (prologue : Bytes) (kp : Keypair) (op1 op2 : Op) (w1 w2 : Bytes)
    (s1 s2 : NoiseSession) (out1 out2 : Bytes)
    (h1 : op1.exec P (NoiseSession.initSession P initiator prologue kp) = (.ok (), s1, out1))
    (h2 : op2.exec P s1 = (.ok (), s2, out2))
    (hw1 : op1.wire P (NoiseSession.initSession P initiator prologue kp) = some w1)
    (hw2 : op2.wire P s1 = some w2) :
    s2.getHandshakeHash = some (NX.transcript P (NX.parts prologue w1 w2)) := by
  have hmid : ∃ e re, s1 = mid P initiator prologue kp e re (w1.take 32) (w1.drop 32) := by
    cases op1 with
    | send secret buf =>
      simp only [Op.exec] at h1
      simp only [Op.wire, Option.some.injEq, h1] at hw1
      subst hw1
      exact ⟨_, _, (send_first_ok h1).1⟩
    | recv buf =>
      simp only [Op.exec] at h1
      simp only [Op.wire, Option.some.injEq] at hw1
      subst hw1
      obtain ⟨re, _, _, h, _⟩ := recv_first_ok h1
      exact ⟨_, _, h⟩
    | _ => cases hw1
  obtain ⟨e, re, rfl⟩ := hmid
  cases op2 with
  | send secret buf =>
    simp only [Op.exec] at h2
    simp only [Op.wire, Option.some.injEq, h2] at hw2
    subst hw2
    rw [(send_second_ok h2).1]
    rfl
  | recv buf =>
    simp only [Op.exec] at h2
    simp only [Op.wire, Option.some.injEq] at hw2
    subst hw2
    obtain ⟨_, _, _, _, _, _, _, _, _, h⟩ := recv_second_ok h2
    rw [h]
    rfl
  | _ => cases hw2

theorem transcript_binding_aux (ds ds' : List Bytes) (hl : ds.length = ds'.length) (h h' : Arr 32)
    (he : ds.foldl (fun h d => P.hash (h.toList ++ d)) h = ds'.foldl (fun h d => P.hash (h.toList ++ d)) h') :
    (h = h' ∧ ds = ds') ∨ NX.Collision P (NX.hashInputs P h ds) (NX.hashInputs P h' ds') := by
  induction ds generalizing ds' h h' with
  | nil =>
    cases ds' with
    | nil => exact .inl ⟨he, rfl⟩
    | cons _ _ => simp at hl
  | cons d ds ih =>
    cases ds' with
    | nil => simp at hl
    | cons d' ds' =>
      rcases ih ds' (by simpa using hl) _ _ he with ⟨hh, hd⟩ | ⟨x, hx, y, hy, hc⟩
      · by_cases heq : h.toList ++ d = h'.toList ++ d'
        · have := List.append_inj heq (by rw [h.len, h'.len])
          exact .inl ⟨arr_ext this.1, by rw [this.2, hd]⟩
        · exact .inr ⟨_, List.mem_cons_self .., _, List.mem_cons_self .., heq, hh⟩
      · exact .inr ⟨x, List.mem_cons_of_mem _ hx, y, List.mem_cons_of_mem _ hy, hc⟩

/-- Equal handshake hashes bind the prologue and both messages: if two sessions, at any two parties, end up with the
same hash, they saw the same prologue and the same messages, byte for byte, or the twelve hash inputs of the two
handshakes contain a collision of BLAKE2s. -/
theorem C44_binding (initiator initiator' : Bool) (prologue prologue' : Bytes) (kp kp' : Keypair)
    (op1 op2 op1' op2' : Op) (w1 w2 w1' w2' : Bytes) (s1 s2 s1' s2' : NoiseSession) (o1 o2 o1' o2' : Bytes)
    (h1 : op1.exec P (NoiseSession.initSession P initiator prologue kp) = (.ok (), s1, o1))
    (h2 : op2.exec P s1 = (.ok (), s2, o2))
    (hw1 : op1.wire P (NoiseSession.initSession P initiator prologue kp) = some w1)
    (hw2 : op2.wire P s1 = some w2)
    (h1' : op1'.exec P (NoiseSession.initSession P initiator' prologue' kp') = (.ok (), s1', o1'))
    (h2' : op2'.exec P s1' = (.ok (), s2', o2'))
    (hw1' : op1'.wire P (NoiseSession.initSession P initiator' prologue' kp') = some w1')
    (hw2' : op2'.wire P s1' = some w2')
    (he : s2.getHandshakeHash = s2'.getHandshakeHash) :
    (prologue = prologue' ∧ w1 = w1' ∧ w2 = w2') ∨
    NX.Collision P (NX.hashInputs P (NX.h0 P) (NX.parts prologue w1 w2))
      (NX.hashInputs P (NX.h0 P) (NX.parts prologue' w1' w2')) := by
  rw [C44_hash P initiator prologue kp op1 op2 w1 w2 s1 s2 o1 o2 h1 h2 hw1 hw2,
    C44_hash P initiator' prologue' kp' op1' op2' w1' w2' s1' s2' o1' o2' h1' h2' hw1' hw2'] at he
  have he := Option.some.inj he
  unfold NX.transcript at he
  rcases transcript_binding_aux P (NX.parts prologue w1 w2) (NX.parts prologue' w1' w2') rfl (NX.h0 P) (NX.h0 P)
    he with ⟨_, hp⟩ | hc
  · left
    simp only [NX.parts, List.cons.injEq, and_true] at hp
    obtain ⟨hp, ha, hb, hc, hd, he⟩ := hp
    refine ⟨hp, ?_, ?_⟩
    · rw [← List.take_append_drop 32 w1, ha, hb, List.take_append_drop]
    · have hsplit : ∀ w : Bytes, w = w.take 32 ++ ((w.drop 32).take 48 ++ w.drop 80) := by
        intro w
        have : w.drop 80 = (w.drop 32).drop 48 := by simp [List.drop_drop]
        rw [this, List.take_append_drop, List.take_append_drop]
      rw [hsplit w2, hsplit w2', hc, hd, he]
  · exact .inr hc

/-- A session for which two calls succeed, as C44 requires. -/
example :
    let s0 := NoiseSession.initSession toyPrims true [] Keypair.empty
    let op1 := Op.send (Arr.replicate 32 3) (List.replicate 48 0)
    let op2 := Op.send (Arr.replicate 32 4) (List.replicate 96 0)
    let s1 := (op1.exec toyPrims s0).2.1
    (op1.exec toyPrims s0).1 = .ok () ∧ (op2.exec toyPrims s1).1 = .ok () ∧
    (op1.wire toyPrims s0).isSome = true ∧ (op2.wire toyPrims s1).isSome = true := by decide +kernel

/-! ## C45: what the initiator has checked -/

/-- After its first message an initiator accepts a second message exactly when it is the message of the specification
for some ephemeral key, some static key (neither of low order) and some payload of at most 2032 bytes: encrypted and
authenticated under keys that require the shared secrets with that ephemeral and that static key.  It then reports
that static key and has the transport keys of the specification. -/
theorem C45_accepted_iff (hA : AeadCorrect P) (hT : AeadTight P) (initiator : Bool) (prologue : Bytes) (kp : Keypair)
    (eI : Arr 32) (buf1 w1 w2 : Bytes) (s1 : NoiseSession)
    (h1 : (NoiseSession.initSession P initiator prologue kp).sendMessage P (Keypair.default P eI) buf1 =
      (.ok (), s1, w1)) :
    (s1.recvMessage P w2).1 = .ok () ↔ ∃ (er rs : Arr 32) (payload : Bytes),
      leNat er.toList ∉ Curve.lowOrder ∧ leNat rs.toList ∉ Curve.lowOrder ∧ payload.length ≤ 2032 ∧
      (NX.afterEE P (P.dh eI er)).2 ≠ NX.zeros ∧
      (NX.afterES P (P.dh eI er) (P.dh eI rs)).2 ≠ NX.zeros ∧
      ∃ encS, encS = NX.encryptedStatic P prologue (w1.take 32) (w1.drop 32) er.toList (P.dh eI er) rs.toList ∧
      w2 = er.toList ++ encS ++ NX.encryptedPayload P prologue (w1.take 32) (w1.drop 32) er.toList encS
        (P.dh eI er) (P.dh eI rs) payload ∧
      (s1.recvMessage P w2).2.1.getRemoteStaticPublicKey = some rs ∧
      ((s1.recvMessage P w2).2.1.cs1.k, (s1.recvMessage P w2).2.1.cs2.k) =
        NX.transportKeys P (P.dh eI er) (P.dh eI rs) ∧
      plain ((s1.recvMessage P w2).2.2.drop 80) = payload := by
  obtain ⟨rfl, _⟩ := send_first_ok h1
  constructor
  · intro hok
    generalize hr : NoiseSession.recvMessage P _ w2 = r at hok ⊢
    obtain ⟨_, s2, out⟩ := r
    simp only at hok
    subst hok
    obtain ⟨er, rs, hl, her, hf, hfs, hl', ho, ⟨q, hq, hout⟩, hs⟩ := recv_second_ok hr
    unfold HandshakeState.openS at ho
    have hfirst : first32 w2 (by omega) = er := arr_ext her.symm
    have hS16 : 16 ≤ (HandshakeState.partS w2).length := by
      rw [HandshakeState.partS_length (by omega)]; decide
    simp only [hfirst, rdA_mid] at ho
    split at ho
    · cases ho
    rename_i hk1
    unfold HandshakeState.openP at hq
    simp only [hfirst, rdB_mid] at hq
    split at hq
    · cases hq
    rename_i hk2
    rw [prepNonce_zero] at ho hq
    have hS : HandshakeState.partS w2 = NX.encryptedStatic P prologue (w1.take 32) (w1.drop 32) er.toList
        (P.dh eI er) rs.toList := by
      have := hT _ _ _ _ _ _ ho
      unfold NX.encryptedStatic NX.enc
      erw [this]
      exact (body_tag _).symm
    have hPl : w2.drop 80 = NX.encryptedPayload P prologue (w1.take 32) (w1.drop 32) er.toList
        (HandshakeState.partS w2) (P.dh eI er) (P.dh eI rs) q := by
      have := hT _ _ _ _ _ _ hq
      unfold NX.encryptedPayload NX.enc
      erw [this]
      exact (body_tag _).symm
    have hql : q.length ≤ 2032 := by
      have := P.open_length _ _ _ _ _ _ hq
      rw [this]
      simp [body]; omega
    refine ⟨er, rs, q, fun h => hf ((forbidden_iff er).mpr h), fun h => hfs ((forbidden_iff rs).mpr h), hql,
      hk1, hk2, _, rfl, ?_, ?_, ?_, ?_⟩
    · rw [← hS, ← hPl, her]
      have : w2.drop 80 = (w2.drop 32).drop 48 := by simp [List.drop_drop]
      rw [this, List.append_assoc]
      simp only [HandshakeState.partS, List.take_append_drop]
    · rw [hs]; rfl
    · rw [hs]; rfl
    · rw [hout]
      have h48 : (rs.toList ++ tag (HandshakeState.partS w2)).length = 48 := by
        rw [List.length_append, tag_length hS16, Arr.len]
      rw [drop_three (by simp; omega) h48]
      unfold plain
      rw [List.length_append, tag_length (by simp; omega), Nat.add_sub_cancel]
      exact List.take_left' rfl
  · rintro ⟨er, rs, payload, hf, hfs, hl, hk1, hk2, encS, rfl, rfl, -⟩
    have := recv_second (P := P) hA initiator prologue kp (Keypair.default P eI) EMPTY er rs (w1.take 32)
      (w1.drop 32) payload (fun h => hf ((forbidden_iff er).mp h)) (fun h => hfs ((forbidden_iff rs).mp h))
      hl hk1 hk2
    simp only [Keypair.default] at this ⊢
    rw [this]

end SV2
