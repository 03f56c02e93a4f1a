import Verif.Props.NoiseSecrets
import Verif.Props.NoiseTransport
import Verif.Lemmas.Crypto.Rfc
/-!
# C89: two sessions in the same role

`init_session` takes a flag that says whether the session is the initiator. The handshake looks at the number of
messages and never at the flag, so two parties can complete it with any flags. With the same flag on both sides the
two sessions then encrypt in both directions with one key and the same nonces, and hear nothing of each other.
-/

namespace SV2.Noise

variable {P : Prims}

/-- Two sessions that have just completed a handshake with each other and have the same role `a`: both encrypt with
`key`, from nonce 0 on, and expect messages under `other`. -/
structure SameRole (a : Bool) (s t : NoiseSession) (key other : Arr 32) : Prop where
  roles : s.i = a ∧ t.i = a
  count : s.getMessageCount = 2 ∧ t.getMessageCount = 2
  sends : (if a then s.cs1 else s.cs2) = ⟨key, 0⟩ ∧ (if a then t.cs1 else t.cs2) = ⟨key, 0⟩
  expects : (if a then s.cs2 else s.cs1) = ⟨other, 0⟩ ∧ (if a then t.cs2 else t.cs1) = ⟨other, 0⟩

/-- The handshake goes through with any two flags, with the same bytes on the wire, the same hash and the same remote
keys. If the flags differ, what follows is a session as usual, where the party whose flag is set is the initiator, be
it the one that sent the first message or not. If they are equal, the sessions are in the same role. -/
theorem C89_any_roles (hA : AeadCorrect P) (hD : DhLaws P) (a b : Bool) (prologue : Bytes) (sI : Keypair)
    (eI eR sR : Arr 32) (buf1 buf2 : Bytes) (h1 : 48 ≤ buf1.length) (h1' : buf1.length ≤ 65535)
    (h2 : 96 ≤ buf2.length) (h2' : buf2.length ≤ 2128) (x : NX.Run)
    (hx : x = ⟨prologue, eI, eR, sR, buf1.drop 32, plain (buf2.drop 80)⟩) (hk : x.KeysNonzero P) :
    ∃ i1 i2 r1 r2 out,
      (NoiseSession.initSession P a prologue sI).sendMessage P (Keypair.default P eI) buf1 =
        (.ok (), i1, x.wire1 P) ∧
      (NoiseSession.initSession P b prologue (Keypair.default P sR)).recvMessage P (x.wire1 P) =
        (.ok (), r1, x.wire1 P) ∧
      r1.sendMessage P (Keypair.default P eR) buf2 = (.ok (), r2, x.wire2 P) ∧
      i1.recvMessage P (x.wire2 P) = (.ok (), i2, out) ∧
      plain (out.drop 80) = x.payload2 ∧
      i2.isTransport = true ∧ r2.isTransport = true ∧
      i2.getHandshakeHash = some (x.hash P) ∧ r2.getHandshakeHash = some (x.hash P) ∧
      i2.getRemoteStaticPublicKey = some (P.publicOf sR) ∧ r2.getRemoteStaticPublicKey = some NX.zeros ∧
      (a = true → b = false → Agreed i2 r2 (x.keys P)) ∧
      (a = false → b = true → Agreed r2 i2 (x.keys P)) ∧
      (a = true → b = true → SameRole true i2 r2 (x.keys P).1 (x.keys P).2) ∧
      (a = false → b = false → SameRole false i2 r2 (x.keys P).2 (x.keys P).1) := by
  obtain ⟨i1, i2, r1, r2, out, e1, e2, e3, e4, e5, -, e6, e7, e8, e9, e10, e11, hagree⟩ :=
    C38_handshake P hA hD prologue sI eI eR sR buf1 buf2 h1 h1' h2 h2' x hx hk
  -- the flag is carried along
  have f1 := exec_role (P := P) (.send eI buf1) (NoiseSession.initSession P true prologue sI) a Nat.two_pos
  have f2 := exec_role (P := P) (.recv (x.wire1 P)) (NoiseSession.initSession P false prologue (Keypair.default P sR)) b
    Nat.two_pos
  simp only [Op.exec, e1] at f1
  simp only [Op.exec, e2] at f2
  have c1 : i1.getMessageCount < 2 := by
    have := congrArg (fun y => y.2.1) (send_first (P := P) true prologue sI (Keypair.default P eI) buf1 (by omega) h1')
    rw [e1] at this
    simp only at this
    rw [this]
    exact Nat.lt_succ_self 1
  have c2 : r1.getMessageCount < 2 := by
    obtain ⟨_, _, _, hr, _⟩ := recv_first_ok e2
    rw [hr]
    exact Nat.lt_succ_self 1
  have f3 := exec_role (P := P) (.send eR buf2) r1 b c2
  have f4 := exec_role (P := P) (.recv (x.wire2 P)) i1 a c1
  simp only [Op.exec, e3] at f3
  simp only [Op.exec, e4] at f4
  refine ⟨{ i1 with i := a }, { i2 with i := a }, { r1 with i := b }, { r2 with i := b }, out, f1, f2, f3, f4, e5,
    e6, e7, e8, e9, e10, e11, ?_, ?_, ?_, ?_⟩
  · rintro rfl rfl
    exact ⟨⟨rfl, rfl⟩, hagree.count, hagree.initiator, hagree.responder⟩
  · rintro rfl rfl
    exact ⟨⟨rfl, rfl⟩, ⟨hagree.count.2, hagree.count.1⟩, hagree.responder, hagree.initiator⟩
  · rintro rfl rfl
    exact ⟨⟨rfl, rfl⟩, hagree.count, ⟨hagree.initiator.1, hagree.responder.1⟩,
      ⟨hagree.initiator.2, hagree.responder.2⟩⟩
  · rintro rfl rfl
    exact ⟨⟨rfl, rfl⟩, hagree.count, ⟨hagree.initiator.2, hagree.responder.2⟩,
      ⟨hagree.initiator.1, hagree.responder.1⟩⟩

/-- The hypotheses hold for the toy primitives and every run. -/
example : AeadCorrect toyPrims ∧ DhLaws toyPrims ∧ ∀ x : NX.Run, x.KeysNonzero toyPrims :=
  ⟨toy_correct, toy_dh, toy_keysNonzero⟩

/-- Two sessions that think they are the initiator. -/
def twinA : NoiseSession := done true NX.zeros NX.zeros (Arr.replicate 32 3, Arr.replicate 32 4) 1
def twinB : NoiseSession := done true NX.zeros NX.zeros (Arr.replicate 32 3, Arr.replicate 32 4) 1

theorem twins : SameRole true twinA twinB (Arr.replicate 32 3) (Arr.replicate 32 4) :=
  ⟨⟨rfl, rfl⟩, ⟨rfl, rfl⟩, ⟨rfl, rfl⟩, ⟨rfl, rfl⟩⟩

/-- From then on message number `j` of the one and message number `j` of the other are encrypted with the same key and
the same nonce, whatever else the two sessions are asked to do short of clearing or changing keys. -/
theorem C89_same_key_and_nonce {a : Bool} {s t : NoiseSession} {key other : Arr 32}
    (h : SameRole a s t key other) (opsS opsT : List Op)
    (hS : opsS.length < 2 ^ 127) (hT : opsT.length < 2 ^ 127)
    (hkS : ∀ op ∈ opsS, op.changesKeys = false) (hkT : ∀ op ∈ opsT, op.changesKeys = false)
    (j : Nat) (p w p' w' : Bytes) (hs : (sentIn (trace P s opsS))[j]? = some (p, w))
    (ht : (sentIn (trace P t opsT))[j]? = some (p', w')) :
    w = NX.enc P key j [] p ∧ w' = NX.enc P key j [] p' := by
  have h1 := C41_nonces (P := P) s (by rw [h.count.1]) opsS (by rw [h.count.1]; omega) hkS j p w hs
  have h2 := C41_nonces (P := P) t (by rw [h.count.2]) opsT (by rw [h.count.2]; omega) hkT j p' w' ht
  rw [h.roles.1, h.sends.1] at h1
  rw [h.roles.2, h.sends.2] at h2
  simp only [UInt64.reduceToNat, Nat.zero_add] at h1 h2
  exact ⟨h1.1, h2.1⟩

/-! ## What that gives away -/

/-- A longer key stream begins with the shorter one. -/
theorem stream_prefix (key : Arr 32) (nonce : Arr 12) (n m : Nat) (c : UInt32) :
    ∃ rest, Crypto.ChaCha20.stream key nonce (n + m) c = Crypto.ChaCha20.stream key nonce n c ++ rest := by
  induction n generalizing c with
  | zero => exact ⟨_, (List.nil_append _).symm⟩
  | succ n ih =>
    obtain ⟨rest, hr⟩ := ih (c + 1)
    refine ⟨rest, ?_⟩
    rw [Nat.add_right_comm]
    simp only [Crypto.ChaCha20.stream, hr, List.append_assoc]

theorem zipWith_xor_append (a k rest : Bytes) (h : a.length ≤ k.length) :
    List.zipWith (· ^^^ ·) a (k ++ rest) = List.zipWith (· ^^^ ·) a k := by
  induction a generalizing k with
  | nil => simp
  | cons x xs ih =>
    cases k with
    | nil => simp at h
    | cons y ys => simp only [List.cons_append, List.zipWith_cons_cons, ih ys (by simpa using h)]

theorem zipWith_xor_xor (a b k : Bytes) (ha : a.length ≤ k.length) (hb : b.length ≤ k.length) :
    List.zipWith (· ^^^ ·) (List.zipWith (· ^^^ ·) a k) (List.zipWith (· ^^^ ·) b k) =
      List.zipWith (· ^^^ ·) a b := by
  induction a generalizing b k with
  | nil => simp
  | cons x xs ih =>
    cases k with
    | nil => simp at ha
    | cons z zs =>
      cases b with
      | nil => simp
      | cons y ys =>
        simp only [List.zipWith_cons_cons]
        rw [ih ys zs (by simpa using ha) (by simpa using hb)]
        congr 1
        rw [UInt8.xor_assoc, UInt8.xor_comm z, UInt8.xor_assoc, UInt8.xor_self, UInt8.xor_zero]

theorem chacha_xor_xor (key : Arr 32) (c : UInt32) (nonce : Arr 12) (p p' : Bytes) :
    List.zipWith (· ^^^ ·) (Crypto.ChaCha20.xor key c nonce p) (Crypto.ChaCha20.xor key c nonce p') =
      List.zipWith (· ^^^ ·) p p' := by
  let n := (p.length + 63) / 64
  let m := (p'.length + 63) / 64
  have e1 : Crypto.ChaCha20.xor key c nonce p =
      List.zipWith (· ^^^ ·) p (Crypto.ChaCha20.stream key nonce (n + m) c) := by
    obtain ⟨rest, hr⟩ := stream_prefix key nonce n m c
    rw [hr, zipWith_xor_append]
    · rfl
    · rw [Crypto.ChaCha20.length_stream]; omega
  have e2 : Crypto.ChaCha20.xor key c nonce p' =
      List.zipWith (· ^^^ ·) p' (Crypto.ChaCha20.stream key nonce (n + m) c) := by
    obtain ⟨rest, hr⟩ := stream_prefix key nonce m n c
    rw [Nat.add_comm n m, hr, zipWith_xor_append]
    · rfl
    · rw [Crypto.ChaCha20.length_stream]; omega
  rw [e1, e2, zipWith_xor_xor]
  · rw [Crypto.ChaCha20.length_stream]; omega
  · rw [Crypto.ChaCha20.length_stream]; omega

/-- An eavesdropper who knows no key gets, from message number `j` of the one and message number `j` of the other, the
exclusive or of the two plaintexts, byte by byte. -/
theorem C89_plaintexts_leak {a : Bool} {s t : NoiseSession} {key other : Arr 32}
    (h : SameRole a s t key other) (opsS opsT : List Op)
    (hS : opsS.length < 2 ^ 127) (hT : opsT.length < 2 ^ 127)
    (hkS : ∀ op ∈ opsS, op.changesKeys = false) (hkT : ∀ op ∈ opsT, op.changesKeys = false)
    (j : Nat) (p w p' w' : Bytes) (hs : (sentIn (trace Crypto.rfc s opsS))[j]? = some (p, w))
    (ht : (sentIn (trace Crypto.rfc t opsT))[j]? = some (p', w')) :
    List.zipWith (· ^^^ ·) (plain w) (plain w') = List.zipWith (· ^^^ ·) p p' := by
  obtain ⟨rfl, rfl⟩ := C89_same_key_and_nonce h opsS opsT hS hT hkS hkT j p w p' w' hs ht
  have hp : ∀ p : Bytes, plain (NX.enc Crypto.rfc key j [] p) = Crypto.ChaCha20.xor key 1 (NX.nonce j) p := by
    intro p
    simp only [plain, NX.enc, List.length_append, Arr.len, Nat.add_sub_cancel, List.take_left']
    rfl
  rw [hp, hp, chacha_xor_xor]

/-- Both twins send. The plaintexts are `[1, 2, 3]` and `[4, 4]`; the two messages on the wire give `[5, 6]`. -/
example : ∃ w w',
    (sentIn (trace Crypto.rfc twinA [.send NX.zeros ([1, 2, 3] ++ List.replicate 16 0)]))[0]? = some ([1, 2, 3], w) ∧
    (sentIn (trace Crypto.rfc twinB [.send NX.zeros ([4, 4] ++ List.replicate 16 0)]))[0]? = some ([4, 4], w') ∧
    List.zipWith (· ^^^ ·) (plain w) (plain w') = [5, 6] := by
  refine ⟨NX.enc Crypto.rfc (Arr.replicate 32 3) 0 [] [1, 2, 3], NX.enc Crypto.rfc (Arr.replicate 32 3) 0 [] [4, 4],
    ?_, ?_, ?_⟩ <;> decide +kernel

/-! ## Neither hears the other -/

/-- Every message that a session in transport mode accepts, in any history without key changes, is an encryption under
its receive key. -/
theorem accepted_enc (hT : AeadTight P) (s : NoiseSession) (hs : 2 ≤ s.getMessageCount) (ops : List Op)
    (hmax : s.getMessageCount + ops.length < 2 ^ 128) (hops : ∀ op ∈ ops, op.changesKeys = false)
    (w out : Bytes) (hw : (Op.recv w, .ok (), out) ∈ trace P s ops) :
    ∃ n q, w = NX.enc P s.recvCs.k n [] q := by
  induction ops generalizing s with
  | nil => simp [trace] at hw
  | cons op ops ih =>
    simp only [List.length_cons] at hmax
    have hops' : ∀ op ∈ ops, op.changesKeys = false := fun o ho => hops o (List.mem_cons_of_mem _ ho)
    simp only [NoiseSession.getMessageCount] at hs hmax ih
    simp only [trace, List.mem_cons, Prod.mk.injEq] at hw
    cases op with
    | send secret buf =>
      have hw : (Op.recv w, Out.ok (), out) ∈ trace P (Op.exec P s (.send secret buf)).2.1 ops := by simpa using hw
      simp only [Op.exec] at hw
      rcases NoiseSession.send_cases (P := P) (Keypair.default P secret) s buf hs with ⟨_, _, _, _, hr⟩ | ⟨e, hr⟩
      · rw [hr, NoiseSession.count_ok _ _ (by simp; omega)] at hw
        have := ih _ (by simp; omega) (by simp; omega) hops' hw
        rwa [show NoiseSession.recvCs { s.setSend ⟨s.sendCs.k, s.sendCs.n + 1⟩ with
          mc := (s.setSend ⟨s.sendCs.k, s.sendCs.n + 1⟩).mc + 1 } = s.recvCs from
          NoiseSession.setSend_recvCs _ _] at this
      · rw [hr] at hw
        exact ih s hs (by omega) hops' hw
    | recv buf =>
      rcases NoiseSession.recv_cases (P := P) s buf hs with ⟨h16, q, _, _, _, ho, hr⟩ | ⟨e, hr⟩
      · rw [NoiseSession.count_ok _ _ (by simp; omega)] at hr
        simp only [Op.exec, hr] at hw
        rcases hw with ⟨hb, _, _⟩ | hw
        · cases hb
          refine ⟨s.recvCs.n.toNat, q, ?_⟩
          have := hT _ _ _ _ _ _ ho
          rw [← sealed_eq, CipherState.sealed, this]
          exact (body_tag w).symm
        · have := ih _ (by simp; omega) (by simp; omega) hops' hw
          rwa [show NoiseSession.recvCs { s.setRecv ⟨s.recvCs.k, s.recvCs.n + 1⟩ with
            mc := (s.setRecv ⟨s.recvCs.k, s.recvCs.n + 1⟩).mc + 1 } = ⟨s.recvCs.k, s.recvCs.n + 1⟩ from
            NoiseSession.setRecv_recvCs _ _] at this
      · simp only [Op.exec, hr] at hw
        rcases hw with ⟨_, hb, _⟩ | hw
        · cases hb
        · exact ih s hs (by omega) hops' hw
    | setEphemeral kp =>
      have hw : (Op.recv w, Out.ok (), out) ∈ trace P (s.setEphemeralKeypair kp) ops := by simpa [Op.exec] using hw
      exact ih (s.setEphemeralKeypair kp) hs (by simp only [NoiseSession.setEphemeralKeypair]; omega) hops' hw
    | _ => exact absurd (hops _ (List.mem_cons_self ..)) (by simp [Op.changesKeys])

/-- If one of them accepts a message that the other has sent, then these bytes are an encryption under the one key and
at the same time an encryption under the other. -/
theorem C89_deaf (hT : AeadTight P) {a : Bool} {s t : NoiseSession} {key other : Arr 32}
    (h : SameRole a s t key other) (opsS opsT : List Op)
    (hS : opsS.length < 2 ^ 127) (hT' : opsT.length < 2 ^ 127)
    (hkS : ∀ op ∈ opsS, op.changesKeys = false) (hkT : ∀ op ∈ opsT, op.changesKeys = false)
    (j : Nat) (p w out : Bytes) (hs : (sentIn (trace P s opsS))[j]? = some (p, w))
    (ht : (Op.recv w, .ok (), out) ∈ trace P t opsT) :
    w = NX.enc P key j [] p ∧ ∃ n q, w = NX.enc P other n [] q := by
  have h1 := C41_nonces (P := P) s (by rw [h.count.1]) opsS (by rw [h.count.1]; omega) hkS j p w hs
  rw [h.roles.1, h.sends.1] at h1
  simp only [UInt64.reduceToNat, Nat.zero_add] at h1
  have h2 := accepted_enc hT t (by rw [h.count.2]) opsT (by rw [h.count.2]; omega) hkT w out ht
  rw [NoiseSession.recvCs, h.roles.2, h.expects.2] at h2
  exact ⟨h1.1, h2⟩

/-- A twin sends, the other does not accept it. A message of a peer in the other role it does accept. -/
example : let w := NX.enc toyPrims (Arr.replicate 32 3) 0 [] [9, 9]
    let w' := NX.enc toyPrims (Arr.replicate 32 4) 0 [] [9, 9]
    (trace toyPrims twinA [.send NX.zeros ([9, 9] ++ List.replicate 16 0)]).map (·.2) = [(.ok (), w)] ∧
      (trace toyPrims twinB [.recv w, .recv w']).map (·.2) =
        [(.err .decryptionError, w), (.ok (), [9, 9] ++ w'.drop 2)] := by decide +kernel

end SV2.Noise
