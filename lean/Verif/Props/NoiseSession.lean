import Verif.Lemmas.Noise.History
import Verif.Lemmas.Noise.Accepted
import Verif.Spec.Toy
/-!
# C36, C37, C43, C45, C47, C48: one Noise session, any history of calls
-/

namespace SV2
open Noise

variable (P : Prims)

/-! ## C36 -/

/-- After every history of calls on a new session, the count is the number of messages processed, transport mode means
at least two, and the handshake hash and the remote static key are available exactly then. -/
theorem C36_phases (initiator : Bool) (prologue : Bytes) (kp : Keypair) (ops : List Op) :
    let s0 := NoiseSession.initSession P initiator prologue kp
    let s := after P s0 ops
    s.getMessageCount = processed (trace P s0 ops) ∧
    (s.isTransport = true ↔ 2 ≤ processed (trace P s0 ops)) ∧
    (s.getHandshakeHash.isSome = true ↔ 2 ≤ processed (trace P s0 ops)) ∧
    (s.getRemoteStaticPublicKey.isSome = true ↔ 2 ≤ processed (trace P s0 ops)) := by
  intro s0 s
  have hcount : ∀ (s : NoiseSession) (ops : List Op),
      (after P s ops).mc = s.mc + processed (trace P s ops) := by
    intro s ops
    induction ops generalizing s with
    | nil => simp [after, trace, processed]
    | cons op ops ih =>
      rw [after, ih, (exec_mc s op).1]
      simp only [trace, processed, List.filter_cons]
      split <;> simp <;> omega
  have hc : s.mc = processed (trace P s0 ops) := by
    have := hcount s0 ops
    rw [show s0.mc = 0 from rfl, Nat.zero_add] at this
    exact this
  have ht : s.is_transport = true ↔ 2 ≤ s.mc :=
    after_invariant (I := fun s => s.is_transport = true ↔ 2 ≤ s.mc)
      (by simp [s0, NoiseSession.initSession]) (fun s op _ => (exec_mc s op).2)
  rw [hc] at ht
  refine ⟨hc, ht, ?_, ?_⟩
  · unfold NoiseSession.getHandshakeHash
    rw [← ht]
    split <;> simp_all
  · unfold NoiseSession.getRemoteStaticPublicKey
    rw [← ht]
    split <;> simp_all

/-- Every single call, on any session: the count grows by one on a successful send or receive, and is unchanged by
every failure and every other call. -/
theorem C36_count (s : NoiseSession) (op : Op) :
    (op.exec P s).2.1.getMessageCount =
      s.getMessageCount + (if op.isMessage = true ∧ (op.exec P s).1 = .ok () then 1 else 0) := by
  show (op.exec P s).2.1.mc = s.mc + _
  rw [(exec_mc s op).1]
  congr 1
  rcases h : (op.exec P s).1 with _ | _ | _ <;> simp [Out.isOk]

/-- Transport mode is never left. -/
theorem C36_never_left (s : NoiseSession) (ops : List Op) (h : s.isTransport = true) :
    (after P s ops).isTransport = true := by
  refine after_invariant (I := fun s => s.is_transport = true) h ?_
  intro s op _ hs
  cases op with
  | send secret buf =>
    have hb := NoiseSession.send_basic (P := P) (Keypair.default P secret) s buf
    simp only [Op.exec, hb.transport, hs, Bool.true_or]
  | recv buf =>
    have hb := NoiseSession.recv_basic (P := P) s buf
    simp only [Op.exec, hb.transport, hs, Bool.true_or]
  | setEphemeral kp => exact hs
  | clearLocal => exact hs
  | clearRemote => exact hs
  | rekeyLocal => exact hs
  | rekeyRemote => exact hs

/-- A history that reaches transport mode: two sends. -/
def sampleOps : List Op :=
  [.send (Arr.replicate 32 3) (List.replicate 48 0), .send (Arr.replicate 32 4) (List.replicate 96 0)]

example : (after toyPrims (NoiseSession.initSession toyPrims true [] Keypair.empty) sampleOps).isTransport = true := by
  decide +kernel

/-! ## C37 -/

/-- Buffers below 16 or above 65535 bytes are refused, in every state, without any effect. -/
theorem C37_refused (s : NoiseSession) (rnd : Keypair) (buf : Bytes)
    (h : buf.length < 16 ∨ 65535 < buf.length) :
    s.sendMessage P rnd buf = (.err .unsupportedMessageLengthError, s, buf) ∧
    s.recvMessage P buf = (.err .unsupportedMessageLengthError, s, buf) :=
  ⟨NoiseSession.send_badLength rnd s buf h, NoiseSession.recv_badLength s buf h⟩

/-- In transport mode a buffer of any other length is processed without a panic and without that error. -/
theorem C37_transport (s : NoiseSession) (rnd : Keypair) (buf : Bytes) (hs : 2 ≤ s.getMessageCount)
    (hmax : s.getMessageCount < 2 ^ 128 - 1) (h : 16 ≤ buf.length ∧ buf.length ≤ 65535) :
    ((s.sendMessage P rnd buf).1 ≠ .panic ∧
      (s.sendMessage P rnd buf).1 ≠ .err .unsupportedMessageLengthError) ∧
    ((s.recvMessage P buf).1 ≠ .panic ∧
      (s.recvMessage P buf).1 ≠ .err .unsupportedMessageLengthError) := by
  have hmax : s.mc < 2 ^ 128 - 1 := hmax
  have hs : 2 ≤ s.mc := hs
  constructor
  · rw [NoiseSession.send_transport rnd s buf (by omega) hs]
    by_cases hn : s.sendCs.n = MAX_NONCE
    · rw [CipherState.write_exhausted _ _ h.1 hn]; simp
    by_cases hk : s.sendCs.k = EMPTY
    · rw [CipherState.write_noKey _ _ h.1 hn hk]; simp
    · rw [CipherState.write_ok _ _ h.1 hn hk]
      simp only
      rw [NoiseSession.count_ok _ _ (by simp; omega)]
      simp
  · rw [NoiseSession.recv_transport s buf (by omega) hs, CipherState.read_eq _ _ h.1]
    by_cases hn : s.recvCs.n = MAX_NONCE
    · rw [CipherState.decrypt_exhausted _ _ _ _ hn]; simp
    by_cases hk : s.recvCs.k = EMPTY
    · rw [CipherState.decrypt_noKey _ _ _ _ hn hk]; simp
    rcases ho : P.aeadOpen s.recvCs.k (prepNonce s.recvCs.n) [] (body buf)
      (CipherState.tagArr buf h.1) with _ | p
    · rw [CipherState.decrypt_none _ _ _ _ hn hk ho]; simp
    · rw [CipherState.decrypt_some _ _ _ _ _ hn hk ho]
      simp only
      rw [NoiseSession.count_ok _ _ (by simp; omega)]
      simp

/-- The buffer keeps its length, whatever happens. -/
theorem C37_length_kept (s : NoiseSession) (rnd : Keypair) (buf : Bytes) :
    (s.sendMessage P rnd buf).2.2.length = buf.length ∧ (s.recvMessage P buf).2.2.length = buf.length :=
  ⟨(NoiseSession.send_basic rnd s buf).len, (NoiseSession.recv_basic s buf).len⟩

example : let s := after toyPrims (NoiseSession.initSession toyPrims true [] Keypair.empty) sampleOps
    2 ≤ s.getMessageCount ∧ s.getMessageCount < 2 ^ 128 - 1 := by decide +kernel

/-! ## C43 -/

/-- `buf` is a second handshake message whose encrypted static key decrypts, in this state, to an acceptable key. -/
def StaticKeyAccepted (s : NoiseSession) (buf : Bytes) : Prop :=
  ∃ (re : Arr 32) (c : Bytes) (mac : Arr 16) (rest : Bytes) (rs : Bytes),
    buf = re.toList ++ (c ++ mac.toList) ++ rest ∧ c.length = 32 ∧
    re.toList ∉ forbiddenCurveValues ∧ rs ∉ forbiddenCurveValues ∧
    (NX.hkdf P s.hs.ss.ck (P.dh s.hs.e.private_key re).toList).2 ≠ NX.zeros ∧
    P.aeadOpen (NX.hkdf P s.hs.ss.ck (P.dh s.hs.e.private_key re).toList).2 (NX.nonce 0)
      (P.hash (s.hs.ss.h.toList ++ re.toList)).toList c mac = some rs

/-- Sending never panics (as long as fewer than 2^128 messages were processed). -/
theorem C43_send (s : NoiseSession) (rnd : Keypair) (buf : Bytes) (hmax : s.getMessageCount < 2 ^ 128 - 1) :
    (s.sendMessage P rnd buf).1 ≠ .panic := by
  have hmax : s.mc < 2 ^ 128 - 1 := hmax
  by_cases h : buf.length < 16 ∨ 65535 < buf.length
  · rw [NoiseSession.send_badLength rnd s buf h]; simp
  by_cases h0 : s.mc = 0
  · rw [NoiseSession.send_zero rnd s buf h h0]
    by_cases hl : buf.length < 32
    · rw [HandshakeState.writeA_short rnd s.hs buf hl]; simp
    · rw [HandshakeState.writeA_ok rnd s.hs buf (by omega)]
      simp only
      rw [NoiseSession.count_ok _ _ (by simp; omega)]
      simp
  by_cases h1 : s.mc = 1
  · rw [NoiseSession.send_one rnd s buf h h1]
    rcases HandshakeState.writeB_cases (P := P) rnd s.hs buf with ⟨_, h⟩ | ⟨_, _, b', hb, h⟩ |
      ⟨_, _, b', hb, h⟩ | ⟨_, _, _, b', hb, h⟩ | ⟨_, _, _, b', hb, h⟩ | ⟨hl, _, _, h⟩ <;> rw [h] <;> simp
    rw [NoiseSession.count_ok _ _ (by simp [NoiseSession.enterTransport]; omega)]
    simp
  · exact (C37_transport P s rnd buf (show 2 ≤ s.mc by omega) hmax (by omega)).1.1

/-- The same, in terms of the model's own steps. -/
theorem staticKeyAccepted_iff (s : NoiseSession) (buf : Bytes) (hl : 80 ≤ buf.length) :
    StaticKeyAccepted P s buf ↔
      buf.take 32 ∉ forbiddenCurveValues ∧ ∃ p, s.hs.openS P buf hl = some p ∧ p ∉ forbiddenCurveValues := by
  have hA : ∀ re, (s.hs.rdA P re).ss = ⟨⟨(NX.hkdf P s.hs.ss.ck (P.dh s.hs.e.private_key re).toList).2, 0⟩,
      (NX.hkdf P s.hs.ss.ck (P.dh s.hs.e.private_key re).toList).1,
      P.hash (s.hs.ss.h.toList ++ re.toList)⟩ := by
    intro re
    rw [← hkdf_eq]
    rfl
  constructor
  · rintro ⟨re, c, mac, rest, rs, hb, hc, hre, hrs, hk, ho⟩
    have htake : buf.take 32 = re.toList := by
      rw [hb, List.append_assoc, List.take_append_of_le_length (by rw [re.len]; omega),
        List.take_of_length_le (by rw [re.len]; omega)]
    refine ⟨by rw [htake]; exact hre, rs, ?_, hrs⟩
    have hfirst : first32 buf (by omega) = re := arr_ext htake
    have hS : HandshakeState.partS buf = c ++ mac.toList := by
      unfold HandshakeState.partS
      rw [hb, List.append_assoc, List.drop_append_of_le_length (by rw [re.len]; omega),
        List.drop_of_length_le (by rw [re.len]; omega), List.nil_append,
        List.take_append_of_le_length (by simp [hc, mac.len]),
        List.take_of_length_le (by simp [hc, mac.len])]
    unfold HandshakeState.openS
    simp only [hfirst, hA]
    rw [if_neg (by exact hk)]
    have h1 : body (HandshakeState.partS buf) = c := by rw [hS]; exact body_append _ _
    have h2 : ∀ h, CipherState.tagArr (HandshakeState.partS buf) h = mac := by
      intro h
      apply arr_ext
      show tag (HandshakeState.partS buf) = _
      rw [hS]; exact tag_append _ _
    rw [h1, h2, prepNonce_zero]
    exact ho
  · rintro ⟨hf, p, ho, hp⟩
    have hS16 : 16 ≤ (HandshakeState.partS buf).length := by
      rw [HandshakeState.partS_length hl]; decide
    refine ⟨first32 buf (by omega), body (HandshakeState.partS buf),
      CipherState.tagArr (HandshakeState.partS buf) hS16, buf.drop 80, p, ?_, ?_, hf, hp, ?_, ?_⟩
    · show buf = buf.take 32 ++ (body (HandshakeState.partS buf) ++ tag (HandshakeState.partS buf)) ++ _
      rw [body_tag]
      simp only [HandshakeState.partS]
      have : buf.drop 80 = (buf.drop 32).drop 48 := by simp [List.drop_drop]
      rw [this, List.append_assoc, List.take_append_drop, List.take_append_drop]
    · have := NoiseSession.body_length _ hS16
      rw [HandshakeState.partS_length hl] at this
      omega
    · unfold HandshakeState.openS at ho
      simp only [hA] at ho
      split at ho
      · cases ho
      · rename_i hk; exact hk
    · unfold HandshakeState.openS at ho
      simp only [hA] at ho
      split at ho
      · cases ho
      · rw [← prepNonce_zero]
        exact ho

/-- Receiving panics exactly on a second handshake message whose encrypted static key is accepted and whose payload
part, tag included, is shorter than 16 or longer than 2048 bytes. -/
theorem C43_recv_panics_iff (s : NoiseSession) (buf : Bytes) (hmax : s.getMessageCount < 2 ^ 128 - 1) :
    (s.recvMessage P buf).1 = .panic ↔
      s.getMessageCount = 1 ∧ ((80 ≤ buf.length ∧ buf.length < 96) ∨
        (2128 < buf.length ∧ buf.length ≤ 65535)) ∧ StaticKeyAccepted P s buf := by
  have hmax : s.mc < 2 ^ 128 - 1 := hmax
  show _ ↔ s.mc = 1 ∧ _
  by_cases h : buf.length < 16 ∨ 65535 < buf.length
  · rw [NoiseSession.recv_badLength s buf h]
    simp only [reduceCtorEq, false_iff]
    omega
  by_cases h0 : s.mc = 0
  · have : (s.recvMessage P buf).1 ≠ .panic := by
      rw [NoiseSession.recv_zero s buf h h0]
      by_cases hl : buf.length < 48
      · rw [HandshakeState.readA_short s.hs buf hl]; simp
      by_cases hf : buf.take 32 ∈ forbiddenCurveValues
      · rw [HandshakeState.readA_forbidden s.hs buf (by omega) hf]; simp
      · rw [HandshakeState.readA_ok s.hs buf (by omega) hf]
        simp only
        rw [NoiseSession.count_ok _ _ (by simp; omega)]
        simp
    simp only [this, false_iff]
    omega
  by_cases h1 : s.mc = 1
  case neg =>
    simp only [(C37_transport P s Keypair.empty buf (show 2 ≤ s.mc by omega) hmax (by omega)).2.1,
      false_iff]
    omega
  have hacc := staticKeyAccepted_iff P s buf
  rw [NoiseSession.recv_one s buf h h1]
  rcases HandshakeState.readB_cases (P := P) s.hs buf with ⟨hl, h⟩ | ⟨_, hf, h⟩ | ⟨_, _, hl, h⟩ |
      ⟨hl, _, _, ho, h⟩ | ⟨hl, p, _, ho, hf, _, hb, h⟩ | ⟨hl, p, _, hf, ho, hp, hlen, _, hb, h⟩ |
      ⟨_, _, _, _, hf, _, hp, hlen, _, _, hb, h⟩ | ⟨hl, p, _, q, hf, _, hp, hlen, hq, h⟩ <;> rw [h]
  · simp only [reduceCtorEq, false_iff]
    omega
  · simp only [reduceCtorEq, false_iff]
    rintro ⟨_, hlen, ha⟩
    exact ((hacc (by omega)).mp ha).1 hf
  · simp only [reduceCtorEq, false_iff]
    omega
  · simp only [reduceCtorEq, false_iff]
    rintro ⟨_, hlen, ha⟩
    obtain ⟨_, p, hp, _⟩ := (hacc hl).mp ha
    rw [ho] at hp
    cases hp
  · simp only [reduceCtorEq, false_iff]
    rintro ⟨_, hlen, ha⟩
    obtain ⟨_, p', hp, hf'⟩ := (hacc hl).mp ha
    rw [ho] at hp
    cases hp
    exact hf' hf
  · simp only [true_iff]
    exact ⟨h1, by omega, (hacc hl).mpr ⟨hf, p, ho, hp⟩⟩
  · simp only [reduceCtorEq, false_iff]
    omega
  · simp only
    rw [NoiseSession.count_ok _ _ (by simp [NoiseSession.enterTransport]; omega)]
    simp only [reduceCtorEq, false_iff]
    omega

/-- Any responder can crash an initiator: whatever keys and payload the initiator used, the second message of an honest
responder cut off after the encrypted static key makes it panic. -/
theorem C43_attack (hA : AeadCorrect P) (hD : DhLaws P) (prologue : Bytes) (sI : Keypair) (eI eR sR : Arr 32)
    (buf1 : Bytes) (h1 : 32 ≤ buf1.length) (h1' : buf1.length ≤ 65535) (x : NX.Run)
    (hx : x = ⟨prologue, eI, eR, sR, buf1.drop 32, []⟩) (hk : x.KeysNonzero P) :
    ∃ i1, (NoiseSession.initSession P true prologue sI).sendMessage P (Keypair.default P eI) buf1 =
        (.ok (), i1, x.wire1 P) ∧
      (i1.recvMessage P (x.er P ++ x.encS P)).1 = .panic := by
  subst hx
  refine ⟨_, send_first true prologue sI _ buf1 h1 h1', ?_⟩
  rw [C43_recv_panics_iff _ _ _ (by simp [NoiseSession.getMessageCount, mid])]
  have hee : P.dh eI (P.publicOf eR) = P.dh eR (P.publicOf eI) := hD.comm _ _
  have hlen : (NX.Run.er P ⟨prologue, eI, eR, sR, buf1.drop 32, []⟩ ++
      NX.Run.encS P ⟨prologue, eI, eR, sR, buf1.drop 32, []⟩).length = 80 := by
    simp [NX.Run.er, NX.Run.encS, NX.encryptedStatic, enc_length, Arr.len]
  refine ⟨rfl, .inl (by omega), P.publicOf eR, (P.aeadSeal (NX.afterEE P (P.dh eR (P.publicOf eI))).2
      (NX.nonce 0) (NX.transcript P [prologue, (P.publicOf eI).toList, buf1.drop 32,
        (P.publicOf eR).toList]).toList (P.publicOf sR).toList).1,
    (P.aeadSeal (NX.afterEE P (P.dh eR (P.publicOf eI))).2
      (NX.nonce 0) (NX.transcript P [prologue, (P.publicOf eI).toList, buf1.drop 32,
        (P.publicOf eR).toList]).toList (P.publicOf sR).toList).2, [], (P.publicOf sR).toList, ?_, ?_,
        hD.public_ok _, hD.public_ok _, ?_, ?_⟩
  · rw [List.append_nil]
    rfl
  · rw [P.seal_length, Arr.len]
  · show (NX.hkdf P (NX.h0 P) (P.dh eI (P.publicOf eR)).toList).2 ≠ _
    rw [hee]
    exact hk.1
  · show P.aeadOpen (NX.hkdf P (NX.h0 P) (P.dh eI (P.publicOf eR)).toList).2 _ _ _ _ = _
    rw [hee]
    exact hA _ _ _ _

example (x : NX.Run) : AeadCorrect toyPrims ∧ DhLaws toyPrims ∧ x.KeysNonzero toyPrims :=
  ⟨toy_correct, toy_dh, toy_keysNonzero x⟩

/-! ## C45 -/

/-- Without any receive, the remote static key is unavailable or all zero. -/
theorem C45_no_receive (initiator : Bool) (prologue : Bytes) (kp : Keypair) (ops : List Op)
    (h : ∀ op ∈ ops, op.isRecv = false) :
    (after P (NoiseSession.initSession P initiator prologue kp) ops).getRemoteStaticPublicKey ∈
      [none, some NX.zeros] := by
  have hrs : (after P (NoiseSession.initSession P initiator prologue kp) ops).hs.rs = NX.zeros := by
    refine after_invariant (I := fun s => s.hs.rs = NX.zeros) rfl ?_
    intro s op hop hs
    cases op with
    | send secret buf => exact (send_hsStep (P := P) _ s buf).2.trans hs
    | recv buf => exact absurd (h _ hop) (by simp [Op.isRecv])
    | setEphemeral kp => exact hs
    | clearLocal => exact hs
    | clearRemote => exact hs
    | rekeyLocal => exact hs
    | rekeyRemote => exact hs
  unfold NoiseSession.getRemoteStaticPublicKey
  split
  · rw [hrs]; simp
  · simp

/-- If sends and receives take turns, in either order, transport mode implies that one receive succeeded: the calls that
returned `Ok` are considered, and no two neighbours among them go in the same direction. -/
theorem C45_alternating (initiator : Bool) (prologue : Bytes) (kp : Keypair) (ops : List Op)
    (h : (after P (NoiseSession.initSession P initiator prologue kp) ops).isTransport = true)
    (hturn : ∀ done c c' rest,
      (trace P (NoiseSession.initSession P initiator prologue kp) ops).filter
        (fun c => c.1.isMessage && c.2.1.isOk) = done ++ c :: c' :: rest → c.1.isRecv ≠ c'.1.isRecv) :
    ∃ c ∈ trace P (NoiseSession.initSession P initiator prologue kp) ops, c.1.isRecv = true ∧ c.2.1 = .ok () := by
  have h2 := (C36_phases (P := P) initiator prologue kp ops).2.1.mp h
  unfold processed at h2
  generalize hl : (trace P (NoiseSession.initSession P initiator prologue kp) ops).filter
    (fun c => c.1.isMessage && c.2.1.isOk) = l at h2 hturn
  match l, h2, hl with
  | c :: c' :: rest, _, hl =>
    have hne := hturn [] c c' rest rfl
    have mem : ∀ x, x ∈ c :: c' :: rest → x ∈ trace P (NoiseSession.initSession P initiator prologue kp) ops ∧
        x.2.1 = .ok () := by
      intro x hx
      rw [← hl, List.mem_filter, Bool.and_eq_true] at hx
      refine ⟨hx.1, ?_⟩
      have := hx.2.2
      revert this
      cases x.2.1 <;> simp [Out.isOk]
    cases hc : c.1.isRecv with
    | true => exact ⟨c, (mem c (by simp)).1, hc, (mem c (by simp)).2⟩
    | false =>
      cases hc' : c'.1.isRecv with
      | true => exact ⟨c', (mem c' (by simp)).1, hc', (mem c' (by simp)).2⟩
      | false => exact absurd (hc.trans hc'.symm) hne

/-- Concrete: an initiator that sends and receives. -/
example : let run : NX.Run := ⟨[], NX.zeros, NX.zeros, NX.zeros, List.replicate 16 0, []⟩
    let s0 := NoiseSession.initSession toyPrims true [] (Keypair.default toyPrims NX.zeros)
    let ops := [Op.send NX.zeros (List.replicate 48 0), .recv (run.wire2 toyPrims)]
    (after toyPrims s0 ops).isTransport = true ∧
    ((trace toyPrims s0 ops).filter (fun c => c.1.isMessage && c.2.1.isOk)).map (·.1.isRecv) = [false, true] := by
  decide +kernel

/-- Taking turns in the calls is not enough if failures are ignored: a client that goes on after a refused answer is in
transport mode with nobody. -/
theorem C45_ignored_failure :
    let s0 := NoiseSession.initSession toyPrims true [] (Keypair.default toyPrims (Arr.replicate 32 5))
    let ops := [Op.send (Arr.replicate 32 7) (List.replicate 96 0), .recv (List.replicate 96 0),
      .send (Arr.replicate 32 7) (List.replicate 96 0)]
    (trace toyPrims s0 ops).map (fun c => c.2.1.isOk) = [true, false, true] ∧
    (after toyPrims s0 ops).isTransport = true ∧
    (after toyPrims s0 ops).getRemoteStaticPublicKey = some NX.zeros := by decide +kernel

/-- Two sends in a row complete a "handshake" with nobody, on either role: the session reports transport mode, an
all-zero remote static key, and encrypts with keys derived from Diffie-Hellman results with the all-zero key. -/
theorem C45_roles_not_enforced (initiator : Bool) (prologue : Bytes) (kp : Keypair) (e e' : Arr 32)
    (buf1 buf2 : Bytes) (h1 : 32 ≤ buf1.length) (h1' : buf1.length ≤ 65535) (h2 : 96 ≤ buf2.length)
    (h2' : buf2.length ≤ 65535) (he : e ≠ NX.zeros)
    (hk1 : (NX.afterEE P (P.dh e NX.zeros)).2 ≠ NX.zeros)
    (hk2 : (NX.afterES P (P.dh e NX.zeros) (P.dh kp.private_key NX.zeros)).2 ≠ NX.zeros) :
    let s0 := NoiseSession.initSession P initiator prologue kp
    let s := after P s0 [.send e buf1, .send e' buf2]
    (trace P s0 [.send e buf1, .send e' buf2]).map (fun c => c.2.1) = [.ok (), .ok ()] ∧
    s.isTransport = true ∧ s.getRemoteStaticPublicKey = some NX.zeros ∧
    (s.cs1.k, s.cs2.k) = NX.transportKeys P (P.dh e NX.zeros) (P.dh kp.private_key NX.zeros) := by
  intro s0 s
  have hf := send_first (P := P) initiator prologue kp (Keypair.default P e) buf1 h1 h1'
  have hc : chosen (Keypair.default P e) (Keypair.default P e') = Keypair.default P e := by
    unfold chosen
    rw [if_neg]
    intro h
    exact he (of_decide_eq_true h)
  have hs := send_second_any (P := P) initiator prologue kp (Keypair.default P e) (Keypair.default P e') EMPTY
    (Keypair.default P e).public_key.toList (buf1.drop 32) buf2 h2 h2' (by rw [hc]; exact hk1)
    (by rw [hc]; exact hk2)
  rw [hc] at hs
  simp only [s, s0, after, trace, Op.exec, hf, hs, List.map_cons, List.map_nil]
  exact ⟨trivial, rfl, rfl, rfl⟩

example : ∃ e : Arr 32, e ≠ NX.zeros ∧
    (NX.afterEE toyPrims (toyPrims.dh e NX.zeros)).2 ≠ NX.zeros ∧
    (NX.afterES toyPrims (toyPrims.dh e NX.zeros) (toyPrims.dh e NX.zeros)).2 ≠ NX.zeros :=
  ⟨Arr.replicate 32 3, by decide, toy_hkdf_ne_zeros _ _, toy_hkdf_ne_zeros _ _⟩

/-! ## C47 -/

/-- `PublicKey::from_bytes` refuses exactly the low-order points. -/
theorem C47_from_bytes (k : Arr 32) :
    (publicKeyFromBytes k = .err .invalidPublicKeyError ↔ leNat k.toList ∈ Curve.lowOrder) ∧
    (publicKeyFromBytes k = .ok k ↔ leNat k.toList ∉ Curve.lowOrder) := by
  have h := forbidden_iff k
  unfold publicKeyFromBytes
  split <;> rename_i hm
  · simp [h.mp hm]
  · simp [show leNat k.toList ∉ Curve.lowOrder from fun hh => hm (h.mpr hh)]

/-- A received message with such an ephemeral key is refused, and the session stays as it was. -/
theorem C47_receive (s : NoiseSession) (k : Arr 32) (rest : Bytes) (h : leNat k.toList ∈ Curve.lowOrder)
    (hs : s.getMessageCount < 2) (hl : 16 ≤ rest.length) (hl' : rest.length ≤ 65503) :
    s.recvMessage P (k.toList ++ rest) = (.err .invalidPublicKeyError, s, k.toList ++ rest) := by
  have hs : s.mc < 2 := hs
  have hlen : (k.toList ++ rest).length = 32 + rest.length := by simp [k.len]
  have hf : (k.toList ++ rest).take 32 ∈ forbiddenCurveValues := by
    rw [List.take_left' k.len]
    exact (forbidden_iff k).mpr h
  rcases (by omega : s.mc = 0 ∨ s.mc = 1) with h0 | h1
  · rw [NoiseSession.recv_zero s _ (by omega) h0, HandshakeState.readA_forbidden s.hs _ (by omega) hf]
  · rw [NoiseSession.recv_one s _ (by omega) h1]
    rcases HandshakeState.readB_cases (P := P) s.hs (k.toList ++ rest) with ⟨h, _⟩ | ⟨_, _, h⟩ |
      ⟨_, h, _⟩ | ⟨_, _, h, _⟩ | ⟨_, _, h, _⟩ | ⟨_, _, _, h, _⟩ | ⟨_, _, _, _, h, _⟩ | ⟨_, _, _, _, h, _⟩
    · omega
    · rw [h]
    all_goals exact absurd hf h

/-- The remote static key after any history is all zero (none was received) or not of low order. -/
theorem C47_remote_static (initiator : Bool) (prologue : Bytes) (kp : Keypair) (ops : List Op) (k : Arr 32)
    (h : (after P (NoiseSession.initSession P initiator prologue kp) ops).getRemoteStaticPublicKey = some k) :
    k = NX.zeros ∨ leNat k.toList ∉ Curve.lowOrder := by
  have hrs : ∀ k, (after P (NoiseSession.initSession P initiator prologue kp) ops).hs.rs = k →
      k = NX.zeros ∨ k.toList ∉ forbiddenCurveValues := by
    rintro _ rfl
    refine after_invariant (I := fun s => s.hs.rs = NX.zeros ∨ s.hs.rs.toList ∉ forbiddenCurveValues)
      (.inl rfl) ?_
    intro s op _ hs
    cases op with
    | send secret buf =>
      have := (send_hsStep (P := P) (Keypair.default P secret) s buf).2
      simp only [Op.exec, this]
      exact hs
    | recv buf =>
      rcases (recv_hsStep (P := P) s buf).rs with h | h
      · simp only [Op.exec, h]; exact hs
      · exact .inr h
    | setEphemeral kp => exact hs
    | clearLocal => exact hs
    | clearRemote => exact hs
    | rekeyLocal => exact hs
    | rekeyRemote => exact hs
  unfold NoiseSession.getRemoteStaticPublicKey at h
  split at h
  · rcases hrs k (Option.some.inj h) with h | h
    · exact .inl h
    · exact .inr fun hh => h ((forbidden_iff k).mpr hh)
  · cases h

/-- Each of the twelve numbers is a point of low order on the curve or its twist. -/
theorem C47_low_order : ∀ u ∈ Curve.lowOrder, u < 2 ^ 256 ∧ Curve.LowOrder u := by decide +kernel

/-- The refused keys are not all the keys that X25519 reads as low-order: it ignores the top bit, so these seven
encodings are low-order and accepted. -/
theorem C47_top_bit : ∀ u ∈ [0, 1, Curve.u1, Curve.u2, Curve.p - 1, Curve.p, Curve.p + 1],
    ∃ k : Arr 32, Curve.coordinate k.toList = u ∧ Curve.LowOrder u ∧ publicKeyFromBytes k = .ok k := by
  intro u hu
  refine ⟨⟨(List.range 32).map (fun i => UInt8.ofNat ((u + 2 ^ 255) / 256 ^ i)), by simp⟩, ?_⟩
  revert u
  decide +kernel

example : leNat (Arr.replicate 32 0).toList ∈ Curve.lowOrder := by decide
example : leNat (Arr.replicate 32 9).toList ∉ Curve.lowOrder := by decide +kernel

/-! ## C48 -/

/-- In transport mode the handshake state holds no secret any more, after any history. -/
theorem C48_erased (initiator : Bool) (prologue : Bytes) (kp : Keypair) (ops : List Op)
    (h : (after P (NoiseSession.initSession P initiator prologue kp) ops).isTransport = true) :
    Erased (after P (NoiseSession.initSession P initiator prologue kp) ops).hs := by
  have key : ∀ (s : NoiseSession) (op : Op), (s.is_transport = true ↔ 2 ≤ s.mc) ∧ (2 ≤ s.mc → Erased s.hs) →
      ((op.exec P s).2.1.is_transport = true ↔ 2 ≤ (op.exec P s).2.1.mc) ∧
        (2 ≤ (op.exec P s).2.1.mc → Erased (op.exec P s).2.1.hs) := by
    rintro s op ⟨ht, he⟩
    refine ⟨(exec_mc s op).2 ht, ?_⟩
    have hmc := (exec_mc (P := P) s op).1
    have hstep : ∀ r : NResult Unit × NoiseSession × Bytes, r = op.exec P s → HsStep s r →
        2 ≤ r.2.1.mc → op.isMessage = true → Erased r.2.1.hs := by
      rintro _ rfl hr h2 hop
      by_cases h : 2 ≤ s.mc
      · rw [hr.stay h]; exact he h
      · rw [hmc, hop, Bool.true_and] at h2
        rcases hok : (op.exec P s).1.isOk with _ | _
        · rw [hok] at h2; simp at h2; omega
        · rw [hok] at h2; simp at h2
          exact (hr.enter (by omega) hok).1
    intro h2
    cases op with
    | send secret buf => exact hstep _ rfl (send_hsStep (P := P) _ s buf).1 h2 rfl
    | recv buf => exact hstep _ rfl (recv_hsStep (P := P) s buf) h2 rfl
    | setEphemeral kp => exact { he h2 with }
    | clearLocal => exact he h2
    | clearRemote => exact he h2
    | rekeyLocal => exact he h2
    | rekeyRemote => exact he h2
  have hi := after_invariant (P := P) (I := fun s => (s.is_transport = true ↔ 2 ≤ s.mc) ∧ (2 ≤ s.mc → Erased s.hs))
    (s := NoiseSession.initSession P initiator prologue kp)
    ⟨by simp [NoiseSession.initSession], fun h => by simp [NoiseSession.initSession] at h⟩
    (ops := ops) (fun s op _ => key s op)
  exact hi.2 (hi.1.mp h)

/-- The ephemeral key pair is gone too, unless the application has set one itself after the handshake. -/
theorem C48_ephemeral (initiator : Bool) (prologue : Bytes) (kp : Keypair) (ops : List Op)
    (hops : ∀ op ∈ ops, op.isSetEphemeral = false)
    (h : (after P (NoiseSession.initSession P initiator prologue kp) ops).isTransport = true) :
    (after P (NoiseSession.initSession P initiator prologue kp) ops).hs.e = ⟨NX.zeros, NX.zeros⟩ := by
  have key : ∀ (s : NoiseSession) (op : Op), op ∈ ops →
      (s.is_transport = true ↔ 2 ≤ s.mc) ∧ (2 ≤ s.mc → s.hs.e = ⟨NX.zeros, NX.zeros⟩) →
      ((op.exec P s).2.1.is_transport = true ↔ 2 ≤ (op.exec P s).2.1.mc) ∧
        (2 ≤ (op.exec P s).2.1.mc → (op.exec P s).2.1.hs.e = ⟨NX.zeros, NX.zeros⟩) := by
    rintro s op hmem ⟨ht, he⟩
    refine ⟨(exec_mc s op).2 ht, ?_⟩
    have hmc := (exec_mc (P := P) s op).1
    have hstep : ∀ r : NResult Unit × NoiseSession × Bytes, r = op.exec P s → HsStep s r →
        2 ≤ r.2.1.mc → op.isMessage = true → r.2.1.hs.e = ⟨NX.zeros, NX.zeros⟩ := by
      rintro _ rfl hr h2 hop
      by_cases h : 2 ≤ s.mc
      · rw [hr.stay h]; exact he h
      · rw [hmc, hop, Bool.true_and] at h2
        rcases hok : (op.exec P s).1.isOk with _ | _
        · rw [hok] at h2; simp at h2; omega
        · rw [hok] at h2; simp at h2
          exact (hr.enter (by omega) hok).2
    intro h2
    cases op with
    | send secret buf => exact hstep _ rfl (send_hsStep (P := P) _ s buf).1 h2 rfl
    | recv buf => exact hstep _ rfl (recv_hsStep (P := P) s buf) h2 rfl
    | setEphemeral kp => exact absurd (hops _ hmem) (by simp [Op.isSetEphemeral])
    | clearLocal => exact he h2
    | clearRemote => exact he h2
    | rekeyLocal => exact he h2
    | rekeyRemote => exact he h2
  have hi := after_invariant (P := P)
    (I := fun s => (s.is_transport = true ↔ 2 ≤ s.mc) ∧ (2 ≤ s.mc → s.hs.e = ⟨NX.zeros, NX.zeros⟩))
    (s := NoiseSession.initSession P initiator prologue kp)
    ⟨by simp [NoiseSession.initSession], fun h => by simp [NoiseSession.initSession] at h⟩
    (ops := ops) key
  exact hi.2 (hi.1.mp h)

/-- A session that ends leaves no key behind: both transport keys, the handshake hash, and everything of the handshake
state but the remote static key (which is public), are zero, and so are the counters. -/
theorem C48_end_session (initiator : Bool) (prologue : Bytes) (kp : Keypair) (ops : List Op)
    (h : (after P (NoiseSession.initSession P initiator prologue kp) ops).isTransport = true) :
    let s := (after P (NoiseSession.initSession P initiator prologue kp) ops).endSession
    Erased s.hs ∧ s.hs.e = ⟨NX.zeros, NX.zeros⟩ ∧ s.cs1.k = NX.zeros ∧ s.cs2.k = NX.zeros ∧ s.h = NX.zeros ∧
      s.cs1.n = 0 ∧ s.cs2.n = 0 ∧ s.getMessageCount = 0 := by
  have := C48_erased P initiator prologue kp ops h
  exact ⟨⟨rfl, rfl, this.chaining_key, this.cipher_key, rfl⟩, rfl, rfl, rfl, rfl, rfl, rfl, rfl⟩

/-- Not so before transport mode: ended after a failed call in the handshake, a session leaves the chaining key and the
cipher key of the handshake in memory. -/
theorem C48_not_in_handshake :
    let s := after toyPrims
      (NoiseSession.initSession toyPrims false [] (Keypair.default toyPrims (Arr.replicate 32 5))) [
        .recv ((toyPrims.publicOf (Arr.replicate 32 7)).toList ++ List.replicate 16 0),
        .send (Arr.replicate 32 8) (List.replicate 79 0)]
    s.isTransport = false ∧ s.endSession.hs.ss.ck ≠ NX.zeros ∧ s.endSession.hs.ss.cs.k ≠ NX.zeros := by
  decide +kernel

end SV2
