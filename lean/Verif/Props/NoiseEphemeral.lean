import Verif.Props.EncryptorHistory
import Verif.Props.NoiseHandshake
import Verif.Props.NoiseTransport
import Verif.Props.NoiseKeys
/-!
# C79: `set_ephemeral_keypair`
-/

namespace SV2
open Noise

section
variable (P : Prims)

theorem writeB_short (rnd : Keypair) (hs : HandshakeState) (b : Bytes) (h : b.length < 32) :
    hs.writeMessageB P rnd b = (.err .missingneError, hs, b) := by
  unfold HandshakeState.writeMessageB
  rw [if_pos (by exact h)]

theorem setE_writeA (hs : HandshakeState) (kp rnd : Keypair) (b : Bytes) (he : hs.e.isEmpty = true)
    (hkp : kp.isEmpty = false) :
    let r := ({ hs with e := kp } : HandshakeState).writeMessageA P rnd b
    let q := hs.writeMessageA P kp b
    r.1 = q.1 ∧ r.2.2 = q.2.2 ∧ (32 ≤ b.length → r = q) := by
  intro r q
  have h : 32 ≤ b.length → r = q := by
    intro hl
    simp only [r, q, HandshakeState.writeMessageA, DHLEN, show ¬ b.length < 32 by omega, if_false, hkp, he, if_true,
      Bool.false_eq_true]
  by_cases hl : 32 ≤ b.length
  · rw [h hl]; exact ⟨rfl, rfl, fun _ => rfl⟩
  · refine ⟨?_, ?_, fun h => absurd h hl⟩ <;>
      simp only [r, q, HandshakeState.writeMessageA, DHLEN, show b.length < 32 by omega, if_true]

theorem setE_writeB (hs : HandshakeState) (kp rnd : Keypair) (b : Bytes) (he : hs.e.isEmpty = true)
    (hkp : kp.isEmpty = false) :
    let r := ({ hs with e := kp } : HandshakeState).writeMessageB P rnd b
    let q := hs.writeMessageB P kp b
    r.1 = q.1 ∧ r.2.2 = q.2.2 ∧ (32 ≤ b.length → r = q) := by
  intro r q
  have h : 32 ≤ b.length → r = q := by
    intro hl
    simp only [r, q, HandshakeState.writeMessageB, DHLEN, show ¬ b.length < 32 by omega, if_false, hkp, he, if_true,
      Bool.false_eq_true]
  by_cases hl : 32 ≤ b.length
  · rw [h hl]; exact ⟨rfl, rfl, fun _ => rfl⟩
  · refine ⟨?_, ?_, fun h => absurd h hl⟩ <;>
      simp only [r, q, HandshakeState.writeMessageB, DHLEN, show b.length < 32 by omega, if_true]

/-- On a session that has no ephemeral key yet, setting a key pair has the effect of the generator drawing that pair when
the session sends its handshake message; whatever the generator would have drawn does not matter. -/
theorem C79_as_drawn (s : NoiseSession) (he : s.hs.e.isEmpty = true) (hm : s.getMessageCount ≤ 1) (kp rnd : Keypair)
    (hkp : kp.isEmpty = false) (buf : Bytes) :
    ((s.setEphemeralKeypair kp).sendMessage P rnd buf).1 = (s.sendMessage P kp buf).1 ∧
    ((s.setEphemeralKeypair kp).sendMessage P rnd buf).2.2 = (s.sendMessage P kp buf).2.2 ∧
    ((s.sendMessage P kp buf).1 = .ok () →
      (s.setEphemeralKeypair kp).sendMessage P rnd buf = s.sendMessage P kp buf) := by
  have hm : s.mc ≤ 1 := hm
  by_cases hb : buf.length < 16 ∨ 65535 < buf.length
  · rw [NoiseSession.send_badLength rnd _ buf hb, NoiseSession.send_badLength kp _ buf hb]
    exact ⟨rfl, rfl, fun h => by cases h⟩
  rcases (show s.mc = 0 ∨ s.mc = 1 by omega) with h0 | h0
  · rw [NoiseSession.send_zero rnd _ buf hb (by exact h0), NoiseSession.send_zero kp _ buf hb h0]
    obtain ⟨h1, h2, h3⟩ := setE_writeA P s.hs kp rnd buf he hkp
    by_cases hl : 32 ≤ buf.length
    · have := h3 hl
      simp only [NoiseSession.setEphemeralKeypair, this]
      exact ⟨trivial, trivial, fun _ => trivial⟩
    · rw [HandshakeState.writeA_short _ _ _ (by omega), HandshakeState.writeA_short _ _ _ (by omega)]
      exact ⟨rfl, rfl, fun h => by cases h⟩
  · rw [NoiseSession.send_one rnd _ buf hb (by exact h0), NoiseSession.send_one kp _ buf hb h0]
    obtain ⟨h1, h2, h3⟩ := setE_writeB P s.hs kp rnd buf he hkp
    by_cases hl : 32 ≤ buf.length
    · have := h3 hl
      simp only [NoiseSession.setEphemeralKeypair, this]
      exact ⟨trivial, trivial, fun _ => trivial⟩
    · rw [writeB_short P _ _ _ (by omega), writeB_short P _ _ _ (by omega)]
      exact ⟨rfl, rfl, fun h => by cases h⟩

/-- A pair with an empty private key counts as none: a fresh pair is drawn. -/
theorem C79_empty_pair (s : NoiseSession) (he : s.hs.e.isEmpty = true) (hm : s.getMessageCount ≤ 1) (kp rnd : Keypair)
    (hkp : kp.isEmpty = true) (buf : Bytes) :
    ((s.setEphemeralKeypair kp).sendMessage P rnd buf).1 = (s.sendMessage P rnd buf).1 ∧
    ((s.setEphemeralKeypair kp).sendMessage P rnd buf).2.2 = (s.sendMessage P rnd buf).2.2 := by
  have hm : s.mc ≤ 1 := hm
  by_cases hb : buf.length < 16 ∨ 65535 < buf.length
  · rw [NoiseSession.send_badLength rnd _ buf hb, NoiseSession.send_badLength rnd _ buf hb]
    exact ⟨rfl, rfl⟩
  rcases (show s.mc = 0 ∨ s.mc = 1 by omega) with h0 | h0
  · rw [NoiseSession.send_zero rnd _ buf hb (by exact h0), NoiseSession.send_zero rnd _ buf hb h0]
    by_cases hl : 32 ≤ buf.length
    · have : ({ s.hs with e := kp } : HandshakeState).writeMessageA P rnd buf = s.hs.writeMessageA P rnd buf := by
        simp only [HandshakeState.writeMessageA, DHLEN, show ¬ buf.length < 32 by omega, if_false, hkp, he, if_true]
      simp only [NoiseSession.setEphemeralKeypair, this]
      exact ⟨trivial, trivial⟩
    · rw [HandshakeState.writeA_short _ _ _ (by omega), HandshakeState.writeA_short _ _ _ (by omega)]
      exact ⟨rfl, rfl⟩
  · rw [NoiseSession.send_one rnd _ buf hb (by exact h0), NoiseSession.send_one rnd _ buf hb h0]
    by_cases hl : 32 ≤ buf.length
    · have : ({ s.hs with e := kp } : HandshakeState).writeMessageB P rnd buf = s.hs.writeMessageB P rnd buf := by
        simp only [HandshakeState.writeMessageB, DHLEN, show ¬ buf.length < 32 by omega, if_false, hkp, he, if_true]
      simp only [NoiseSession.setEphemeralKeypair, this]
      exact ⟨trivial, trivial⟩
    · rw [writeB_short P _ _ _ (by omega), writeB_short P _ _ _ (by omega)]
      exact ⟨rfl, rfl⟩

/-- It makes no difference whether the pair is set before or after the first message is received. -/
theorem C79_before_or_after (s : NoiseSession) (hm : s.getMessageCount = 0) (kp : Keypair) (buf : Bytes) :
    (s.setEphemeralKeypair kp).recvMessage P buf =
      ((s.recvMessage P buf).1, (s.recvMessage P buf).2.1.setEphemeralKeypair kp, (s.recvMessage P buf).2.2) := by
  have hm : s.mc = 0 := hm
  by_cases hb : buf.length < 16 ∨ 65535 < buf.length
  · rw [NoiseSession.recv_badLength _ buf hb, NoiseSession.recv_badLength _ buf hb]
  rw [NoiseSession.recv_zero _ buf hb (by exact hm), NoiseSession.recv_zero _ buf hb hm]
  have hr : ({ s.hs with e := kp } : HandshakeState).readMessageA P buf =
      ((s.hs.readMessageA P buf).1, { (s.hs.readMessageA P buf).2.1 with e := kp }, (s.hs.readMessageA P buf).2.2) := by
    unfold HandshakeState.readMessageA
    split
    · rfl
    · dsimp only
      split <;> rfl
  simp only [NoiseSession.setEphemeralKeypair, hr]
  rcases s.hs.readMessageA P buf with ⟨o, hs', b'⟩
  cases o with
  | ok u =>
    simp only [NoiseSession.count]
    split <;> rfl
  | err e => rfl
  | panic => rfl

/-- In transport mode the call has no effect on what is sent and received. -/
theorem C79_transport (s : NoiseSession) (hm : 2 ≤ s.getMessageCount) (kp rnd : Keypair) (buf : Bytes) :
    (s.setEphemeralKeypair kp).sendMessage P rnd buf =
      ((s.sendMessage P rnd buf).1, (s.sendMessage P rnd buf).2.1.setEphemeralKeypair kp, (s.sendMessage P rnd buf).2.2) ∧
    (s.setEphemeralKeypair kp).recvMessage P buf =
      ((s.recvMessage P buf).1, (s.recvMessage P buf).2.1.setEphemeralKeypair kp, (s.recvMessage P buf).2.2) := by
  have hm : 2 ≤ s.mc := hm
  by_cases hb : buf.length < 16 ∨ 65535 < buf.length
  · rw [NoiseSession.recv_badLength _ buf hb, NoiseSession.recv_badLength _ buf hb,
      NoiseSession.send_badLength rnd _ buf hb, NoiseSession.send_badLength rnd _ buf hb]
    exact ⟨rfl, rfl⟩
  constructor
  · rw [NoiseSession.send_transport rnd _ buf hb (by exact hm), NoiseSession.send_transport rnd _ buf hb hm]
    have h1 : (s.setEphemeralKeypair kp).sendCs = s.sendCs := rfl
    have h2 : ∀ cs, (s.setEphemeralKeypair kp).setSend cs = (s.setSend cs).setEphemeralKeypair kp := by
      intro cs
      unfold NoiseSession.setSend NoiseSession.setEphemeralKeypair
      dsimp only
      split <;> rfl
    have h3 : ∀ (t : NoiseSession) b, (t.setEphemeralKeypair kp).count b =
        ((t.count b).1, (t.count b).2.1.setEphemeralKeypair kp, (t.count b).2.2) := by
      intro t b
      unfold NoiseSession.count NoiseSession.setEphemeralKeypair
      dsimp only
      split <;> rfl
    rw [h1]
    rcases s.sendCs.writeMessageRegular P buf with ⟨o, cs, b⟩
    cases o with
    | ok u => simp only [h2, h3]
    | err e => simp only [h2]
    | panic => simp only [h2]
  · rw [NoiseSession.recv_transport _ buf hb (by exact hm), NoiseSession.recv_transport _ buf hb hm]
    have h1 : (s.setEphemeralKeypair kp).recvCs = s.recvCs := rfl
    have h2 : ∀ cs, (s.setEphemeralKeypair kp).setRecv cs = (s.setRecv cs).setEphemeralKeypair kp := by
      intro cs
      unfold NoiseSession.setRecv NoiseSession.setEphemeralKeypair
      dsimp only
      split <;> rfl
    have h3 : ∀ (t : NoiseSession) b, (t.setEphemeralKeypair kp).count b =
        ((t.count b).1, (t.count b).2.1.setEphemeralKeypair kp, (t.count b).2.2) := by
      intro t b
      unfold NoiseSession.count NoiseSession.setEphemeralKeypair
      dsimp only
      split <;> rfl
    rw [h1]
    rcases s.recvCs.readMessageRegular P buf with ⟨o, cs, b⟩
    cases o with
    | ok u => simp only [h2, h3]
    | err e => simp only [h2]
    | panic => simp only [h2]

/-- A handshake with ephemeral keys set on both sides at the start: C38 with those keys, whatever would be drawn. -/
theorem C79_handshake (hA : AeadCorrect P) (hD : DhLaws P) (prologue : Bytes) (sI : Keypair)
    (eI eR sR : Arr 32) (hI : ∃ b ∈ eI.toList, b ≠ 0) (hR : ∃ b ∈ eR.toList, b ≠ 0) (drawnI drawnR : Keypair)
    (buf1 buf2 : Bytes) (h1 : 48 ≤ buf1.length) (h1' : buf1.length ≤ 65535)
    (h2 : 96 ≤ buf2.length) (h2' : buf2.length ≤ 2128) (x : NX.Run)
    (hx : x = ⟨prologue, eI, eR, sR, buf1.drop 32, plain (buf2.drop 80)⟩) (hk : x.KeysNonzero P) :
    ∃ i1 i2 r1 r2 out,
      ((NoiseSession.initSession P true prologue sI).setEphemeralKeypair (Keypair.default P eI)).sendMessage P drawnI
        buf1 = (.ok (), i1, x.wire1 P) ∧
      ((NoiseSession.initSession P false prologue (Keypair.default P sR)).setEphemeralKeypair
        (Keypair.default P eR)).recvMessage P (x.wire1 P) = (.ok (), r1, x.wire1 P) ∧
      r1.sendMessage P drawnR buf2 = (.ok (), r2, x.wire2 P) ∧
      i1.recvMessage P (x.wire2 P) = (.ok (), i2, out) ∧ plain (out.drop 80) = x.payload2 ∧
      i2.getHandshakeHash = some (x.hash P) ∧ r2.getHandshakeHash = some (x.hash P) ∧
      Agreed i2 r2 (x.keys P) := by
  have hne : ∀ k : Arr 32, (∃ b ∈ k.toList, b ≠ 0) → (Keypair.default P k).isEmpty = false := by
    rintro k ⟨b, hb, hb0⟩
    cases h : (Keypair.default P k).isEmpty with
    | false => rfl
    | true => exact absurd ((C65_pair_is_empty _).mp h b hb) hb0
  obtain ⟨i1, i2, r1, r2, out, e1, e2, e3, e4, e5, -, -, -, e6, e7, -, -, e8⟩ :=
    C38_handshake P hA hD prologue sI eI eR sR buf1 buf2 h1 h1' h2 h2' x hx hk
  have hfirst := (C79_as_drawn P (NoiseSession.initSession P true prologue sI) (by rfl) (Nat.zero_le _)
    (Keypair.default P eI) drawnI (hne _ hI) buf1).2.2 (by rw [e1])
  obtain ⟨re, -, -, hr1, -⟩ := recv_first_ok e2
  have hrecv := C79_before_or_after P (NoiseSession.initSession P false prologue (Keypair.default P sR)) rfl
    (Keypair.default P eR) (x.wire1 P)
  rw [e2] at hrecv
  have hsecond := (C79_as_drawn P r1 (by rw [hr1]; rfl) (by rw [hr1]; exact Nat.le_refl 1)
    (Keypair.default P eR) drawnR (hne _ hR) buf2).2.2 (by rw [e3])
  exact ⟨i1, i2, r1.setEphemeralKeypair (Keypair.default P eR), r2, out, hfirst.trans e1, hrecv, hsecond.trans e3, e4, e5,
    e6, e7, e8⟩

/-- An initiator whose pair is replaced after the first message refuses the honest answer, unless a ciphertext made with
the key of the handshake also decrypts with the key derived from the replacement. -/
theorem C79_replaced (prologue : Bytes) (sI kp : Keypair) (eI eR sR : Arr 32) (buf1 : Bytes)
    (payload2 : Bytes) (x : NX.Run) (hx : x = ⟨prologue, eI, eR, sR, buf1.drop 32, payload2⟩) (i1 : NoiseSession)
    (w : Bytes)
    (h : (NoiseSession.initSession P true prologue sI).sendMessage P (Keypair.default P eI) buf1 = (.ok (), i1, w))
    (hok : ((i1.setEphemeralKeypair kp).recvMessage P (x.wire2 P)).1 = .ok ()) :
    ∃ rs, P.aeadOpen (NX.afterEE P (P.dh kp.private_key (P.publicOf eR))).2 (NX.nonce 0)
      (NX.transcript P [prologue, x.ei P, x.payload1, x.er P]).toList
      (P.aeadSeal (NX.afterEE P (x.ee P)).2 (NX.nonce 0)
        (NX.transcript P [prologue, x.ei P, x.payload1, x.er P]).toList (P.publicOf sR).toList).1
      (P.aeadSeal (NX.afterEE P (x.ee P)).2 (NX.nonce 0)
        (NX.transcript P [prologue, x.ei P, x.payload1, x.er P]).toList (P.publicOf sR).toList).2 = some rs := by
  obtain ⟨hi1, hw, -, -, hd⟩ := send_first_ok h
  obtain ⟨re, c, mac, rest, rs, hb, hc, -, -, -, ho⟩ :=
    recv_one_accepted (P := P) (i1.setEphemeralKeypair kp) (x.wire2 P) (by rw [hi1]; rfl)
      (fun e he => by rw [hok] at he; cases he)
  subst hx
  have hseal := P.seal_length (NX.afterEE P (P.dh eR (P.publicOf eI))).2 (NX.nonce 0)
    (NX.transcript P [prologue, (P.publicOf eI).toList, buf1.drop 32, (P.publicOf eR).toList]).toList
    (P.publicOf sR).toList
  rw [(P.publicOf sR).len] at hseal
  have hb : (P.publicOf eR).toList ++ ((P.aeadSeal (NX.afterEE P (P.dh eR (P.publicOf eI))).2 (NX.nonce 0)
        (NX.transcript P [prologue, (P.publicOf eI).toList, buf1.drop 32, (P.publicOf eR).toList]).toList
        (P.publicOf sR).toList).1 ++ (P.aeadSeal (NX.afterEE P (P.dh eR (P.publicOf eI))).2 (NX.nonce 0)
        (NX.transcript P [prologue, (P.publicOf eI).toList, buf1.drop 32, (P.publicOf eR).toList]).toList
        (P.publicOf sR).toList).2.toList) ++ _ = re.toList ++ (c ++ mac.toList) ++ rest := hb
  simp only [List.append_assoc] at hb
  obtain ⟨hre, hb⟩ := List.append_inj hb (by rw [re.len, Arr.len])
  obtain ⟨hcc, hb⟩ := List.append_inj hb (by rw [hseal, hc])
  have hmm := List.append_inj_left hb (by rw [mac.len, Arr.len])
  have hre : re = P.publicOf eR := (arr_ext hre).symm
  have hmm := arr_ext hmm
  have hh : (i1.setEphemeralKeypair kp).hs.ss.h = NX.transcript P [prologue, (P.publicOf eI).toList, buf1.drop 32] := by
    rw [hi1, hw, hd]; rfl
  have hck : (i1.setEphemeralKeypair kp).hs.ss.ck = NX.h0 P := by rw [hi1]; rfl
  rw [hh, hck, hre, ← hcc, ← hmm] at ho
  exact ⟨rs, ho⟩

/-- Setting the same keys for two sessions reuses key and nonce: whatever the prologues and payloads, the sessions have the
same transport keys, and their messages number `j` are encrypted with the same key and nonce. -/
theorem C79_reuse (x x' : NX.Run) (h1 : x'.eI = x.eI) (h2 : x'.eR = x.eR) (h3 : x'.sR = x.sR)
    (i r i' r' : NoiseSession) (hi : Agreed i r (x.keys P)) (hi' : Agreed i' r' (x'.keys P)) (ops ops' : List Op)
    (hl : ops.length < 2 ^ 127) (hl' : ops'.length < 2 ^ 127) (ho : ∀ op ∈ ops, op.changesKeys = false)
    (ho' : ∀ op ∈ ops', op.changesKeys = false) (j : Nat) (p p' w w' : Bytes)
    (hj : (sentIn (trace P i ops))[j]? = some (p, w)) (hj' : (sentIn (trace P i' ops'))[j]? = some (p', w')) :
    w = NX.enc P (x.keys P).1 j [] p ∧ w' = NX.enc P (x.keys P).1 j [] p' := by
  have hk : x'.keys P = x.keys P := by
    unfold NX.Run.keys NX.Run.ee NX.Run.es
    rw [h1, h2, h3]
  have key : ∀ (i r : NoiseSession) (keys : Arr 32 × Arr 32), Agreed i r keys → ∀ ops : List Op, ops.length < 2 ^ 127 →
      (∀ op ∈ ops, op.changesKeys = false) → ∀ p w, (sentIn (trace P i ops))[j]? = some (p, w) →
      w = NX.enc P keys.1 j [] p := by
    intro i r keys ha ops hl ho p w hj
    have hmc : i.mc = 2 := ha.count.1
    have := (C41_nonces P i (by show 2 ≤ i.mc; omega) ops (by show i.mc + _ < _; omega) ho j p w hj).1
    rw [ha.roles.1, if_pos rfl, ha.initiator.1] at this
    simpa using this
  exact ⟨key i r _ hi ops hl ho p w hj, hk ▸ key i' r' _ hi' ops' hl' ho' p' w' hj'⟩

end

/-! ### Examples -/

set_option maxRecDepth 100000 in
/-- A handshake with set keys in which the drawn ones are not used, and then the same initiator with its pair replaced
before the answer: it refuses the answer. -/
example :
    let i := NoiseSession.initSession toyPrims true [] Keypair.empty
    let r := NoiseSession.initSession toyPrims false [] (toyPair 3)
    let (o1, i1, w1) := (i.setEphemeralKeypair (toyPair 5)).sendMessage toyPrims (toyPair 9) (List.replicate 48 0)
    let (o2, r1, _) := (r.setEphemeralKeypair (toyPair 6)).recvMessage toyPrims w1
    let (o3, _, w2) := r1.sendMessage toyPrims (toyPair 9) (List.replicate 96 0)
    (o1 = .ok () ∧ o2 = .ok () ∧ o3 = .ok ()) ∧ w1.take 32 = (toyPair 5).public_key.toList ∧
      w2.take 32 = (toyPair 6).public_key.toList ∧ (i1.recvMessage toyPrims w2).1 = .ok () ∧
      ((i1.setEphemeralKeypair (toyPair 7)).recvMessage toyPrims w2).1 = .err .decryptionError ∧
      ((i1.setEphemeralKeypair (toyPair 5)).recvMessage toyPrims w2).1 = .ok () := by decide +kernel

example : (toyPair 5).isEmpty = false ∧ (NoiseSession.initSession toyPrims true [] Keypair.empty).hs.e.isEmpty = true ∧
    Keypair.empty.isEmpty = true ∧ (NoiseSession.initSession toyPrims true [] Keypair.empty).getMessageCount = 0 := by
  decide +kernel

end SV2
