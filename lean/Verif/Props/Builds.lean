import Verif.Model.Noise.Build
import Verif.Props.NoiseSession
/-!
# C90: the counters of a session, and sessions in other builds
-/

namespace SV2
open Noise

/-- The calls that empty a cipher state. -/
def clears (ops : List Op) : Nat :=
  (ops.filter fun op => match op with
    | .clearLocal | .clearRemote => true
    | _ => false).length

/-- A call in some build.  Only sends and receives do arithmetic. -/
def execIn (b : Build) (P : Prims) (s : NoiseSession) : Op → NResult Unit × NoiseSession × Bytes
  | .send secret buf => b.sendMessage P (Keypair.default P secret) s buf
  | .recv buf => b.recvMessage P s buf
  | op => op.exec P s

/-- The calls of a history in some build, with their outcomes, the session after each, and the buffers. -/
def historyIn (b : Build) (P : Prims) (s : NoiseSession) : List Op → List (NResult Unit × NoiseSession × Bytes)
  | [] => []
  | op :: ops => execIn b P s op :: historyIn b P (execIn b P s op).2.1 ops

/-- The same in the build of the model: overflow checks, 64 bits. -/
def history (P : Prims) (s : NoiseSession) : List Op → List (NResult Unit × NoiseSession × Bytes)
  | [] => []
  | op :: ops => op.exec P s :: history P (op.exec P s).2.1 ops

/-- The buffers of a call are slices of a target whose `usize` has `w` bits: at most `isize::MAX` bytes. -/
def FitsIn (w : Nat) : Op → Prop
  | .send _ buf => buf.length < 2 ^ (w - 1)
  | .recv buf => buf.length < 2 ^ (w - 1)
  | _ => True

variable (P : Prims)

/-! ## The counter -/

theorem nat_le_max (n : UInt64) : n.toNat ≤ 2 ^ 64 - 1 := by have := n.toNat_lt; omega

theorem succ_toNat {n : UInt64} (h : n ≠ MAX_NONCE) : (n + 1).toNat = n.toNat + 1 := by
  have h1 : n.toNat ≠ 2 ^ 64 - 1 := fun he => h (UInt64.toNat_inj.mp he)
  have h2 := n.toNat_lt
  rw [UInt64.toNat_add]
  exact Nat.mod_eq_of_lt (by show n.toNat + 1 < 2 ^ 64; omega)

/-- The nonces of a session count its messages. -/
def Counted (c : Nat) (s : NoiseSession) : Prop :=
  s.mc ≤ 2 + s.cs1.n.toNat + s.cs2.n.toNat + (2 ^ 64 - 1) * c

theorem Counted.sum {c : Nat} {s : NoiseSession} :
    Counted c s ↔ s.mc ≤ 2 + s.sendCs.n.toNat + s.recvCs.n.toNat + (2 ^ 64 - 1) * c := by
  unfold Counted NoiseSession.sendCs NoiseSession.recvCs
  split <;> omega

theorem Counted.fresh {c : Nat} {s : NoiseSession} (h : s.mc ≤ 2) : Counted c s := by
  unfold Counted; omega

theorem count_sendCs (s : NoiseSession) (b : Bytes) : (s.count b).2.1.sendCs = s.sendCs ∧
    (s.count b).2.1.recvCs = s.recvCs ∧ (s.count b).2.1.mc ≤ s.mc + 1 := by
  rcases NoiseSession.count_cases s b with ⟨_, h⟩ | ⟨_, h⟩ <;> rw [h]
  · exact ⟨rfl, rfl, Nat.le_refl _⟩
  · exact ⟨rfl, rfl, Nat.le_succ _⟩

theorem Counted.exec {c : Nat} {s : NoiseSession} (h : Counted c s) (op : Op) :
    Counted (c + clears [op]) (op.exec P s).2.1 := by
  have hle : ∀ r : NoiseSession, r.mc = s.mc → s.mc < 2 → Counted c r := fun r h1 h2 => Counted.fresh (by omega)
  cases op with
  | send secret buf =>
    show Counted c (s.sendMessage P (Keypair.default P secret) buf).2.1
    by_cases hm : 2 ≤ s.mc
    · rcases NoiseSession.send_cases (P := P) (Keypair.default P secret) s buf hm with ⟨_, _, hn, _, he⟩ | ⟨e, he⟩ <;> rw [he]
      · obtain ⟨h1, h2, h3⟩ := count_sendCs (s.setSend ⟨s.sendCs.k, s.sendCs.n + 1⟩)
          (CipherState.sealed P s.sendCs.k s.sendCs.n [] (body buf))
        have h' := Counted.sum.mp h
        refine Counted.sum.mpr ?_
        rw [h1, h2, NoiseSession.setSend_sendCs, NoiseSession.setSend_recvCs]
        rw [NoiseSession.setSend_mc] at h3
        show _ ≤ 2 + (s.sendCs.n + 1).toNat + _ + _
        rw [succ_toNat hn]
        omega
      · exact h
    · have hb := NoiseSession.send_basic (P := P) (Keypair.default P secret) s buf
      refine Counted.fresh ?_
      rw [hb.mc]
      split <;> omega
  | recv buf =>
    show Counted c (s.recvMessage P buf).2.1
    by_cases hm : 2 ≤ s.mc
    · rcases NoiseSession.recv_cases (P := P) s buf hm with ⟨_, p, _, hn, _, _, he⟩ | ⟨e, he⟩ <;> rw [he]
      · obtain ⟨h1, h2, h3⟩ := count_sendCs (s.setRecv ⟨s.recvCs.k, s.recvCs.n + 1⟩) (p ++ tag buf)
        have h' := Counted.sum.mp h
        refine Counted.sum.mpr ?_
        rw [h1, h2, NoiseSession.setRecv_sendCs, NoiseSession.setRecv_recvCs]
        rw [NoiseSession.setRecv_mc] at h3
        show _ ≤ 2 + _ + (s.recvCs.n + 1).toNat + _
        rw [succ_toNat hn]
        omega
      · exact h
    · have hb := NoiseSession.recv_basic (P := P) s buf
      refine Counted.fresh ?_
      rw [hb.mc]
      split <;> omega
  | setEphemeral kp => exact h
  | clearLocal =>
    show s.mc ≤ 2 + 0 + s.cs2.n.toNat + (2 ^ 64 - 1) * (c + 1)
    have := nat_le_max s.cs1.n
    unfold Counted at h
    omega
  | clearRemote =>
    show s.mc ≤ 2 + s.cs1.n.toNat + 0 + (2 ^ 64 - 1) * (c + 1)
    have := nat_le_max s.cs2.n
    unfold Counted at h
    omega
  | rekeyLocal => exact h
  | rekeyRemote => exact h

theorem clears_cons (op : Op) (ops : List Op) : clears (op :: ops) = clears [op] + clears ops := by
  unfold clears
  rw [← List.length_append, ← List.filter_append]
  rfl

theorem Counted.after {c : Nat} {s : NoiseSession} (h : Counted c s) (ops : List Op) :
    Counted (c + clears ops) (after P s ops) := by
  induction ops generalizing c s with
  | nil => exact h
  | cons op ops ih =>
    rw [clears_cons, ← Nat.add_assoc]
    exact ih (h.exec P op)

theorem Counted.bound {c : Nat} {s : NoiseSession} (h : Counted c s) : s.mc ≤ 2 + (2 + c) * (2 ^ 64 - 1) := by
  have h1 := nat_le_max s.cs1.n
  have h2 := nat_le_max s.cs2.n
  unfold Counted at h
  rw [Nat.add_mul]
  rw [Nat.mul_comm] at h
  omega

/-- A session never processes more than 2 + 2 (2^64 - 1) messages, and another 2^64 - 1 for every call of
`clear_local_cipherstate` or `clear_remote_cipherstate`. -/
theorem C90_count (initiator : Bool) (prologue : Bytes) (kp : Keypair) (ops : List Op) :
    (after P (NoiseSession.initSession P initiator prologue kp) ops).getMessageCount ≤
      2 + (2 + clears ops) * (2 ^ 64 - 1) := by
  have := (Counted.after P (Counted.fresh (c := 0) (s := NoiseSession.initSession P initiator prologue kp)
    (by show 0 ≤ 2; omega)) ops).bound
  rwa [Nat.zero_add] at this

theorem small_of_clears {c n : Nat} (h : n ≤ 2 + (2 + c) * (2 ^ 64 - 1)) (hc : c ≤ 2 ^ 64 - 2) : n < 2 ^ 128 - 1 := by
  have h1 : (2 + c) * (2 ^ 64 - 1) ≤ 2 ^ 64 * (2 ^ 64 - 1) := Nat.mul_le_mul_right _ (by omega)
  omega

/-- So the counter does not overflow, unless there were 2^64 - 1 calls that clear a cipher state: sending does not
panic, and receiving panics exactly as C43 says. -/
theorem C90_no_overflow (initiator : Bool) (prologue : Bytes) (kp : Keypair) (ops : List Op)
    (hc : clears ops ≤ 2 ^ 64 - 2) (rnd : Keypair) (buf : Bytes) :
    let s := after P (NoiseSession.initSession P initiator prologue kp) ops
    (s.sendMessage P rnd buf).1 ≠ .panic ∧
    ((s.recvMessage P buf).1 = .panic ↔
      s.getMessageCount = 1 ∧ ((80 ≤ buf.length ∧ buf.length < 96) ∨
        (2128 < buf.length ∧ buf.length ≤ 65535)) ∧ StaticKeyAccepted P s buf) := by
  intro s
  have h := small_of_clears (C90_count P initiator prologue kp ops) hc
  exact ⟨C43_send P s rnd buf h, C43_recv_panics_iff P s buf h⟩

/-! ## Builds -/

theorem increment_eq (b : Build) {n : UInt64} (h : n ≠ MAX_NONCE) : b.increment n = nonceIncrement n := by
  have h1 : n.toNat ≠ 2 ^ 64 - 1 := fun he => h (UInt64.toNat_inj.mp he)
  have h2 := n.toNat_lt
  unfold Build.increment nonceIncrement
  rw [if_neg (by simp; omega), if_pos (by omega)]
  congr 1
  apply UInt64.toNat_inj.mp
  rw [UInt64.toNat_add, UInt64.toNat_ofNat', Nat.mod_mod]
  rfl

theorem count_eq (b : Build) (s : NoiseSession) (buf : Bytes) (h : s.mc + 1 < 2 ^ 128) :
    b.count s buf = s.count buf := by
  unfold Build.count NoiseSession.count
  rw [if_neg (by simp; omega), if_pos h, Nat.mod_eq_of_lt h]

theorem split_eq (b : Build) (hw : 16 ≤ b.w) (buf : Bytes) (hb : buf.length < 2 ^ b.w) :
    b.split buf = if buf.length < 16 then .panic
      else .ok (buf.take (buf.length - 16), buf.drop (buf.length - 16)) := by
  have h16 : 2 ^ 16 ≤ 2 ^ b.w := Nat.pow_le_pow_right (by decide) hw
  have hM : MAC_LENGTH = 16 := rfl
  unfold Build.split
  rw [hM]
  by_cases h : buf.length < 16
  · rw [if_pos h]
    by_cases hc : b.checks = true
    · rw [if_pos (by simp [hc, h])]
    · rw [if_neg (by simp [hc])]
      dsimp only
      rw [Nat.mod_eq_of_lt (by omega), if_neg (by omega)]
  · rw [if_neg h, if_neg (by simp; omega)]
    have : (buf.length + 2 ^ b.w - 16) % 2 ^ b.w = buf.length - 16 := by
      rw [show buf.length + 2 ^ b.w - 16 = (buf.length - 16) + 2 ^ b.w by omega, Nat.add_mod_right,
        Nat.mod_eq_of_lt (by omega)]
    dsimp only
    rw [this, if_pos (by omega)]

theorem encryptWithAd_eq (b : Build) (cs : CipherState) (ad t : Bytes) :
    b.encryptWithAd P cs ad t = cs.encryptWithAd P ad t := by
  unfold Build.encryptWithAd CipherState.encryptWithAd nonceValue
  by_cases h : cs.n = MAX_NONCE
  · rw [if_pos h]
  · rw [if_neg h, increment_eq b h]
    rfl

theorem decryptWithAd_eq (b : Build) (cs : CipherState) (ad t : Bytes) (mac : Arr 16) :
    b.decryptWithAd P cs ad t mac = cs.decryptWithAd P ad t mac := by
  unfold Build.decryptWithAd CipherState.decryptWithAd nonceValue
  by_cases h : cs.n = MAX_NONCE
  · rw [if_pos h]
  · rw [if_neg h, increment_eq b h]
    rfl

variable {b : Build} (hw : 16 ≤ b.w)
include hw

theorem writeMessageRegular_eq (cs : CipherState) (buf : Bytes) (hb : buf.length < 2 ^ b.w) :
    b.writeMessageRegular P cs buf = cs.writeMessageRegular P buf := by
  unfold Build.writeMessageRegular CipherState.writeMessageRegular
  rw [split_eq b hw buf hb]
  by_cases h : buf.length < 16
  · rw [if_pos h, if_pos (by exact h)]
  · rw [if_neg h, if_neg (by exact h)]
    dsimp only
    rw [encryptWithAd_eq]
    rfl

theorem readMessageRegular_eq (cs : CipherState) (buf : Bytes) (hb : buf.length < 2 ^ b.w) :
    b.readMessageRegular P cs buf = cs.readMessageRegular P buf := by
  unfold Build.readMessageRegular CipherState.readMessageRegular
  rw [split_eq b hw buf hb]
  by_cases h : buf.length < 16
  · rw [if_pos h, if_pos (by exact h)]
  · rw [if_neg h, if_neg (by exact h)]
    simp only [decryptWithAd_eq]
    rfl

theorem encryptAndHash_eq (ss : SymmetricState) (buf : Bytes) (hb : buf.length < 2 ^ b.w) :
    b.encryptAndHash P ss buf = ss.encryptAndHash P buf := by
  unfold Build.encryptAndHash SymmetricState.encryptAndHash
  rw [split_eq b hw buf hb]
  by_cases h : buf.length < 16
  · rw [if_pos (by exact h), if_pos (by exact h)]
  · rw [if_neg (by exact h), if_neg h, if_neg (by exact h)]
    simp only [encryptWithAd_eq]
    rfl

theorem decryptAndHash_eq (ss : SymmetricState) (buf : Bytes) (hb : buf.length < 2 ^ b.w) :
    b.decryptAndHash P ss buf = ss.decryptAndHash P buf := by
  unfold Build.decryptAndHash SymmetricState.decryptAndHash
  rw [split_eq b hw buf hb]
  by_cases h' : buf.length > 2048
  · rw [if_pos h', if_pos h']
  rw [if_neg h', if_neg h']
  by_cases h : buf.length < 16
  · rw [if_pos h, if_pos (by exact h)]
  · rw [if_neg h, if_neg (by exact h)]
    simp only [decryptWithAd_eq]
    rfl

theorem writeMessageB_eq (rnd : Keypair) (hs : HandshakeState) (buf : Bytes) (hb : buf.length < 2 ^ b.w) :
    b.writeMessageB P rnd hs buf = hs.writeMessageB P rnd buf := by
  unfold Build.writeMessageB HandshakeState.writeMessageB
  have h16 : 2 ^ 16 ≤ 2 ^ b.w := Nat.pow_le_pow_right (by decide) hw
  have h1 : ∀ (ss : SymmetricState) (k : Arr 32), b.encryptAndHash P ss
      (k.toList ++ ((buf.drop DHLEN).take (DHLEN + MAC_LENGTH)).drop DHLEN) = ss.encryptAndHash P
      (k.toList ++ ((buf.drop DHLEN).take (DHLEN + MAC_LENGTH)).drop DHLEN) := by
    intro ss k
    refine encryptAndHash_eq P hw _ _ ?_
    simp [k.len, DHLEN, MAC_LENGTH]
    omega
  have h2 : ∀ ss : SymmetricState, b.encryptAndHash P ss ((buf.drop DHLEN).drop (DHLEN + MAC_LENGTH)) =
      ss.encryptAndHash P ((buf.drop DHLEN).drop (DHLEN + MAC_LENGTH)) := by
    intro ss
    refine encryptAndHash_eq P hw _ _ ?_
    simp
    omega
  simp only [h1, h2]
  rfl

theorem readMessageB_eq (hs : HandshakeState) (buf : Bytes) (hb : buf.length < 2 ^ b.w) :
    b.readMessageB P hs buf = hs.readMessageB P buf := by
  unfold Build.readMessageB HandshakeState.readMessageB
  have h1 : ∀ ss : SymmetricState, b.decryptAndHash P ss ((buf.drop DHLEN).take (MAC_LENGTH + DHLEN)) =
      ss.decryptAndHash P ((buf.drop DHLEN).take (MAC_LENGTH + DHLEN)) := by
    intro ss
    refine decryptAndHash_eq P hw _ _ ?_
    simp
    omega
  have h2 : ∀ ss : SymmetricState, b.decryptAndHash P ss ((buf.drop DHLEN).drop (MAC_LENGTH + DHLEN)) =
      ss.decryptAndHash P ((buf.drop DHLEN).drop (MAC_LENGTH + DHLEN)) := by
    intro ss
    refine decryptAndHash_eq P hw _ _ ?_
    simp
    omega
  simp only [h1, h2]
  rfl

/-- A single call does the same in every build, whatever the session, as long as the counter has not reached its
maximum. -/
theorem C90_call (s : NoiseSession) (hmax : s.getMessageCount < 2 ^ 128 - 1) (rnd : Keypair) (buf : Bytes)
    (hb : buf.length < 2 ^ (b.w - 1)) :
    b.sendMessage P rnd s buf = s.sendMessage P rnd buf ∧ b.recvMessage P s buf = s.recvMessage P buf := by
  have hb : buf.length < 2 ^ b.w := Nat.lt_of_lt_of_le hb (Nat.pow_le_pow_right (by decide) (by omega))
  have hmax : s.mc < 2 ^ 128 - 1 := hmax
  have hc1 : ∀ (hs : HandshakeState) (o : Bytes), b.count { s with hs := hs } o =
      NoiseSession.count { s with hs := hs } o := fun _ _ => count_eq _ _ _ (by show s.mc + 1 < _; omega)
  have hc2 : ∀ (hs : HandshakeState) (t : HandshakeOutput) (o : Bytes),
      b.count (NoiseSession.enterTransport { s with hs := hs } t) o =
      NoiseSession.count (NoiseSession.enterTransport { s with hs := hs } t) o :=
    fun _ _ _ => count_eq _ _ _ (by show s.mc + 1 < _; omega)
  have hc3 : ∀ (cs : CipherState) (o : Bytes), b.count { s with cs1 := cs } o =
      NoiseSession.count { s with cs1 := cs } o := fun _ _ => count_eq _ _ _ (by show s.mc + 1 < _; omega)
  have hc4 : ∀ (cs : CipherState) (o : Bytes), b.count { s with cs2 := cs } o =
      NoiseSession.count { s with cs2 := cs } o := fun _ _ => count_eq _ _ _ (by show s.mc + 1 < _; omega)
  constructor
  · unfold Build.sendMessage NoiseSession.sendMessage
    simp only [writeMessageB_eq P hw _ _ _ hb, writeMessageRegular_eq P hw _ _ hb, hc1, hc2, hc3, hc4]
    rfl
  · unfold Build.recvMessage NoiseSession.recvMessage
    simp only [readMessageB_eq P hw _ _ hb, readMessageRegular_eq P hw _ _ hb, hc1, hc2, hc3, hc4]
    rfl

theorem history_eq {c : Nat} {s : NoiseSession} (hs : Counted c s) (ops : List Op)
    (hc : c + clears ops ≤ 2 ^ 64 - 2) (hb : ∀ op ∈ ops, FitsIn b.w op) :
    historyIn b P s ops = history P s ops := by
  induction ops generalizing c s with
  | nil => rfl
  | cons op ops ih =>
    rw [clears_cons] at hc
    have hmax : s.mc < 2 ^ 128 - 1 := small_of_clears hs.bound (by omega)
    have he : execIn b P s op = op.exec P s := by
      have hf := hb op (List.mem_cons_self ..)
      cases op with
      | send secret buf => exact (C90_call P hw s hmax _ buf hf).1
      | recv buf => exact (C90_call P hw s hmax Keypair.empty buf hf).2
      | setEphemeral kp => rfl
      | clearLocal => rfl
      | clearRemote => rfl
      | rekeyLocal => rfl
      | rekeyRemote => rfl
    simp only [historyIn, history, he]
    rw [ih (hs.exec P op) (by omega) fun op' h => hb op' (List.mem_cons_of_mem _ h)]

/-- Every history of calls on a new session goes the same way in every build: the outcomes, the sessions and the buffers
are those of the model. -/
theorem C90_history (initiator : Bool) (prologue : Bytes) (kp : Keypair) (ops : List Op)
    (hc : clears ops ≤ 2 ^ 64 - 2) (hb : ∀ op ∈ ops, FitsIn b.w op) :
    historyIn b P (NoiseSession.initSession P initiator prologue kp) ops =
      history P (NoiseSession.initSession P initiator prologue kp) ops :=
  history_eq P hw (c := 0) (Counted.fresh (by show 0 ≤ 2; omega)) ops (by omega) hb

example : (16 ≤ (⟨32, false⟩ : Build).w ∧ clears sampleOps ≤ 2 ^ 64 - 2 ∧ ∀ op ∈ sampleOps, FitsIn 32 op) ∧
    (historyIn ⟨32, false⟩ toyPrims (NoiseSession.initSession toyPrims true [] Keypair.empty) sampleOps).map (·.1) =
      [.ok (), .ok ()] := by
  refine ⟨⟨by decide, by decide, ?_⟩, by decide +kernel⟩
  simp [sampleOps, FitsIn]

/-- A session in transport mode. -/
def toyTransport : NoiseSession :=
  after toyPrims (NoiseSession.initSession toyPrims true [] Keypair.empty) sampleOps

omit hw in
/-- The bound on the counter is needed: on a session that has processed 2^128 - 1 messages a send that works panics in a
build with overflow checks; in one without, the counter starts again, and the next message goes out as a first handshake
message, with its payload in the clear. -/
theorem C90_wrap (s : NoiseSession) (hs : s.getMessageCount = 2 ^ 128 - 1) (rnd rnd' : Keypair) (buf buf' : Bytes)
    (h : 16 ≤ buf.length ∧ buf.length ≤ 65535) (h' : 32 ≤ buf'.length ∧ buf'.length ≤ 65535)
    (hn : (if s.i then s.cs1 else s.cs2).n.toNat ≠ 2 ^ 64 - 1) (hk : (if s.i then s.cs1 else s.cs2).k ≠ NX.zeros)
    (w : Nat) (hw : 17 ≤ w) :
    ((⟨w, true⟩ : Build).sendMessage P rnd s buf).1 = .panic ∧
    ∃ s1 wire s2 wire', (⟨w, false⟩ : Build).sendMessage P rnd s buf = (.ok (), s1, wire) ∧ s1.getMessageCount = 0 ∧
      (⟨w, false⟩ : Build).sendMessage P rnd' s1 buf' = (.ok (), s2, wire') ∧ wire'.drop 32 = buf'.drop 32 := by
  have hmc : s.mc = 2 ^ 128 - 1 := hs
  have hlt : ∀ n : Nat, n ≤ 65535 → n < 2 ^ w := fun n hn =>
    Nat.lt_of_lt_of_le (show n < 2 ^ 17 by omega) (Nat.pow_le_pow_right (by decide) hw)
  have hn' : s.sendCs.n ≠ MAX_NONCE := fun he => hn (by
    show s.sendCs.n.toNat = _
    rw [he]; rfl)
  have hlen : ¬ (buf.length < MAC_LENGTH ∨ buf.length > MAX_MESSAGE) := by simp only [MAC_LENGTH, MAX_MESSAGE]; omega
  have hlen' : ¬ (buf'.length < MAC_LENGTH ∨ buf'.length > MAX_MESSAGE) := by simp only [MAC_LENGTH, MAX_MESSAGE]; omega
  have hsend : ∀ c, (⟨w, c⟩ : Build).sendMessage P rnd s buf =
      (⟨w, c⟩ : Build).count (s.setSend ⟨s.sendCs.k, s.sendCs.n + 1⟩)
        (CipherState.sealed P s.sendCs.k s.sendCs.n [] (body buf)) := by
    intro c
    have hr := CipherState.write_ok (P := P) s.sendCs buf h.1 hn' hk
    rw [← writeMessageRegular_eq P (b := ⟨w, c⟩) (show 16 ≤ w by omega) _ _ (hlt _ h.2)] at hr
    unfold Build.sendMessage
    rw [if_neg hlen, if_neg (by omega), if_neg (by omega)]
    unfold NoiseSession.sendCs NoiseSession.setSend at *
    by_cases hi : s.i = true
    · simp only [hi, if_true] at hr ⊢
      rw [hr]
    · simp only [hi, Bool.false_eq_true, if_false] at hr ⊢
      rw [hr]
  refine ⟨?_, ?_⟩
  · rw [hsend true]
    unfold Build.count
    rw [NoiseSession.setSend_mc, hmc, if_pos (by simp)]
  · have h1 : (⟨w, false⟩ : Build).sendMessage P rnd s buf =
        (.ok (), { s.setSend ⟨s.sendCs.k, s.sendCs.n + 1⟩ with mc := 0 },
          CipherState.sealed P s.sendCs.k s.sendCs.n [] (body buf)) := by
      rw [hsend false]
      unfold Build.count
      rw [NoiseSession.setSend_mc, hmc, if_neg (by simp)]
    have h2 : ∀ s1 : NoiseSession, s1.mc = 0 → ∃ s2 wire', (⟨w, false⟩ : Build).sendMessage P rnd' s1 buf' =
        (.ok (), s2, wire') ∧ wire'.drop 32 = buf'.drop 32 := by
      intro s1 h0
      unfold Build.sendMessage
      rw [if_neg hlen', if_pos h0, HandshakeState.writeA_ok _ _ _ h'.1]
      dsimp only
      unfold Build.count
      rw [if_neg (by simp)]
      refine ⟨_, _, rfl, ?_⟩
      rw [List.drop_append_of_le_length (by simp [Arr.len]), List.drop_of_length_le (by simp [Arr.len]), List.nil_append]
    obtain ⟨s2, wire', h3, h4⟩ := h2 { s.setSend ⟨s.sendCs.k, s.sendCs.n + 1⟩ with mc := 0 } rfl
    exact ⟨_, _, s2, wire', h1, rfl, h3, h4⟩

example : let s : NoiseSession := { toyTransport with mc := 2 ^ 128 - 1 }
    s.getMessageCount = 2 ^ 128 - 1 ∧ (if s.i then s.cs1 else s.cs2).n.toNat ≠ 2 ^ 64 - 1 ∧
      (if s.i then s.cs1 else s.cs2).k ≠ NX.zeros := by decide +kernel

end SV2
