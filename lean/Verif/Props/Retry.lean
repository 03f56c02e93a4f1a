import Verif.Spec.Retry
import Verif.Props.NoiseEphemeral
/-!
# C98: a handshake message whose sending failed

What a failed attempt is to leave behind is in `Verif/Spec/Retry.lean`.
-/

namespace SV2
open Noise

section
variable (P : Prims)

/-! ## The session -/

/-- A session that has processed one message, with the values it will use: `kp` is its ephemeral key pair. -/
def Noise.NoiseSession.progress (s : NoiseSession) : NX.Progress := ⟨s.hs.ss.h, s.hs.ss.ck⟩

def Noise.NoiseSession.answer (s : NoiseSession) (kp : Keypair) : NX.Answer :=
  ⟨kp.public_key.toList, P.dh kp.private_key s.hs.re, P.dh s.hs.s.private_key s.hs.re, s.hs.s.public_key.toList⟩

/-- The buffer after a failed `write_message_b`. -/
theorem writeB_failed (rnd : Keypair) (hs : HandshakeState) (b : Bytes) (h : 32 ≤ b.length) (e : NoiseError)
    (he : (hs.writeMessageB P rnd b).1 = .err e) :
    let hs' := hs.useE rnd
    (hs.writeMessageB P rnd b).2.2 =
      if b.length < 80 then hs'.e.public_key.toList ++ b.drop 32
      else if (hs'.wrA P).ss.cs.k = EMPTY then hs'.e.public_key.toList ++ hs.s.public_key.toList ++ b.drop 64
      else hs'.e.public_key.toList ++ hs'.wrS P ++ b.drop 80 := by
  have hE : (if hs.e.isEmpty then { hs with e := rnd } else hs) = hs.useE rnd := rfl
  have hs_s : hs.s = (hs.useE rnd).s := by simp
  unfold HandshakeState.writeMessageB at he ⊢
  simp only [hE] at he ⊢
  rw [hs_s]
  clear hE hs_s
  revert he
  generalize hs.useE rnd = hs'
  intro he
  rw [if_neg (show ¬ b.length < DHLEN by simp [DHLEN]; omega)] at he ⊢
  have hlen : (b.drop DHLEN).length = b.length - 32 := by simp [DHLEN]
  by_cases h2 : b.length < 80
  · rw [if_pos (show (b.drop DHLEN).length < DHLEN + MAC_LENGTH by rw [hlen]; simp [DHLEN, MAC_LENGTH]; omega), if_pos h2]
    rfl
  rw [if_neg (show ¬ (b.drop DHLEN).length < DHLEN + MAC_LENGTH by rw [hlen]; simp [DHLEN, MAC_LENGTH]; omega)] at he ⊢
  rw [if_neg h2]
  have hns : (hs'.s.public_key.toList ++ List.drop DHLEN (List.take (DHLEN + MAC_LENGTH)
      (b.drop DHLEN))).length = 48 := by
    simp [hs'.s.public_key.len, DHLEN, MAC_LENGTH]; omega
  have hbody : body (hs'.s.public_key.toList ++ List.drop DHLEN (List.take (DHLEN + MAC_LENGTH)
      (b.drop DHLEN))) = hs'.s.public_key.toList := by
    apply HandshakeState.body_key
    simp [DHLEN, MAC_LENGTH]; omega
  have hrest : (List.drop (DHLEN + MAC_LENGTH) (b.drop DHLEN)) = b.drop 80 := by
    simp [DHLEN, MAC_LENGTH, List.drop_drop]
  by_cases h3 : (hs'.wrA P).ss.cs.k = EMPTY
  · rw [if_pos h3]
    erw [SymmetricState.encrypt_noKey (P := P) (hs'.wrA P).ss _ (by rw [hns]; decide) rfl h3]
    simp only [hrest]
    rw [List.append_assoc, List.append_assoc, List.append_assoc]
    congr 2
    have : b.drop 64 = (b.drop 64).take 16 ++ (b.drop 64).drop 16 := (List.take_append_drop _ _).symm
    rw [this]
    congr 1
    · simp [DHLEN, MAC_LENGTH, List.drop_take, List.drop_drop]
    · simp [List.drop_drop]
  rw [if_neg h3]
  have henc := SymmetricState.encrypt_ok (P := P) (hs'.wrA P).ss (hs'.s.public_key.toList ++
    List.drop DHLEN (List.take (DHLEN + MAC_LENGTH) (b.drop DHLEN))) (by rw [hns]; decide) rfl h3
  rw [hbody] at henc
  simp only [HandshakeState.wrA] at henc
  simp only [Keypair.dh] at he ⊢
  erw [henc] at he ⊢
  simp only [hrest] at he ⊢
  by_cases h4 : b.length < 96
  · erw [SymmetricState.encrypt_short (P := P) (hs'.wrB P).ss _ (by simp; omega)]
    rfl
  by_cases h5 : (hs'.wrB P).ss.cs.k = EMPTY
  · erw [SymmetricState.encrypt_noKey (P := P) (hs'.wrB P).ss _ (by simp; omega) rfl h5]
    rfl
  · erw [SymmetricState.encrypt_ok (P := P) (hs'.wrB P).ss _ (by simp; omega) rfl h5] at he
    cases he

/-- The stages of the second message, from the values of the session. -/
theorem progress_wr (s : NoiseSession) (rnd : Keypair) :
    let hs := s.hs.useE rnd
    let p := s.progress
    let a := s.answer P (chosen s.hs.e rnd)
    (hs.wrA P).ss = ⟨⟨p.keyE P a, 0⟩, (p.afterE P a).ck, (p.afterE P a).h⟩ ∧ hs.wrS P = p.encS P a ∧
    (hs.wrB P).ss = ⟨⟨p.keyS P a, 0⟩, (p.afterS P a).ck, (p.afterS P a).h⟩ ∧
    ∀ m, hs.wrP P m = NX.enc P (p.keyS P a) 0 (p.afterS P a).h.toList m := by
  intro hs p a
  have he : hs.e = chosen s.hs.e rnd := by
    show (HandshakeState.useE s.hs rnd).e = _
    unfold HandshakeState.useE chosen
    split <;> rfl
  have hA : (hs.wrA P).ss = ⟨⟨p.keyE P a, 0⟩, (p.afterE P a).ck, (p.afterE P a).h⟩ := by
    have h1 : hs.ss = s.hs.ss := by simp [hs]
    have h2 : hs.re = s.hs.re := by simp [hs]
    simp only [HandshakeState.wrA, SymmetricState.mixKey, hkdf_eq, he, h1, h2]
    rfl
  have hS : hs.wrS P = p.encS P a := by
    have h3 : hs.s = s.hs.s := by simp [hs]
    simp only [HandshakeState.wrS, hA, sealed_eq, h3]
    rfl
  have hB : (hs.wrB P).ss = ⟨⟨p.keyS P a, 0⟩, (p.afterS P a).ck, (p.afterS P a).h⟩ := by
    have h2 : hs.re = s.hs.re := by simp [hs]
    have h3 : hs.s = s.hs.s := by simp [hs]
    simp only [HandshakeState.wrB, hA, hS, SymmetricState.mixKey, hkdf_eq, h2, h3]
    rfl
  refine ⟨hA, hS, hB, fun m => ?_⟩
  simp only [HandshakeState.wrP, hB, sealed_eq]
  rfl

/-! ## One attempt -/

/-- The first handshake message: an attempt fails exactly with a buffer below 32 bytes or above 65535, and then changes
nothing. -/
theorem C98_first (s : NoiseSession) (h0 : s.getMessageCount = 0) (rnd : Keypair) (buf : Bytes) :
    ((s.sendMessage P rnd buf).1 = .ok () ↔ 32 ≤ buf.length ∧ buf.length ≤ 65535) ∧
    ((s.sendMessage P rnd buf).1 ≠ .ok () → (s.sendMessage P rnd buf).2 = (s, buf)) := by
  have h0 : s.mc = 0 := h0
  by_cases hl : buf.length < 16 ∨ 65535 < buf.length
  · rw [NoiseSession.send_badLength rnd s buf hl]
    exact ⟨⟨fun h => (by cases h), fun h => by omega⟩, fun _ => rfl⟩
  rw [NoiseSession.send_zero rnd s buf hl h0]
  by_cases h32 : buf.length < 32
  · rw [HandshakeState.writeA_short rnd _ buf h32]
    exact ⟨⟨fun h => (by cases h), fun h => by omega⟩, fun _ => rfl⟩
  · rw [HandshakeState.writeA_ok rnd _ buf (by omega)]
    show ((NoiseSession.count _ _).1 = _ ↔ _) ∧ ((NoiseSession.count _ _).1 ≠ _ → _)
    rw [NoiseSession.count_ok _ _ (by show s.mc + 1 < _; rw [h0]; decide)]
    exact ⟨⟨fun _ => ⟨by omega, by omega⟩, fun _ => rfl⟩, fun h => absurd rfl h⟩

/-- When sending the second handshake message succeeds, and how it fails. -/
theorem C98_outcome (s : NoiseSession) (h1 : s.getMessageCount = 1) (rnd : Keypair) (buf : Bytes) :
    let a := s.answer P (chosen s.hs.e rnd)
    let p := s.progress
    (s.sendMessage P rnd buf).1 =
      if buf.length < 16 ∨ 65535 < buf.length then .err .unsupportedMessageLengthError
      else if buf.length < 80 then .err .missingneError
      else if p.keyE P a = NX.zeros then .err .emptyKeyError
      else if buf.length < 96 then .err .missingneError
      else if p.keyS P a = NX.zeros then .err .emptyKeyError
      else .ok () := by
  intro a p
  have h1 : s.mc = 1 := h1
  obtain ⟨hA, -, hB, -⟩ := progress_wr P s rnd
  by_cases hl : buf.length < 16 ∨ 65535 < buf.length
  · rw [NoiseSession.send_badLength rnd s buf hl, if_pos hl]
  rw [if_neg hl, NoiseSession.send_one rnd s buf hl h1]
  have eA : ((s.hs.useE rnd).wrA P).ss.cs.k = p.keyE P a := by rw [hA]
  have eB : ((s.hs.useE rnd).wrB P).ss.cs.k = p.keyS P a := by rw [hB]
  rcases HandshakeState.writeB_cases (P := P) rnd s.hs buf with ⟨c1, h⟩ | ⟨c1, c2, b', -, h⟩ | ⟨c1, c2, b', -, h⟩ |
    ⟨c1, c2, c3, b', -, h⟩ | ⟨c1, c2, c3, b', -, h⟩ | ⟨c1, c2, c3, h⟩ <;> rw [h]
  · rw [if_pos (by omega)]
  · rw [if_pos (by omega)]
  · rw [eA, ← zeros_eq] at c2; rw [if_neg (by omega), if_pos c2]
  · rw [eA, ← zeros_eq] at c3; rw [if_neg (by omega), if_neg c3, if_pos (by omega)]
  · rw [eA, ← zeros_eq] at c2; rw [eB, ← zeros_eq] at c3; rw [if_neg (by omega), if_neg c2, if_neg (by omega), if_pos c3]
  · rw [eA, ← zeros_eq] at c2; rw [eB, ← zeros_eq] at c3; rw [if_neg (by omega), if_neg c2, if_neg (by omega), if_neg c3]
    show (NoiseSession.count _ _).1 = _
    rw [NoiseSession.count_ok _ _ (by simp [NoiseSession.enterTransport, h1])]

/-- What a failed attempt does to the buffer: too small or too large, nothing; otherwise the caller's bytes are overwritten by
the ephemeral key, the static key - encrypted if there is a key for it -, and keep the rest. -/
theorem C98_buffer (s : NoiseSession) (h1 : s.getMessageCount = 1) (rnd : Keypair) (buf : Bytes)
    (hf : (s.sendMessage P rnd buf).1 ≠ .ok ()) :
    let a := s.answer P (chosen s.hs.e rnd)
    let p := s.progress
    (s.sendMessage P rnd buf).2.2 =
      if buf.length < 32 ∨ 65535 < buf.length then buf
      else if buf.length < 80 then a.er ++ buf.drop 32
      else if p.keyE P a = NX.zeros then a.er ++ a.rs ++ buf.drop 64
      else a.er ++ p.encS P a ++ buf.drop 80 := by
  intro a p
  have h1 : s.mc = 1 := h1
  obtain ⟨hA, hS, -, -⟩ := progress_wr P s rnd
  by_cases hl : buf.length < 16 ∨ 65535 < buf.length
  · rw [NoiseSession.send_badLength rnd s buf hl, if_pos (by omega)]
  rw [NoiseSession.send_one rnd s buf hl h1] at hf ⊢
  by_cases hl2 : buf.length < 32
  · rw [writeB_short P rnd s.hs buf hl2, if_pos (by omega)]
  rw [if_neg (by omega)]
  have he : (s.hs.useE rnd).e = chosen s.hs.e rnd := by
    unfold HandshakeState.useE chosen
    split <;> rfl
  have key := writeB_failed P rnd s.hs buf (by omega)
  have hA : ((s.hs.useE rnd).wrA P).ss.cs.k = p.keyE P a := by rw [hA]
  simp only [he, hA, hS, ← zeros_eq] at key
  have hnp : ∀ st b', s.hs.writeMessageB P rnd buf ≠ (.panic, st, b') := by
    intro st b' e
    rcases HandshakeState.writeB_cases (P := P) rnd s.hs buf with ⟨-, h⟩ | ⟨-, -, b', -, h⟩ | ⟨-, -, b', -, h⟩ |
      ⟨-, -, -, b', -, h⟩ | ⟨-, -, -, b', -, h⟩ | ⟨-, -, -, h⟩ <;> rw [h] at e <;> cases e
  rcases hw : s.hs.writeMessageB P rnd buf with ⟨o, st, b'⟩
  rw [hw] at hf key
  cases o with
  | err e => exact key e rfl
  | panic => exact absurd hw (hnp st b')
  | ok t =>
    refine absurd ?_ hf
    show (NoiseSession.count _ _).1 = _
    rw [NoiseSession.count_ok _ _ (by simp [NoiseSession.enterTransport, h1])]

/-- What it does to the session: it keeps the message count, the role and the keys, and has an ephemeral key from now on;
but the handshake hash and the chaining key go on. -/
theorem C98_state (s : NoiseSession) (h1 : s.getMessageCount = 1) (rnd : Keypair) (buf : Bytes)
    (hf : (s.sendMessage P rnd buf).1 ≠ .ok ()) :
    let a := s.answer P (chosen s.hs.e rnd)
    let s' := (s.sendMessage P rnd buf).2.1
    s'.progress = s.progress.failed P a buf.length ∧ s'.getMessageCount = 1 ∧ s'.i = s.i ∧ s'.hs.s = s.hs.s ∧
      s'.hs.re = s.hs.re ∧ s'.hs.e = if buf.length < 32 ∨ 65535 < buf.length then s.hs.e else chosen s.hs.e rnd := by
  intro a s'
  have h1 : s.mc = 1 := h1
  obtain ⟨hA, -, hB, -⟩ := progress_wr P s rnd
  have he : (s.hs.useE rnd).e = chosen s.hs.e rnd := by
    unfold HandshakeState.useE chosen
    split <;> rfl
  by_cases hl : buf.length < 16 ∨ 65535 < buf.length
  · have : s' = s := by show (s.sendMessage P rnd buf).2.1 = s; rw [NoiseSession.send_badLength rnd s buf hl]
    rw [this, if_pos (by omega), NX.Progress.failed, if_pos (by omega)]
    exact ⟨rfl, h1, rfl, rfl, rfl, rfl⟩
  have eA : ((s.hs.useE rnd).wrA P).ss.cs.k = s.progress.keyE P a := by rw [hA]
  have hs' : s' = (s.sendMessage P rnd buf).2.1 := rfl
  rw [NoiseSession.send_one rnd s buf hl h1] at hf hs'
  have pA : (⟨((s.hs.useE rnd).wrA P).ss.h, ((s.hs.useE rnd).wrA P).ss.ck⟩ : NX.Progress) = s.progress.afterE P a := by
    rw [hA]
  have pB : (⟨((s.hs.useE rnd).wrB P).ss.h, ((s.hs.useE rnd).wrB P).ss.ck⟩ : NX.Progress) = s.progress.afterS P a := by
    rw [hB]
  rcases HandshakeState.writeB_cases (P := P) rnd s.hs buf with ⟨c1, h⟩ | ⟨c1, c2, b', -, h⟩ | ⟨c1, c2, b', -, h⟩ |
    ⟨c1, c2, c3, b', -, h⟩ | ⟨c1, c2, c3, b', -, h⟩ | ⟨c1, c2, c3, h⟩ <;> rw [h] at hs' hf
  · rw [if_pos (by omega), NX.Progress.failed, if_pos (by omega), hs']
    exact ⟨rfl, h1, rfl, rfl, rfl, rfl⟩
  · rw [if_neg (by omega), NX.Progress.failed, if_neg (by omega), if_pos (by omega), hs']
    exact ⟨pA, h1, rfl, HandshakeState.useE_s .., HandshakeState.useE_re .., he⟩
  · rw [eA, ← zeros_eq] at c2
    rw [if_neg (by omega), NX.Progress.failed, if_neg (by omega), if_pos (.inr c2), hs']
    exact ⟨pA, h1, rfl, HandshakeState.useE_s .., HandshakeState.useE_re .., he⟩
  · rw [eA, ← zeros_eq] at c3
    rw [if_neg (by omega), NX.Progress.failed, if_neg (by omega), if_neg (fun h => h.elim (by omega) c3), hs']
    exact ⟨pB, h1, rfl, HandshakeState.useE_s .., HandshakeState.useE_re .., he⟩
  · rw [eA, ← zeros_eq] at c2
    rw [if_neg (by omega), NX.Progress.failed, if_neg (by omega), if_neg (fun h => h.elim (by omega) c2), hs']
    exact ⟨pB, h1, rfl, HandshakeState.useE_s .., HandshakeState.useE_re .., he⟩
  · refine absurd ?_ hf
    show (NoiseSession.count _ _).1 = _
    rw [NoiseSession.count_ok _ _ (by simp [NoiseSession.enterTransport, h1])]

/-- A successful one. -/
theorem send_progress (s : NoiseSession) (h1 : s.mc = 1) (rnd : Keypair) (buf : Bytes)
    (hf : (s.sendMessage P rnd buf).1 = .ok ()) :
    let a := s.answer P (chosen s.hs.e rnd)
    let p := s.progress
    let s' := (s.sendMessage P rnd buf).2.1
    (s.sendMessage P rnd buf).2.2 = p.message P a (plain (buf.drop 80)) ∧
    s'.getHandshakeHash = some (p.hash P a (plain (buf.drop 80))) ∧ (s'.cs1.k, s'.cs2.k) = p.keys P a ∧
    s'.getMessageCount = 2 ∧ 96 ≤ buf.length := by
  intro a p s'
  obtain ⟨hA, hS, hB, hP⟩ := progress_wr P s rnd
  have he : (s.hs.useE rnd).e = chosen s.hs.e rnd := by
    unfold HandshakeState.useE chosen
    split <;> rfl
  by_cases hl : buf.length < 16 ∨ 65535 < buf.length
  · rw [NoiseSession.send_badLength rnd s buf hl] at hf; cases hf
  have hs' : s' = (s.sendMessage P rnd buf).2.1 := rfl
  rw [NoiseSession.send_one rnd s buf hl h1] at hf hs' ⊢
  rcases HandshakeState.writeB_cases (P := P) rnd s.hs buf with ⟨c1, h⟩ | ⟨c1, c2, b', -, h⟩ | ⟨c1, c2, b', -, h⟩ |
    ⟨c1, c2, c3, b', -, h⟩ | ⟨c1, c2, c3, b', -, h⟩ | ⟨c1, c2, c3, h⟩ <;> rw [h] at hs' hf ⊢
  case inr.inr.inr.inr.inr =>
    have hc : ∀ (t : NoiseSession) b, t.mc = 1 → t.count b = (.ok (), { t with mc := 2 }, b) := by
      intro t b ht
      rw [NoiseSession.count_ok _ _ (by rw [ht]; decide), ht]
    simp only at hs' hf ⊢
    rw [hc _ _ (by exact h1)] at hs' ⊢
    have hSS : (s.hs.useE rnd).wrSS P (body (buf.drop 80)) =
        ⟨⟨p.keyS P a, 1⟩, (p.afterS P a).ck, p.hash P a (plain (buf.drop 80))⟩ := by
      simp only [HandshakeState.wrSS, hB, hP]
      rfl
    refine ⟨?_, ?_, ?_, ?_, c1⟩
    · simp only [he, hS, hP]
      rfl
    · rw [hs', hSS]; rfl
    · rw [hs', hSS]
      simp only [SymmetricState.split, hkdf_eq]
      rfl
    · rw [hs']; rfl
  all_goals cases hf

/-! ## Any number of attempts -/

/-- The progress after failed attempts. -/
def Noise.NX.Progress.after (p : NX.Progress) (a : NX.Answer) (sizes : List Nat) : NX.Progress :=
  sizes.foldl (fun p n => p.failed P a n) p

theorem chosen_self (kp rnd : Keypair) (h : kp.isEmpty = false) : chosen kp rnd = kp := by
  unfold chosen
  rw [h]
  rfl

theorem chosen_none (e rnd : Keypair) (h : e.isEmpty = true) : chosen e rnd = rnd := by
  unfold chosen
  rw [h]
  rfl

theorem default_empty (k : Arr 32) (h : k ≠ NX.zeros) : (Keypair.default P k).isEmpty = false := by
  cases he : (Keypair.default P k).isEmpty with
  | false => rfl
  | true =>
    refine absurd (arr_ext ?_) h
    have := (C65_pair_is_empty _).mp he
    have hl : k.toList.length = 32 := k.len
    rw [List.eq_replicate_iff.mpr ⟨hl, this⟩]
    rfl

/-- Attempts of a session that has an ephemeral key. -/
theorem attempts_kept (kp : Keypair) (hkp : kp.isEmpty = false) (tries : List (Arr 32 × Bytes)) :
    ∀ s : NoiseSession, s.mc = 1 → s.hs.e = kp → s.AllFail P tries →
    let s' := s.attempts P tries
    s'.mc = 1 ∧ s'.hs.e = kp ∧ s'.hs.re = s.hs.re ∧ s'.hs.s = s.hs.s ∧
      s'.progress = s.progress.after P (s.answer P kp) (tries.map (·.2.length)) := by
  induction tries with
  | nil => exact fun s h1 he _ => ⟨h1, he, rfl, rfl, rfl⟩
  | cons t tries ih =>
    intro s h1 he hf
    obtain ⟨f1, f2⟩ := hf
    obtain ⟨g1, g2, -, g4, g5, g6⟩ := C98_state P s h1 (Keypair.default P t.1) t.2 f1
    have hc : chosen s.hs.e (Keypair.default P t.1) = kp := by rw [he]; exact chosen_self _ _ hkp
    rw [hc] at g1 g6
    rw [he, ite_self] at g6
    obtain ⟨i1, i2, i3, i4, i5⟩ := ih _ g2 g6 f2
    refine ⟨i1, i2, i3.trans g5, i4.trans g4, ?_⟩
    have ha : NoiseSession.answer P (s.sendMessage P (Keypair.default P t.1) t.2).2.1 kp = s.answer P kp := by
      unfold NoiseSession.answer
      rw [g4, g5]
    rw [ha, g1] at i5
    exact i5

/-- Attempts of a session that has none yet. -/
theorem attempts_drawn (tries : List (Arr 32 × Bytes)) (hne : ∀ t ∈ tries, t.1 ≠ NX.zeros) :
    ∀ (s : NoiseSession) (t : Arr 32 × Bytes), 32 ≤ t.2.length → t.2.length ≤ 65535 → s.mc = 1 → s.hs.e.isEmpty = true →
      s.AllFail P tries →
    let kp := Keypair.default P (firstSecret (tries ++ [t]))
    let s' := s.attempts P tries
    s'.mc = 1 ∧ chosen s'.hs.e (Keypair.default P t.1) = kp ∧ s'.hs.re = s.hs.re ∧ s'.hs.s = s.hs.s ∧
      s'.progress = s.progress.after P (s.answer P kp) (tries.map (·.2.length)) := by
  induction tries with
  | nil =>
    intro s t ht ht' h1 he _
    have hk : firstSecret ([] ++ [t]) = t.1 := by
      unfold firstSecret
      simp [ht, ht']
    simp only [hk]
    exact ⟨h1, chosen_none _ _ he, rfl, rfl, rfl⟩
  | cons x tries ih =>
    intro s t ht ht' h1 he hf
    obtain ⟨f1, f2⟩ := hf
    obtain ⟨g1, g2, -, g4, g5, g6⟩ := C98_state P s h1 (Keypair.default P x.1) x.2 f1
    by_cases hx : x.2.length < 32 ∨ 65535 < x.2.length
    · rw [if_pos hx] at g6
      have hk : firstSecret (x :: tries ++ [t]) = firstSecret (tries ++ [t]) := by
        unfold firstSecret
        rw [List.cons_append, List.filter_cons_of_neg]
        simp only [decide_eq_true_eq]
        omega
      obtain ⟨i1, i2, i3, i4, i5⟩ := ih (fun y hy => hne y (List.mem_cons_of_mem _ hy)) _ t ht ht' g2 (by rw [g6]; exact he) f2
      simp only [hk]
      refine ⟨i1, i2, i3.trans g5, i4.trans g4, ?_⟩
      have ha : ∀ kp, NoiseSession.answer P (s.sendMessage P (Keypair.default P x.1) x.2).2.1 kp = s.answer P kp := by
        intro kp
        unfold NoiseSession.answer
        rw [g4, g5]
      rw [ha, g1] at i5
      have hp : ∀ a, s.progress.failed P a x.2.length = s.progress := fun a => if_pos hx
      rw [hp] at i5
      refine i5.trans ?_
      show _ = List.foldl _ (s.progress.failed P _ x.2.length) _
      rw [hp]
      rfl
    · rw [if_neg hx, chosen_none _ _ he] at g6
      rw [chosen_none _ _ he] at g1
      have hk : firstSecret (x :: tries ++ [t]) = x.1 := by
        unfold firstSecret
        rw [List.cons_append, List.filter_cons_of_pos]
        · rfl
        · simp only [decide_eq_true_eq]
          omega
      have hkp := default_empty P x.1 (hne x List.mem_cons_self)
      obtain ⟨i1, i2, i3, i4, i5⟩ := attempts_kept P (Keypair.default P x.1) hkp tries _ g2 g6 f2
      simp only [hk]
      refine ⟨i1, ?_, i3.trans g5, i4.trans g4, ?_⟩
      · show chosen (NoiseSession.attempts P _ _).hs.e _ = _
        exact (congrArg (chosen · _) i2).trans (chosen_self _ _ hkp)
      · have ha : NoiseSession.answer P (s.sendMessage P (Keypair.default P x.1) x.2).2.1 (Keypair.default P x.1) =
            s.answer P (Keypair.default P x.1) := by
          unfold NoiseSession.answer
          rw [g4, g5]
        rw [ha, g1] at i5
        exact i5

/-- A responder that has received a first message makes any number of attempts to send its answer, and one that succeeds: the
message, the handshake hash and the transport keys are those of a responder that goes on from where the failed attempts
have left it. -/
theorem C98_retry (prologue w1 out : Bytes) (sR re : Arr 32) (hre : re.toList = w1.take 32) (r : NoiseSession)
    (hr : (NoiseSession.initSession P false prologue (Keypair.default P sR)).recvMessage P w1 = (.ok (), r, out))
    (tries : List (Arr 32 × Bytes)) (hne : ∀ t ∈ tries, t.1 ≠ NX.zeros) (hf : r.AllFail P tries)
    (secret : Arr 32) (buf w : Bytes) (r2 : NoiseSession)
    (hs : (r.attempts P tries).sendMessage P (Keypair.default P secret) buf = (.ok (), r2, w)) :
    let e := firstSecret (tries ++ [(secret, buf)])
    let a : NX.Answer := ⟨(P.publicOf e).toList, P.dh e re, P.dh sR re, (P.publicOf sR).toList⟩
    let start : NX.Progress := ⟨NX.transcript P [prologue, w1.take 32, w1.drop 32], NX.h0 P⟩
    let p := tries.foldl (fun p t => p.failed P a t.2.length) start
    w = p.message P a (plain (buf.drop 80)) ∧ r2.getHandshakeHash = some (p.hash P a (plain (buf.drop 80))) ∧
      (r2.cs1.k, r2.cs2.k) = p.keys P a ∧ r2.getMessageCount = 2 := by
  intro e a start p
  obtain ⟨re', hre', -, rfl, -, -⟩ := recv_first_ok hr
  obtain rfl : re' = re := arr_ext (hre'.trans hre.symm)
  have hlen : 96 ≤ buf.length ∧ buf.length ≤ 65535 := by
    by_cases hl : buf.length < 16 ∨ 65535 < buf.length
    · rw [NoiseSession.send_badLength _ _ buf hl] at hs; cases hs
    · have hmc : ((mid P false prologue (Keypair.default P sR) Keypair.empty re' (w1.take 32) (w1.drop 32)).attempts P
          tries).mc = 1 := by
        clear hs
        revert hf
        generalize mid P false prologue (Keypair.default P sR) Keypair.empty re' (w1.take 32) (w1.drop 32) = m at *
        intro hf
        have hm : m.mc = 1 := by
          obtain ⟨_, _, _, h, _, _⟩ := recv_first_ok hr
          rw [h]; rfl
        clear hr hne p e a
        induction tries generalizing m with
        | nil => exact hm
        | cons t tries ih =>
          obtain ⟨f1, f2⟩ := hf
          exact ih _ f2 (C98_state P m hm _ t.2 f1).2.1
      have := send_progress P _ hmc (Keypair.default P secret) buf (by rw [hs])
      exact ⟨this.2.2.2.2, by omega⟩
  obtain ⟨k1, k2, k3, k4, k5⟩ := attempts_drawn P tries hne
    (mid P false prologue (Keypair.default P sR) Keypair.empty re' (w1.take 32) (w1.drop 32)) (secret, buf)
    (by show 32 ≤ buf.length; omega) hlen.2 rfl rfl hf
  obtain ⟨m1, m2, m3, m4, -⟩ := send_progress P _ k1 (Keypair.default P secret) buf (by rw [hs])
  have ha : NoiseSession.answer P ((mid P false prologue (Keypair.default P sR) Keypair.empty re' (w1.take 32)
      (w1.drop 32)).attempts P tries) (chosen ((mid P false prologue (Keypair.default P sR) Keypair.empty re' (w1.take 32)
      (w1.drop 32)).attempts P tries).hs.e (Keypair.default P secret)) = a := by
    unfold NoiseSession.answer
    rw [k2, k3, k4]
    rfl
  have hp : ((mid P false prologue (Keypair.default P sR) Keypair.empty re' (w1.take 32) (w1.drop 32)).attempts P
      tries).progress = p := by
    rw [k5]
    unfold NX.Progress.after
    rw [List.foldl_map]
    rfl
  rw [ha, hp, hs] at m1 m2 m3
  rw [hs] at m4
  exact ⟨m1, m2, m3, m4⟩

/-- So the initiator refuses it, unless the static key that was encrypted with one key decrypts with another: the key and
the handshake hash of the responder are those of `p`, the ones of the initiator are those of the protocol. -/
theorem C98_refused (prologue buf1 w1 out : Bytes) (sI : Keypair) (eI sR : Arr 32) (i r : NoiseSession)
    (hi : (NoiseSession.initSession P true prologue sI).sendMessage P (Keypair.default P eI) buf1 = (.ok (), i, w1))
    (hr : (NoiseSession.initSession P false prologue (Keypair.default P sR)).recvMessage P w1 = (.ok (), r, out))
    (tries : List (Arr 32 × Bytes)) (hne : ∀ t ∈ tries, t.1 ≠ NX.zeros) (hf : r.AllFail P tries)
    (secret : Arr 32) (buf w : Bytes) (r2 : NoiseSession)
    (hs : (r.attempts P tries).sendMessage P (Keypair.default P secret) buf = (.ok (), r2, w))
    (hok : (i.recvMessage P w).1 = .ok ()) :
    let e := firstSecret (tries ++ [(secret, buf)])
    let a : NX.Answer := ⟨(P.publicOf e).toList, P.dh e (P.publicOf eI), P.dh sR (P.publicOf eI), (P.publicOf sR).toList⟩
    let start : NX.Progress := ⟨NX.transcript P [prologue, w1.take 32, w1.drop 32], NX.h0 P⟩
    let p := tries.foldl (fun p t => p.failed P a t.2.length) start
    let sealed := P.aeadSeal (p.keyE P a) (NX.nonce 0) (p.afterE P a).h.toList a.rs
    ∃ rs, P.aeadOpen (NX.afterEE P (P.dh eI (P.publicOf e))).2 (NX.nonce 0)
      (NX.transcript P [prologue, w1.take 32, w1.drop 32, a.er]).toList sealed.1 sealed.2 = some rs := by
  intro e a start p sealed
  obtain ⟨hi1, hw, -, -, hd⟩ := send_first_ok hi
  obtain ⟨hw2, -, -, -⟩ := C98_retry P prologue w1 out sR (P.publicOf eI) hw.symm r hr tries hne hf secret buf w r2 hs
  have hw2 : w = p.message P a (plain (buf.drop 80)) := hw2
  obtain ⟨re, c, mac, rest, rs, hb, hc, -, -, -, ho⟩ :=
    recv_one_accepted (P := P) i w (by rw [hi1]; rfl) (fun e he => by rw [hok] at he; cases he)
  have hseal : sealed.1.length = 32 := by
    have := P.seal_length (p.keyE P a) (NX.nonce 0) (p.afterE P a).h.toList a.rs
    exact this.trans (P.publicOf sR).len
  rw [hw2] at hb
  have hb : (P.publicOf e).toList ++ (sealed.1 ++ sealed.2.toList) ++ _ = re.toList ++ (c ++ mac.toList) ++ rest := hb
  simp only [List.append_assoc] at hb
  obtain ⟨hre, hb⟩ := List.append_inj hb (by rw [re.len, Arr.len])
  obtain ⟨hcc, hb⟩ := List.append_inj hb (by rw [hseal, hc])
  have hmm := arr_ext (List.append_inj_left hb (by rw [mac.len, Arr.len]))
  have hre : re = P.publicOf e := (arr_ext hre).symm
  have hh : i.hs.ss.h = NX.transcript P [prologue, w1.take 32, w1.drop 32] := by rw [hi1]; rfl
  have hck : i.hs.ss.ck = NX.h0 P := by rw [hi1]; rfl
  have hei : i.hs.e.private_key = eI := by rw [hi1]; rfl
  rw [hh, hck, hre, hei, ← hcc, ← hmm] at ho
  exact ⟨rs, ho⟩

end

/-! ## Cases -/

/-- With the toy primitives: an attempt with a buffer of 40 bytes, or one of 90, and then the message with a proper buffer.
The responder is in transport mode, and the initiator refuses the message; after an attempt with 20 bytes it accepts it. -/
example : let secret : Arr 32 := Arr.replicate 32 4
    let i := (NoiseSession.initSession toyPrims true [1, 2] Keypair.empty).sendMessage toyPrims
      (Keypair.default toyPrims (Arr.replicate 32 3)) (List.replicate 50 8)
    let r := (NoiseSession.initSession toyPrims false [1, 2] (Keypair.default toyPrims (Arr.replicate 32 5))).recvMessage
      toyPrims i.2.2
    let again := fun n => (r.2.1.attempts toyPrims [(secret, List.replicate n 0)]).sendMessage toyPrims
      (Keypair.default toyPrims (Arr.replicate 32 6)) (List.replicate 100 7)
    let first := fun n => r.2.1.sendMessage toyPrims (Keypair.default toyPrims secret) (List.replicate n 0)
    i.1 = .ok () ∧ r.1 = .ok () ∧
    [20, 40, 90].map (fun n => (first n).1) = List.replicate 3 (.err .missingneError) ∧
    [20, 40, 90].map (fun n => (again n).1) = List.replicate 3 (.ok ()) ∧
    [20, 40, 90].map (fun n => (again n).2.1.getMessageCount) = [2, 2, 2] ∧
    [20, 40, 90].map (fun n => (i.2.1.recvMessage toyPrims (again n).2.2).1) =
      [.ok (), .err .decryptionError, .err .decryptionError] ∧
    (first 40).2.2 = (toyPrims.publicOf secret).toList ++ List.replicate 8 0 := by
  decide +kernel

end SV2
