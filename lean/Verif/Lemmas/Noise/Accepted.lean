import Verif.Lemmas.Noise.NX
import Verif.Lemmas.Codec
/-!
# What the handshake accepts
-/

namespace SV2.Noise
variable {P : Prims}

/-! ### Forbidden keys -/

theorem leNat_eq (b : Bytes) : leNat b = fromLE b := by
  induction b with
  | nil => rfl
  | cons x b ih =>
    simp only [leNat, List.foldr_cons, fromLE] at ih ⊢
    rw [ih]

theorem leNat_inj {a b : Bytes} (hl : a.length = b.length) (h : leNat a = leNat b) : a = b := by
  rw [leNat_eq, leNat_eq] at h
  rw [← toLE_fromLE a, ← toLE_fromLE b, h, hl]

theorem forbidden_map : forbiddenCurveValues.map leNat = Curve.lowOrder := by decide +kernel

theorem forbidden_length : ∀ b ∈ forbiddenCurveValues, b.length = 32 := by decide

theorem forbidden_iff (k : Arr 32) : k.toList ∈ forbiddenCurveValues ↔ leNat k.toList ∈ Curve.lowOrder := by
  rw [← forbidden_map, List.mem_map]
  constructor
  · intro h
    exact ⟨_, h, rfl⟩
  · rintro ⟨b, hb, he⟩
    rw [← leNat_inj (by rw [forbidden_length b hb, k.len]) he]
    exact hb

/-! ### Successful handshake calls -/

/-- A first message that was sent. -/
theorem send_first_ok {i : Bool} {prologue : Bytes} {s rnd : Keypair} {b w : Bytes} {s' : NoiseSession}
    (h : (NoiseSession.initSession P i prologue s).sendMessage P rnd b = (.ok (), s', w)) :
    s' = mid P i prologue s rnd EMPTY (w.take 32) (w.drop 32) ∧ w.take 32 = rnd.public_key.toList ∧
      32 ≤ b.length ∧ b.length ≤ 65535 ∧ w.drop 32 = b.drop 32 := by
  by_cases hb : b.length < 16 ∨ 65535 < b.length
  · rw [NoiseSession.send_badLength rnd _ b hb] at h
    cases h
  by_cases hl : b.length < 32
  · rw [NoiseSession.send_zero rnd _ b hb rfl, HandshakeState.writeA_short rnd _ b hl] at h
    cases h
  rw [send_first i prologue s rnd b (by omega) (by omega)] at h
  simp only [Prod.mk.injEq, true_and] at h
  obtain ⟨rfl, rfl⟩ := h
  have h1 : (rnd.public_key.toList ++ b.drop 32).take 32 = rnd.public_key.toList :=
    List.take_left' rnd.public_key.len
  have h2 : (rnd.public_key.toList ++ b.drop 32).drop 32 = b.drop 32 :=
    List.drop_left' rnd.public_key.len
  rw [h1, h2]
  exact ⟨rfl, rfl, by omega, by omega, rfl⟩

/-- A first message that was received. -/
theorem recv_first_ok {i : Bool} {prologue : Bytes} {s : Keypair} {b w : Bytes} {s' : NoiseSession}
    (h : (NoiseSession.initSession P i prologue s).recvMessage P b = (.ok (), s', w)) :
    ∃ re : Arr 32, re.toList = b.take 32 ∧ re.toList ∉ forbiddenCurveValues ∧
      s' = mid P i prologue s Keypair.empty re (b.take 32) (b.drop 32) ∧
      48 ≤ b.length ∧ b.length ≤ 65535 := by
  by_cases hb : b.length < 16 ∨ 65535 < b.length
  · rw [NoiseSession.recv_badLength _ b hb] at h
    cases h
  by_cases hl : b.length < 48
  · rw [NoiseSession.recv_zero _ b hb rfl, HandshakeState.readA_short _ b hl] at h
    cases h
  by_cases hf : b.take 32 ∈ forbiddenCurveValues
  · rw [NoiseSession.recv_zero _ b hb rfl, HandshakeState.readA_forbidden _ b (by omega) hf] at h
    cases h
  have := recv_first (P := P) i prologue s (first32 b (by omega)) (b.drop 32) (by simp; omega) (by simp; omega) hf
  rw [show (first32 b (by omega)).toList ++ b.drop 32 = b from List.take_append_drop 32 b] at this
  rw [this] at h
  simp only [Prod.mk.injEq, true_and] at h
  obtain ⟨rfl, _⟩ := h
  exact ⟨_, rfl, hf, rfl, by omega, by omega⟩

/-- The key pair that the second message is written with. -/
def chosen (e rnd : Keypair) : Keypair := if e.isEmpty then rnd else e

theorem useE_mid (i : Bool) (prologue : Bytes) (s e rnd : Keypair) (re : Arr 32) (ei p1 : Bytes) :
    (mid P i prologue s e re ei p1).hs.useE rnd = (mid P i prologue s (chosen e rnd) re ei p1).hs := by
  unfold HandshakeState.useE chosen
  by_cases h : e.isEmpty
  · rw [if_pos h, if_pos (by exact h)]; rfl
  · rw [if_neg h, if_neg (by exact h)]

/-- Sending the second message. -/
theorem send_second_any (i : Bool) (prologue : Bytes) (s e rnd : Keypair) (re : Arr 32) (ei p1 b : Bytes)
    (h1 : 96 ≤ b.length) (h2 : b.length ≤ 65535)
    (hk1 : (NX.afterEE P (P.dh (chosen e rnd).private_key re)).2 ≠ NX.zeros)
    (hk2 : (NX.afterES P (P.dh (chosen e rnd).private_key re) (P.dh s.private_key re)).2 ≠ NX.zeros) :
    let ee := P.dh (chosen e rnd).private_key re
    let es := P.dh s.private_key re
    let er := (chosen e rnd).public_key.toList
    let encS := NX.encryptedStatic P prologue ei p1 er ee s.public_key.toList
    let encP := NX.encryptedPayload P prologue ei p1 er encS ee es (body (b.drop 80))
    (mid P i prologue s e re ei p1).sendMessage P rnd b =
      (.ok (), done i EMPTY (NX.transcript P [prologue, ei, p1, er, encS, encP])
        (NX.transportKeys P ee es) 1, er ++ encS ++ encP) := by
  intro ee es er encS encP
  rw [NoiseSession.send_one rnd _ b (by omega) rfl]
  have hE := useE_mid (P := P) i prologue s e rnd re ei p1
  have hA := wrA_mid (P := P) prologue s (chosen e rnd) re ei p1 i
  have hS := wrS_mid (P := P) prologue s (chosen e rnd) re ei p1 i
  have hB := wrB_mid (P := P) prologue s (chosen e rnd) re ei p1 i
  have hP := wrP_mid (P := P) prologue s (chosen e rnd) re ei p1 i (body (b.drop 80))
  have hSS := wrSS_mid (P := P) prologue s (chosen e rnd) re ei p1 i (body (b.drop 80))
  rcases HandshakeState.writeB_cases (P := P) rnd (mid P i prologue s e re ei p1).hs b with
    ⟨hl, h⟩ | ⟨_, hl, b', hb, h⟩ | ⟨_, hk, b', hb, h⟩ | ⟨_, hl, _, b', hb, h⟩ | ⟨_, _, hk, b', hb, h⟩ |
    ⟨hl, _, _, h⟩
  · omega
  · omega
  · rw [hE, hA] at hk
    exact absurd hk hk1
  · omega
  · rw [hE, hB] at hk
    exact absurd hk hk2
  · rw [h]
    simp only [hE, hSS, hP, hS]
    simp only [SymmetricState.split, hkdf_eq]
    rfl

theorem take_three {a b c : Bytes} (ha : a.length = 32) : (a ++ b ++ c).take 32 = a := by
  rw [List.append_assoc]; exact List.take_left' ha

theorem take_mid_three {a b c : Bytes} (ha : a.length = 32) (hb : b.length = 48) :
    ((a ++ b ++ c).drop 32).take 48 = b := by
  rw [List.append_assoc, List.drop_left' ha]; exact List.take_left' hb

theorem drop_three {a b c : Bytes} (ha : a.length = 32) (hb : b.length = 48) :
    (a ++ b ++ c).drop 80 = c := List.drop_left' (by simp [ha, hb])

/-- A second message that was sent. -/
theorem send_second_ok {i : Bool} {prologue : Bytes} {s e rnd : Keypair} {re : Arr 32} {ei p1 b w : Bytes}
    {s' : NoiseSession}
    (h : (mid P i prologue s e re ei p1).sendMessage P rnd b = (.ok (), s', w)) :
    s' = done i EMPTY (NX.transcript P [prologue, ei, p1, w.take 32, (w.drop 32).take 48, w.drop 80])
        (NX.transportKeys P (P.dh (chosen e rnd).private_key re) (P.dh s.private_key re)) 1 ∧
      96 ≤ w.length := by
  by_cases hb : b.length < 16 ∨ 65535 < b.length
  · rw [NoiseSession.send_badLength rnd _ b hb] at h
    cases h
  have hE := useE_mid (P := P) i prologue s e rnd re ei p1
  have hA := wrA_mid (P := P) prologue s (chosen e rnd) re ei p1 i
  have hB := wrB_mid (P := P) prologue s (chosen e rnd) re ei p1 i
  rcases HandshakeState.writeB_cases (P := P) rnd (mid P i prologue s e re ei p1).hs b with
    ⟨hl, hw⟩ | ⟨_, hl, b', _, hw⟩ | ⟨_, hk, b', _, hw⟩ | ⟨_, hl, _, b', _, hw⟩ | ⟨_, _, hk, b', _, hw⟩ |
    ⟨hl, hk1, hk2, hw⟩
  case inr.inr.inr.inr.inr =>
    rw [hE, hA] at hk1
    rw [hE, hB] at hk2
    have := send_second_any (P := P) i prologue s e rnd re ei p1 b hl (by omega) hk1 hk2
    rw [this] at h
    simp only [Prod.mk.injEq, true_and] at h
    obtain ⟨rfl, rfl⟩ := h
    have hlS : (NX.encryptedStatic P prologue ei p1 (chosen e rnd).public_key.toList
        (P.dh (chosen e rnd).private_key re) s.public_key.toList).length = 48 := by
      unfold NX.encryptedStatic
      rw [enc_length, s.public_key.len]
    have hlP : ∀ p, 16 ≤ (NX.encryptedPayload P prologue ei p1 (chosen e rnd).public_key.toList
        (NX.encryptedStatic P prologue ei p1 (chosen e rnd).public_key.toList
        (P.dh (chosen e rnd).private_key re) s.public_key.toList)
        (P.dh (chosen e rnd).private_key re) (P.dh s.private_key re) p).length := by
      intro p
      unfold NX.encryptedPayload
      rw [enc_length]; omega
    have hl' := (chosen e rnd).public_key.len
    refine ⟨?_, ?_⟩
    · rw [take_three hl', take_mid_three hl' hlS, drop_three hl' hlS]
    · simp only [List.length_append, hl', hlS]
      have := hlP (body (b.drop 80))
      omega
  all_goals
    rw [NoiseSession.send_one rnd _ b hb rfl, hw] at h
    cases h

/-- A second message that was received. -/
theorem recv_second_ok {i : Bool} {prologue : Bytes} {s e : Keypair} {re0 : Arr 32} {ei p1 b w : Bytes}
    {s' : NoiseSession}
    (h : (mid P i prologue s e re0 ei p1).recvMessage P b = (.ok (), s', w)) :
    ∃ (re rs : Arr 32) (hl : 96 ≤ b.length), re.toList = b.take 32 ∧ re.toList ∉ forbiddenCurveValues ∧
      rs.toList ∉ forbiddenCurveValues ∧ b.length ≤ 2128 ∧
      (mid P i prologue s e re0 ei p1).hs.openS P b (by omega) = some rs.toList ∧
      (∃ q, (mid P i prologue s e re0 ei p1).hs.openP P b hl rs = some q ∧
        w = b.take 32 ++ (rs.toList ++ tag (HandshakeState.partS b)) ++ (q ++ tag (b.drop 80))) ∧
      s' = done i rs (NX.transcript P [prologue, ei, p1, b.take 32, (b.drop 32).take 48, b.drop 80])
        (NX.transportKeys P (P.dh e.private_key re) (P.dh e.private_key rs)) 1 := by
  by_cases hb : b.length < 16 ∨ 65535 < b.length
  · rw [NoiseSession.recv_badLength _ b hb] at h
    cases h
  rw [NoiseSession.recv_one _ b hb rfl] at h
  rcases HandshakeState.readB_cases (P := P) (mid P i prologue s e re0 ei p1).hs b with ⟨_, hr⟩ |
    ⟨_, hf, hr⟩ | ⟨_, _, _, hr⟩ | ⟨_, _, _, ho, hr⟩ | ⟨_, p, _, ho, hf, _, _, hr⟩ |
    ⟨_, p, _, _, ho, _, _, _, _, hr⟩ |
    ⟨_, p, hp, _, _, ho, _, _, hq, _, _, hr⟩ | ⟨hl, p, hp, q, hf, ho, hpf, hl', hq, hr⟩
  case inr.inr.inr.inr.inr.inr.inr =>
    rw [hr] at h
    simp only [rdSS_mid] at h
    rw [NoiseSession.count_ok _ _ (by simp [NoiseSession.enterTransport, mid])] at h
    simp only [Prod.mk.injEq, true_and] at h
    obtain ⟨rfl, rfl⟩ := h
    refine ⟨first32 b (by omega), HandshakeState.rsOf p hp, hl, rfl, hf, hpf, hl', ho, ⟨q, hq, ?_⟩, ?_⟩
    · simp [HandshakeState.rsOf]
    simp only [SymmetricState.split, hkdf_eq]
    rfl
  all_goals
    rw [hr] at h
    cases h

end SV2.Noise
