import Verif.Lemmas.Noise.NX
/-!
# Invariants over histories of calls
-/

namespace SV2.Noise
variable {P : Prims}

theorem after_append (s : NoiseSession) (ops ops' : List Op) :
    after P s (ops ++ ops') = after P (after P s ops) ops' := by
  induction ops generalizing s with
  | nil => rfl
  | cons op ops ih => exact ih _

/-- A property of sessions that every call keeps holds after every history. -/
theorem after_invariant {I : NoiseSession → Prop} {s : NoiseSession} (h0 : I s) {ops : List Op}
    (hstep : ∀ s op, op ∈ ops → I s → I (op.exec P s).2.1) : I (after P s ops) := by
  induction ops generalizing s with
  | nil => exact h0
  | cons op ops ih =>
    exact ih (hstep s op (List.mem_cons_self ..) h0)
      (fun s op' h => hstep s op' (List.mem_cons_of_mem _ h))

/-- What a call does to the handshake state. -/
structure HsStep (s : NoiseSession) (r : NResult Unit × NoiseSession × Bytes) : Prop where
  rs : r.2.1.hs.rs = s.hs.rs ∨ r.2.1.hs.rs.toList ∉ forbiddenCurveValues
  re : r.2.1.hs.re = s.hs.re ∨ r.2.1.hs.re = EMPTY ∨ r.2.1.hs.re.toList ∉ forbiddenCurveValues
  stay : 2 ≤ s.mc → r.2.1.hs = s.hs
  enter : s.mc = 1 → r.1.isOk = true → Erased r.2.1.hs ∧ r.2.1.hs.e = Keypair.empty

theorem count_hs (s : NoiseSession) (b : Bytes) : (s.count b).2.1.hs = s.hs := by
  rcases NoiseSession.count_cases s b with ⟨_, h⟩ | ⟨_, h⟩ <;> rw [h]

theorem count_mc2 (s : NoiseSession) (b : Bytes) : (s.count b).2.1.is_transport = s.is_transport := by
  rcases NoiseSession.count_cases s b with ⟨_, h⟩ | ⟨_, h⟩ <;> rw [h]

theorem HsStep.same (s : NoiseSession) (r : NResult Unit × NoiseSession × Bytes)
    (h : r.2.1.hs = s.hs) (hm : s.mc = 1 → r.1.isOk = false) : HsStep s r :=
  ⟨.inl (by rw [h]), .inl (by rw [h]), fun _ => h, fun h1 h2 => by rw [hm h1] at h2; cases h2⟩

theorem send_hsStep (rnd : Keypair) (s : NoiseSession) (b : Bytes) :
    HsStep s (s.sendMessage P rnd b) ∧ (s.sendMessage P rnd b).2.1.hs.rs = s.hs.rs := by
  by_cases h : b.length < 16 ∨ 65535 < b.length
  · rw [NoiseSession.send_badLength rnd s b h]
    exact ⟨HsStep.same _ _ rfl fun _ => rfl, rfl⟩
  by_cases h0 : s.mc = 0
  · rw [NoiseSession.send_zero rnd s b h h0]
    by_cases hl : b.length < 32
    · rw [HandshakeState.writeA_short rnd s.hs b hl]
      exact ⟨HsStep.same _ _ rfl fun _ => rfl, rfl⟩
    · rw [HandshakeState.writeA_ok rnd s.hs b (by omega)]
      refine ⟨⟨.inl ?_, .inl ?_, by omega, by omega⟩, ?_⟩ <;> simp [count_hs]
  by_cases h1 : s.mc = 1
  · rw [NoiseSession.send_one rnd s b h h1]
    rcases HandshakeState.writeB_cases (P := P) rnd s.hs b with ⟨_, h⟩ | ⟨_, _, b', hb, h⟩ |
      ⟨_, _, b', hb, h⟩ | ⟨_, _, _, b', hb, h⟩ | ⟨_, _, _, b', hb, h⟩ | ⟨hl, _, _, h⟩ <;> rw [h]
    · exact ⟨⟨.inl rfl, .inl rfl, fun _ => rfl, fun _ h => by cases h⟩, rfl⟩
    · exact ⟨⟨.inl (by simp [HandshakeState.wrA]), .inl (by simp [HandshakeState.wrA]), by omega,
        fun _ h => by cases h⟩, by simp [HandshakeState.wrA]⟩
    · exact ⟨⟨.inl (by simp [HandshakeState.wrA]), .inl (by simp [HandshakeState.wrA]), by omega,
        fun _ h => by cases h⟩, by simp [HandshakeState.wrA]⟩
    · exact ⟨⟨.inl (by simp [HandshakeState.wrB]), .inl (by simp [HandshakeState.wrB]), by omega,
        fun _ h => by cases h⟩, by simp [HandshakeState.wrB]⟩
    · exact ⟨⟨.inl (by simp [HandshakeState.wrB]), .inl (by simp [HandshakeState.wrB]), by omega,
        fun _ h => by cases h⟩, by simp [HandshakeState.wrB]⟩
    · refine ⟨⟨.inl ?_, .inr (.inl ?_), by omega, fun _ _ => ?_⟩, ?_⟩
      · simp [count_hs, NoiseSession.enterTransport, HandshakeState.clear]
      · simp [count_hs, NoiseSession.enterTransport, HandshakeState.clear]
      · rw [count_hs]
        exact ⟨⟨rfl, rfl, rfl, rfl, rfl⟩, rfl⟩
      · simp [count_hs, NoiseSession.enterTransport, HandshakeState.clear]
  · rcases NoiseSession.send_cases (P := P) rnd s b (by omega) with ⟨hl, _, _, _, h⟩ | ⟨e, h⟩ <;> rw [h]
    · exact ⟨HsStep.same _ _ (by simp [count_hs]) (by omega), by simp [count_hs]⟩
    · exact ⟨HsStep.same _ _ rfl (by omega), rfl⟩

theorem recv_hsStep (s : NoiseSession) (b : Bytes) : HsStep s (s.recvMessage P b) := by
  by_cases h : b.length < 16 ∨ 65535 < b.length
  · rw [NoiseSession.recv_badLength s b h]
    exact HsStep.same _ _ rfl fun _ => rfl
  by_cases h0 : s.mc = 0
  · rw [NoiseSession.recv_zero s b h h0]
    by_cases hl : b.length < 48
    · rw [HandshakeState.readA_short s.hs b hl]
      exact HsStep.same _ _ rfl fun _ => rfl
    by_cases hf : b.take 32 ∈ forbiddenCurveValues
    · rw [HandshakeState.readA_forbidden s.hs b (by omega) hf]
      exact HsStep.same _ _ rfl fun _ => rfl
    · rw [HandshakeState.readA_ok s.hs b (by omega) hf]
      refine ⟨.inl ?_, .inr (.inr ?_), by omega, by omega⟩
      · simp [count_hs]
      · simp only [count_hs]
        exact hf
  by_cases h1 : s.mc = 1
  · rw [NoiseSession.recv_one s b h h1]
    rcases HandshakeState.readB_cases (P := P) s.hs b with ⟨_, h⟩ | ⟨_, _, h⟩ | ⟨_, hf, _, h⟩ |
      ⟨_, _, hf, _, h⟩ | ⟨_, _, hf, _, _, _, hb, h⟩ | ⟨_, _, _, hf, _, hp, _, _, hb, h⟩ |
      ⟨_, _, _, _, hf, _, hp, _, _, _, hb, h⟩ | ⟨hl, p, _, q, hf, _, hp, _, hq, h⟩ <;> rw [h]
    · exact HsStep.same _ _ rfl fun _ => rfl
    · exact HsStep.same _ _ rfl fun _ => rfl
    · exact ⟨.inl rfl, .inr (.inr hf), by omega, fun _ h => by cases h⟩
    · exact ⟨.inl rfl, .inr (.inr hf), by omega, fun _ h => by cases h⟩
    · exact ⟨.inl rfl, .inr (.inr hf), by omega, fun _ h => by cases h⟩
    · exact ⟨.inr hp, .inr (.inr hf), by omega, fun _ h => by cases h⟩
    · exact ⟨.inr hp, .inr (.inr hf), by omega, fun _ h => by cases h⟩
    · refine ⟨.inr ?_, .inr (.inl ?_), by omega, fun _ _ => ?_⟩
      · rw [count_hs]
        exact hp
      · simp [count_hs, NoiseSession.enterTransport, HandshakeState.clear]
      · rw [count_hs]
        exact ⟨⟨rfl, rfl, rfl, rfl, rfl⟩, rfl⟩
  · rcases NoiseSession.recv_cases (P := P) s b (by omega) with ⟨hl, p, _, _, _, hp, h⟩ | ⟨e, h⟩ <;> rw [h]
    · exact HsStep.same _ _ (by simp [count_hs]) (by omega)
    · exact HsStep.same _ _ rfl (by omega)

/-- The count and the transport flag move together. -/
theorem exec_mc (s : NoiseSession) (op : Op) :
    (op.exec P s).2.1.mc = s.mc + (if op.isMessage && (op.exec P s).1.isOk then 1 else 0) ∧
    ((s.is_transport = true ↔ 2 ≤ s.mc) →
      ((op.exec P s).2.1.is_transport = true ↔ 2 ≤ (op.exec P s).2.1.mc)) := by
  have key : ∀ (b : Bytes) (r : NResult Unit × NoiseSession × Bytes), NoiseSession.Basic s b r →
      (s.is_transport = true ↔ 2 ≤ s.mc) → (r.2.1.is_transport = true ↔ 2 ≤ r.2.1.mc) := by
    intro b r hb hi
    rw [hb.mc, hb.transport]
    rcases hok : r.1.isOk with _ | _
    · simpa using hi
    · simp [hi]
      omega
  cases op with
  | send secret buf =>
    have hb := NoiseSession.send_basic (P := P) (Keypair.default P secret) s buf
    refine ⟨?_, key _ _ hb⟩
    simp only [Op.exec, Op.isMessage, hb.mc, Bool.true_and]
  | recv buf =>
    have hb := NoiseSession.recv_basic (P := P) s buf
    refine ⟨?_, key _ _ hb⟩
    simp only [Op.exec, Op.isMessage, hb.mc, Bool.true_and]
  | setEphemeral kp => exact ⟨rfl, id⟩
  | clearLocal => exact ⟨rfl, id⟩
  | clearRemote => exact ⟨rfl, id⟩
  | rekeyLocal => exact ⟨rfl, id⟩
  | rekeyRemote => exact ⟨rfl, id⟩

end SV2.Noise
