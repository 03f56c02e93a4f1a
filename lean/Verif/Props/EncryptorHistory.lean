import Verif.Props.Network
/-!
# C62: many `recv_handshake` calls on one connection encryptor

The fuzz harness `fuzz/src/bin/connection_encryptor.rs` feeds one encryptor with one input after another.
-/

namespace SV2
open Noise

section
variable (P : Prims)

/-- The results of `recv_handshake` on each input in turn, and the encryptor afterwards.  Each call comes
with the key pair it would generate.  fuzz/src/bin/connection_encryptor.rs:5-8 and 10-13. -/
def ConnectionEncryptor.calls (c : ConnectionEncryptor) :
    List (Keypair × Bytes) → List (Result Bytes) × ConnectionEncryptor
  | [] => ([], c)
  | (rnd, b) :: rest =>
    ((c.recvHandshake P rnd b).1 :: (calls (c.recvHandshake P rnd b).2.1 rest).1,
      (calls (c.recvHandshake P rnd b).2.1 rest).2)

variable {P}

theorem ConnectionEncryptor.calls_append (c : ConnectionEncryptor) (h h' : List (Keypair × Bytes)) :
    c.calls P (h ++ h') = ((c.calls P h).1 ++ ((c.calls P h).2.calls P h').1, ((c.calls P h).2.calls P h').2) := by
  induction h generalizing c with
  | nil => rfl
  | cons a h ih =>
    obtain ⟨rnd, b⟩ := a
    simp only [List.cons_append, ConnectionEncryptor.calls, ih]

/-- The effect of one call on the count. -/
theorem recvHandshake_mc (c : ConnectionEncryptor) (rnd : Keypair) (b : Bytes) :
    let r := c.recvHandshake P rnd b
    c.noise_session.mc ≤ r.2.1.noise_session.mc ∧ r.2.1.noise_session.mc ≤ c.noise_session.mc + 2 ∧
    (∀ v, r.1 = .ok v → r.2.1.noise_session.mc = c.noise_session.mc + 2) ∧
    ((c.noise_session.is_transport = true ↔ 2 ≤ c.noise_session.mc) →
      (r.2.1.noise_session.is_transport = true ↔ 2 ≤ r.2.1.noise_session.mc)) := by
  intro r
  have hr : r = c.recvHandshake P rnd b := rfl
  clear_value r
  have key : ∀ (s : NoiseSession) (b : Bytes) (r : NResult Unit × NoiseSession × Bytes),
      NoiseSession.Basic s b r →
      (s.is_transport = true ↔ 2 ≤ s.mc) → (r.2.1.is_transport = true ↔ 2 ≤ r.2.1.mc) := by
    intro s b r hb hi
    rw [hb.mc, hb.transport]
    rcases hok : r.1.isOk with _ | _
    · simpa using hi
    · simp [hi]
      omega
  have h1 := NoiseSession.recv_basic (P := P) c.noise_session b
  have k1 := key _ _ _ h1
  have m1 := h1.mc
  unfold ConnectionEncryptor.recvHandshake at hr
  rcases e1 : c.noise_session.recvMessage P b with ⟨r1, s1, b1⟩
  rw [e1] at hr m1 k1
  simp only at m1 k1
  cases r1 with
  | err e => simp only at hr; subst hr; simp only [Out.isOk, Bool.false_eq_true, if_false] at m1 ⊢; exact ⟨by omega, by omega, by simp, k1⟩
  | panic => simp only at hr; subst hr; simp only [Out.isOk, Bool.false_eq_true, if_false] at m1 ⊢; exact ⟨by omega, by omega, by simp, k1⟩
  | ok u =>
    simp only [Out.isOk, if_true] at m1
    have h2 := NoiseSession.send_basic (P := P) rnd s1 b1
    have k2 := key _ _ _ h2
    have m2 := h2.mc
    rcases e2 : s1.sendMessage P rnd b1 with ⟨r2, s2, b2⟩
    simp only [e2] at hr m2 k2
    cases r2 with
    | err e =>
      simp only at hr; subst hr; simp only [Out.isOk] at m2 ⊢
      refine ⟨by simp at m2; omega, by simp at m2; omega, by simp, fun h => k2 (k1 h)⟩
    | panic =>
      simp only at hr; subst hr; simp only [Out.isOk] at m2 ⊢
      refine ⟨by simp at m2; omega, by simp at m2; omega, by simp, fun h => k2 (k1 h)⟩
    | ok u =>
      simp only at hr; subst hr; simp only [Out.isOk, if_true] at m2 ⊢
      refine ⟨by omega, by omega, fun _ _ => by omega, fun h => k2 (k1 h)⟩

theorem calls_mc (c : ConnectionEncryptor) (h : List (Keypair × Bytes)) :
    c.noise_session.mc ≤ (c.calls P h).2.noise_session.mc ∧
    (c.calls P h).2.noise_session.mc ≤ c.noise_session.mc + 2 * h.length ∧
    ((∃ v, .ok v ∈ (c.calls P h).1) → 2 ≤ (c.calls P h).2.noise_session.mc) := by
  induction h generalizing c with
  | nil => exact ⟨Nat.le_refl _, Nat.le_refl _, by simp [ConnectionEncryptor.calls]⟩
  | cons a h ih =>
    obtain ⟨rnd, b⟩ := a
    obtain ⟨m1, m2, m3, _⟩ := recvHandshake_mc (P := P) c rnd b
    obtain ⟨i1, i2, i3⟩ := ih (c.recvHandshake P rnd b).2.1
    simp only [ConnectionEncryptor.calls, List.length_cons] at *
    refine ⟨by omega, by omega, ?_⟩
    rintro ⟨v, hv⟩
    rcases List.mem_cons.mp hv with hv | hv
    · have := m3 v hv.symm; omega
    · exact i3 ⟨v, hv⟩

/-- A receive in the second step that succeeds or panics has an accepted static key. -/
theorem recv_one_accepted (s : NoiseSession) (b : Bytes) (h1 : s.mc = 1)
    (hok : ∀ e, (s.recvMessage P b).1 ≠ .err e) : StaticKeyAccepted P s b := by
  by_cases h : b.length < 16 ∨ 65535 < b.length
  · rw [NoiseSession.recv_badLength s b h] at hok; exact absurd rfl (hok _)
  rw [NoiseSession.recv_one s b h h1] at hok
  rcases HandshakeState.readB_cases (P := P) s.hs b with ⟨hl, h⟩ | ⟨_, hf, h⟩ | ⟨_, _, hl, h⟩ |
      ⟨hl, _, _, ho, h⟩ | ⟨hl, p, _, ho, hf, _, hb, h⟩ | ⟨hl, p, _, hf, ho, hp, hlen, _, hb, h⟩ |
      ⟨_, _, _, _, hf, _, hp, hlen, _, _, hb, h⟩ | ⟨hl, p, _, q, hf, ho, hp, hlen, hq, h⟩ <;> rw [h] at hok
  case inr.inr.inr.inr.inr.inl => exact (staticKeyAccepted_iff P s b hl).mpr ⟨hf, p, ho, hp⟩
  case inr.inr.inr.inr.inr.inr.inr =>
    exact (staticKeyAccepted_iff P s b (by omega)).mpr ⟨hf, p, ho, hp⟩
  all_goals exact absurd rfl (hok _)

/-- An encryptor as the constructors make it, with static key `s`. -/
def Fresh (P : Prims) (c : ConnectionEncryptor) (s : Keypair) : Prop :=
  (∃ rnd key, c = ConnectionEncryptor.newInbound P rnd key ∧ s = key.getD rnd) ∨
  c = ConnectionEncryptor.newOutbound P s

theorem Fresh.session {c : ConnectionEncryptor} {s : Keypair} (h : Fresh P c s) :
    ∃ i, c = ⟨NoiseSession.initSession P i [] s⟩ := by
  rcases h with ⟨rnd, key, rfl, rfl⟩ | rfl
  · refine ⟨false, ?_⟩
    cases key <;> rfl
  · exact ⟨true, rfl⟩

/-- `first` is a first message that an encryptor accepts but cannot answer in the space it takes: 48 to 95
bytes beginning with an acceptable key (or, vanishingly rarely, a longer one for which one of the two keys
derived from the shared secrets is all zero). -/
def Wedges (P : Prims) (s rnd : Keypair) (first : Bytes) : Prop :=
  ∃ re : Arr 32, re.toList = first.take 32 ∧ re.toList ∉ forbiddenCurveValues ∧
    48 ≤ first.length ∧ first.length ≤ 65535 ∧
    (first.length < 96 ∨ (NX.afterEE P (P.dh rnd.private_key re)).2 = NX.zeros ∨
      (NX.afterES P (P.dh rnd.private_key re) (P.dh s.private_key re)).2 = NX.zeros)

theorem chosen_empty (rnd : Keypair) : chosen Keypair.empty rnd = rnd := rfl

/-- One call on a fresh session: refused without a trace, wedged, or answered. -/
theorem first_call (i : Bool) (s rnd : Keypair) (b : Bytes) :
    let c : ConnectionEncryptor := ⟨NoiseSession.initSession P i [] s⟩
    let r := c.recvHandshake P rnd b
    ((∃ e, r.1 = .err e) ∧ r.2.1 = c ∧ ¬ (48 ≤ b.length ∧ b.length ≤ 65535 ∧
      b.take 32 ∉ forbiddenCurveValues)) ∨
    ((∃ e, r.1 = .err e) ∧ r.2.1.noise_session.mc = 1 ∧ r.2.1.noise_session.is_transport = false ∧
      Wedges P s rnd b) ∨
    ((∃ v, r.1 = .ok v) ∧ r.2.1.noise_session.mc = 2 ∧ ¬ Wedges P s rnd b) := by
  intro c r
  have hr : r = c.recvHandshake P rnd b := rfl
  clear_value r
  unfold ConnectionEncryptor.recvHandshake at hr
  have hm0 : (NoiseSession.initSession P i [] s).mc = 0 := rfl
  by_cases h : b.length < 16 ∨ 65535 < b.length
  · left
    have e1 := NoiseSession.recv_badLength (P := P) (NoiseSession.initSession P i [] s) b h
    simp only [c, e1] at hr
    subst hr
    exact ⟨⟨_, rfl⟩, rfl, by omega⟩
  by_cases h48 : b.length < 48
  · left
    have e1 := NoiseSession.recv_zero (P := P) (NoiseSession.initSession P i [] s) b h hm0
    rw [HandshakeState.readA_short _ b h48] at e1
    simp only [c, e1] at hr
    subst hr
    exact ⟨⟨_, rfl⟩, rfl, by omega⟩
  by_cases hf : b.take 32 ∈ forbiddenCurveValues
  · left
    have e1 := NoiseSession.recv_zero (P := P) (NoiseSession.initSession P i [] s) b h hm0
    rw [HandshakeState.readA_forbidden _ b (by omega) hf] at e1
    simp only [c, e1] at hr
    subst hr
    exact ⟨⟨_, rfl⟩, rfl, fun h => h.2.2 hf⟩
  right
  have e1 := recv_first (P := P) i [] s (first32 b (by omega)) (b.drop 32) (by simp; omega) (by simp; omega) hf
  rw [show (first32 b (by omega)).toList ++ b.drop 32 = b from List.take_append_drop 32 b] at e1
  simp only [c, e1] at hr
  have hW : Wedges P s rnd b ↔ (b.length < 96 ∨
      (NX.afterEE P (P.dh rnd.private_key (first32 b (by omega)))).2 = NX.zeros ∨
      (NX.afterES P (P.dh rnd.private_key (first32 b (by omega)))
        (P.dh s.private_key (first32 b (by omega)))).2 = NX.zeros) := by
    constructor
    · rintro ⟨re, h1, _, _, _, h2⟩
      have : re = first32 b (by omega) := arr_ext h1
      rwa [this] at h2
    · intro h2
      exact ⟨first32 b (by omega), rfl, hf, by omega, by omega, h2⟩
  have hE := useE_mid (P := P) i [] s Keypair.empty rnd (first32 b (by omega)) (first32 b (by omega)).toList
    (b.drop 32)
  have hA := wrA_mid (P := P) [] s rnd (first32 b (by omega)) (first32 b (by omega)).toList (b.drop 32) i
  have hB := wrB_mid (P := P) [] s rnd (first32 b (by omega)) (first32 b (by omega)).toList (b.drop 32) i
  rw [chosen_empty] at hE
  by_cases hw : Wedges P s rnd b
  · left
    have hmc : ∀ (e : NoiseError) (hs : HandshakeState) (b' : Bytes),
        (mid P i [] s Keypair.empty (first32 b (by omega)) (first32 b (by omega)).toList
          (b.drop 32)).sendMessage P rnd b = (.err e, { mid P i [] s Keypair.empty (first32 b (by omega))
            (first32 b (by omega)).toList (b.drop 32) with hs := hs }, b') →
        ((∃ e, r.1 = .err e) ∧ r.2.1.noise_session.mc = 1 ∧ r.2.1.noise_session.is_transport = false ∧
          Wedges P s rnd b) := by
      intro e hs b' he
      simp only [he] at hr
      subst hr
      exact ⟨⟨_, rfl⟩, rfl, rfl, hw⟩
    rw [hW] at hw
    have e2 := NoiseSession.send_one (P := P) rnd (mid P i [] s Keypair.empty (first32 b (by omega))
      (first32 b (by omega)).toList (b.drop 32)) b h rfl
    rcases HandshakeState.writeB_cases (P := P) rnd (mid P i [] s Keypair.empty (first32 b (by omega))
      (first32 b (by omega)).toList (b.drop 32)).hs b with
      ⟨hl, hx⟩ | ⟨_, hl, b', _, hx⟩ | ⟨_, hk, b', _, hx⟩ | ⟨_, hl, _, b', _, hx⟩ | ⟨_, _, hk, b', _, hx⟩ |
      ⟨hl, hk1, hk2, hx⟩
    case inr.inr.inr.inr.inr =>
      rw [hE, hA] at hk1
      rw [hE, hB] at hk2
      rcases hw with hw | hw | hw
      · omega
      · exact absurd hw hk1
      · exact absurd hw hk2
    all_goals
      rw [hx] at e2
      exact hmc _ _ _ e2
  · right
    have hw' := hw
    rw [hW] at hw'
    have e2 := send_second_any (P := P) i [] s Keypair.empty rnd (first32 b (by omega))
      (first32 b (by omega)).toList (b.drop 32) b (by omega) (by omega)
      (by rw [chosen_empty]; exact fun h => hw' (Or.inr (Or.inl h)))
      (by rw [chosen_empty]; exact fun h => hw' (Or.inr (Or.inr h)))
    simp only [e2] at hr
    subst hr
    exact ⟨⟨_, rfl⟩, rfl, hw⟩

/-- One call while the count is one: an error that leaves the count at one, or an accepted static key. -/
theorem wedged_call (c : ConnectionEncryptor) (rnd : Keypair) (b : Bytes) (h1 : c.noise_session.mc = 1)
    (ht : c.noise_session.is_transport = false) (hn : ¬ StaticKeyAccepted P c.noise_session b) :
    (∃ e, (c.recvHandshake P rnd b).1 = .err e) ∧
    (c.recvHandshake P rnd b).2.1.noise_session.mc = 1 ∧
    (c.recvHandshake P rnd b).2.1.noise_session.is_transport = false := by
  have hb := NoiseSession.recv_basic (P := P) c.noise_session b
  have m1 := hb.mc
  have t1 := hb.transport
  have herr : ∃ e, (c.noise_session.recvMessage P b).1 = .err e := by
    apply Classical.byContradiction
    intro hc
    exact hn (recv_one_accepted _ _ h1 fun e he => hc ⟨e, he⟩)
  obtain ⟨e, he⟩ := herr
  rcases e1 : c.noise_session.recvMessage P b with ⟨r1, s1, b1⟩
  rw [e1] at he m1 t1
  simp only at he m1 t1
  subst he
  unfold ConnectionEncryptor.recvHandshake
  simp only [e1]
  simp only [Out.isOk, Bool.false_eq_true, if_false] at m1
  simp only [Out.isOk, Bool.false_and, Bool.or_false] at t1
  exact ⟨⟨_, rfl⟩, by omega, by rw [t1, ht]⟩

variable (P)

/-- Once a call has returned `Ok`, no later call panics, whatever comes in. -/
theorem C62_safe_after_success (c : ConnectionEncryptor) (history later : List (Keypair × Bytes))
    (hok : ∃ v, .ok v ∈ (c.calls P history).1)
    (hmax : c.noise_session.getMessageCount + 2 * (history.length + later.length) + 2 < 2 ^ 128) :
    .panic ∉ ((c.calls P history).2.calls P later).1 := by
  replace hmax : c.noise_session.mc + 2 * (history.length + later.length) + 2 < 2 ^ 128 := hmax
  obtain ⟨_, h2, h3⟩ := calls_mc (P := P) c history
  replace h3 := h3 hok
  generalize (c.calls P history).2 = d at h2 h3
  have hm : d.noise_session.mc + 2 * later.length + 2 < 2 ^ 128 := by omega
  clear hmax h2 hok
  induction later generalizing d with
  | nil => simp [ConnectionEncryptor.calls]
  | cons a later ih =>
    obtain ⟨rnd, b⟩ := a
    obtain ⟨m1, m2, _⟩ := recvHandshake_mc (P := P) d rnd b
    simp only [ConnectionEncryptor.calls, List.mem_cons, not_or]
    simp only [List.length_cons] at hm
    refine ⟨?_, ih _ (by omega) (by omega)⟩
    intro hp
    rw [eq_comm, C57_panics_iff P d rnd b (by show d.noise_session.mc + 2 < _; omega)] at hp
    have : d.noise_session.mc = 1 := hp.1
    omega

/-- Where a panic can come from, for a fresh encryptor fed with any inputs: every call before it failed, one
of them was a wedging first message, and the input that panics carries 48 bytes that authenticate under a
key derived from the ephemeral key which that failed call generated and never sent. -/
theorem C62_panic (c : ConnectionEncryptor) (s : Keypair) (hc : Fresh P c s)
    (history : List (Keypair × Bytes)) (rnd : Keypair) (b : Bytes)
    (hmax : 2 * history.length + 2 < 2 ^ 128) (hnp : .panic ∉ (c.calls P history).1)
    (hp : ((c.calls P history).2.recvHandshake P rnd b).1 = .panic) :
    (∀ r ∈ (c.calls P history).1, ∃ e, r = .err e) ∧
    (∃ before rnd' first after, history = before ++ (rnd', first) :: after ∧ Wedges P s rnd' first) ∧
    ((80 ≤ b.length ∧ b.length < 96) ∨ (2128 < b.length ∧ b.length ≤ 65535)) ∧
    StaticKeyAccepted P (c.calls P history).2.noise_session b := by
  obtain ⟨i, rfl⟩ := hc.session
  obtain ⟨_, hle, hok⟩ := calls_mc (P := P) ⟨NoiseSession.initSession P i [] s⟩ history
  have hm0 : (NoiseSession.initSession P i [] s).mc = 0 := rfl
  rw [C57_panics_iff P _ rnd b (by
    show NoiseSession.mc _ + 2 < _
    simp only [hm0] at hle
    omega)] at hp
  obtain ⟨hp1, hp2, hp3⟩ := hp
  replace hp1 : (ConnectionEncryptor.calls P ⟨NoiseSession.initSession P i [] s⟩ history).2.noise_session.mc = 1 := hp1
  refine ⟨?_, ?_, hp2, hp3⟩
  · intro r hr
    cases r with
    | ok v => have := hok ⟨v, hr⟩; omega
    | err e => exact ⟨e, rfl⟩
    | panic => exact absurd hr hnp
  · rename_i hx0
    clear hx0 hok hp2 hp3 hle hnp hmax
    induction history with
    | nil => simp [ConnectionEncryptor.calls, NoiseSession.initSession] at hp1
    | cons a history ih =>
      obtain ⟨rnd', b'⟩ := a
      rcases first_call (P := P) i s rnd' b' with ⟨_, h2, _⟩ | ⟨_, _, _, hw⟩ | ⟨_, h2, _⟩
      · simp only [ConnectionEncryptor.calls, h2] at hp1
        obtain ⟨before, r', first, after, rfl, hw⟩ := ih hp1
        exact ⟨(rnd', b') :: before, r', first, after, rfl, hw⟩
      · exact ⟨[], rnd', b', history, rfl, hw⟩
      · have := (calls_mc (P := P)
          (ConnectionEncryptor.recvHandshake P rnd' ⟨NoiseSession.initSession P i [] s⟩ b').2.1 history).1
        simp only [ConnectionEncryptor.calls] at hp1
        omega

/-- None of the later inputs authenticates in the state in which it arrives. -/
def NoneAccepted (P : Prims) (c : ConnectionEncryptor) : List (Keypair × Bytes) → Prop
  | [] => True
  | (rnd, b) :: rest =>
    ¬ StaticKeyAccepted P c.noise_session b ∧ NoneAccepted P (c.recvHandshake P rnd b).2.1 rest

/-- One wedging first message, which anyone can send, ends the handshake: whatever was refused before, it
and every later input is answered with an error and the handshake never completes, unless an input
authenticates as above.  Without it, the next acceptable first message is answered. -/
theorem C62_wedged (c : ConnectionEncryptor) (s : Keypair) (hc : Fresh P c s)
    (before : List (Keypair × Bytes)) (hb : ∀ r ∈ (c.calls P before).1, ∃ e, r = .err e)
    (hnw : ∀ x ∈ before, ¬ Wedges P s x.1 x.2) (rnd : Keypair) (first : Bytes) :
    (Wedges P s rnd first → ∀ after : List (Keypair × Bytes),
      NoneAccepted P (c.calls P (before ++ [(rnd, first)])).2 after →
      (∀ r ∈ (c.calls P (before ++ (rnd, first) :: after)).1, ∃ e, r = .err e) ∧
      (c.calls P (before ++ (rnd, first) :: after)).2.isHandshakeComplete = false ∧
      (c.calls P (before ++ (rnd, first) :: after)).2.noise_session.getMessageCount = 1) ∧
    (¬ Wedges P s rnd first → 48 ≤ first.length → first.length ≤ 65535 →
      first.take 32 ∉ forbiddenCurveValues →
      ∃ v, ((c.calls P before).2.recvHandshake P rnd first).1 = .ok v ∧
        ((c.calls P before).2.recvHandshake P rnd first).2.1.isHandshakeComplete = true) := by
  obtain ⟨i, rfl⟩ := hc.session
  have hsame : (ConnectionEncryptor.calls P ⟨NoiseSession.initSession P i [] s⟩ before).2 =
      ⟨NoiseSession.initSession P i [] s⟩ := by
    induction before with
    | nil => rfl
    | cons a before ih =>
      obtain ⟨rnd', b'⟩ := a
      simp only [ConnectionEncryptor.calls, List.mem_cons, forall_eq_or_imp] at hb hnw ⊢
      rcases first_call (P := P) i s rnd' b' with ⟨_, h2, _⟩ | ⟨_, _, _, hw⟩ | ⟨⟨v, h1⟩, _, _⟩
      · rw [h2] at hb ⊢
        exact ih hnw.2 hb.2
      · exact absurd hw hnw.1
      · obtain ⟨e, he⟩ := hb.1
        rw [h1] at he
        cases he
  constructor
  · intro hw after hna
    rw [ConnectionEncryptor.calls_append, hsame] at hna ⊢
    rcases first_call (P := P) i s rnd first with ⟨_, _, hnw'⟩ | ⟨he, h1, h2, _⟩ | ⟨_, _, hnw'⟩
    · obtain ⟨re, w1, w2, w3, w4, _⟩ := hw
      exact absurd ⟨w3, w4, w1 ▸ w2⟩ hnw'
    case inr.inr => exact absurd hw hnw'
    simp only [ConnectionEncryptor.calls] at hna ⊢
    generalize ConnectionEncryptor.recvHandshake P rnd ⟨NoiseSession.initSession P i [] s⟩ first = r at *
    have key : ∀ (after : List (Keypair × Bytes)) (d : ConnectionEncryptor),
        d.noise_session.mc = 1 → d.noise_session.is_transport = false → NoneAccepted P d after →
        (∀ r ∈ (d.calls P after).1, ∃ e, r = .err e) ∧
        (d.calls P after).2.noise_session.is_transport = false ∧
        (d.calls P after).2.noise_session.mc = 1 := by
      intro after
      induction after with
      | nil => intro d hd1 hd2 _; exact ⟨by simp [ConnectionEncryptor.calls], hd2, hd1⟩
      | cons a after ih =>
        intro d hd1 hd2 hd3
        obtain ⟨rnd', b'⟩ := a
        obtain ⟨w1, w2, w3⟩ := wedged_call (P := P) d rnd' b' hd1 hd2 hd3.1
        obtain ⟨i1, i2, i3⟩ := ih _ w2 w3 hd3.2
        simp only [ConnectionEncryptor.calls, List.mem_cons, forall_eq_or_imp]
        exact ⟨⟨w1, i1⟩, i2, i3⟩
    obtain ⟨k1, k2, k3⟩ := key after r.2.1 h1 h2 hna
    refine ⟨?_, k2, k3⟩
    intro x hx
    rcases List.mem_append.mp hx with hx | hx
    · exact hb x hx
    · rcases List.mem_cons.mp hx with hx | hx
      · rw [hx]; exact he
      · exact k1 x hx
  · intro hw h48 hmax hf
    rw [hsame]
    have hm := (recvHandshake_mc (P := P) ⟨NoiseSession.initSession P i [] s⟩ rnd first).2.2.2
      (by simp [NoiseSession.initSession])
    rcases first_call (P := P) i s rnd first with ⟨_, h2, hnw'⟩ | ⟨_, _, _, hw'⟩ | ⟨⟨v, h1⟩, h2, _⟩
    · exact absurd ⟨h48, hmax, hf⟩ hnw'
    · exact absurd hw' hw
    · exact ⟨v, h1, by
        show NoiseSession.is_transport _ = true
        rw [hm, h2]; omega⟩

end

/-! Concrete, with the toy primitives: after a 48-byte first message an honest message of 100 bytes, which a
fresh encryptor answers, is refused. -/

/-- A key pair with secret bytes `b`. -/
def toyPair (b : UInt8) : Keypair := Keypair.default toyPrims ⟨List.replicate 32 b, by simp⟩

example : let c := ConnectionEncryptor.newInbound toyPrims (toyPair 3) none
    Fresh toyPrims c (toyPair 3) ∧ Wedges toyPrims (toyPair 3) (toyPair 4) (List.replicate 48 9) ∧
    (c.recvHandshake toyPrims (toyPair 4) (List.replicate 100 9)).1.isOk = true ∧
    (c.calls toyPrims [(toyPair 4, List.replicate 48 9), (toyPair 4, List.replicate 100 9)]).1.map Out.isOk =
      [false, false] := by
  refine ⟨.inl ⟨_, none, rfl, rfl⟩, ⟨⟨List.replicate 32 9, rfl⟩, by decide, by decide, by decide, by decide,
    .inl (by decide)⟩, by decide +kernel, by decide +kernel⟩

/-- And whoever knows the session's secrets can then make it panic, as `C62_panic` allows. -/
example : let c := ConnectionEncryptor.newInbound toyPrims (toyPair 3) none
    let d := (c.calls toyPrims [(toyPair 4, List.replicate 48 9)]).2
    let re : Arr 32 := ⟨List.replicate 32 9, rfl⟩
    let k := (NX.hkdf toyPrims d.noise_session.hs.ss.ck
      (toyPrims.dh d.noise_session.hs.e.private_key re).toList).2
    let w := toyPrims.aeadSeal k (NX.nonce 0)
      (toyPrims.hash (d.noise_session.hs.ss.h.toList ++ re.toList)).toList (List.replicate 32 7)
    (d.recvHandshake toyPrims (toyPair 4) (re.toList ++ (w.1 ++ w.2.toList))).1 = .panic := by decide +kernel

end SV2
