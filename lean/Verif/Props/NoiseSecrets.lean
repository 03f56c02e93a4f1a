import Verif.Props.NoiseHandshake
import Verif.Model.Crypto.Prims
/-!
# C86: what the keys of a session have an influence on

Two sessions that differ only in some secret are given the same calls; everything an observer and the caller see is the
same, or depends on the secret only in the stated way.
-/

namespace SV2.Noise

/-- Key pairs that cannot be told apart by their public key or by a Diffie-Hellman exchange.  The all-zero private key
counts as no key at all, so it has no counterpart. -/
structure AlikePair (P : Prims) (k k' : Keypair) : Prop where
  pub : k.public_key = k'.public_key
  dh : ∀ q, P.dh k.private_key q = P.dh k'.private_key q
  empty : k.private_key = NX.zeros ↔ k'.private_key = NX.zeros

/-- Secrets that cannot be told apart in that way. -/
def AlikeSecret (P : Prims) (k k' : Arr 32) : Prop := AlikePair P ⟨k, P.publicOf k⟩ ⟨k', P.publicOf k'⟩

/-- The same call, but for the ephemeral key that is drawn or set. -/
inductive AlikeOp (P : Prims) : Op → Op → Prop where
  | send {e e' : Arr 32} (b : Bytes) : AlikeSecret P e e' → AlikeOp P (.send e b) (.send e' b)
  | set {k k' : Keypair} : AlikePair P k k' → AlikeOp P (.setEphemeral k) (.setEphemeral k')
  | same (op : Op) : AlikeOp P op op

/-- Histories of such calls. -/
inductive AlikeOps (P : Prims) : List Op → List Op → Prop where
  | nil : AlikeOps P [] []
  | cons {op op' : Op} {ops ops' : List Op} : AlikeOp P op op' → AlikeOps P ops ops' → AlikeOps P (op :: ops) (op' :: ops')

variable {P : Prims}

theorem AlikePair.refl (k : Keypair) : AlikePair P k k := ⟨rfl, fun _ => rfl, Iff.rfl⟩

theorem AlikePair.isEmpty {k k' : Keypair} (h : AlikePair P k k') : k'.isEmpty = k.isEmpty := by
  have := h.empty
  unfold Keypair.isEmpty isEmptyKey
  rw [Bool.eq_iff_iff, decide_eq_true_iff, decide_eq_true_iff]
  exact this.symm

/-- `x` and `y` agree on outcome and buffer, and `R` holds between the states. -/
def Same {α σ : Type} (R : σ → σ → Prop) (x y : NResult α × σ × Bytes) : Prop :=
  y.1 = x.1 ∧ R x.2.1 y.2.1 ∧ y.2.2 = x.2.2

/-- The handshake states agree but for alike ephemeral keys and static keys; if `u` then these are alike, too. -/
def SimH (P : Prims) (u : Bool) (hs hs' : HandshakeState) : Prop :=
  ∃ a b, hs' = { hs with s := a, e := b } ∧ AlikePair P hs.e b ∧ (u = true → AlikePair P hs.s a)

def Sim (P : Prims) (u : Bool) (s s' : NoiseSession) : Prop :=
  ∃ hs, s' = { s with hs := hs } ∧ SimH P u s.hs hs

theorem writeA_sim {u : Bool} {hs hs' : HandshakeState} (h : SimH P u hs hs') {rnd rnd' : Keypair}
    (hr : AlikePair P rnd rnd') (b : Bytes) :
    Same (SimH P u) (hs.writeMessageA P rnd b) (hs'.writeMessageA P rnd' b) := by
  obtain ⟨s, e, rfl, he, hs'⟩ := h
  unfold HandshakeState.writeMessageA
  split
  · exact ⟨rfl, ⟨s, e, rfl, he, hs'⟩, rfl⟩
  · dsimp only
    rw [he.isEmpty]
    split
    · refine ⟨rfl, ⟨s, rnd', ?_, hr, hs'⟩, ?_⟩
      · simp only [hr.pub]
      · simp only [hr.pub]
    · refine ⟨rfl, ⟨s, e, ?_, he, hs'⟩, ?_⟩
      · simp only [he.pub]
      · simp only [he.pub]

theorem readA_sim {u : Bool} {hs hs' : HandshakeState} (h : SimH P u hs hs') (b : Bytes) :
    Same (SimH P u) (hs.readMessageA P b) (hs'.readMessageA P b) := by
  obtain ⟨s, e, rfl, he, hs'⟩ := h
  unfold HandshakeState.readMessageA
  split
  · exact ⟨rfl, ⟨s, e, rfl, he, hs'⟩, rfl⟩
  · dsimp only
    split <;> exact ⟨rfl, ⟨s, e, rfl, he, hs'⟩, rfl⟩

theorem readB_sim {u : Bool} {hs hs' : HandshakeState} (h : SimH P u hs hs') (b : Bytes) :
    Same (SimH P u) (hs.readMessageB P b) (hs'.readMessageB P b) := by
  obtain ⟨s, e, rfl, he, hs'⟩ := h
  unfold HandshakeState.readMessageB
  split
  · exact ⟨rfl, ⟨s, e, rfl, he, hs'⟩, rfl⟩
  · dsimp only [Keypair.dh]
    split
    · exact ⟨rfl, ⟨s, e, rfl, he, hs'⟩, rfl⟩
    · exact ⟨rfl, ⟨s, e, rfl, he, hs'⟩, rfl⟩
    · rw [← he.dh]
      split
      · exact ⟨rfl, ⟨s, e, rfl, he, hs'⟩, rfl⟩
      · split
        · exact ⟨rfl, ⟨s, e, rfl, he, hs'⟩, rfl⟩
        · exact ⟨rfl, ⟨s, e, rfl, he, hs'⟩, rfl⟩
        · split
          · exact ⟨rfl, ⟨s, e, rfl, he, hs'⟩, rfl⟩
          · exact ⟨rfl, ⟨s, e, rfl, he, hs'⟩, rfl⟩
          · rw [← he.dh]
            split <;> exact ⟨rfl, ⟨s, e, rfl, he, hs'⟩, rfl⟩

theorem writeB_sim {hs hs' : HandshakeState} (h : SimH P true hs hs') {rnd rnd' : Keypair}
    (hr : AlikePair P rnd rnd') (b : Bytes) :
    Same (SimH P true) (hs.writeMessageB P rnd b) (hs'.writeMessageB P rnd' b) := by
  obtain ⟨s, e, rfl, he, hs'⟩ := h
  have hst := hs' rfl
  unfold HandshakeState.writeMessageB
  split
  · exact ⟨rfl, ⟨s, e, rfl, he, hs'⟩, rfl⟩
  · obtain ⟨e₁, e₂, h₁, h₂, h₃⟩ : ∃ e₁ e₂, (if hs.e.isEmpty then { hs with e := rnd } else hs) = { hs with e := e₁ } ∧
        (if ({ hs with s := s, e := e } : HandshakeState).e.isEmpty then
          ({ hs with s := s, e := rnd' } : HandshakeState) else { hs with s := s, e := e }) = { hs with s := s, e := e₂ } ∧
        AlikePair P e₁ e₂ := by
      dsimp only
      rw [he.isEmpty]
      split
      · exact ⟨rnd, rnd', rfl, rfl, hr⟩
      · exact ⟨hs.e, e, rfl, rfl, he⟩
    dsimp only at h₂ ⊢
    rw [h₁, h₂]
    dsimp only [Keypair.dh]
    rw [← h₃.pub, ← h₃.dh, ← hst.pub]
    split
    · exact ⟨rfl, ⟨s, e₂, rfl, h₃, hs'⟩, rfl⟩
    · split
      · exact ⟨rfl, ⟨s, e₂, rfl, h₃, hs'⟩, rfl⟩
      · exact ⟨rfl, ⟨s, e₂, rfl, h₃, hs'⟩, rfl⟩
      · rw [← hst.dh]
        split <;> exact ⟨rfl, ⟨s, e₂, rfl, h₃, hs'⟩, rfl⟩

theorem count_sim {u : Bool} {s s' : NoiseSession} (h : Sim P u s s') (b : Bytes) :
    Same (Sim P u) (s.count b) (s'.count b) := by
  obtain ⟨hs, rfl, h⟩ := h
  unfold NoiseSession.count
  dsimp only
  split <;> exact ⟨rfl, ⟨hs, rfl, h⟩, rfl⟩

theorem clear_sim (u : Bool) (hs hs' : HandshakeState) (h : SimH P u hs hs') : SimH P u hs.clear hs'.clear := by
  obtain ⟨s, e, rfl, -, -⟩ := h
  exact ⟨Keypair.empty, Keypair.empty, rfl, .refl _, fun _ => .refl _⟩

/-- One call on two sessions that agree but for alike keys.  Static keys that are not alike do no harm unless the call
sends the second message of a handshake. -/
theorem exec_sim {u : Bool} {s s' : NoiseSession} (h : Sim P u s s') {op op' : Op} (hop : AlikeOp P op op')
    (hu : u = true ∨ (s.getMessageCount = 1 → op.isSend = false)) :
    Same (Sim P u) (op.exec P s) (op'.exec P s') := by
  have hsend : ∀ e e' b, AlikeSecret P e e' → (u = true ∨ s.mc ≠ 1) →
      Same (Sim P u) ((Op.send e b).exec P s) ((Op.send e' b).exec P s') := by
    intro e e' b he hu
    obtain ⟨hs, rfl, h⟩ := h
    simp only [Op.exec, NoiseSession.sendMessage]
    split
    · exact ⟨rfl, ⟨hs, rfl, h⟩, rfl⟩
    · split
      · have := writeA_sim h (rnd := Keypair.default P e) (rnd' := Keypair.default P e') he b
        revert this
        generalize s.hs.writeMessageA P (Keypair.default P e) b = x
        generalize hs.writeMessageA P (Keypair.default P e') b = y
        rcases x with ⟨x1, x2, x3⟩
        rcases y with ⟨y1, y2, y3⟩
        rintro ⟨h1, h2, h3⟩
        dsimp only at h1 h2 h3
        subst h1 h3
        rcases y1 with ⟨⟨⟩⟩ | _ | _
        · exact count_sim ⟨y2, rfl, h2⟩ _
        · exact ⟨rfl, ⟨y2, rfl, h2⟩, rfl⟩
        · exact ⟨rfl, ⟨y2, rfl, h2⟩, rfl⟩
      · split
        · rename_i h1
          rcases hu with rfl | hu
          · have := writeB_sim h (rnd := Keypair.default P e) (rnd' := Keypair.default P e') he b
            revert this
            generalize s.hs.writeMessageB P (Keypair.default P e) b = x
            generalize hs.writeMessageB P (Keypair.default P e') b = y
            rcases x with ⟨x1, x2, x3⟩
            rcases y with ⟨y1, y2, y3⟩
            rintro ⟨h1, h2, h3⟩
            dsimp only at h1 h2 h3
            subst h1 h3
            rcases y1 with t | _ | _
            · exact count_sim ⟨y2.clear, rfl, clear_sim _ _ _ h2⟩ _
            · exact ⟨rfl, ⟨y2, rfl, h2⟩, rfl⟩
            · exact ⟨rfl, ⟨y2, rfl, h2⟩, rfl⟩
          · exact absurd h1 hu
        · split
          · split
            · apply count_sim; exact ⟨hs, rfl, h⟩
            · exact ⟨rfl, ⟨hs, rfl, h⟩, rfl⟩
            · exact ⟨rfl, ⟨hs, rfl, h⟩, rfl⟩
          · split
            · apply count_sim; exact ⟨hs, rfl, h⟩
            · exact ⟨rfl, ⟨hs, rfl, h⟩, rfl⟩
            · exact ⟨rfl, ⟨hs, rfl, h⟩, rfl⟩
  have hrecv : ∀ b, Same (Sim P u) ((Op.recv b).exec P s) ((Op.recv b).exec P s') := by
    intro b
    obtain ⟨hs, rfl, h⟩ := h
    simp only [Op.exec, NoiseSession.recvMessage]
    split
    · exact ⟨rfl, ⟨hs, rfl, h⟩, rfl⟩
    · split
      · have := readA_sim h b
        revert this
        generalize s.hs.readMessageA P b = x
        generalize hs.readMessageA P b = y
        rcases x with ⟨x1, x2, x3⟩
        rcases y with ⟨y1, y2, y3⟩
        rintro ⟨h1, h2, h3⟩
        dsimp only at h1 h2 h3
        subst h1 h3
        rcases y1 with ⟨⟨⟩⟩ | _ | _
        · exact count_sim ⟨y2, rfl, h2⟩ _
        · exact ⟨rfl, ⟨y2, rfl, h2⟩, rfl⟩
        · exact ⟨rfl, ⟨y2, rfl, h2⟩, rfl⟩
      · split
        · have := readB_sim h b
          revert this
          generalize s.hs.readMessageB P b = x
          generalize hs.readMessageB P b = y
          rcases x with ⟨x1, x2, x3⟩
          rcases y with ⟨y1, y2, y3⟩
          rintro ⟨h1, h2, h3⟩
          dsimp only at h1 h2 h3
          subst h1 h3
          rcases y1 with t | _ | _
          · exact count_sim ⟨y2.clear, rfl, clear_sim _ _ _ h2⟩ _
          · exact ⟨rfl, ⟨y2, rfl, h2⟩, rfl⟩
          · exact ⟨rfl, ⟨y2, rfl, h2⟩, rfl⟩
        · split
          · split
            · apply count_sim; exact ⟨hs, rfl, h⟩
            · exact ⟨rfl, ⟨hs, rfl, h⟩, rfl⟩
            · exact ⟨rfl, ⟨hs, rfl, h⟩, rfl⟩
          · split
            · apply count_sim; exact ⟨hs, rfl, h⟩
            · exact ⟨rfl, ⟨hs, rfl, h⟩, rfl⟩
            · exact ⟨rfl, ⟨hs, rfl, h⟩, rfl⟩
  have hne : ∀ e b, (u = true ∨ (s.getMessageCount = 1 → (Op.send e b).isSend = false)) → (u = true ∨ s.mc ≠ 1) :=
    fun e b h => h.imp_right fun h h1 => absurd (h h1) (by simp [Op.isSend])
  cases hop with
  | send b he => exact hsend _ _ b he (hne _ b hu)
  | set hk =>
    obtain ⟨hs, rfl, a, b, rfl, h1, h2⟩ := h
    exact ⟨rfl, ⟨_, rfl, a, _, rfl, hk, h2⟩, rfl⟩
  | same =>
    cases op with
    | send e b => exact hsend e e b (.refl _) (hne e b hu)
    | recv b => exact hrecv b
    | setEphemeral k =>
      obtain ⟨hs, rfl, a, b, rfl, h1, h2⟩ := h
      exact ⟨rfl, ⟨_, rfl, a, k, rfl, .refl _, h2⟩, rfl⟩
    | _ =>
      obtain ⟨hs, rfl, h⟩ := h
      exact ⟨rfl, ⟨hs, rfl, h⟩, rfl⟩

theorem trace_sim {u : Bool} {s s' : NoiseSession} (h : Sim P u s s') {ops ops' : List Op}
    (hops : AlikeOps P ops ops')
    (hu : u = true ∨ ∀ pre op post, ops = pre ++ op :: post → (after P s pre).getMessageCount = 1 → op.isSend = false) :
    (trace P s' ops').map (·.2) = (trace P s ops).map (·.2) ∧ Sim P u (after P s ops) (after P s' ops') := by
  induction hops generalizing s s' with
  | nil => exact ⟨rfl, h⟩
  | @cons op op' ops ops' ho _ ih =>
    obtain ⟨h1, h2, h3⟩ := exec_sim h ho (hu.imp_right fun hu => hu [] op ops rfl)
    have := ih h2 (hu.imp_right fun hu pre o post he => hu (op :: pre) o post (by rw [he]; rfl))
    exact ⟨by simp only [trace, List.map_cons, this.1, h1, h3], this.2⟩

/-- What the getters report. -/
def Reported (s : NoiseSession) : Nat × Bool × Option (Arr 32) × Option (Arr 32) :=
  (s.getMessageCount, s.isTransport, s.getHandshakeHash, s.getRemoteStaticPublicKey)

theorem Sim.reported {u : Bool} {s s' : NoiseSession} (h : Sim P u s s') : Reported s' = Reported s := by
  obtain ⟨hs, rfl, a, b, rfl, -, -⟩ := h
  rfl

theorem init_sim (u : Bool) (initiator : Bool) (prologue : Bytes) (kp kp' : Keypair)
    (h : u = true → AlikePair P kp kp') :
    Sim P u (NoiseSession.initSession P initiator prologue kp) (NoiseSession.initSession P initiator prologue kp') :=
  ⟨_, rfl, kp', Keypair.empty, rfl, .refl _, h⟩

theorem alikeOps_refl (ops : List Op) : AlikeOps P ops ops := by
  induction ops with
  | nil => exact .nil
  | cons op ops ih => exact .cons (.same op) ih

theorem trace_fst (s : NoiseSession) (ops : List Op) : (trace P s ops).map (·.1) = ops := by
  induction ops generalizing s with
  | nil => rfl
  | cons op ops ih => simp only [trace, List.map_cons, ih]

theorem eq_of_maps {α β : Type} {l l' : List (α × β)} (h1 : l'.map (·.1) = l.map (·.1)) (h2 : l'.map (·.2) = l.map (·.2)) :
    l' = l := by
  induction l generalizing l' with
  | nil => simpa using h1
  | cons x l ih =>
    cases l' with
    | nil => cases h1
    | cons y l' =>
      simp only [List.map_cons, List.cons.injEq] at h1 h2
      rw [ih h1.2 h2.2, Prod.ext h1.1 h2.1]

theorem Sim.ciphers {u : Bool} {s s' : NoiseSession} (h : Sim P u s s') : s'.cs1 = s.cs1 ∧ s'.cs2 = s.cs2 := by
  obtain ⟨hs, rfl, -⟩ := h
  exact ⟨rfl, rfl⟩

/-- The static key pair of a client is a mere formality: if no call tries to send the second message of the handshake,
which is what the responder does, every call has the same outcome and leaves the same buffer for any two static key
pairs, and so do the getters. -/
theorem C86_client_is_anonymous (initiator : Bool) (prologue : Bytes) (kp kp' : Keypair) (ops : List Op)
    (h : ∀ pre op post, ops = pre ++ op :: post →
      (after P (NoiseSession.initSession P initiator prologue kp) pre).getMessageCount = 1 → op.isSend = false) :
    let s := NoiseSession.initSession P initiator prologue kp
    let s' := NoiseSession.initSession P initiator prologue kp'
    trace P s' ops = trace P s ops ∧ Reported (after P s' ops) = Reported (after P s ops) ∧
    (after P s' ops).cs1 = (after P s ops).cs1 ∧ (after P s' ops).cs2 = (after P s ops).cs2 := by
  obtain ⟨h1, h2⟩ := trace_sim (init_sim false initiator prologue kp kp' (fun h => by cases h)) (alikeOps_refl ops) (.inr h)
  exact ⟨eq_of_maps (by rw [trace_fst, trace_fst]) h1, h2.reported, h2.ciphers⟩

/-- Private keys act only through the public key and the results of Diffie-Hellman exchanges: with a static key pair and
ephemeral keys that are alike in these, drawn or set, every call of every history has the same outcome and the same
buffer. -/
theorem C86_private_keys (initiator : Bool) (prologue : Bytes) (kp kp' : Keypair) (hkp : AlikePair P kp kp')
    (ops ops' : List Op) (hops : AlikeOps P ops ops') :
    let s := NoiseSession.initSession P initiator prologue kp
    let s' := NoiseSession.initSession P initiator prologue kp'
    (trace P s' ops').map (·.2) = (trace P s ops).map (·.2) ∧
    Reported (after P s' ops') = Reported (after P s ops) ∧
    (after P s' ops').cs1 = (after P s ops).cs1 ∧ (after P s' ops').cs2 = (after P s ops).cs2 := by
  obtain ⟨h1, h2⟩ := trace_sim (init_sim true initiator prologue kp kp' (fun _ => hkp)) hops (.inl rfl)
  exact ⟨h1, h2.reported, h2.ciphers⟩

/-- A client as in `C86_client_is_anonymous`, which completes the handshake. -/
example : ∃ ops : List Op,
    (∀ pre op post, ops = pre ++ op :: post →
      (after toyPrims (NoiseSession.initSession toyPrims true [1, 2] (Keypair.default toyPrims (Arr.replicate 32 6)))
        pre).getMessageCount = 1 → op.isSend = false) ∧
    (after toyPrims (NoiseSession.initSession toyPrims true [1, 2] (Keypair.default toyPrims (Arr.replicate 32 6)))
      ops).isTransport = true := by
  obtain ⟨i1, i2, _, _, _, h1, _, _, h4, _, _, h5, _⟩ := C38_handshake toyPrims toy_correct toy_dh
    [1, 2] (Keypair.default toyPrims (Arr.replicate 32 6)) (Arr.replicate 32 3) (Arr.replicate 32 4) (Arr.replicate 32 5)
    (List.replicate 50 8) (List.replicate 100 9) (by decide) (by decide) (by decide) (by decide) _ rfl (toy_keysNonzero _)
  revert h4
  generalize NX.Run.wire2 _ _ = w
  intro h4
  refine ⟨[.send (Arr.replicate 32 3) (List.replicate 50 8), .recv w], ?_, ?_⟩
  · intro pre op post he hc
    rcases pre with _ | ⟨x, _ | ⟨y, pre⟩⟩
    · exact absurd hc (by simp [after, NoiseSession.getMessageCount, NoiseSession.initSession])
    · simp only [List.cons_append, List.nil_append, List.cons.injEq] at he
      rw [← he.2.1]
      rfl
    · have := congrArg List.length he
      simp at this
  · simp only [after, Op.exec, h1, h4]
    exact h5

/-- The key of the side that answers does have an influence. -/
example : let ops := [Op.recv ((toyPrims.publicOf (Arr.replicate 32 7)).toList ++ List.replicate 16 0),
      .send (Arr.replicate 32 8) (List.replicate 96 0)]
    (trace toyPrims (NoiseSession.initSession toyPrims false [] (Keypair.default toyPrims (Arr.replicate 32 5))) ops).map
        (·.2.2) ≠
      (trace toyPrims (NoiseSession.initSession toyPrims false [] (Keypair.default toyPrims (Arr.replicate 32 6))) ops).map
        (·.2.2) := by
  intro ops
  decide +kernel

/-- Alike keys that are not equal: toy keys act through all bytes but the first. -/
example : AlikeSecret toyPrims ⟨1 :: List.replicate 31 5, rfl⟩ ⟨2 :: List.replicate 31 5, rfl⟩ :=
  ⟨rfl, fun _ => rfl, by decide⟩

/-! ## The role -/

theorem exec_role (op : Op) (s : NoiseSession) (j : Bool) (h : s.getMessageCount < 2) :
    op.exec P { s with i := j } = ((op.exec P s).1, { (op.exec P s).2.1 with i := j }, (op.exec P s).2.2) := by
  have hc : ∀ (s : NoiseSession) b, NoiseSession.count { s with i := j } b =
      ((s.count b).1, { (s.count b).2.1 with i := j }, (s.count b).2.2) := by
    intro s b
    unfold NoiseSession.count
    dsimp only
    split <;> rfl
  cases op with
  | send e b =>
    simp only [Op.exec, NoiseSession.sendMessage]
    split
    · rfl
    · split
      · split
        · exact hc { s with hs := _ } _
        · rfl
        · rfl
      · split
        · split
          · exact hc (NoiseSession.enterTransport { s with hs := _ } _) _
          · rfl
          · rfl
        · unfold NoiseSession.getMessageCount at h; omega
  | recv b =>
    simp only [Op.exec, NoiseSession.recvMessage]
    split
    · rfl
    · split
      · split
        · exact hc { s with hs := _ } _
        · rfl
        · rfl
      · split
        · split
          · exact hc (NoiseSession.enterTransport { s with hs := _ } _) _
          · rfl
          · rfl
        · unfold NoiseSession.getMessageCount at h; omega
  | _ => rfl

theorem trace_role (s : NoiseSession) (j : Bool) (ops : List Op)
    (h : ∀ pre op post, ops = pre ++ op :: post → (after P s pre).getMessageCount < 2) :
    trace P { s with i := j } ops = trace P s ops ∧ after P { s with i := j } ops = { after P s ops with i := j } := by
  induction ops generalizing s with
  | nil => exact ⟨rfl, rfl⟩
  | cons op ops ih =>
    have h0 := exec_role (P := P) op s j (h [] op ops rfl)
    have := ih (op.exec P s).2.1 (fun pre o post he => h (op :: pre) o post (by rw [he]; rfl))
    simp only [trace, after, h0, this.1, this.2]
    exact ⟨trivial, trivial⟩

/-- The role chosen in `init_session` plays no part in the handshake: until two messages have been processed, and in the
call that processes the second, initiator and responder do the same, and end with the same two keys. -/
theorem C86_role (initiator initiator' : Bool) (prologue : Bytes) (kp : Keypair) (ops : List Op)
    (h : ∀ pre op post, ops = pre ++ op :: post →
      (after P (NoiseSession.initSession P initiator prologue kp) pre).getMessageCount < 2) :
    let s := NoiseSession.initSession P initiator prologue kp
    let s' := NoiseSession.initSession P initiator' prologue kp
    trace P s' ops = trace P s ops ∧ Reported (after P s' ops) = Reported (after P s ops) ∧
    (after P s' ops).cs1 = (after P s ops).cs1 ∧ (after P s' ops).cs2 = (after P s ops).cs2 := by
  obtain ⟨h1, h2⟩ := trace_role _ initiator' ops h
  refine ⟨h1, ?_⟩
  have h2 : after P (NoiseSession.initSession P initiator' prologue kp) ops = _ := h2
  rw [h2]
  exact ⟨rfl, rfl, rfl⟩

/-! ## X25519 -/

theorem fromLE_eq_leNat (b : Bytes) : fromLE b = leNat b := by
  induction b with
  | nil => rfl
  | cons x b ih => simp only [fromLE, ih, leNat, List.foldr_cons]

/-- With X25519, five of the 256 bits of a private key have no influence: two private keys other than zero with the same
bits 3 to 253 are alike. -/
theorem C86_clamped (k k' : Arr 32) (h0 : leNat k.toList ≠ 0) (h0' : leNat k'.toList ≠ 0)
    (h : ∀ i, 3 ≤ i → i < 254 → (leNat k.toList).testBit i = (leNat k'.toList).testBit i) :
    AlikeSecret Crypto.rfc k k' := by
  have hs : Crypto.X25519.decodeScalar k = Crypto.X25519.decodeScalar k' := by
    unfold Crypto.X25519.decodeScalar
    rw [fromLE_eq_leNat, fromLE_eq_leNat]
    have : leNat k.toList % 2 ^ 254 / 2 ^ 3 = leNat k'.toList % 2 ^ 254 / 2 ^ 3 := by
      apply Nat.eq_of_testBit_eq
      intro i
      rw [Nat.testBit_div_two_pow, Nat.testBit_div_two_pow, Nat.testBit_mod_two_pow, Nat.testBit_mod_two_pow]
      by_cases hi : i + 3 < 254
      · rw [h (i + 3) (by omega) hi]
      · simp [hi]
    rw [show (8 : Nat) = 2 ^ 3 from rfl, this]
  have hz : ∀ x : Arr 32, leNat x.toList ≠ 0 → x ≠ NX.zeros := by
    rintro x hx rfl
    exact hx (by decide)
  exact ⟨by simp only [Crypto.rfc, Crypto.X25519.base, hs], fun q => by simp only [Crypto.rfc, Crypto.X25519.x25519, hs],
    ⟨fun h => absurd h (hz _ h0), fun h => absurd h (hz _ h0')⟩⟩

/-- Two keys as in the theorem: they differ in all five bits. -/
example : ∃ k k' : Arr 32, k ≠ k' ∧ leNat k.toList ≠ 0 ∧ leNat k'.toList ≠ 0 ∧
    ∀ i, 3 ≤ i → i < 254 → (leNat k.toList).testBit i = (leNat k'.toList).testBit i := by
  refine ⟨⟨8 :: (List.replicate 30 1 ++ [1]), rfl⟩, ⟨15 :: (List.replicate 30 1 ++ [193]), rfl⟩, by decide, by decide,
    by decide, ?_⟩
  intro i h1 h2
  exact (by decide +kernel : ∀ i < 254, 3 ≤ i → (leNat (8 :: (List.replicate 30 1 ++ [1]))).testBit i =
    (leNat (15 :: (List.replicate 30 1 ++ [193]))).testBit i) i h2 h1

end SV2.Noise
