import Verif.Spec.Secrecy
import Verif.Lemmas.Noise.Session
import Verif.Props.NoiseTransport
import Mathlib.Logic.Equiv.Basic
import Mathlib.Tactic.Choose
/-!
# Confidentiality: how a move depends on the pads
-/

namespace SV2.Noise

/-! ## Calls of one session -/

namespace NoiseSession

/-- What a send in transport mode does, whatever the primitives. -/
theorem send_uniform (rnd : Keypair) (s : NoiseSession) (n : Nat) (hm : 2 ≤ s.mc) :
    (16 ≤ n ∧ n ≤ 65535 ∧ s.sendCs.n ≠ MAX_NONCE ∧
      ∀ (P : Prims) (b : Bytes), b.length = n → s.sendMessage P rnd b =
        (s.setSend ⟨s.sendCs.k, s.sendCs.n + 1⟩).count (CipherState.sealed P s.sendCs.k s.sendCs.n [] (body b))) ∨
    (∃ e, ∀ (P : Prims) (b : Bytes), b.length = n → s.sendMessage P rnd b = (.err e, s, b)) := by
  by_cases h : n < 16 ∨ 65535 < n
  · exact .inr ⟨_, fun P b hb => send_badLength rnd s b (by rw [hb]; exact h)⟩
  by_cases hn : s.sendCs.n = MAX_NONCE
  · refine .inr ⟨.exhaustedNonceError, fun P b hb => ?_⟩
    rw [send_transport rnd s b (by rw [hb]; exact h) hm, CipherState.write_exhausted _ _ (by omega) hn]
    simp
  by_cases hk : s.sendCs.k = EMPTY
  · refine .inr ⟨.emptyKeyError, fun P b hb => ?_⟩
    rw [send_transport rnd s b (by rw [hb]; exact h) hm, CipherState.write_noKey _ _ (by omega) hn hk]
    simp
  · refine .inl ⟨by omega, by omega, hn, fun P b hb => ?_⟩
    rw [send_transport rnd s b (by rw [hb]; exact h) hm, CipherState.write_ok _ _ (by omega) hn hk]

/-- What a receive in transport mode does, whatever the primitives, as long as they accept the same. -/
theorem recv_uniform (s : NoiseSession) (b : Bytes) (hm : 2 ≤ s.mc) (P Q : Prims)
    (h : ∀ k n ad c m, (P.aeadOpen k n ad c m).isSome = (Q.aeadOpen k n ad c m).isSome) :
    (s.recvMessage P b).1 = (s.recvMessage Q b).1 ∧ (s.recvMessage P b).2.1 = (s.recvMessage Q b).2.1 := by
  by_cases hl : b.length < 16 ∨ 65535 < b.length
  · rw [recv_badLength s b hl, recv_badLength s b hl]; exact ⟨rfl, rfl⟩
  rw [recv_transport s b hl hm, recv_transport s b hl hm, CipherState.read_eq _ _ (by omega),
    CipherState.read_eq _ _ (by omega)]
  by_cases hn : s.recvCs.n = MAX_NONCE
  · simp [CipherState.decrypt_exhausted _ _ _ _ hn]
  by_cases hk : s.recvCs.k = EMPTY
  · simp [CipherState.decrypt_noKey _ _ _ _ hn hk]
  have hh := h s.recvCs.k (prepNonce s.recvCs.n) [] (body b) (CipherState.tagArr b (by omega))
  rcases hp : P.aeadOpen s.recvCs.k (prepNonce s.recvCs.n) [] (body b) (CipherState.tagArr b (by omega)) with _ | p
  · rcases hq : Q.aeadOpen s.recvCs.k (prepNonce s.recvCs.n) [] (body b) (CipherState.tagArr b (by omega)) with _ | q
    · simp [CipherState.decrypt_none _ _ _ _ hn hk hp, CipherState.decrypt_none _ _ _ _ hn hk hq]
    · rw [hp, hq] at hh; simp at hh
  · rcases hq : Q.aeadOpen s.recvCs.k (prepNonce s.recvCs.n) [] (body b) (CipherState.tagArr b (by omega)) with _ | q
    · rw [hp, hq] at hh; simp at hh
    · simp only [CipherState.decrypt_some _ _ _ _ _ hn hk hp, CipherState.decrypt_some _ _ _ _ _ hn hk hq]
      unfold count
      split <;> exact ⟨rfl, rfl⟩

/-- A receive leaves the role and the cipher state for sending. -/
theorem recv_keeps (P : Prims) (s : NoiseSession) (b : Bytes) (hm : 2 ≤ s.mc) :
    (s.recvMessage P b).2.1.i = s.i ∧ (s.recvMessage P b).2.1.sendCs = s.sendCs ∧ s.mc ≤ (s.recvMessage P b).2.1.mc := by
  rcases recv_cases (P := P) s b hm with ⟨hl, p, -, -, -, -, h⟩ | ⟨e, h⟩
  · rw [h]
    rcases count_cases (s.setRecv ⟨s.recvCs.k, s.recvCs.n + 1⟩) (p ++ tag b) with ⟨_, hc⟩ | ⟨_, hc⟩
    · rw [hc]
      refine ⟨by simp, ?_, by simp⟩
      exact setRecv_sendCs s _
    · rw [hc]; exact ⟨by simp, setRecv_sendCs s _, by simp⟩
  · rw [h]; exact ⟨rfl, rfl, Nat.le_refl _⟩

/-- Counting a message leaves all but the counter. -/
theorem count_keeps (s : NoiseSession) (b : Bytes) :
    (s.count b).2.1.i = s.i ∧ (s.count b).2.1.sendCs = s.sendCs ∧ s.mc ≤ (s.count b).2.1.mc ∧ (s.count b).2.2 = b := by
  unfold count
  split
  · exact ⟨rfl, rfl, Nat.le_succ _, rfl⟩
  · exact ⟨rfl, rfl, Nat.le_refl _, rfl⟩

end NoiseSession

/-! ## Masks -/

theorem mask_congr {f g : Nat → UInt8} {m : Bytes} (h : ∀ i, i < m.length → f i = g i) : mask f m = mask g m := by
  apply List.ext_getElem (by simp [mask])
  intro i h1 h2
  simp [mask, h i (by simpa [mask] using h1)]

theorem mask_swap {f g : Nat → UInt8} {m m' : Bytes} (hl : m.length = m'.length)
    (h : ∀ i, i < m.length → g i = f i ^^^ (m.getD i 0 ^^^ m'.getD i 0)) : mask f m = mask g m' := by
  apply List.ext_getElem (by simp [mask, hl])
  intro i h1 h2
  have h1' : i < m.length := by simpa [mask] using h1
  have h2' : i < m'.length := by simpa [mask] using h2
  simp only [mask, List.getElem_mapIdx, h i h1']
  simp only [List.getD, List.getElem?_eq_getElem h1', List.getElem?_eq_getElem h2', Option.getD_some]
  rw [UInt8.xor_comm (f i), UInt8.xor_comm (m[i]) (m'[i]), UInt8.xor_assoc, ← UInt8.xor_assoc (m'[i]), UInt8.xor_self,
    UInt8.zero_xor]

/-- The pads with one row changed. -/
def Pad.flip (k : Arr 32) (n : Arr 12) (d : Nat → UInt8) (pad : Pad) : Pad := fun k' n' i =>
  if k' = k ∧ n' = n then pad k' n' i ^^^ d i.val else pad k' n' i

theorem Pad.flip_flip (k : Arr 32) (n : Arr 12) (d : Nat → UInt8) (pad : Pad) :
    (pad.flip k n d).flip k n d = pad := by
  funext k' n' i
  unfold Pad.flip
  split
  · rw [UInt8.xor_assoc, UInt8.xor_self, UInt8.xor_zero]
  · rfl

theorem Pad.flip_other {k : Arr 32} {n : Arr 12} {d : Nat → UInt8} {pad : Pad} {k' : Arr 32} {n' : Arr 12}
    (h : ¬ (k' = k ∧ n' = n)) : pad.flip k n d k' n' = pad k' n' := by
  funext i; unfold Pad.flip; rw [if_neg h]

theorem Pad.flip_zero (k : Arr 32) (n : Arr 12) (pad : Pad) : pad.flip k n (fun _ => 0) = pad := by
  funext k' n' i
  unfold Pad.flip
  split
  · exact UInt8.xor_zero
  · rfl

section
variable (P : Prims) (tg : Arr 32 → Arr 12 → Bytes → Bytes → Arr 16) (rest : Arr 32 → Arr 12 → Nat → UInt8)

theorem seal_congr {pad pad' : Pad} {k : Arr 32} {n : Arr 12} (h : pad k n = pad' k n) (ad m : Bytes) :
    (P.withPad tg rest pad).aeadSeal k n ad m = (P.withPad tg rest pad').aeadSeal k n ad m := by
  have : mask (pad.byte rest k n) m = mask (pad'.byte rest k n) m := by
    apply mask_congr
    intro i _
    unfold Pad.byte
    rw [h]
  simp only [Prims.withPad, this]

theorem seal_flip (pad : Pad) (k : Arr 32) (n : Arr 12) (ad m m' : Bytes) (hl : m.length = m'.length)
    (hb : m.length ≤ 65519) :
    (P.withPad tg rest pad).aeadSeal k n ad m =
      (P.withPad tg rest (pad.flip k n fun i => m.getD i 0 ^^^ m'.getD i 0)).aeadSeal k n ad m' := by
  have : mask (pad.byte rest k n) m =
      mask ((pad.flip k n fun i => m.getD i 0 ^^^ m'.getD i 0).byte rest k n) m' := by
    apply mask_swap hl
    intro i hi
    have hi' : i < 65519 := by omega
    simp [Pad.byte, Pad.flip, hi']
  simp only [Prims.withPad, this]

theorem open_uniform (pad pad' : Pad) (k : Arr 32) (n : Arr 12) (ad c : Bytes) (m : Arr 16) :
    ((P.withPad tg rest pad).aeadOpen k n ad c m).isSome = ((P.withPad tg rest pad').aeadOpen k n ad c m).isSome := by
  simp only [Prims.withPad]
  split <;> rfl

/-! ## A move -/

/-- The sessions of an initiator and a responder after the handshake. -/
def Duo.Ready (s : Duo) : Prop := s.1.i = true ∧ s.2.i = false ∧ 2 ≤ s.1.mc ∧ 2 ≤ s.2.mc

/-- The rows of the pads that messages may still use. -/
def Duo.Ahead (s : Duo) (k : Arr 32) (n : Arr 12) : Prop :=
  ∃ m : UInt64, n = prepNonce m ∧
    ((k ≠ s.2.cs2.k ∧ s.1.cs1.n.toNat ≤ m.toNat) ∨ (k = s.2.cs2.k ∧ s.2.cs2.n.toNat ≤ m.toNat))

/-- What moves do to the rows ahead. -/
def Duo.Leads (s t : Duo) : Prop :=
  t.Ready ∧ t.2.cs2.k = s.2.cs2.k ∧ s.1.cs1.n.toNat ≤ t.1.cs1.n.toNat ∧ s.2.cs2.n.toNat ≤ t.2.cs2.n.toNat

theorem Duo.Leads.refl {s : Duo} (h : s.Ready) : s.Leads s := ⟨h, rfl, Nat.le_refl _, Nat.le_refl _⟩

theorem Duo.Leads.ahead {s t : Duo} (h : s.Leads t) {k : Arr 32} {n : Arr 12} (ha : t.Ahead k n) : s.Ahead k n := by
  obtain ⟨-, hk, h1, h2⟩ := h
  obtain ⟨m, hn, hm⟩ := ha
  rw [hk] at hm
  exact ⟨m, hn, hm.imp (fun x => ⟨x.1, by omega⟩) (fun x => ⟨x.1, by omega⟩)⟩

theorem not_ahead_rekey (s : Duo) (k : Arr 32) : ¬ s.Ahead k CipherState.rekeyNonce := by
  rintro ⟨m, hn, -⟩
  exact C50_not_rekey m (by rw [← hn]; rfl)


theorem Duo.get_set (s : Duo) (who : Party) (x : NoiseSession) : (s.set who x).get who = x := by
  cases who <;> rfl

/-- Changing one session in a way that keeps its role and its key for sending, and does not turn the counter back. -/
theorem Duo.leads_set {s : Duo} (h : s.Ready) (who : Party) (x : NoiseSession) (hi : x.i = (s.get who).i)
    (hk : x.sendCs.k = (s.get who).sendCs.k) (hn : (s.get who).sendCs.n.toNat ≤ x.sendCs.n.toNat)
    (hm : 2 ≤ x.mc) : s.Leads (s.set who x) := by
  obtain ⟨h1, h2, h3, h4⟩ := h
  cases who
  · simp only [Duo.get, h1] at hi hk hn
    simp only [NoiseSession.sendCs, hi, h1, if_true] at hk hn
    exact ⟨⟨hi, h2, hm, h4⟩, rfl, hn, Nat.le_refl _⟩
  · simp only [Duo.get, h2] at hi hk hn
    simp only [NoiseSession.sendCs, hi, h2, if_false, Bool.false_eq_true] at hk hn
    exact ⟨⟨h1, hi, h3, hm⟩, hk, Nat.le_refl _, hn⟩

/-- The row for the next message of a party. -/
theorem Duo.ahead_send {s : Duo} (h : s.Ready) (hne : s.1.cs1.k ≠ s.2.cs2.k) (who : Party) :
    s.Ahead (s.get who).sendCs.k (prepNonce (s.get who).sendCs.n) := by
  obtain ⟨h1, h2, -, -⟩ := h
  refine ⟨_, rfl, ?_⟩
  cases who
  · simp only [Duo.get, NoiseSession.sendCs, h1, if_true]
    exact .inl ⟨hne, Nat.le_refl _⟩
  · simp only [Duo.get, NoiseSession.sendCs, h2, if_false, Bool.false_eq_true]
    exact .inr ⟨trivial, Nat.le_refl _⟩

/-- It is not ahead any more once the counter has moved on. -/
theorem Duo.not_ahead_send {s : Duo} (h : s.Ready) (hne : s.1.cs1.k ≠ s.2.cs2.k) (who : Party) (x : NoiseSession)
    (hi : x.i = (s.get who).i) (hx : x.sendCs = ⟨(s.get who).sendCs.k, (s.get who).sendCs.n + 1⟩)
    (hn : (s.get who).sendCs.n ≠ MAX_NONCE) :
    ¬ (s.set who x).Ahead (s.get who).sendCs.k (prepNonce (s.get who).sendCs.n) := by
  obtain ⟨h1, h2, -, -⟩ := h
  rintro ⟨m, hm, ha⟩
  have hm := C50_injective _ _ hm
  subst hm
  have hs := toNat_succ hn
  cases who
  · simp only [Duo.get, h1] at hi hx hn hs ha
    simp only [NoiseSession.sendCs, hi, h1, if_true, Duo.set] at hx hn ha hs
    rw [hx] at ha
    rcases ha with ⟨_, ha⟩ | ⟨hk, _⟩
    · dsimp only at ha; omega
    · exact hne hk
  · simp only [Duo.get, h2] at hi hx hn hs ha
    simp only [NoiseSession.sendCs, hi, h2, if_false, Bool.false_eq_true, Duo.set] at hx hn ha hs
    rw [hx] at ha
    rcases ha with ⟨hk, _⟩ | ⟨_, ha⟩
    · exact hk rfl
    · dsimp only at ha; omega

theorem Duo.ready_mc {s : Duo} (h : s.Ready) (who : Party) : 2 ≤ (s.get who).mc := by
  cases who
  · exact h.2.2.1
  · exact h.2.2.2

/-- What a send shows, from what the call returns. -/
def Duo.sent (s : Duo) (who : Party) : NResult Unit × NoiseSession × Bytes → NResult Unit × Bytes × Duo
  | (.ok (), x, wire) => (.ok (), wire, s.set who x)
  | (outcome, x, _) => (outcome, [], s.set who x)

theorem Duo.sent_state (s : Duo) (who : Party) (r : NResult Unit × NoiseSession × Bytes) :
    (s.sent who r).2.2 = s.set who r.2.1 := by
  obtain ⟨o, x, w⟩ := r
  cases o <;> rfl

theorem Duo.act_send (P : Prims) (second : Bool) (s : Duo) (who : Party) (m0 m1 : Bytes) (h : m0.length = m1.length) :
    s.act P second (.send who m0 m1) =
      s.sent who ((s.get who).sendMessage P Keypair.empty (if second then m1 else m0)) := by
  simp only [Duo.act, if_pos h]
  rfl

theorem rekey_n (Q : Prims) (cs : CipherState) : (cs.rekey Q).n = cs.n := by
  unfold CipherState.rekey
  rfl

theorem rekey_congr {pad pad' : Pad} (cs : CipherState)
    (h : pad cs.k CipherState.rekeyNonce = pad' cs.k CipherState.rekeyNonce) :
    cs.rekey (P.withPad tg rest pad) = cs.rekey (P.withPad tg rest pad') := by
  unfold CipherState.rekey
  simp only [seal_congr P tg rest h]

theorem Duo.rekey_step {s : Duo} (hs : s.Ready) (who : Party) (mv : Move)
    (hmv : ∀ (Q : Prims) second, s.act Q second mv =
      (.ok (), [], s.set who { s.get who with cs1 := (s.get who).cs1.rekey Q })) :
    ∃ (k : Arr 32) (n : Arr 12) (d : Nat → UInt8),
      (∀ second (pad pad' : Pad), pad k n = pad' k n →
        s.act (P.withPad tg rest pad) second mv = s.act (P.withPad tg rest pad') second mv) ∧
      (∀ second (pad : Pad), s.Leads (s.act (P.withPad tg rest pad) second mv).2.2 ∧
        ¬ (s.act (P.withPad tg rest pad) second mv).2.2.Ahead k n) ∧
      (∀ pad : Pad, s.act (P.withPad tg rest pad) false mv =
        s.act (P.withPad tg rest (pad.flip k n d)) true mv) ∧
      ((d = fun _ => 0) ∧ n = CipherState.rekeyNonce ∨ s.Ahead k n) := by
  refine ⟨(s.get who).cs1.k, CipherState.rekeyNonce, fun _ => 0, ?_, ?_, ?_, .inl ⟨rfl, rfl⟩⟩
  · intro second pad pad' h
    rw [hmv, hmv, rekey_congr P tg rest _ h]
  · intro second pad
    refine ⟨?_, not_ahead_rekey _ _⟩
    rw [hmv]
    obtain ⟨h1, h2, h3, h4⟩ := hs
    have hn : ((s.get who).cs1.rekey (P.withPad tg rest pad)).n = (s.get who).cs1.n := rekey_n _ _
    generalize (s.get who).cs1.rekey (P.withPad tg rest pad) = c at hn ⊢
    cases who
    · refine ⟨⟨h1, h2, h3, h4⟩, rfl, ?_, Nat.le_refl _⟩
      show _ ≤ c.n.toNat
      rw [hn]; exact Nat.le_refl _
    · exact ⟨⟨h1, h2, h3, h4⟩, rfl, Nat.le_refl _, Nat.le_refl _⟩
  · intro pad
    rw [Pad.flip_zero, hmv, hmv]

/-- The row of the pads that a move uses, and the difference that exchanges the two messages. -/
theorem Duo.step {s : Duo} (hs : s.Ready) (hne : s.1.cs1.k ≠ s.2.cs2.k) (mv : Move) :
    ∃ (k : Arr 32) (n : Arr 12) (d : Nat → UInt8),
      (∀ second (pad pad' : Pad), pad k n = pad' k n →
        s.act (P.withPad tg rest pad) second mv = s.act (P.withPad tg rest pad') second mv) ∧
      (∀ second (pad : Pad), s.Leads (s.act (P.withPad tg rest pad) second mv).2.2 ∧
        ¬ (s.act (P.withPad tg rest pad) second mv).2.2.Ahead k n) ∧
      (∀ pad : Pad, s.act (P.withPad tg rest pad) false mv =
        s.act (P.withPad tg rest (pad.flip k n d)) true mv) ∧
      ((d = fun _ => 0) ∧ n = CipherState.rekeyNonce ∨ s.Ahead k n) := by
  cases mv with
  | send who m0 m1 =>
    by_cases hl : m0.length = m1.length
    · have hmc := Duo.ready_mc hs who
      have hbl : ∀ second : Bool, (if second then m1 else m0).length = m0.length := by
        intro b; cases b
        · rfl
        · exact hl.symm
      rcases NoiseSession.send_uniform Keypair.empty (s.get who) m0.length hmc with ⟨h1, h2, h3, h4⟩ | ⟨e, h4⟩
      · refine ⟨(s.get who).sendCs.k, prepNonce (s.get who).sendCs.n,
          fun i => (body m0).getD i 0 ^^^ (body m1).getD i 0, ?_, ?_, ?_, .inr (Duo.ahead_send hs hne who)⟩
        · intro second pad pad' hp
          rw [Duo.act_send _ _ _ _ _ _ hl, Duo.act_send _ _ _ _ _ _ hl, h4 _ _ (hbl second), h4 _ _ (hbl second)]
          unfold CipherState.sealed
          rw [seal_congr P tg rest hp]
        · intro second pad
          rw [Duo.act_send _ _ _ _ _ _ hl, Duo.sent_state, h4 _ _ (hbl second)]
          obtain ⟨c1, c2, c3, -⟩ := NoiseSession.count_keeps
            ((s.get who).setSend ⟨(s.get who).sendCs.k, (s.get who).sendCs.n + 1⟩)
            (CipherState.sealed (P.withPad tg rest pad) (s.get who).sendCs.k (s.get who).sendCs.n []
              (body (if second then m1 else m0)))
          rw [NoiseSession.setSend_i] at c1
          rw [NoiseSession.setSend_sendCs] at c2
          rw [NoiseSession.setSend_mc] at c3
          refine ⟨Duo.leads_set hs who _ c1 (by rw [c2]) ?_ (by omega), Duo.not_ahead_send hs hne who _ c1 c2 h3⟩
          rw [c2]
          show _ ≤ ((s.get who).sendCs.n + 1).toNat
          rw [toNat_succ h3]
          omega
        · intro pad
          rw [Duo.act_send _ _ _ _ _ _ hl, Duo.act_send _ _ _ _ _ _ hl, h4 _ _ (hbl false), h4 _ _ (hbl true)]
          unfold CipherState.sealed
          have hb : (body m0).length = (body m1).length := by simp [body, hl]
          have hb' : (body m0).length ≤ 65519 := by simp [body]; omega
          rw [show (if false = true then m1 else m0) = m0 from rfl, show (if true = true then m1 else m0) = m1 from rfl,
            seal_flip P tg rest pad _ _ _ _ _ hb hb']
      · refine ⟨EMPTY, CipherState.rekeyNonce, fun _ => 0, ?_, ?_, ?_, .inl ⟨rfl, rfl⟩⟩
        · intro second pad pad' _
          rw [Duo.act_send _ _ _ _ _ _ hl, Duo.act_send _ _ _ _ _ _ hl, h4 _ _ (hbl second), h4 _ _ (hbl second)]
        · intro second pad
          rw [Duo.act_send _ _ _ _ _ _ hl, Duo.sent_state, h4 _ _ (hbl second)]
          exact ⟨Duo.leads_set hs who _ rfl rfl (Nat.le_refl _) hmc, not_ahead_rekey _ _⟩
        · intro pad
          rw [Duo.act_send _ _ _ _ _ _ hl, Duo.act_send _ _ _ _ _ _ hl, h4 _ _ (hbl false), h4 _ _ (hbl true)]
          rfl
    · refine ⟨EMPTY, CipherState.rekeyNonce, fun _ => 0, ?_, ?_, ?_, .inl ⟨rfl, rfl⟩⟩
      · intro second pad pad' _
        simp only [Duo.act, if_neg hl]
      · intro second pad
        simp only [Duo.act, if_neg hl]
        exact ⟨Duo.Leads.refl hs, not_ahead_rekey _ _⟩
      · intro pad
        simp only [Duo.act, if_neg hl]
  | deliver who bytes =>
    have hmc := Duo.ready_mc hs who
    have hu : ∀ b b' (pad pad' : Pad), s.act (P.withPad tg rest pad) b (.deliver who bytes) =
        s.act (P.withPad tg rest pad') b' (.deliver who bytes) := by
      intro b b' pad pad'
      obtain ⟨u1, u2⟩ := NoiseSession.recv_uniform (s.get who) bytes hmc _ _ (open_uniform P tg rest pad pad')
      simp only [Duo.act, u1, u2]
    refine ⟨EMPTY, CipherState.rekeyNonce, fun _ => 0, fun _ _ _ _ => hu _ _ _ _, ?_, fun _ => hu _ _ _ _,
      .inl ⟨rfl, rfl⟩⟩
    intro second pad
    obtain ⟨c1, c2, c3⟩ := NoiseSession.recv_keeps (P.withPad tg rest pad) (s.get who) bytes hmc
    exact ⟨Duo.leads_set hs who _ c1 (by rw [c2]) (by rw [c2]; exact Nat.le_refl _) (by omega), not_ahead_rekey _ _⟩
  | rekeyLocal who => exact Duo.rekey_step P tg rest hs who (.rekeyLocal who) (fun _ _ => rfl)
  | rekeyRemote who => exact Duo.rekey_step P tg rest hs who (.rekeyRemote who) (fun _ _ => rfl)

/-! ## The game -/

theorem Duo.play_congr (second : Bool) (attacker : Attacker) (rounds : Nat) : ∀ (s : Duo) (seen : List Seen) (pad pad' : Pad),
    s.Ready → (∀ k n, s.Ahead k n ∨ n = CipherState.rekeyNonce → pad k n = pad' k n) →
    s.play (P.withPad tg rest pad) second attacker rounds seen =
      s.play (P.withPad tg rest pad') second attacker rounds seen := by
  induction rounds with
  | zero => intros; rfl
  | succ N ih =>
    intro s seen pad pad' hs h
    unfold Duo.play
    by_cases hne : s.1.cs1.k = s.2.cs2.k
    · rw [if_pos hne, if_pos hne]
    · rw [if_neg hne, if_neg hne]
      obtain ⟨k, n, d, h1, h2, -, h4⟩ := Duo.step P tg rest hs hne (attacker seen)
      have e := h1 second pad pad' (h k n (h4.elim (fun x => .inr x.2) .inl))
      obtain ⟨h2, -⟩ := h2 second pad
      simp only [← e]
      exact ih _ _ _ _ h2.1 fun k n hx => h k n (hx.imp h2.ahead id)

/-- The exchange of the pads that exchanges the two worlds. -/
theorem Duo.play_swap (attacker : Attacker) (rounds : Nat) : ∀ (s : Duo) (seen : List Seen), s.Ready →
    ∃ e : Pad ≃ Pad,
      (∀ pad, s.play (P.withPad tg rest pad) false attacker rounds seen =
        s.play (P.withPad tg rest (e pad)) true attacker rounds seen) ∧
      (∀ pad k n, ¬ s.Ahead k n → e pad k n = pad k n) := by
  induction rounds with
  | zero => intro s seen _; exact ⟨Equiv.refl _, fun _ => rfl, fun _ _ _ _ => rfl⟩
  | succ N ih =>
    intro s seen hs
    by_cases hne : s.1.cs1.k = s.2.cs2.k
    · refine ⟨Equiv.refl _, fun pad => ?_, fun _ _ _ _ => rfl⟩
      unfold Duo.play
      rw [if_pos hne, if_pos hne]
    obtain ⟨k, n, d, h1, h2, h3, h4⟩ := Duo.step P tg rest hs hne (attacker seen)
    -- what the first move shows, and the exchange for the moves after it
    let o : Pad → NResult Unit × Bytes × Duo := fun pad => s.act (P.withPad tg rest pad) false (attacker seen)
    have ih' : ∀ x : NResult Unit × Bytes × Duo, ∃ e : Pad ≃ Pad, x.2.2.Ready →
        (∀ pad, x.2.2.play (P.withPad tg rest pad) false attacker N (seen ++ [⟨x.1, x.2.1, x.2.2.1, x.2.2.2⟩]) =
          x.2.2.play (P.withPad tg rest (e pad)) true attacker N (seen ++ [⟨x.1, x.2.1, x.2.2.1, x.2.2.2⟩])) ∧
        (∀ pad k n, ¬ x.2.2.Ahead k n → e pad k n = pad k n) := by
      intro x
      by_cases hx : x.2.2.Ready
      · obtain ⟨e, he⟩ := ih x.2.2 (seen ++ [⟨x.1, x.2.1, x.2.2.1, x.2.2.2⟩]) hx
        exact ⟨e, fun _ => he⟩
      · exact ⟨Equiv.refl _, fun h => absurd h hx⟩
    choose E hE using ih'
    have ho : ∀ pad, o (E (o pad) pad) = o pad := by
      intro pad
      obtain ⟨l, na⟩ := h2 false pad
      exact h1 false _ _ ((hE (o pad) l.1).2 pad k n na)
    have ho' : ∀ pad, o ((E (o pad)).symm pad) = o pad := by
      intro pad
      obtain ⟨l, na⟩ := h2 false pad
      refine h1 false _ _ ?_
      have := (hE (o pad) l.1).2 ((E (o pad)).symm pad) k n na
      rw [Equiv.apply_symm_apply] at this
      exact this.symm
    refine ⟨⟨fun pad => (E (o pad) pad).flip k n d, fun pad => (E (o (pad.flip k n d))).symm (pad.flip k n d), ?_, ?_⟩,
      ?_, ?_⟩
    · intro pad
      simp only [Pad.flip_flip, ho, Equiv.symm_apply_apply]
    · intro pad
      simp only [ho', Equiv.apply_symm_apply, Pad.flip_flip]
    · intro pad
      obtain ⟨l, na⟩ := h2 false pad
      have e1 : s.act (P.withPad tg rest ((E (o pad) pad).flip k n d)) true (attacker seen) = o pad :=
        (h3 _).symm.trans (ho pad)
      show s.play _ false attacker (N + 1) seen =
        s.play (P.withPad tg rest ((E (o pad) pad).flip k n d)) true attacker (N + 1) seen
      unfold Duo.play
      rw [if_neg hne, if_neg hne]
      simp only [e1]
      rw [(hE (o pad) l.1).1 pad]
      apply Duo.play_congr _ _ _ _ _ _ _ _ _ _ l.1
      intro k' n' hx
      rcases h4 with ⟨hd, -⟩ | h4
      · rw [hd, Pad.flip_zero]
      · refine (Pad.flip_other ?_).symm
        rintro ⟨rfl, rfl⟩
        rcases hx with hx | rfl
        · exact na hx
        · exact not_ahead_rekey _ _ h4
    · intro pad k' n' hx
      obtain ⟨l, na⟩ := h2 false pad
      show (E (o pad) pad).flip k n d k' n' = _
      have e2 : E (o pad) pad k' n' = pad k' n' := (hE (o pad) l.1).2 pad k' n' fun h => hx (l.ahead h)
      rw [← e2]
      rcases h4 with ⟨hd, -⟩ | h4
      · rw [hd, Pad.flip_zero]
      · refine Pad.flip_other ?_
        rintro ⟨rfl, rfl⟩
        exact hx h4

end
end SV2.Noise
