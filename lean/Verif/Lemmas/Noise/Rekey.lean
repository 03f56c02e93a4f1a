import Verif.Lemmas.Noise.Network
import Verif.Spec.Rekey
/-!
# Two sessions that rekey: an invariant of every execution
-/

namespace SV2.Noise
variable {P : Prims}

/-- The direction whose key changes: besides cipher states and logs, how often each side has rekeyed, and the logs of
that. -/
structure EDir (P : Prims) (key : Arr 32) (n0 : Nat) (snd rcv : CipherState) (sent : List (Bytes × Bytes))
    (got : List (Bytes × NResult Unit × Bytes)) (a b : Nat) (sentAt gotAt : List Nat) : Prop where
  sk : snd.k = epochKey P key a
  sn : snd.n.toNat = n0 + sent.length
  sentLength : sentAt.length = sent.length
  sentLe : ∀ e ∈ sentAt, e ≤ a
  wires : ∀ j p w, sent[j]? = some (p, w) → ∃ e, sentAt[j]? = some e ∧ w = NX.enc P (epochKey P key e) (n0 + j) [] p ∧
    w.length ≤ 65535 ∧ epochKey P key e ≠ EMPTY
  rk : rcv.k = epochKey P key b
  rn : rcv.n.toNat = n0 + (accepted got).length
  gotLength : gotAt.length = (accepted got).length
  gotLe : ∀ e ∈ gotAt, e ≤ b
  opened : ∀ j w, (acceptedWires got)[j]? = some w → ∃ (c : Bytes) (mac : Arr 16) (p : Bytes) (e : Nat),
    w = c ++ mac.toList ∧ gotAt[j]? = some e ∧ P.aeadOpen (epochKey P key e) (NX.nonce (n0 + j)) [] c mac = some p ∧
    (accepted got)[j]? = some p

namespace EDir
variable {key : Arr 32} {n0 : Nat} {snd rcv : CipherState} {sent : List (Bytes × Bytes)}
  {got : List (Bytes × NResult Unit × Bytes)} {a b : Nat} {sentAt gotAt : List Nat}

theorem send (d : EDir P key n0 snd rcv sent got a b sentAt gotAt) (m : Bytes) (hl : m.length ≤ 65535)
    (_h16 : 16 ≤ m.length) (hn : snd.n ≠ MAX_NONCE) (hk : snd.k ≠ EMPTY) :
    EDir P key n0 ⟨snd.k, snd.n + 1⟩ rcv
      (sent ++ [(plain m, CipherState.sealed P snd.k snd.n [] (body m))]) got a b (sentAt ++ [a]) gotAt where
  sk := d.sk
  sn := by simp only [toNat_succ hn, d.sn, List.length_append, List.length_cons, List.length_nil]; omega
  sentLength := by simp [d.sentLength]
  sentLe := by
    intro e he
    rcases List.mem_append.mp he with he | he
    · exact d.sentLe e he
    · rw [List.mem_singleton.mp he]; exact Nat.le_refl _
  wires := by
    intro j p w h
    rcases getElem?_snoc h with h' | ⟨rfl, h'⟩
    · obtain ⟨e, h1, h2⟩ := d.wires j p w h'
      exact ⟨e, by rw [List.getElem?_append_left (List.getElem?_eq_some_iff.mp h1).1]; exact h1, h2⟩
    · cases h'
      refine ⟨a, ?_, ?_⟩
      · rw [← d.sentLength]; simp
      rw [sealed_eq, d.sk, d.sn]
      refine ⟨rfl, ?_, by rw [← d.sk]; exact hk⟩
      rw [enc_length]
      simp [body]; omega
  rk := d.rk
  rn := d.rn
  gotLength := d.gotLength
  gotLe := d.gotLe
  opened := d.opened

theorem recv (d : EDir P key n0 snd rcv sent got a b sentAt gotAt) (m p : Bytes) (hl : 16 ≤ m.length)
    (hn : rcv.n ≠ MAX_NONCE)
    (ho : P.aeadOpen rcv.k (prepNonce rcv.n) [] (body m) (CipherState.tagArr m hl) = some p) :
    EDir P key n0 snd ⟨rcv.k, rcv.n + 1⟩ sent (got ++ [(m, .ok (), p ++ tag m)]) a b sentAt (gotAt ++ [b]) where
  sk := d.sk
  sn := d.sn
  sentLength := d.sentLength
  sentLe := d.sentLe
  wires := d.wires
  rk := d.rk
  rn := by
    simp only [toNat_succ hn, d.rn, (accepted_snoc_ok got m (p ++ tag m)).1, List.length_append, List.length_cons,
      List.length_nil]; omega
  gotLength := by
    simp only [(accepted_snoc_ok got m (p ++ tag m)).1, List.length_append, List.length_cons, List.length_nil,
      d.gotLength]
  gotLe := by
    intro e he
    rcases List.mem_append.mp he with he | he
    · exact d.gotLe e he
    · rw [List.mem_singleton.mp he]; exact Nat.le_refl _
  opened := by
    intro j w h
    rw [(accepted_snoc_ok got m (p ++ tag m)).2] at h
    rw [(accepted_snoc_ok got m (p ++ tag m)).1, plain_append (tag_length hl)]
    rcases getElem?_snoc h with h | ⟨rfl, rfl⟩
    · obtain ⟨c, mac, q, e, h1, h0, h2, h3⟩ := d.opened j w h
      refine ⟨c, mac, q, e, h1, ?_, h2, ?_⟩
      · rw [List.getElem?_append_left (List.getElem?_eq_some_iff.mp h0).1]
        exact h0
      · rw [List.getElem?_append_left (List.getElem?_eq_some_iff.mp h3).1]
        exact h3
    · refine ⟨body m, CipherState.tagArr m hl, p, b, (body_tag m).symm, ?_, ?_, ?_⟩
      · rw [accepted_length, ← d.gotLength]; simp
      · rw [d.rk, prepNonce_eq, d.rn] at ho
        rw [accepted_length]
        exact ho
      · rw [accepted_length]
        simp

theorem reject (d : EDir P key n0 snd rcv sent got a b sentAt gotAt) (w out : Bytes) (e : NoiseError) :
    EDir P key n0 snd rcv sent (got ++ [(w, .err e, out)]) a b sentAt gotAt where
  sk := d.sk
  sn := d.sn
  sentLength := d.sentLength
  sentLe := d.sentLe
  wires := d.wires
  rk := d.rk
  rn := by rw [(accepted_snoc_err got w out e).1]; exact d.rn
  gotLength := by rw [(accepted_snoc_err got w out e).1]; exact d.gotLength
  gotLe := d.gotLe
  opened := by rw [(accepted_snoc_err got w out e).1, (accepted_snoc_err got w out e).2]; exact d.opened

theorem rekeySnd (d : EDir P key n0 snd rcv sent got a b sentAt gotAt) :
    EDir P key n0 (snd.rekey P) rcv sent got (a + 1) b sentAt gotAt where
  sk := by
    apply arr_ext
    show (P.aeadSeal snd.k _ _ _).1 = (P.aeadSeal (epochKey P key a) _ _ _).1
    rw [d.sk]
    rfl
  sn := d.sn
  sentLength := d.sentLength
  sentLe := fun e he => Nat.le_succ_of_le (d.sentLe e he)
  wires := d.wires
  rk := d.rk
  rn := d.rn
  gotLength := d.gotLength
  gotLe := d.gotLe
  opened := d.opened

theorem rekeyRcv (d : EDir P key n0 snd rcv sent got a b sentAt gotAt) :
    EDir P key n0 snd (rcv.rekey P) sent got a (b + 1) sentAt gotAt where
  sk := d.sk
  sn := d.sn
  sentLength := d.sentLength
  sentLe := d.sentLe
  wires := d.wires
  rk := by
    apply arr_ext
    show (P.aeadSeal rcv.k _ _ _).1 = (P.aeadSeal (epochKey P key b) _ _ _).1
    rw [d.rk]
    rfl
  rn := d.rn
  gotLength := d.gotLength
  gotLe := fun e he => Nat.le_succ_of_le (d.gotLe e he)
  opened := d.opened

end EDir

theorem rekeyed_eq (s : NoiseSession) (remote : Bool) : s.rekeyed P remote = { s with cs1 := s.cs1.rekey P } := by
  cases remote <;> rfl

/-- The invariant. -/
structure RInv (P : Prims) (keys : Arr 32 × Arr 32) (n1 n2 : Nat) (n : RNet) : Prop where
  roles : n.net.i.i = true ∧ n.net.r.i = false
  countI : n.net.i.mc = 2 + n1 + n.net.sentI.length + n2 + (accepted n.net.gotI).length
  countR : n.net.r.mc = 2 + n1 + (accepted n.net.gotR).length + n2 + n.net.sentR.length
  toR : EDir P keys.1 n1 n.net.i.cs1 n.net.r.cs1 n.net.sentI n.net.gotR n.rekeysI n.rekeysR n.sentAt n.gotAt
  toI : Dir P keys.2 n2 n.net.r.cs2 n.net.i.cs2 n.net.sentR n.net.gotI

theorem RInv.start {i r : NoiseSession} {keys : Arr 32 × Arr 32} {n1 n2 : UInt64} (h : InSync i r keys n1 n2) :
    RInv P keys n1.toNat n2.toNat { net := { i := i, r := r } } where
  roles := h.roles
  countI := by simp [h.count.1, accepted]
  countR := by simp [h.count.2, accepted]
  toR := by
    refine ⟨?_, ?_, ?_, ?_, ?_, ?_, ?_, ?_, ?_, ?_⟩ <;>
      simp [h.initiator, h.responder, accepted, acceptedWires, epochKey]
  toI := by
    refine ⟨?_, ?_, ?_, ?_, ?_, ?_, ?_⟩ <;> simp [h.initiator, h.responder, accepted, acceptedWires]

theorem RInv.bounds {keys : Arr 32 × Arr 32} {n1 n2 : Nat} {n : RNet} (h : RInv P keys n1 n2 n) :
    2 ≤ n.net.i.mc ∧ n.net.i.mc + 1 < 2 ^ 128 ∧ 2 ≤ n.net.r.mc ∧ n.net.r.mc + 1 < 2 ^ 128 := by
  have b1 := n.net.i.cs1.n.toNat_lt
  have b2 := n.net.i.cs2.n.toNat_lt
  have b3 := n.net.r.cs1.n.toNat_lt
  have b4 := n.net.r.cs2.n.toNat_lt
  have e1 := h.toR.sn
  have e2 := h.toR.rn
  have e3 := h.toI.sn
  have e4 := h.toI.rn
  have hmi := h.countI
  have hmr := h.countR
  omega

theorem RInv.cs {keys : Arr 32 × Arr 32} {n1 n2 : Nat} {n : RNet} (h : RInv P keys n1 n2 n) :
    n.net.i.sendCs = n.net.i.cs1 ∧ n.net.i.recvCs = n.net.i.cs2 ∧ n.net.r.sendCs = n.net.r.cs2 ∧
      n.net.r.recvCs = n.net.r.cs1 := by
  simp [NoiseSession.sendCs, NoiseSession.recvCs, h.roles.1, h.roles.2]

theorem RInv.step {keys : Arr 32 × Arr 32} {n1 n2 : Nat} {n : RNet} (h : RInv P keys n1 n2 n) (act : RAct) :
    RInv P keys n1 n2 (n.step P act) := by
  obtain ⟨b1, b2, b3, b4⟩ := h.bounds
  obtain ⟨hsI, hrI, hsR, hrR⟩ := h.cs
  have hmi := h.countI
  have hmr := h.countR
  cases act with
  | rekeyI remote =>
    simp only [RNet.step, rekeyed_eq]
    exact ⟨h.roles, h.countI, h.countR, h.toR.rekeySnd, h.toI⟩
  | rekeyR remote =>
    simp only [RNet.step, rekeyed_eq]
    exact ⟨h.roles, h.countI, h.countR, h.toR.rekeyRcv, h.toI⟩
  | net act =>
  cases act with
  | iSend secret buf =>
    rcases NoiseSession.send_cases (P := P) (Keypair.default P secret) n.net.i buf (by omega) with
      ⟨h16, hl, hn, hk, hr⟩ | ⟨e, hr⟩
    · rw [hsI] at hn hk hr
      rw [NoiseSession.count_ok _ _ (by simp; omega)] at hr
      simp only [RNet.step, Net.step, hr, Out.isOk, if_true]
      rw [setSend_true h.roles.1]
      simp only [List.length_append, List.length_cons, List.length_nil, Nat.add_sub_cancel_left, Nat.sub_self,
        List.replicate_zero, List.append_nil, Nat.zero_add, List.replicate_one]
      refine ⟨h.roles, ?_, h.countR, h.toR.send buf hl h16 hn hk, h.toI⟩
      simp only [List.length_append, List.length_cons, List.length_nil]
      omega
    · simp only [RNet.step, Net.step, hr, Out.isOk]
      simp only [Nat.sub_self, List.replicate_zero, List.append_nil, if_neg Bool.false_ne_true]
      exact h
  | rSend secret buf =>
    rcases NoiseSession.send_cases (P := P) (Keypair.default P secret) n.net.r buf (by omega) with
      ⟨h16, hl, hn, hk, hr⟩ | ⟨e, hr⟩
    · rw [hsR] at hn hk hr
      rw [NoiseSession.count_ok _ _ (by simp; omega)] at hr
      simp only [RNet.step, Net.step, hr, Out.isOk, if_true]
      rw [setSend_false h.roles.2]
      simp only [Nat.sub_self, List.replicate_zero, List.append_nil]
      refine ⟨h.roles, h.countI, ?_, h.toR, h.toI.send buf hl h16 hn hk⟩
      simp only [List.length_append, List.length_cons, List.length_nil]
      omega
    · simp only [RNet.step, Net.step, hr, Out.isOk]
      simp only [Nat.sub_self, List.replicate_zero, List.append_nil]
      exact h
  | toR wire =>
    rcases NoiseSession.recv_cases (P := P) n.net.r wire (by omega) with
      ⟨h16, p, hl, hn, hk, ho, hr⟩ | ⟨e, hr⟩
    · rw [hrR] at hn hk ho hr
      rw [NoiseSession.count_ok _ _ (by simp; omega)] at hr
      simp only [RNet.step, Net.step, hr]
      rw [setRecv_false h.roles.2]
      simp only [(accepted_snoc_ok _ _ _).1, List.length_append, List.length_cons, List.length_nil,
        Nat.add_sub_cancel_left, Nat.sub_self, List.replicate_zero, List.append_nil, Nat.zero_add, List.replicate_one]
      refine ⟨h.roles, h.countI, ?_, h.toR.recv wire p h16 hn ho, h.toI⟩
      simp only [(accepted_snoc_ok _ _ _).1, List.length_append, List.length_cons, List.length_nil]
      omega
    · simp only [RNet.step, Net.step, hr]
      simp only [(accepted_snoc_err _ _ _ _).1, Nat.sub_self, List.replicate_zero, List.append_nil]
      refine ⟨h.roles, h.countI, ?_, h.toR.reject _ _ _, h.toI⟩
      simp only [(accepted_snoc_err _ _ _ _).1]
      exact h.countR
  | toI wire =>
    rcases NoiseSession.recv_cases (P := P) n.net.i wire (by omega) with
      ⟨h16, p, hl, hn, hk, ho, hr⟩ | ⟨e, hr⟩
    · rw [hrI] at hn hk ho hr
      rw [NoiseSession.count_ok _ _ (by simp; omega)] at hr
      simp only [RNet.step, Net.step, hr]
      rw [setRecv_true h.roles.1]
      simp only [Nat.sub_self, List.replicate_zero, List.append_nil]
      refine ⟨h.roles, ?_, h.countR, h.toR, h.toI.recv wire p h16 hn ho⟩
      simp only [(accepted_snoc_ok _ _ _).1, List.length_append, List.length_cons, List.length_nil]
      omega
    · simp only [RNet.step, Net.step, hr]
      simp only [Nat.sub_self, List.replicate_zero, List.append_nil]
      refine ⟨h.roles, ?_, h.countR, h.toR, h.toI.reject _ _ _⟩
      simp only [(accepted_snoc_err _ _ _ _).1]
      exact h.countI

theorem RInv.run {keys : Arr 32 × Arr 32} {n1 n2 : Nat} {n : RNet} (h : RInv P keys n1 n2 n) (acts : List RAct) :
    RInv P keys n1 n2 (n.run P acts) := by
  induction acts generalizing n with
  | nil => exact h
  | cons act acts ih => exact ih (h.step act)

/-! ### What is accepted -/

/-- The next message, under the right key, is accepted. -/
theorem NoiseSession.recv_enc (hA : AeadCorrect P) (s : NoiseSession) (N : Nat) (p : Bytes)
    (hN : s.recvCs.n.toNat = N) (hN' : N < 2 ^ 64 - 1) (hk : s.recvCs.k ≠ EMPTY)
    (hl : (NX.enc P s.recvCs.k N [] p).length ≤ 65535) (hm : 2 ≤ s.mc) (hm' : s.mc + 1 < 2 ^ 128) :
    (s.recvMessage P (NX.enc P s.recvCs.k N [] p)).1 = .ok () ∧
    plain (s.recvMessage P (NX.enc P s.recvCs.k N [] p)).2.2 = p := by
  have hlen := enc_length (P := P) s.recvCs.k N [] p
  have h16 : 16 ≤ (NX.enc P s.recvCs.k N [] p).length := by omega
  have hn : s.recvCs.n ≠ MAX_NONCE := by
    intro h
    rw [h, MAX_NONCE_toNat] at hN
    omega
  rw [NoiseSession.recv_transport s _ (by omega) hm, CipherState.read_eq _ _ h16,
    CipherState.decrypt_some s.recvCs _ _ p _ hn hk ?_]
  · simp only
    rw [NoiseSession.count_ok _ _ (by simpa using hm')]
    exact ⟨rfl, plain_append (tag_length h16)⟩
  · rw [body_enc, tagArr_enc, prepNonce_eq, hN]
    exact hA _ _ _ _

namespace EDir
variable {key : Arr 32} {n0 : Nat} {snd rcv : CipherState} {sent : List (Bytes × Bytes)}
  {got : List (Bytes × NResult Unit × Bytes)} {a b : Nat} {sentAt gotAt : List Nat}

theorem next (d : EDir P key n0 snd rcv sent got a b sentAt gotAt) (hA : AeadCorrect P) {p w : Bytes}
    (hw : sent[(accepted got).length]? = some (p, w)) (he : sentAt[(accepted got).length]? = some b)
    (s : NoiseSession) (hs : s.recvCs = rcv) (hm : 2 ≤ s.mc) (hm' : s.mc + 1 < 2 ^ 128) :
    (s.recvMessage P w).1 = .ok () ∧ plain (s.recvMessage P w).2.2 = p := by
  obtain ⟨e, h1, rfl, hl, hk⟩ := d.wires _ _ _ hw
  rw [he] at h1
  cases h1
  have hlt := (List.getElem?_eq_some_iff.mp hw).1
  have h2 := d.sn
  have h3 := snd.n.toNat_lt
  subst hs
  rw [← d.rk] at hl hk ⊢
  exact NoiseSession.recv_enc hA s _ p d.rn (by omega) hk hl hm hm'

end EDir

theorem Dir.next' {key : Arr 32} {n0 : Nat} {snd rcv : CipherState} {sent : List (Bytes × Bytes)}
    {got : List (Bytes × NResult Unit × Bytes)} (d : Dir P key n0 snd rcv sent got) (hA : AeadCorrect P) {p w : Bytes}
    (hw : sent[(accepted got).length]? = some (p, w))
    (s : NoiseSession) (hs : s.recvCs = rcv) (hm : 2 ≤ s.mc) (hm' : s.mc + 1 < 2 ^ 128) :
    (s.recvMessage P w).1 = .ok () ∧ plain (s.recvMessage P w).2.2 = p := by
  obtain ⟨rfl, hl⟩ := d.wires _ _ _ hw
  have hk : key ≠ EMPTY := d.nonempty (by rintro rfl; simp at hw)
  have hlt := (List.getElem?_eq_some_iff.mp hw).1
  have h2 := d.sn
  have h3 := snd.n.toNat_lt
  subst hs
  rw [← d.rk] at hl hk ⊢
  exact NoiseSession.recv_enc hA s _ p d.rn (by omega) hk hl hm hm'

/-- What the responder accepted is the beginning of what was sent, under the keys it was sent with, or there is a
forgery. -/
theorem EDir.prefix_or_forged {key : Arr 32} {n0 : Nat} {n : RNet} {snd rcv : CipherState}
    (d : EDir P key n0 snd rcv n.net.sentI n.net.gotR n.rekeysI n.rekeysR n.sentAt n.gotAt)
    (hA : AeadCorrect P) :
    (accepted n.net.gotR <+: n.net.sentI.map (·.1) ∧ acceptedWires n.net.gotR <+: n.net.sentI.map (·.2) ∧
      n.gotAt.map (epochKey P key) <+: n.sentAt.map (epochKey P key)) ∨
    ∃ j, n.ForgedAt P key n0 j := by
  by_cases hall : ∀ j, j < (acceptedWires n.net.gotR).length → ∃ p w e e', (acceptedWires n.net.gotR)[j]? = some w ∧
      n.net.sentI[j]? = some (p, w) ∧ n.sentAt[j]? = some e' ∧ n.gotAt[j]? = some e ∧
      epochKey P key e' = epochKey P key e
  · left
    refine ⟨?_, ?_, ?_⟩
    · rw [List.prefix_iff_getElem?]
      intro i hi
      have hi' : i < (acceptedWires n.net.gotR).length := by rw [accepted_length]; exact hi
      obtain ⟨p, w, e, e', hw, hs, hse, hge, hk⟩ := hall i hi'
      obtain ⟨c, mac, q, e2, h1, h0, h2, h3⟩ := d.opened i _ hw
      obtain ⟨e3, g1, g2, g3⟩ := d.wires i p w hs
      rw [hge] at h0
      cases h0
      rw [hse] at g1
      cases g1
      rw [g2] at h1
      have h := List.append_inj' (show _ ++ _ = c ++ mac.toList from h1) (by rw [Arr.len, Arr.len])
      have hc := h.1
      have hm := arr_ext h.2
      rw [← hc, ← hm, hk, hA] at h2
      rw [List.getElem?_map, hs, ← List.getElem?_eq_getElem hi, h3, ← h2]
      rfl
    · rw [List.prefix_iff_getElem?]
      intro i hi
      obtain ⟨p, w, e, e', hw, hs, hse, hge, hk⟩ := hall i hi
      rw [List.getElem?_map, hs, ← List.getElem?_eq_getElem hi, hw]
      rfl
    · rw [List.prefix_iff_getElem?]
      intro i hi
      have hi' : i < (acceptedWires n.net.gotR).length := by
        rw [accepted_length, ← d.gotLength]; simpa using hi
      obtain ⟨p, w, e, e', hw, hs, hse, hge, hk⟩ := hall i hi'
      rw [← List.getElem?_eq_getElem hi, List.getElem?_map, List.getElem?_map, hse, hge]
      simp [hk]
  · right
    simp only [Classical.not_forall] at hall
    obtain ⟨j, hj, hne⟩ := hall
    obtain ⟨c, mac, p, e, h1, h0, h2, _⟩ := d.opened j _ (List.getElem?_eq_getElem hj)
    refine ⟨j, c, mac, p, e, ?_, h0, h2, ?_⟩
    · rw [List.getElem?_eq_getElem hj, h1]
    · rintro ⟨p', e', g1, g2, g3⟩
      exact hne ⟨p', _, e, e', by rw [List.getElem?_eq_getElem hj, h1], g1, g2, h0, g3⟩

/-! ### The other direction -/

/-- What a receive gives depends on the cipher state it uses. -/
theorem NoiseSession.recv_same (s t : NoiseSession) (b : Bytes) (hc : s.recvCs = t.recvCs)
    (hs : 2 ≤ s.mc ∧ s.mc + 1 < 2 ^ 128) (ht : 2 ≤ t.mc ∧ t.mc + 1 < 2 ^ 128) :
    (s.recvMessage P b).1 = (t.recvMessage P b).1 ∧ (s.recvMessage P b).2.2 = (t.recvMessage P b).2.2 ∧
    (s.recvMessage P b).2.1.recvCs = (t.recvMessage P b).2.1.recvCs := by
  by_cases hl : b.length < 16 ∨ 65535 < b.length
  · rw [recv_badLength s b hl, recv_badLength t b hl]
    exact ⟨rfl, rfl, hc⟩
  rw [recv_transport s b hl hs.1, recv_transport t b hl ht.1, hc]
  generalize t.recvCs.readMessageRegular P b = x
  have key : ∀ (u : NoiseSession) (cs : CipherState), (u.setRecv cs).recvCs = cs := by
    intro u cs
    unfold setRecv recvCs
    cases u.i <;> rfl
  have key' : ∀ (u : NoiseSession) (cs : CipherState) (m : Nat), ({ u.setRecv cs with mc := m } : NoiseSession).recvCs = cs :=
    fun u cs m => key u cs
  obtain ⟨o, cs, buf⟩ := x
  cases o with
  | ok v =>
    simp only []
    rw [count_ok _ _ (by simpa using hs.2), count_ok _ _ (by simpa using ht.2)]
    exact ⟨rfl, rfl, by rw [key', key']⟩
  | err e => exact ⟨rfl, rfl, by simp only [key]⟩
  | panic => exact ⟨rfl, rfl, by simp only [key]⟩

theorem NoiseSession.send_same (s t : NoiseSession) (rnd : Keypair) (b : Bytes) (hc : s.sendCs = t.sendCs)
    (hs : 2 ≤ s.mc ∧ s.mc + 1 < 2 ^ 128) (ht : 2 ≤ t.mc ∧ t.mc + 1 < 2 ^ 128) :
    (s.sendMessage P rnd b).1 = (t.sendMessage P rnd b).1 ∧ (s.sendMessage P rnd b).2.2 = (t.sendMessage P rnd b).2.2 ∧
    (s.sendMessage P rnd b).2.1.sendCs = (t.sendMessage P rnd b).2.1.sendCs := by
  by_cases hl : b.length < 16 ∨ 65535 < b.length
  · rw [send_badLength rnd s b hl, send_badLength rnd t b hl]
    exact ⟨rfl, rfl, hc⟩
  rw [send_transport rnd s b hl hs.1, send_transport rnd t b hl ht.1, hc]
  generalize t.sendCs.writeMessageRegular P b = x
  have key : ∀ (u : NoiseSession) (cs : CipherState), (u.setSend cs).sendCs = cs := by
    intro u cs
    unfold setSend sendCs
    cases u.i <;> rfl
  have key' : ∀ (u : NoiseSession) (cs : CipherState) (m : Nat), ({ u.setSend cs with mc := m } : NoiseSession).sendCs = cs :=
    fun u cs m => key u cs
  obtain ⟨o, cs, buf⟩ := x
  cases o with
  | ok v =>
    simp only []
    rw [count_ok _ _ (by simpa using hs.2), count_ok _ _ (by simpa using ht.2)]
    exact ⟨rfl, rfl, by rw [key', key']⟩
  | err e => exact ⟨rfl, rfl, by simp only [key]⟩
  | panic => exact ⟨rfl, rfl, by simp only [key]⟩

theorem NetInv.bounds {keys : Arr 32 × Arr 32} {n1 n2 : Nat} {n : Net} (h : NetInv P keys n1 n2 n) :
    2 ≤ n.i.mc ∧ n.i.mc + 1 < 2 ^ 128 ∧ 2 ≤ n.r.mc ∧ n.r.mc + 1 < 2 ^ 128 := by
  have b1 := n.i.cs1.n.toNat_lt
  have b2 := n.i.cs2.n.toNat_lt
  have b3 := n.r.cs1.n.toNat_lt
  have b4 := n.r.cs2.n.toNat_lt
  have e1 := h.toR.sn
  have e2 := h.toR.rn
  have e3 := h.toI.sn
  have e4 := h.toI.rn
  have hmi := h.countI
  have hmr := h.countR
  omega

/-- The direction to the initiator goes as in a run where nobody rekeys. -/
structure SameNet (n : RNet) (m : Net) : Prop where
  sent : n.net.sentR = m.sentR
  got : n.net.gotI = m.gotI
  r : n.net.r.cs2 = m.r.cs2
  i : n.net.i.cs2 = m.i.cs2

theorem SameNet.step {keys : Arr 32 × Arr 32} {n1 n2 : Nat} {n : RNet} {m : Net} (hn : RInv P keys n1 n2 n)
    (hm : NetInv P keys n1 n2 m) (h : SameNet n m) (act : Act) : SameNet (n.step P (.net act)) (m.step P act) := by
  obtain ⟨b1, b2, b3, b4⟩ := hn.bounds
  obtain ⟨c1, c2, c3, c4⟩ := hm.bounds
  obtain ⟨hsI, hrI, hsR, hrR⟩ := hn.cs
  have sendCs2 : ∀ (s : NoiseSession) (rnd : Keypair) (b : Bytes), 2 ≤ s.mc → s.mc + 1 < 2 ^ 128 → s.i = true →
      (s.sendMessage P rnd b).2.1.cs2 = s.cs2 := by
    intro s rnd b h1 h2 h3
    rcases NoiseSession.send_cases (P := P) rnd s b h1 with ⟨_, _, _, _, hr⟩ | ⟨e, hr⟩
    · rw [hr, NoiseSession.count_ok _ _ (by simpa using h2), setSend_true h3]
    · rw [hr]
  have recvCs2 : ∀ (s : NoiseSession) (b : Bytes), 2 ≤ s.mc → s.mc + 1 < 2 ^ 128 → s.i = false →
      (s.recvMessage P b).2.1.cs2 = s.cs2 := by
    intro s b h1 h2 h3
    rcases NoiseSession.recv_cases (P := P) s b h1 with ⟨_, _, _, _, _, _, hr⟩ | ⟨e, hr⟩
    · rw [hr, NoiseSession.count_ok _ _ (by simpa using h2), setRecv_false h3]
    · rw [hr]
  have hn' := hn.step (.net act)
  have hm' := hm.step act
  cases act with
  | iSend secret buf =>
    refine ⟨h.sent, h.got, h.r, ?_⟩
    simp only [RNet.step, Net.step]
    rw [sendCs2 _ _ _ b1 b2 hn.roles.1, sendCs2 _ _ _ c1 c2 hm.roles.1, h.i]
  | toR wire =>
    refine ⟨h.sent, h.got, ?_, h.i⟩
    simp only [RNet.step, Net.step]
    rw [recvCs2 _ _ b3 b4 hn.roles.2, recvCs2 _ _ c3 c4 hm.roles.2, h.r]
  | rSend secret buf =>
    have hsR' : m.r.sendCs = m.r.cs2 := by simp [NoiseSession.sendCs, hm.roles.2]
    obtain ⟨g1, g2, g3⟩ := NoiseSession.send_same (P := P) n.net.r m.r (Keypair.default P secret) buf
      (by rw [hsR, hsR', h.r]) ⟨b3, b4⟩ ⟨c3, c4⟩
    refine ⟨?_, h.got, ?_, h.i⟩
    · simp only [RNet.step, Net.step, g1, g2, h.sent]
    · have e1 := hn'.roles.2
      have e2 := hm'.roles.2
      simp only [RNet.step, Net.step] at e1 e2 ⊢
      simpa only [NoiseSession.sendCs, e1, e2, if_neg Bool.false_ne_true] using g3
  | toI wire =>
    have hrI' : m.i.recvCs = m.i.cs2 := by simp [NoiseSession.recvCs, hm.roles.1]
    obtain ⟨g1, g2, g3⟩ := NoiseSession.recv_same (P := P) n.net.i m.i wire
      (by rw [hrI, hrI', h.i]) ⟨b1, b2⟩ ⟨c1, c2⟩
    refine ⟨h.sent, ?_, h.r, ?_⟩
    · simp only [RNet.step, Net.step, g1, g2, h.got]
    · have e1 := hn'.roles.1
      have e2 := hm'.roles.1
      simp only [RNet.step, Net.step] at e1 e2 ⊢
      simpa only [NoiseSession.recvCs, e1, e2, if_true] using g3

theorem SameNet.run {keys : Arr 32 × Arr 32} {n1 n2 : Nat} {n : RNet} {m : Net} (hn : RInv P keys n1 n2 n)
    (hm : NetInv P keys n1 n2 m) (h : SameNet n m) (acts : List RAct) : SameNet (n.run P acts) (m.run P (RAct.acts acts)) := by
  induction acts generalizing n m with
  | nil => exact h
  | cons act acts ih =>
    cases act with
    | net act => exact ih (hn.step _) (hm.step act) (h.step hn hm act)
    | rekeyI remote =>
      refine ih (hn.step _) hm ⟨h.sent, h.got, h.r, ?_⟩
      simp only [RNet.step, rekeyed_eq]
      exact h.i
    | rekeyR remote =>
      refine ih (hn.step _) hm ⟨h.sent, h.got, ?_, h.i⟩
      simp only [RNet.step, rekeyed_eq]
      exact h.r

/-! ### Logs only grow -/

theorem Net.step_logs (n : Net) (act : Act) : n.sentI <+: (n.step P act).sentI ∧ n.gotR <+: (n.step P act).gotR := by
  cases act <;> simp only [Net.step]
  · split
    · exact ⟨List.prefix_append _ _, List.prefix_refl _⟩
    · exact ⟨List.prefix_refl _, List.prefix_refl _⟩
  · exact ⟨List.prefix_refl _, List.prefix_refl _⟩
  · exact ⟨List.prefix_refl _, List.prefix_append _ _⟩
  · exact ⟨List.prefix_refl _, List.prefix_refl _⟩

/-- Later entries of the log are at least the present number. -/
theorem RNet.run_logs (n : RNet) (acts : List RAct) : n.sentAt <+: (n.run P acts).sentAt ∧
    n.net.gotR <+: (n.run P acts).net.gotR ∧
    ∃ later, (n.run P acts).gotAt = n.gotAt ++ later ∧ ∀ e ∈ later, n.rekeysR ≤ e := by
  induction acts generalizing n with
  | nil => exact ⟨List.prefix_refl _, List.prefix_refl _, [], by simp [RNet.run], by simp⟩
  | cons act acts ih =>
    obtain ⟨h1, h2, later, h3, h4⟩ := ih (n.step P act)
    cases act with
    | rekeyI remote => exact ⟨h1, h2, later, h3, h4⟩
    | rekeyR remote => exact ⟨h1, h2, later, h3, fun e he => Nat.le_of_succ_le (h4 e he)⟩
    | net act =>
      refine ⟨(List.prefix_append _ _).trans h1, (n.net.step_logs act).2.trans h2,
        List.replicate ((accepted (n.net.step P act).gotR).length - (accepted n.net.gotR).length) n.rekeysR ++ later, ?_, ?_⟩
      · exact h3.trans (List.append_assoc _ _ _)
      · intro e he
        rcases List.mem_append.mp he with he | he
        · rw [List.eq_of_mem_replicate he]; exact Nat.le_refl _
        · exact h4 e he

theorem accepted_mono {got got' : List (Bytes × NResult Unit × Bytes)} (h : got <+: got') :
    accepted got <+: accepted got' := by
  obtain ⟨t, rfl⟩ := h
  unfold accepted
  rw [List.filter_append, List.map_append]
  exact List.prefix_append _ _

end SV2.Noise
