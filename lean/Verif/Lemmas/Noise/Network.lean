import Verif.Lemmas.Noise.NX
/-!
# Two sessions in transport mode: an invariant of every execution
-/

namespace SV2.Noise
variable {P : Prims}

/-- One direction: a sender's and a receiver's cipher state, what was sent and what was delivered. -/
structure Dir (P : Prims) (key : Arr 32) (n0 : Nat) (snd rcv : CipherState) (sent : List (Bytes × Bytes))
    (got : List (Bytes × NResult Unit × Bytes)) : Prop where
  sk : snd.k = key
  sn : snd.n.toNat = n0 + sent.length
  wires : ∀ j p w, sent[j]? = some (p, w) → w = NX.enc P key (n0 + j) [] p ∧ w.length ≤ 65535
  nonempty : sent ≠ [] → key ≠ EMPTY
  rk : rcv.k = key
  rn : rcv.n.toNat = n0 + (accepted got).length
  opened : ∀ j w, (acceptedWires got)[j]? = some w → ∃ (c : Bytes) (mac : Arr 16) (p : Bytes),
    w = c ++ mac.toList ∧ P.aeadOpen key (NX.nonce (n0 + j)) [] c mac = some p ∧ (accepted got)[j]? = some p

theorem accepted_length (got : List (Bytes × NResult Unit × Bytes)) :
    (acceptedWires got).length = (accepted got).length := by
  simp [accepted, acceptedWires]

theorem accepted_snoc_ok (got : List (Bytes × NResult Unit × Bytes)) (w out : Bytes) :
    accepted (got ++ [(w, .ok (), out)]) = accepted got ++ [plain out] ∧
    acceptedWires (got ++ [(w, .ok (), out)]) = acceptedWires got ++ [w] := by
  simp [accepted, acceptedWires, List.filter_append, Out.isOk]

theorem accepted_snoc_err (got : List (Bytes × NResult Unit × Bytes)) (w out : Bytes) (e : NoiseError) :
    accepted (got ++ [(w, .err e, out)]) = accepted got ∧
    acceptedWires (got ++ [(w, .err e, out)]) = acceptedWires got := by
  simp [accepted, acceptedWires, List.filter_append, Out.isOk]

theorem getElem?_snoc {α : Type} {l : List α} {a b : α} {j : Nat} (h : (l ++ [a])[j]? = some b) :
    l[j]? = some b ∨ (j = l.length ∧ a = b) := by
  rcases Nat.lt_or_ge j l.length with hj | hj
  · rw [List.getElem?_append_left hj] at h
    exact .inl h
  · rw [List.getElem?_append_right hj] at h
    have : j - l.length = 0 := by
      have := (List.getElem?_eq_some_iff.mp h).1
      simp at this
      omega
    rw [this] at h
    exact .inr ⟨by omega, by simpa using h⟩

theorem plain_append {p m : Bytes} (h : m.length = 16) : plain (p ++ m) = p := by
  unfold plain
  rw [List.length_append, h, Nat.add_sub_cancel]
  exact List.take_left' rfl

theorem setSend_true {s : NoiseSession} {cs : CipherState} (h : s.i = true) :
    s.setSend cs = { s with cs1 := cs } := by rw [NoiseSession.setSend, if_pos h]
theorem setSend_false {s : NoiseSession} {cs : CipherState} (h : s.i = false) :
    s.setSend cs = { s with cs2 := cs } := by rw [NoiseSession.setSend, if_neg (by simp [h])]
theorem setRecv_true {s : NoiseSession} {cs : CipherState} (h : s.i = true) :
    s.setRecv cs = { s with cs2 := cs } := by rw [NoiseSession.setRecv, if_pos h]
theorem setRecv_false {s : NoiseSession} {cs : CipherState} (h : s.i = false) :
    s.setRecv cs = { s with cs1 := cs } := by rw [NoiseSession.setRecv, if_neg (by simp [h])]

namespace Dir
variable {key : Arr 32} {n0 : Nat} {snd rcv : CipherState} {sent : List (Bytes × Bytes)}
  {got : List (Bytes × NResult Unit × Bytes)}

/-- A successful send. -/
theorem send (d : Dir P key n0 snd rcv sent got) (b : Bytes) (hl : b.length ≤ 65535) (_h16 : 16 ≤ b.length)
    (hn : snd.n ≠ MAX_NONCE) (hk : snd.k ≠ EMPTY) :
    Dir P key n0 ⟨snd.k, snd.n + 1⟩ rcv
      (sent ++ [(plain b, CipherState.sealed P snd.k snd.n [] (body b))]) got where
  sk := d.sk
  sn := by simp only [toNat_succ hn, d.sn, List.length_append, List.length_cons, List.length_nil]; omega
  wires := by
    intro j p w h
    rcases getElem?_snoc h with h' | ⟨rfl, h'⟩
    · exact d.wires j p w h'
    · cases h'
      rw [sealed_eq, d.sk, d.sn]
      refine ⟨rfl, ?_⟩
      rw [enc_length]
      simp [body]; omega
  nonempty := fun _ => by rw [← d.sk]; exact hk
  rk := d.rk
  rn := d.rn
  opened := d.opened

/-- A successful receive. -/
theorem recv (d : Dir P key n0 snd rcv sent got) (b p : Bytes) (hl : 16 ≤ b.length) (hn : rcv.n ≠ MAX_NONCE)
    (ho : P.aeadOpen rcv.k (prepNonce rcv.n) [] (body b) (CipherState.tagArr b hl) = some p) :
    Dir P key n0 snd ⟨rcv.k, rcv.n + 1⟩ sent (got ++ [(b, .ok (), p ++ tag b)]) where
  sk := d.sk
  sn := d.sn
  wires := d.wires
  nonempty := d.nonempty
  rk := d.rk
  rn := by
    simp only [toNat_succ hn, d.rn, (accepted_snoc_ok got b (p ++ tag b)).1, List.length_append, List.length_cons,
      List.length_nil]; omega
  opened := by
    intro j w h
    rw [(accepted_snoc_ok got b (p ++ tag b)).2] at h
    rw [(accepted_snoc_ok got b (p ++ tag b)).1, plain_append (tag_length hl)]
    rcases getElem?_snoc h with h | ⟨rfl, rfl⟩
    · obtain ⟨c, mac, q, h1, h2, h3⟩ := d.opened j w h
      refine ⟨c, mac, q, h1, h2, ?_⟩
      rw [List.getElem?_append_left (List.getElem?_eq_some_iff.mp h3).1]
      exact h3
    · refine ⟨body b, CipherState.tagArr b hl, p, (body_tag b).symm, ?_, ?_⟩
      · rw [d.rk, prepNonce_eq, d.rn] at ho
        rw [accepted_length]
        exact ho
      · rw [accepted_length]
        simp

/-- A receive that fails. -/
theorem reject (d : Dir P key n0 snd rcv sent got) (w out : Bytes) (e : NoiseError) :
    Dir P key n0 snd rcv sent (got ++ [(w, .err e, out)]) where
  sk := d.sk
  sn := d.sn
  wires := d.wires
  nonempty := d.nonempty
  rk := d.rk
  rn := by rw [(accepted_snoc_err got w out e).1]; exact d.rn
  opened := by rw [(accepted_snoc_err got w out e).1, (accepted_snoc_err got w out e).2]; exact d.opened

/-- The messages accepted are a prefix of those sent, or one is a forgery. -/
theorem prefix_or_forged (d : Dir P key n0 snd rcv sent got) (hA : AeadCorrect P) :
    (accepted got <+: sent.map (·.1) ∧ acceptedWires got <+: sent.map (·.2)) ∨
    ∃ j, ForgedAt P key n0 sent (acceptedWires got) j := by
  by_cases hall : ∀ j, j < (acceptedWires got).length → (sent.map (·.2))[j]? = (acceptedWires got)[j]?
  · left
    have hw : acceptedWires got <+: sent.map (·.2) := by
      rw [List.prefix_iff_getElem?]
      intro i hi
      rw [hall i hi, List.getElem?_eq_getElem hi]
    refine ⟨?_, hw⟩
    rw [List.prefix_iff_getElem?]
    intro i hi
    have hi' : i < (acceptedWires got).length := by rw [accepted_length]; exact hi
    have hwi := hall i hi'
    rw [List.getElem?_eq_getElem hi', List.getElem?_map] at hwi
    rcases hs : sent[i]? with _ | ⟨p, w⟩
    · rw [hs] at hwi; cases hwi
    · rw [hs] at hwi
      simp only [Option.map_some, Option.some.injEq] at hwi
      obtain ⟨c, mac, q, h1, h2, h3⟩ := d.opened i _ (List.getElem?_eq_getElem hi')
      rw [← hwi, (d.wires i p w hs).1] at h1
      have h := List.append_inj' (show _ ++ _ = c ++ mac.toList from h1) (by rw [Arr.len, Arr.len])
      have hc := h.1
      have hm := arr_ext h.2
      rw [← hc, ← hm, hA] at h2
      rw [List.getElem?_map, hs, ← List.getElem?_eq_getElem hi, h3, ← h2]
      rfl
  · right
    simp only [Classical.not_forall] at hall
    obtain ⟨j, hj, hne⟩ := hall
    obtain ⟨c, mac, p, h1, h2, _⟩ := d.opened j _ (List.getElem?_eq_getElem hj)
    refine ⟨j, c, mac, p, ?_, h2, ?_⟩
    · rw [List.getElem?_eq_getElem hj, h1]
    · rw [← h1, ← List.getElem?_eq_getElem hj]
      exact hne

end Dir

/-- The invariant of two sessions and the network. -/
structure NetInv (P : Prims) (keys : Arr 32 × Arr 32) (n1 n2 : Nat) (n : Net) : Prop where
  roles : n.i.i = true ∧ n.r.i = false
  countI : n.i.mc = 2 + n1 + n.sentI.length + n2 + (accepted n.gotI).length
  countR : n.r.mc = 2 + n1 + (accepted n.gotR).length + n2 + n.sentR.length
  toR : Dir P keys.1 n1 n.i.cs1 n.r.cs1 n.sentI n.gotR
  toI : Dir P keys.2 n2 n.r.cs2 n.i.cs2 n.sentR n.gotI

theorem NetInv.start {i r : NoiseSession} {keys : Arr 32 × Arr 32} {n1 n2 : UInt64} (h : InSync i r keys n1 n2) :
    NetInv P keys n1.toNat n2.toNat { i := i, r := r } where
  roles := h.roles
  countI := by simp [h.count.1, accepted]
  countR := by simp [h.count.2, accepted]
  toR := by
    refine ⟨?_, ?_, ?_, ?_, ?_, ?_, ?_⟩ <;> simp [h.initiator, h.responder, accepted, acceptedWires]
  toI := by
    refine ⟨?_, ?_, ?_, ?_, ?_, ?_, ?_⟩ <;> simp [h.initiator, h.responder, accepted, acceptedWires]

theorem NetInv.step {keys : Arr 32 × Arr 32} {n1 n2 : Nat} {n : Net} (h : NetInv P keys n1 n2 n) (act : Act) :
    NetInv P keys n1 n2 (n.step P act) := by
  have b1 := n.i.cs1.n.toNat_lt
  have b2 := n.i.cs2.n.toNat_lt
  have b3 := n.r.cs1.n.toNat_lt
  have b4 := n.r.cs2.n.toNat_lt
  have e1 := h.toR.sn
  have e2 := h.toR.rn
  have e3 := h.toI.sn
  have e4 := h.toI.rn
  have hmi := h.countI
  have hmr := h.countR
  have hsI : n.i.sendCs = n.i.cs1 := by simp [NoiseSession.sendCs, h.roles.1]
  have hrI : n.i.recvCs = n.i.cs2 := by simp [NoiseSession.recvCs, h.roles.1]
  have hsR : n.r.sendCs = n.r.cs2 := by simp [NoiseSession.sendCs, h.roles.2]
  have hrR : n.r.recvCs = n.r.cs1 := by simp [NoiseSession.recvCs, h.roles.2]
  cases act with
  | iSend secret buf =>
    rcases NoiseSession.send_cases (P := P) (Keypair.default P secret) n.i buf (by omega) with
      ⟨h16, hl, hn, hk, hr⟩ | ⟨e, hr⟩
    · rw [hsI] at hn hk hr
      rw [NoiseSession.count_ok _ _ (by simp; omega)] at hr
      simp only [Net.step, hr, Out.isOk, if_true]
      rw [setSend_true h.roles.1]
      refine ⟨h.roles, ?_, h.countR, h.toR.send buf hl h16 hn hk, h.toI⟩
      simp only [List.length_append, List.length_cons, List.length_nil]
      omega
    · simp only [Net.step, hr, Out.isOk]
      exact h
  | rSend secret buf =>
    rcases NoiseSession.send_cases (P := P) (Keypair.default P secret) n.r buf (by omega) with
      ⟨h16, hl, hn, hk, hr⟩ | ⟨e, hr⟩
    · rw [hsR] at hn hk hr
      rw [NoiseSession.count_ok _ _ (by simp; omega)] at hr
      simp only [Net.step, hr, Out.isOk, if_true]
      rw [setSend_false h.roles.2]
      refine ⟨h.roles, h.countI, ?_, h.toR, h.toI.send buf hl h16 hn hk⟩
      simp only [List.length_append, List.length_cons, List.length_nil]
      simp
      omega
    · simp only [Net.step, hr, Out.isOk]
      exact h
  | toR wire =>
    rcases NoiseSession.recv_cases (P := P) n.r wire (by omega) with
      ⟨h16, p, hl, hn, hk, ho, hr⟩ | ⟨e, hr⟩
    · rw [hrR] at hn hk ho hr
      rw [NoiseSession.count_ok _ _ (by simp; omega)] at hr
      simp only [Net.step, hr]
      rw [setRecv_false h.roles.2]
      refine ⟨h.roles, h.countI, ?_, h.toR.recv wire p h16 hn ho, h.toI⟩
      simp only [(accepted_snoc_ok _ _ _).1, List.length_append, List.length_cons, List.length_nil]
      simp
      omega
    · simp only [Net.step, hr]
      refine ⟨h.roles, h.countI, ?_, h.toR.reject _ _ _, h.toI⟩
      simp only [(accepted_snoc_err _ _ _ _).1]
      exact h.countR
  | toI wire =>
    rcases NoiseSession.recv_cases (P := P) n.i wire (by omega) with
      ⟨h16, p, hl, hn, hk, ho, hr⟩ | ⟨e, hr⟩
    · rw [hrI] at hn hk ho hr
      rw [NoiseSession.count_ok _ _ (by simp; omega)] at hr
      simp only [Net.step, hr]
      rw [setRecv_true h.roles.1]
      refine ⟨h.roles, ?_, h.countR, h.toR, h.toI.recv wire p h16 hn ho⟩
      simp only [(accepted_snoc_ok _ _ _).1, List.length_append, List.length_cons, List.length_nil]
      omega
    · simp only [Net.step, hr]
      refine ⟨h.roles, ?_, h.countR, h.toR, h.toI.reject _ _ _⟩
      simp only [(accepted_snoc_err _ _ _ _).1]
      exact h.countI

theorem NetInv.run {keys : Arr 32 × Arr 32} {n1 n2 : Nat} {n : Net} (h : NetInv P keys n1 n2 n) (acts : List Act) :
    NetInv P keys n1 n2 (n.run P acts) := by
  induction acts generalizing n with
  | nil => exact h
  | cons act acts ih => exact ih (h.step act)

/-! ### A network that delivers everything in order -/

/-- Every delivery so far succeeded. -/
def AllOk (got : List (Bytes × NResult Unit × Bytes)) : Prop := ∀ g ∈ got, g.2.1 = .ok ()

theorem AllOk.accepted_length {got : List (Bytes × NResult Unit × Bytes)} (h : AllOk got) :
    (accepted got).length = got.length := by
  unfold accepted
  rw [List.length_map, List.filter_eq_self.mpr]
  intro a ha
  rw [h a ha]
  rfl

/-- The receiver accepts the next message. -/
theorem Dir.next {key : Arr 32} {n0 : Nat} {snd rcv : CipherState} {sent : List (Bytes × Bytes)}
    {got : List (Bytes × NResult Unit × Bytes)} (d : Dir P key n0 snd rcv sent got) (hA : AeadCorrect P)
    (hok : AllOk got) {wire : Bytes} (hw : (sent.map (·.2))[got.length]? = some wire) (s : NoiseSession)
    (hs : s.recvCs = rcv) (hm : 2 ≤ s.mc) (hm' : s.mc + 1 < 2 ^ 128) :
    (s.recvMessage P wire).1 = .ok () := by
  rw [List.getElem?_map] at hw
  rcases hsent : sent[got.length]? with _ | ⟨p, w⟩
  · rw [hsent] at hw; cases hw
  rw [hsent] at hw
  simp only [Option.map_some, Option.some.injEq] at hw
  subst hw
  obtain ⟨rfl, hl⟩ := d.wires _ _ _ hsent
  have hlt := (List.getElem?_eq_some_iff.mp hsent).1
  have hn : rcv.n ≠ MAX_NONCE := by
    intro h
    have h1 := d.rn
    rw [h, MAX_NONCE_toNat, hok.accepted_length] at h1
    have h2 := d.sn
    have h3 := snd.n.toNat_lt
    omega
  have hk : rcv.k ≠ EMPTY := by
    rw [d.rk]
    apply d.nonempty
    intro h
    rw [h] at hlt
    simp at hlt
  have hlen := enc_length (P := P) key (n0 + got.length) [] p
  have h16 : 16 ≤ (NX.enc P key (n0 + got.length) [] p).length := by omega
  rw [NoiseSession.recv_transport s _ (by omega) hm, CipherState.read_eq _ _ h16, hs,
    CipherState.decrypt_some rcv _ _ p _ hn hk ?_]
  · simp only
    rw [NoiseSession.count_ok _ _ (by simpa using hm')]
  · rw [body_enc, tagArr_enc, prepNonce_eq, d.rn, d.rk, hok.accepted_length]
    exact hA _ _ _ _

theorem faithful_ok (hA : AeadCorrect P) {keys : Arr 32 × Arr 32} {n1 n2 : Nat} {n : Net}
    (h : NetInv P keys n1 n2 n) (hR : AllOk n.gotR) (hI : AllOk n.gotI) (acts : List Act)
    (hf : n.Faithful P acts) : AllOk (n.run P acts).gotR ∧ AllOk (n.run P acts).gotI := by
  induction acts generalizing n with
  | nil => exact ⟨hR, hI⟩
  | cons act acts ih =>
    have b1 := n.i.cs1.n.toNat_lt
    have b2 := n.i.cs2.n.toNat_lt
    have b3 := n.r.cs1.n.toNat_lt
    have b4 := n.r.cs2.n.toNat_lt
    have e1 := h.toR.sn
    have e2 := h.toR.rn
    have e3 := h.toI.sn
    have e4 := h.toI.rn
    have hmi := h.countI
    have hmr := h.countR
    refine ih (h.step act) ?_ ?_ hf.2
    · cases act with
      | toR wire =>
        have := h.toR.next hA hR hf.1 n.r (by simp [NoiseSession.recvCs, h.roles.2]) (by omega) (by omega)
        intro g hg
        simp only [Net.step, List.mem_append, List.mem_singleton] at hg
        rcases hg with hg | rfl
        · exact hR g hg
        · exact this
      | _ => exact hR
    · cases act with
      | toI wire =>
        have := h.toI.next hA hI hf.1 n.i (by simp [NoiseSession.recvCs, h.roles.1]) (by omega) (by omega)
        intro g hg
        simp only [Net.step, List.mem_append, List.mem_singleton] at hg
        rcases hg with hg | rfl
        · exact hI g hg
        · exact this
      | _ => exact hI

/-- A faithful network delivers only what was sent, in order. -/
theorem faithful_wires (n : Net) (acts : List Act) (hf : n.Faithful P acts)
    (hR : n.gotR.map (·.1) <+: n.sentI.map (·.2)) (hI : n.gotI.map (·.1) <+: n.sentR.map (·.2)) :
    (n.run P acts).gotR.map (·.1) <+: (n.run P acts).sentI.map (·.2) ∧
    (n.run P acts).gotI.map (·.1) <+: (n.run P acts).sentR.map (·.2) := by
  have snoc : ∀ (xs ys : List Bytes) (w : Bytes), xs <+: ys → ys[xs.length]? = some w → xs ++ [w] <+: ys := by
    rintro xs ys w ⟨t, rfl⟩ h
    rw [List.getElem?_append_right (Nat.le_refl _), Nat.sub_self] at h
    cases t with
    | nil => cases h
    | cons a t =>
      simp only [List.getElem?_cons_zero, Option.some.injEq] at h
      subst h
      exact ⟨t, by simp⟩
  induction acts generalizing n with
  | nil => exact ⟨hR, hI⟩
  | cons act acts ih =>
    refine ih _ hf.2 ?_ ?_
    · cases act with
      | toR wire =>
        simp only [Net.step, List.map_append, List.map_cons, List.map_nil]
        exact snoc _ _ _ hR (by rw [List.length_map]; exact hf.1)
      | iSend secret buf =>
        simp only [Net.step]
        split
        · rw [List.map_append]
          exact hR.trans (List.prefix_append _ _)
        · exact hR
      | _ => exact hR
    · cases act with
      | toI wire =>
        simp only [Net.step, List.map_append, List.map_cons, List.map_nil]
        exact snoc _ _ _ hI (by rw [List.length_map]; exact hf.1)
      | rSend secret buf =>
        simp only [Net.step]
        split
        · rw [List.map_append]
          exact hI.trans (List.prefix_append _ _)
        · exact hI
      | _ => exact hI

theorem AllOk.acceptedWires {got : List (Bytes × NResult Unit × Bytes)} (h : AllOk got) :
    acceptedWires got = got.map (·.1) := by
  unfold SV2.Noise.acceptedWires
  rw [List.filter_eq_self.mpr]
  intro a ha
  rw [h a ha]
  rfl

/-- In a faithful execution nothing is a forgery, so the plaintexts are those that were sent. -/
theorem Dir.faithful_prefix {key : Arr 32} {n0 : Nat} {snd rcv : CipherState} {sent : List (Bytes × Bytes)}
    {got : List (Bytes × NResult Unit × Bytes)} (d : Dir P key n0 snd rcv sent got) (hA : AeadCorrect P)
    (hok : AllOk got) (hw : got.map (·.1) <+: sent.map (·.2)) : accepted got <+: sent.map (·.1) := by
  rcases d.prefix_or_forged hA with h | ⟨j, c, mac, p, h1, _, h3⟩
  · exact h.1
  · rw [hok.acceptedWires] at h1
    exfalso
    apply h3
    obtain ⟨t, ht⟩ := hw
    rw [← ht, List.getElem?_append_left (List.getElem?_eq_some_iff.mp h1).1]
    exact h1

end SV2.Noise
