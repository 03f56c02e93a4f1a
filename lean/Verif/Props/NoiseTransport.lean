import Verif.Lemmas.Noise.Network
import Verif.Lemmas.Noise.History
import Verif.Lemmas.Noise.Accepted
import Verif.Spec.Toy
/-!
# C50, C39, C40, C41, C42, C46, C49, C56: transport mode
-/

namespace SV2
open Noise

variable (P : Prims)

/-! ## C50 -/

/-- The nonce of message `n` is four zero bytes and `n` in little-endian. -/
theorem C50_layout (n : UInt64) : (prepNonce n).toList.take 4 = [0, 0, 0, 0] ∧
    leNat ((prepNonce n).toList.drop 4) = n.toNat := by
  rw [prepNonce_eq]
  refine ⟨rfl, ?_⟩
  have := n.toNat_lt
  simp only [NX.nonce, leNat, List.range, List.range.loop, List.map, List.cons_append, List.nil_append,
    List.drop_succ_cons, List.drop_zero, List.foldr, UInt8.toNat_ofNat']
  omega

/-- So different counters give different nonces. -/
theorem C50_injective (n m : UInt64) (h : prepNonce n = prepNonce m) : n = m := by
  apply UInt64.toNat_inj.mp
  rw [← (C50_layout n).2, ← (C50_layout m).2, h]

/-- And no message uses the nonce of rekeying. -/
theorem C50_not_rekey (n : UInt64) : (prepNonce n).toList ≠ List.replicate 12 0xFF := by
  intro h
  have := (C50_layout n).1
  rw [h] at this
  revert this
  decide

/-! ## C39 -/

/-- Two sessions that are in sync, any interleaving of sends with in-order deliveries in both directions: every
delivery succeeds, and the plaintexts received are the plaintexts sent, in order, up to the last delivery. -/
theorem C39_fifo (hA : AeadCorrect P) (i r : NoiseSession) (keys : Arr 32 × Arr 32) (n1 n2 : UInt64)
    (h : InSync i r keys n1 n2) (acts : List Act) (hf : Net.Faithful P { i := i, r := r } acts) :
    let n := Net.run P { i := i, r := r } acts
    (∀ g ∈ n.gotR, g.2.1 = .ok ()) ∧ (∀ g ∈ n.gotI, g.2.1 = .ok ()) ∧
    n.gotR.map (fun g => plain g.2.2) = (n.sentI.map (·.1)).take n.gotR.length ∧
    n.gotI.map (fun g => plain g.2.2) = (n.sentR.map (·.1)).take n.gotI.length := by
  intro n
  have hinv : NetInv P keys n1.toNat n2.toNat n := (NetInv.start h).run acts
  have hok := faithful_ok hA (NetInv.start h) (by simp [AllOk]) (by simp [AllOk]) acts hf
  have hw := faithful_wires (P := P) _ acts hf (by simp) (by simp)
  have conv : ∀ (got : List (Bytes × NResult Unit × Bytes)) (sent : List (Bytes × Bytes)), AllOk got →
      accepted got <+: sent.map (·.1) →
      got.map (fun g => plain g.2.2) = (sent.map (·.1)).take got.length := by
    intro got sent ha hp
    have he : accepted got = got.map (fun g => plain g.2.2) := by
      unfold accepted
      rw [List.filter_eq_self.mpr]
      intro a h
      rw [ha a h]; rfl
    rw [he] at hp
    have := List.prefix_iff_eq_take.mp hp
    rw [List.length_map] at this
    exact this
  exact ⟨hok.1, hok.2, conv _ _ hok.1 (hinv.toR.faithful_prefix hA hok.1 hw.1),
    conv _ _ hok.2 (hinv.toI.faithful_prefix hA hok.2 hw.2)⟩

/-- In every such state a send of 16 to 65535 bytes succeeds as long as the nonce is not exhausted (and the derived key
is not the all-zero one). -/
theorem C39_send (i r : NoiseSession) (keys : Arr 32 × Arr 32) (n1 n2 : UInt64)
    (h : InSync i r keys n1 n2) (acts : List Act) (secret : Arr 32) (buf : Bytes)
    (hb : 16 ≤ buf.length ∧ buf.length ≤ 65535) :
    let n := Net.run P { i := i, r := r } acts
    (keys.1 ≠ NX.zeros → n1.toNat + n.sentI.length < 2 ^ 64 - 1 →
      (n.i.sendMessage P (Keypair.default P secret) buf).1 = .ok ()) ∧
    (keys.2 ≠ NX.zeros → n2.toNat + n.sentR.length < 2 ^ 64 - 1 →
      (n.r.sendMessage P (Keypair.default P secret) buf).1 = .ok ()) := by
  intro n
  have hinv : NetInv P keys n1.toNat n2.toNat n := (NetInv.start h).run acts
  have key : ∀ (s : NoiseSession) (k : Arr 32) (m : Nat), s.sendCs.k = k → s.sendCs.n.toNat = m → 2 ≤ s.mc →
      s.mc + 1 < 2 ^ 128 → k ≠ NX.zeros → m < 2 ^ 64 - 1 →
      (s.sendMessage P (Keypair.default P secret) buf).1 = .ok () := by
    rintro s _ _ rfl rfl hm hm' hk hn
    rw [NoiseSession.send_transport _ s buf (by omega) hm, CipherState.write_ok _ _ hb.1 ?_ hk]
    · simp only
      rw [NoiseSession.count_ok _ _ (by simpa using hm')]
    · intro h
      rw [h, MAX_NONCE_toNat] at hn
      omega
  have b1 := n.i.cs1.n.toNat_lt
  have b2 := n.i.cs2.n.toNat_lt
  have b3 := n.r.cs1.n.toNat_lt
  have b4 := n.r.cs2.n.toNat_lt
  have e1 := hinv.toR.sn
  have e2 := hinv.toR.rn
  have e3 := hinv.toI.sn
  have e4 := hinv.toI.rn
  have hmi := hinv.countI
  have hmr := hinv.countR
  constructor
  · intro hk hn
    exact key n.i keys.1 _ (by simp only [NoiseSession.sendCs, hinv.roles.1, if_true]; exact hinv.toR.sk)
      (by simp only [NoiseSession.sendCs, hinv.roles.1, if_true]; exact hinv.toR.sn) (by omega) (by omega) hk hn
  · intro hk hn
    have hs : n.r.sendCs = n.r.cs2 := by simp [NoiseSession.sendCs, hinv.roles.2]
    exact key n.r keys.2 _ (by rw [hs]; exact hinv.toI.sk) (by rw [hs]; exact hinv.toI.sn) (by omega) (by omega)
      hk hn

/-- Two sessions in sync, for the toy primitives. -/
def toyI : NoiseSession := done true NX.zeros NX.zeros (Arr.replicate 32 3, Arr.replicate 32 4) 1
def toyR : NoiseSession := done false NX.zeros NX.zeros (Arr.replicate 32 3, Arr.replicate 32 4) 1

theorem toy_inSync : InSync toyI toyR (Arr.replicate 32 3, Arr.replicate 32 4) 0 0 :=
  ⟨⟨rfl, rfl⟩, ⟨rfl, rfl⟩, ⟨rfl, rfl⟩, ⟨rfl, rfl⟩⟩

/-- Two messages one way, one the other way, and all three delivered. -/
def toyActs : List Act :=
  let p := List.replicate 20 5
  [.iSend NX.zeros p, .iSend NX.zeros (List.replicate 18 6),
    .toR (NX.enc toyPrims (Arr.replicate 32 3) 0 [] (plain p)), .rSend NX.zeros p,
    .toI (NX.enc toyPrims (Arr.replicate 32 4) 0 [] (plain p)),
    .toR (NX.enc toyPrims (Arr.replicate 32 3) 1 [] [6, 6])]

example : Net.Faithful toyPrims { i := toyI, r := toyR } toyActs := by
  refine ⟨trivial, trivial, ?_, trivial, ?_, ?_, trivial⟩ <;> decide +kernel

example : let n := Net.run toyPrims { i := toyI, r := toyR } toyActs
    n.gotR.map (fun g => plain g.2.2) = [[5, 5, 5, 5], [6, 6]] := by decide +kernel

/-! ## C40 -/

/-- Whatever the network delivers: the plaintexts (and the bytes) that a side accepts are a prefix of those the other
side sent, or one of the accepted messages is a forgery, which is then pointed at. -/
theorem C40_prefix_or_forged (hA : AeadCorrect P) (i r : NoiseSession) (keys : Arr 32 × Arr 32) (n1 n2 : UInt64)
    (h : InSync i r keys n1 n2) (acts : List Act) :
    let n := Net.run P { i := i, r := r } acts
    ((accepted n.gotR <+: n.sentI.map (·.1) ∧ acceptedWires n.gotR <+: n.sentI.map (·.2)) ∨
      ∃ j, ForgedAt P keys.1 n1.toNat n.sentI (acceptedWires n.gotR) j) ∧
    ((accepted n.gotI <+: n.sentR.map (·.1) ∧ acceptedWires n.gotI <+: n.sentR.map (·.2)) ∨
      ∃ j, ForgedAt P keys.2 n2.toNat n.sentR (acceptedWires n.gotI) j) := by
  intro n
  have hinv : NetInv P keys n1.toNat n2.toNat n := (NetInv.start h).run acts
  exact ⟨hinv.toR.prefix_or_forged hA, hinv.toI.prefix_or_forged hA⟩

/-- No delivery ever panics. -/
theorem C40_no_panic (i r : NoiseSession) (keys : Arr 32 × Arr 32) (n1 n2 : UInt64)
    (h : InSync i r keys n1 n2) (acts : List Act) :
    let n := Net.run P { i := i, r := r } acts
    (∀ g ∈ n.gotR, g.2.1 ≠ .panic) ∧ (∀ g ∈ n.gotI, g.2.1 ≠ .panic) := by
  have step : ∀ (n : Net), NetInv P keys n1.toNat n2.toNat n → (∀ g ∈ n.gotR, g.2.1 ≠ .panic) ∧
      (∀ g ∈ n.gotI, g.2.1 ≠ .panic) → ∀ act, (∀ g ∈ (n.step P act).gotR, g.2.1 ≠ .panic) ∧
      (∀ g ∈ (n.step P act).gotI, g.2.1 ≠ .panic) := by
    intro n hinv hp act
    have b1 := n.i.cs1.n.toNat_lt
    have b2 := n.i.cs2.n.toNat_lt
    have b3 := n.r.cs1.n.toNat_lt
    have b4 := n.r.cs2.n.toNat_lt
    have e1 := hinv.toR.sn
    have e2 := hinv.toR.rn
    have e3 := hinv.toI.sn
    have e4 := hinv.toI.rn
    have hmi := hinv.countI
    have hmr := hinv.countR
    have key : ∀ (s : NoiseSession) (w : Bytes), 2 ≤ s.mc → s.mc + 1 < 2 ^ 128 →
        (s.recvMessage P w).1 ≠ .panic := by
      intro s w hm hm'
      rcases NoiseSession.recv_cases (P := P) s w hm with ⟨_, p, _, _, _, _, hr⟩ | ⟨e, hr⟩
      · rw [hr, NoiseSession.count_ok _ _ (by simpa using hm')]
        simp
      · rw [hr]; simp
    cases act with
    | toR w =>
      refine ⟨?_, hp.2⟩
      intro g hg
      simp only [Net.step, List.mem_append, List.mem_singleton] at hg
      rcases hg with hg | rfl
      · exact hp.1 g hg
      · exact key n.r w (by omega) (by omega)
    | toI w =>
      refine ⟨hp.1, ?_⟩
      intro g hg
      simp only [Net.step, List.mem_append, List.mem_singleton] at hg
      rcases hg with hg | rfl
      · exact hp.2 g hg
      · exact key n.i w (by omega) (by omega)
    | _ => exact hp
  intro n
  have gen : ∀ (acts : List Act) (n : Net), NetInv P keys n1.toNat n2.toNat n →
      (∀ g ∈ n.gotR, g.2.1 ≠ .panic) ∧ (∀ g ∈ n.gotI, g.2.1 ≠ .panic) →
      (∀ g ∈ (n.run P acts).gotR, g.2.1 ≠ .panic) ∧ (∀ g ∈ (n.run P acts).gotI, g.2.1 ≠ .panic) := by
    intro acts
    induction acts with
    | nil => exact fun _ _ h => h
    | cons act acts ih => exact fun n hinv hp => ih _ (hinv.step act) (step n hinv hp act)
  exact gen acts _ (NetInv.start h) ⟨by simp, by simp⟩

/-- A replay, a message out of order, garbage, and then the right message: only that is accepted. -/
example : let w0 := NX.enc toyPrims (Arr.replicate 32 3) 0 [] [9, 9]
    let w1 := NX.enc toyPrims (Arr.replicate 32 3) 1 [] [8]
    let n := Net.run toyPrims { i := toyI, r := toyR } [.iSend NX.zeros (9 :: 9 :: List.replicate 16 0),
      .iSend NX.zeros (8 :: List.replicate 16 0), .toR w1, .toR (List.replicate 40 1), .toR w0, .toR w0, .toI w0,
      .toR w1]
    accepted n.gotR = [[9, 9], [8]] ∧ accepted n.gotI = [] ∧ n.gotR.length = 5 := by decide +kernel

/-! ## C41 -/

/-- In every history of calls without clear or rekey, message number `j` that a transport session sends is
encrypted with its send key and the nonce `n0 + j`, which stays below `2^64 - 1`. -/
theorem C41_nonces (s : NoiseSession) (hs : 2 ≤ s.getMessageCount) (ops : List Op)
    (hmax : s.getMessageCount + ops.length < 2 ^ 128) (hops : ∀ op ∈ ops, op.changesKeys = false) :
    let cs := if s.i then s.cs1 else s.cs2
    ∀ j p w, (sentIn (trace P s ops))[j]? = some (p, w) →
      w = NX.enc P cs.k (cs.n.toNat + j) [] p ∧ cs.n.toNat + j < 2 ^ 64 - 1 := by
  have gen : ∀ (ops : List Op) (s : NoiseSession), 2 ≤ s.mc → s.mc + ops.length < 2 ^ 128 →
      (∀ op ∈ ops, op.changesKeys = false) → ∀ j p w, (sentIn (trace P s ops))[j]? = some (p, w) →
      w = NX.enc P s.sendCs.k (s.sendCs.n.toNat + j) [] p ∧ s.sendCs.n.toNat + j < 2 ^ 64 - 1 := by
    intro ops
    induction ops with
    | nil => intro s _ _ _ j p w h; simp [trace, sentIn] at h
    | cons op ops ih =>
      intro s hm hmax hops j p w h
      simp only [List.length_cons] at hmax
      have hops' : ∀ op ∈ ops, op.changesKeys = false := fun o ho => hops o (List.mem_cons_of_mem _ ho)
      cases op with
      | send secret buf =>
        rcases NoiseSession.send_cases (P := P) (Keypair.default P secret) s buf hm with
          ⟨h16, hl, hn, hk, hr⟩ | ⟨e, hr⟩
        · rw [NoiseSession.count_ok _ _ (by simp; omega)] at hr
          simp only [trace, Op.exec, hr, sentIn, List.filterMap_cons] at h
          have ih' := ih { s.setSend ⟨s.sendCs.k, s.sendCs.n + 1⟩ with
            mc := (s.setSend ⟨s.sendCs.k, s.sendCs.n + 1⟩).mc + 1 } (by simp; omega)
            (by simp; omega) hops'
          have hsend : NoiseSession.sendCs { s.setSend ⟨s.sendCs.k, s.sendCs.n + 1⟩ with
            mc := (s.setSend ⟨s.sendCs.k, s.sendCs.n + 1⟩).mc + 1 } = ⟨s.sendCs.k, s.sendCs.n + 1⟩ :=
            NoiseSession.setSend_sendCs _ _
          cases j with
          | zero =>
            simp only [List.getElem?_cons_zero, Option.some.injEq, Prod.mk.injEq] at h
            obtain ⟨rfl, rfl⟩ := h
            rw [sealed_eq]
            have := lt_of_ne_max hn
            exact ⟨rfl, by omega⟩
          | succ j =>
            have := ih' j p w h
            rw [hsend, toNat_succ hn] at this
            simp only at this
            rw [show s.sendCs.n.toNat + (j + 1) = s.sendCs.n.toNat + 1 + j by omega]
            exact this
        · simp only [trace, Op.exec, hr, sentIn, List.filterMap_cons] at h
          exact ih s hm (by omega) hops' j p w h
      | recv buf =>
        rcases NoiseSession.recv_cases (P := P) s buf hm with ⟨h16, q, hl, hn, hk, ho, hr⟩ | ⟨e, hr⟩
        · rw [NoiseSession.count_ok _ _ (by simp; omega)] at hr
          simp only [trace, Op.exec, hr, sentIn, List.filterMap_cons] at h
          have ih' := ih { s.setRecv ⟨s.recvCs.k, s.recvCs.n + 1⟩ with
            mc := (s.setRecv ⟨s.recvCs.k, s.recvCs.n + 1⟩).mc + 1 } (by simp; omega)
            (by simp; omega) hops' j p w h
          have hsend : NoiseSession.sendCs { s.setRecv ⟨s.recvCs.k, s.recvCs.n + 1⟩ with
            mc := (s.setRecv ⟨s.recvCs.k, s.recvCs.n + 1⟩).mc + 1 } = s.sendCs :=
            NoiseSession.setRecv_sendCs _ _
          rw [hsend] at ih'
          exact ih'
        · simp only [trace, Op.exec, hr, sentIn, List.filterMap_cons] at h
          exact ih s hm (by omega) hops' j p w h
      | setEphemeral kp =>
        simp only [trace, Op.exec, sentIn, List.filterMap_cons] at h
        exact ih (s.setEphemeralKeypair kp) hm (by simp only [NoiseSession.setEphemeralKeypair]; omega) hops' j p w h
      | _ => exact absurd (hops _ (List.mem_cons_self ..)) (by simp [Op.changesKeys])
  exact gen ops s hs hmax hops

/-- So the nonces are pairwise distinct. -/
theorem C41_distinct (s : NoiseSession) (hs : 2 ≤ s.getMessageCount) (ops : List Op)
    (hmax : s.getMessageCount + ops.length < 2 ^ 128) (hops : ∀ op ∈ ops, op.changesKeys = false)
    (j j' : Nat) (m m' : Bytes × Bytes) (hj : (sentIn (trace P s ops))[j]? = some m)
    (hj' : (sentIn (trace P s ops))[j']? = some m') (hne : j ≠ j') :
    ∃ k a a', a ≠ a' ∧ m.2 = (P.aeadSeal k a [] m.1).1 ++ (P.aeadSeal k a [] m.1).2.toList ∧
      m'.2 = (P.aeadSeal k a' [] m'.1).1 ++ (P.aeadSeal k a' [] m'.1).2.toList := by
  have h1 := C41_nonces P s hs ops hmax hops j m.1 m.2 hj
  have h2 := C41_nonces P s hs ops hmax hops j' m'.1 m'.2 hj'
  refine ⟨_, _, _, ?_, h1.1, h2.1⟩
  intro h
  have e : ∀ (a : Nat), a < 2 ^ 64 → prepNonce (UInt64.ofNat a) = NX.nonce a := by
    intro a ha
    rw [prepNonce_eq, UInt64.toNat_ofNat_of_lt' ha]
  rw [← e _ (by omega), ← e _ (by omega)] at h
  have := congrArg UInt64.toNat (C50_injective _ _ h)
  rw [UInt64.toNat_ofNat_of_lt' (show _ < 2 ^ 64 by omega), UInt64.toNat_ofNat_of_lt' (show _ < 2 ^ 64 by omega)]
    at this
  omega

/-- Once the nonce has reached `2^64 - 1`, sending fails and changes nothing. -/
theorem C41_exhausted (s : NoiseSession) (hs : 2 ≤ s.getMessageCount) (secret : Arr 32) (buf : Bytes)
    (hb : 16 ≤ buf.length ∧ buf.length ≤ 65535)
    (hn : (if s.i then s.cs1 else s.cs2).n.toNat = 2 ^ 64 - 1) :
    s.sendMessage P (Keypair.default P secret) buf = (.err .exhaustedNonceError, s, buf) := by
  have : s.sendCs.n = MAX_NONCE := by
    apply UInt64.toNat_inj.mp
    rw [MAX_NONCE_toNat]
    exact hn
  rw [NoiseSession.send_transport _ s buf (by omega) hs, CipherState.write_exhausted _ _ hb.1 this]
  simp

/-- The same for receiving. -/
theorem C41_exhausted_recv (s : NoiseSession) (hs : 2 ≤ s.getMessageCount) (buf : Bytes)
    (hb : 16 ≤ buf.length ∧ buf.length ≤ 65535)
    (hn : (if s.i then s.cs2 else s.cs1).n.toNat = 2 ^ 64 - 1) :
    s.recvMessage P buf = (.err .exhaustedNonceError, s, buf) := by
  have : s.recvCs.n = MAX_NONCE := by
    apply UInt64.toNat_inj.mp
    rw [MAX_NONCE_toNat]
    exact hn
  rw [NoiseSession.recv_transport s buf (by omega) hs, CipherState.read_eq _ _ hb.1,
    CipherState.decrypt_exhausted _ _ _ _ this]
  simp [body_tag]

/-- The two directions never share a key: equal keys are a collision of BLAKE2s on four given inputs. -/
theorem C41_directions_differ (ee es : Arr 32) (h : (NX.transportKeys P ee es).1 = (NX.transportKeys P ee es).2) :
    let block := (NX.hmac P (NX.afterES P ee es).1 []).toList ++ List.replicate 32 0
    let i1 := block.map (· ^^^ 0x36) ++ [0x01]
    let i2 := block.map (· ^^^ 0x36) ++ ((NX.transportKeys P ee es).1.toList ++ [0x02])
    let o1 := block.map (· ^^^ 0x5c) ++ (P.hash i1).toList
    let o2 := block.map (· ^^^ 0x5c) ++ (P.hash i2).toList
    (i1 ≠ i2 ∧ P.hash i1 = P.hash i2) ∨ (o1 ≠ o2 ∧ P.hash o1 = P.hash o2) := by
  intro block i1 i2 o1 o2
  have ho : P.hash o1 = P.hash o2 := h
  by_cases he : o1 = o2
  · left
    refine ⟨?_, arr_ext (List.append_cancel_left he)⟩
    intro hi
    have := congrArg List.length (List.append_cancel_left hi)
    simp [Arr.len] at this
  · exact .inr ⟨he, ho⟩

example : 2 ≤ toyI.getMessageCount ∧ ∃ m, (sentIn (trace toyPrims toyI [.send NX.zeros (List.replicate 20 5)]))[0]? =
    some m := ⟨by decide, _, rfl⟩

/-! ## C42 -/

/-- In transport mode a receive that fails changes nothing, neither the session nor the buffer. -/
theorem C42_transport (s : NoiseSession) (hs : 2 ≤ s.getMessageCount) (buf : Bytes) (e : NoiseError)
    (h : (s.recvMessage P buf).1 = .err e) : s.recvMessage P buf = (.err e, s, buf) := by
  rcases NoiseSession.recv_cases (P := P) s buf hs with ⟨_, p, _, _, _, _, hr⟩ | ⟨e', hr⟩
  · rw [hr] at h
    rcases NoiseSession.count_cases (s.setRecv ⟨s.recvCs.k, s.recvCs.n + 1⟩) (p ++ tag buf) with ⟨_, hc⟩ | ⟨_, hc⟩ <;>
      rw [hc] at h <;> cases h
  · rw [hr] at h ⊢
    cases h
    rfl

/-- So any number of rejected buffers does not matter to what follows. -/
theorem C42_rejects_ignored (s : NoiseSession) (hs : 2 ≤ s.getMessageCount) (bad : List Bytes)
    (h : ∀ b ∈ bad, ∃ e, (s.recvMessage P b).1 = .err e) : after P s (bad.map Op.recv) = s := by
  induction bad with
  | nil => rfl
  | cons b bad ih =>
    obtain ⟨e, he⟩ := h b (List.mem_cons_self ..)
    have : ((Op.recv b).exec P s).2.1 = s := by
      simp only [Op.exec, C42_transport P s hs b e he]
    rw [List.map_cons, after, this]
    exact ih fun b hb => h b (List.mem_cons_of_mem _ hb)

/-- A send that fails in transport mode changes nothing either. -/
theorem C42_send (s : NoiseSession) (hs : 2 ≤ s.getMessageCount) (secret : Arr 32) (buf : Bytes) (e : NoiseError)
    (h : (s.sendMessage P (Keypair.default P secret) buf).1 = .err e) :
    s.sendMessage P (Keypair.default P secret) buf = (.err e, s, buf) := by
  rcases NoiseSession.send_cases (P := P) (Keypair.default P secret) s buf hs with ⟨_, _, _, _, hr⟩ | ⟨e', hr⟩
  · rw [hr] at h
    rcases NoiseSession.count_cases (s.setSend ⟨s.sendCs.k, s.sendCs.n + 1⟩)
      (CipherState.sealed P s.sendCs.k s.sendCs.n [] (body buf)) with ⟨_, hc⟩ | ⟨_, hc⟩ <;>
      rw [hc] at h <;> cases h
  · rw [hr] at h ⊢
    cases h
    rfl

/-- Not so in the handshake: a rejected second message whose ephemeral key is acceptable stays in the handshake hash
of the initiator, alone or together with the encrypted static key. -/
theorem C42_handshake_state (initiator : Bool) (prologue : Bytes) (kp : Keypair) (eI : Arr 32) (buf1 w1 bad : Bytes)
    (s1 : NoiseSession) (e : NoiseError)
    (h1 : (NoiseSession.initSession P initiator prologue kp).sendMessage P (Keypair.default P eI) buf1 =
      (.ok (), s1, w1))
    (hl : 48 ≤ bad.length) (hl' : bad.length ≤ 65535) (hf : leNat (bad.take 32) ∉ Curve.lowOrder)
    (hbad : (s1.recvMessage P bad).1 = .err e) :
    (s1.recvMessage P bad).2.1.hs.ss.h = NX.transcript P [prologue, w1.take 32, w1.drop 32, bad.take 32] ∨
    (s1.recvMessage P bad).2.1.hs.ss.h =
      NX.transcript P [prologue, w1.take 32, w1.drop 32, bad.take 32, (bad.drop 32).take 48] := by
  obtain ⟨rfl, _⟩ := send_first_ok h1
  have hf' : bad.take 32 ∉ forbiddenCurveValues := fun h =>
    hf ((forbidden_iff ⟨bad.take 32, by simp; omega⟩).mp h)
  rw [NoiseSession.recv_one _ bad (by omega) rfl] at *
  have hA := rdA_mid (P := P) prologue kp (Keypair.default P eI) EMPTY
  have hB := rdB_mid (P := P) prologue kp (Keypair.default P eI) EMPTY
  rcases HandshakeState.readB_cases (P := P) (mid P initiator prologue kp (Keypair.default P eI) EMPTY (w1.take 32)
      (w1.drop 32)).hs bad with ⟨h, _⟩ | ⟨_, hff, _⟩ | ⟨_, _, h, hr⟩ | ⟨h, _, _, ho', hr⟩ |
    ⟨_, p, _, ho', hff, _, _, hr⟩ | ⟨_, p, _, _, ho', _, h, _, _, hr⟩ |
    ⟨_, p, hp, _, _, ho', hpf, h, hq, _, _, hr⟩ | ⟨_, p, hp, q, _, ho', _, h, hq, hr⟩
  · omega
  · exact absurd hff hf'
  · rw [hr]
    simp only [hA]
    exact .inl rfl
  · rw [hr]
    simp only [hA]
    exact .inl rfl
  · rw [hr]
    right
    simp only [HandshakeState.rdS, hA]
    exact (transcript_snoc (P := P) [prologue, w1.take 32, w1.drop 32, bad.take 32] (HandshakeState.partS bad)).symm
  · rw [hr] at hbad
    cases hbad
  · rw [hr]
    simp only [hB]
    exact .inr rfl
  · rw [hr] at hbad
    simp only at hbad
    rw [NoiseSession.count_ok _ _ (by simp [NoiseSession.enterTransport, mid])] at hbad
    cases hbad

/-- The consequence, with the toy primitives: after one forged second message (here: only an ephemeral key and a few
bytes) the honest second message is rejected, although it would have been accepted. -/
theorem C42_handshake_broken :
    let run : NX.Run := ⟨[], NX.zeros, NX.zeros, NX.zeros, List.replicate 16 0, []⟩
    let kp := Keypair.default toyPrims NX.zeros
    let s1 := ((NoiseSession.initSession toyPrims true [] kp).sendMessage toyPrims kp (List.replicate 48 0)).2.1
    let s2 := (s1.recvMessage toyPrims (List.replicate 48 5)).2.1
    (s1.recvMessage toyPrims (List.replicate 48 5)).1 = .err .missingrsError ∧
    (s1.recvMessage toyPrims (run.wire2 toyPrims)).1 = .ok () ∧
    (s2.recvMessage toyPrims (run.wire2 toyPrims)).1 = .err .decryptionError := by
  decide +kernel

/-! ## C46 -/

/-- After any faithful exchange in which everything was delivered, the sessions are in sync again. -/
theorem C46_drained (hA : AeadCorrect P) (i r : NoiseSession) (keys : Arr 32 × Arr 32) (n1 n2 : UInt64)
    (h : InSync i r keys n1 n2) (acts : List Act) (hf : Net.Faithful P { i := i, r := r } acts) :
    let n := Net.run P { i := i, r := r } acts
    n.gotR.length = n.sentI.length → n.gotI.length = n.sentR.length →
    ∃ m1 m2 : UInt64, InSync n.i n.r keys m1 m2 ∧ m1.toNat = n1.toNat + n.sentI.length ∧
      m2.toNat = n2.toNat + n.sentR.length := by
  intro n hR hI
  have hinv : NetInv P keys n1.toNat n2.toNat n := (NetInv.start h).run acts
  have hok := faithful_ok hA (NetInv.start h) (by simp [AllOk]) (by simp [AllOk]) acts hf
  have e1 := hinv.toR.sn
  have e2 := hinv.toR.rn
  have e3 := hinv.toI.sn
  have e4 := hinv.toI.rn
  have hmi := hinv.countI
  have hmr := hinv.countR
  have a1 : (accepted n.gotR).length = n.gotR.length := AllOk.accepted_length hok.1
  have a2 : (accepted n.gotI).length = n.gotI.length := AllOk.accepted_length hok.2
  refine ⟨n.i.cs1.n, n.r.cs2.n, ⟨hinv.roles, ?_, ?_, ?_⟩, e1, e3⟩
  · omega
  · constructor
    · rw [← hinv.toR.sk]
    · have : n.i.cs2.n = n.r.cs2.n := UInt64.toNat_inj.mp (by omega)
      rw [← hinv.toI.rk, ← this]
  · constructor
    · have : n.r.cs1.n = n.i.cs1.n := UInt64.toNat_inj.mp (by omega)
      rw [← hinv.toR.rk, ← this]
    · rw [← hinv.toI.sk]

/-- When both sides rekey at such a point, they stay in sync, with the first key replaced by the ciphertext of 32 zero
bytes; the nonces and the other key stay. -/
theorem C46_rekey (i r : NoiseSession) (keys : Arr 32 × Arr 32) (n1 n2 : UInt64) (h : InSync i r keys n1 n2) :
    ∃ k : Arr 32, k.toList = (P.aeadSeal keys.1 (Arr.replicate 12 0xFF) [] NX.zeros.toList).1 ∧
      InSync (i.rekeyLocal P) (r.rekeyLocal P) (k, keys.2) n1 n2 := by
  obtain ⟨hr, hc, ⟨hi1, hi2⟩, ⟨hr1, hr2⟩⟩ := h
  refine ⟨((⟨keys.1, n1⟩ : CipherState).rekey P).k, rfl, hr, hc, ⟨?_, hi2⟩, ⟨?_, hr2⟩⟩
  · show i.cs1.rekey P = _
    rw [hi1]
    rfl
  · show r.cs1.rekey P = _
    rw [hr1]
    rfl

/-- `rekey_remote` does the same as `rekey_local`: the key of the other direction never changes. -/
theorem C46_remote_is_local (s : NoiseSession) : s.rekeyRemote P = s.rekeyLocal P ∧ (s.rekeyRemote P).cs2 = s.cs2 :=
  ⟨rfl, rfl⟩

/-- `clear_local_cipherstate` followed by `rekey_local_cipherstate` installs a key that does not depend on the
session, with nonce 0. -/
theorem C46_clear_rekey (s s' : NoiseSession) :
    ((s.clearLocal).rekeyLocal P).cs1 = ((s'.clearLocal).rekeyLocal P).cs1 ∧
    ((s.clearLocal).rekeyLocal P).cs1.k.toList =
      (P.aeadSeal NX.zeros (Arr.replicate 12 0xFF) [] NX.zeros.toList).1 ∧
    ((s.clearLocal).rekeyLocal P).cs1.n = 0 := ⟨rfl, rfl, rfl⟩

/-- If only one side rekeys, the message that follows is rejected, unless it is accepted under a key it was not
encrypted with. -/
theorem C46_one_sided (i r : NoiseSession) (keys : Arr 32 × Arr 32) (n1 n2 : UInt64) (h : InSync i r keys n1 n2)
    (hn : n1.toNat + n2.toNat + 3 < 2 ^ 128) (secret : Arr 32) (buf : Bytes) (i' : NoiseSession) (w : Bytes)
    (hs : (i.rekeyLocal P).sendMessage P (Keypair.default P secret) buf = (.ok (), i', w)) :
    ∃ (k' : Arr 32) (c : Bytes) (mac : Arr 16), w = c ++ mac.toList ∧
      k'.toList = (P.aeadSeal keys.1 (Arr.replicate 12 0xFF) [] NX.zeros.toList).1 ∧
      P.aeadSeal k' (NX.nonce n1.toNat) [] (plain buf) = (c, mac) ∧
      ((r.recvMessage P w).1 = .ok () →
        ∃ p, P.aeadOpen keys.1 (NX.nonce n1.toNat) [] c mac = some p) := by
  obtain ⟨k', hk', hi⟩ := C46_rekey P i r keys n1 n2 h
  have b1 := n1.toNat_lt
  have b2 := n2.toNat_lt
  have hm := hi.count.1
  have hsc : (i.rekeyLocal P).sendCs = ⟨k', n1⟩ := by
    simp only [NoiseSession.sendCs, hi.roles.1, if_true]
    exact hi.initiator.1
  rcases NoiseSession.send_cases (P := P) (Keypair.default P secret) (i.rekeyLocal P) buf (by omega) with
    ⟨h16, hl, hn1, hk, hr⟩ | ⟨e, hr⟩
  · rw [NoiseSession.count_ok _ _ (by simp; omega), hs] at hr
    simp only [Prod.mk.injEq, true_and] at hr
    obtain ⟨-, rfl⟩ := hr
    refine ⟨k', _, _, ?_, hk', rfl, ?_⟩
    · rw [hsc, CipherState.sealed, prepNonce_eq]
      rfl
    · intro hok
      have hr1 : r.recvCs = ⟨keys.1, n1⟩ := by
        simp only [NoiseSession.recvCs, h.roles.2]
        exact h.responder.1
      have hmr := h.count.2
      rw [hsc] at hok
      rcases NoiseSession.recv_cases (P := P) r (CipherState.sealed P k' n1 [] (body buf)) (show 2 ≤ r.mc by omega) with ⟨_, p, _, _, _, ho, _⟩ | ⟨e, hr⟩
      · refine ⟨p, ?_⟩
        rw [hr1] at ho
        simp only [CipherState.sealed, body_append] at ho
        have ht : ∀ hh, CipherState.tagArr ((P.aeadSeal k' (prepNonce n1) [] (body buf)).1 ++
            (P.aeadSeal k' (prepNonce n1) [] (body buf)).2.toList) hh =
            (P.aeadSeal k' (prepNonce n1) [] (body buf)).2 := by
          intro hh
          apply arr_ext
          exact tag_append _ _
        rw [ht, prepNonce_eq] at ho
        exact ho
      · rw [hr] at hok
        cases hok
  · rw [hs] at hr
    cases hr

/-- With the toy primitives it is rejected; and both sides rekeying works. -/
example :
    let w := ((toyI.rekeyLocal toyPrims).sendMessage toyPrims (Keypair.default toyPrims NX.zeros)
      (List.replicate 20 5)).2.2
    (toyR.recvMessage toyPrims w).1 = .err .decryptionError ∧
    ((toyR.rekeyLocal toyPrims).recvMessage toyPrims w).1 = .ok () := by decide +kernel

/-! ## C49 -/

/-- After a successful receive in transport mode the buffer is the plaintext followed by the sender's tag, unchanged:
the last 16 bytes are not zeroed. -/
theorem C49_tag_stays (s : NoiseSession) (hs : 2 ≤ s.getMessageCount) (w b : Bytes) (s' : NoiseSession)
    (h : s.recvMessage P w = (.ok (), s', b)) :
    ∃ (c : Bytes) (mac : Arr 16) (p : Bytes), w = c ++ mac.toList ∧ b = p ++ mac.toList ∧
      P.aeadOpen (if s.i then s.cs2 else s.cs1).k (NX.nonce (if s.i then s.cs2 else s.cs1).n.toNat) [] c mac =
        some p := by
  rcases NoiseSession.recv_cases (P := P) s w hs with ⟨h16, p, _, _, _, ho, hr⟩ | ⟨e, hr⟩
  · refine ⟨body w, CipherState.tagArr w h16, p, (body_tag w).symm, ?_, ?_⟩
    · rw [h] at hr
      rcases NoiseSession.count_cases (s.setRecv ⟨s.recvCs.k, s.recvCs.n + 1⟩) (p ++ tag w) with ⟨_, hc⟩ | ⟨_, hc⟩ <;>
        rw [hc] at hr <;> cases hr
      rfl
    · rw [prepNonce_eq] at ho
      exact ho
  · rw [h] at hr
    cases hr

/-- And it need not be zero. -/
theorem C49_nonzero : ∃ (P : Prims) (s s' : NoiseSession) (w b : Bytes), AeadCorrect P ∧ AeadTight P ∧
    2 ≤ s.getMessageCount ∧ s.recvMessage P w = (.ok (), s', b) ∧ b.drop (b.length - 16) ≠ List.replicate 16 0 :=
  ⟨toyPrims, toyR, (toyR.recvMessage toyPrims (NX.enc toyPrims (Arr.replicate 32 3) 0 [] [5, 5])).2.1,
    NX.enc toyPrims (Arr.replicate 32 3) 0 [] [5, 5],
    (toyR.recvMessage toyPrims (NX.enc toyPrims (Arr.replicate 32 3) 0 [] [5, 5])).2.2,
    toy_correct, toy_tight, by decide, by
      have : (toyR.recvMessage toyPrims (NX.enc toyPrims (Arr.replicate 32 3) 0 [] [5, 5])).1 = .ok () := by
        decide +kernel
      rw [← this], by decide +kernel⟩

/-! ## C56 -/

/-- `rekey` uses twelve 0xFF bytes as the nonce. -/
theorem C56_rekey (cs : CipherState) : (cs.rekey P).n = cs.n ∧
    (cs.rekey P).k.toList = (P.aeadSeal cs.k (Arr.replicate 12 0xFF) [] NX.zeros.toList).1 := ⟨rfl, rfl⟩

/-- That is not the nonce of the Noise specification, four zero bytes and eight 0xFF bytes; so the new key differs
from `REKEY(k)`, for some primitives that satisfy all laws. -/
theorem C56_deviates : ∃ (P : Prims) (cs : CipherState), AeadCorrect P ∧ AeadTight P ∧ DhLaws P ∧
    (cs.rekey P).k.toList ≠ NX.rekey P cs.k :=
  ⟨toyPrims, CipherState.new, toy_correct, toy_tight, toy_dh, by decide +kernel⟩

end SV2
