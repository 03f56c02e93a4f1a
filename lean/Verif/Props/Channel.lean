import Verif.Lemmas.Channel
import Verif.Props.Impersonation
/-!
# C96: a client talks to a server through an attacker, if ChaCha20 is random

The attacker, and what it means to break the connection, are in `Verif/Spec/Channel.lean`.
-/

namespace SV2.Stack
open Noise

variable (P : Prims) (rest : Arr 32 → Arr 12 → Nat → UInt8)

/-- The client's session when it has accepted an answer. -/
def clientAfter (prologue : Bytes) (eI : Arr 32) (first second : Bytes) (rs : Arr 32) : NoiseSession :=
  done true rs (NX.transcript P [prologue, first.take 32, first.drop 32, second.take 32, (second.drop 32).take 48, second.drop 80])
    (NX.transportKeys P (P.dh eI (keyIn second)) (P.dh eI rs)) 1

theorem client_after {stream : Arr 32 → Arr 12 → Nat → UInt8} {mk : OneTime} {prologue : Bytes} {s : Keypair}
    {eI : Arr 32} {first w out : Bytes} {i2 : NoiseSession} {rs : Arr 32}
    (h : (mid P true prologue s (Keypair.default P eI) EMPTY (first.take 32) (first.drop 32)).recvMessage
      (P.withMac stream mk) w = (.ok (), i2, out))
    (hrs : i2.getRemoteStaticPublicKey = some rs) : i2 = clientAfter P prologue eI first w rs := by
  obtain ⟨re, rs', hl, hre, _, _, _, _, _, hdone⟩ := recv_second_ok (P := P.withMac stream mk) h
  have hr : rs' = rs := by
    rw [hdone] at hrs
    exact Option.some.inj hrs
  subst hr
  obtain rfl := eq_keyIn (by omega) hre
  exact hdone

/-- A client has sent its first message.  An attacker that computes any blocks of ChaCha20, and has responders with any
secrets - the real servers among them - answer any messages, gives it a reply; if the client accepts, the attacker goes on
as the network between the client and the responder, has both sides send any frames and rekey at most `E` times each, and
delivers at most `q` messages.  For all but a share of `(q + 1) / 2^91` of the block functions: if the client accepts, then
a responder made this very answer for this very message, and what each of the two reads is the beginning of the frames
that the other one sent - or the attacker computed a block with the payload key or a session key, or one of these keys
was used for something else, or there is a collision of the hash function. -/
theorem C96_channel (hD : DhLaws P) (prologue : Bytes) (kp : Keypair) (eI : Arr 32) (buf1 w1 : Bytes) (i1 : NoiseSession)
    (h1 : (NoiseSession.initSession P true prologue kp).sendMessage P (Keypair.default P eI) buf1 = (.ok (), i1, w1))
    (impostor : Impostor) (network : Played Bytes → Asker) (E q : Nat)
    (hq : ∀ p blocks, ((network p).forger P rest blocks).AtMost q)
    (hE : ∀ p blocks, ((network p).forger P rest blocks).Rekeys E) (rounds : Nat) :
    2 ^ 91 * Nat.card {blocks : Blocks // Broken P rest blocks prologue eI i1 w1 impostor network E rounds} ≤
      (q + 1) * Nat.card Blocks := by
  classical
  have hfool := C95_impostor P rest hD prologue kp eI buf1 w1 i1 h1 impostor
  obtain ⟨hmid, hpub, _⟩ := send_first_ok h1
  let fool : Blocks → Prop := fun b => Fooled P rest prologue eI i1 w1 impostor b
  let bad : Blocks → Prop := fun b => Broken P rest b prologue eI i1 w1 impostor network E rounds
  have hcut : 2 ^ 91 * Nat.card {b : Blocks // bad b ∧ ¬ fool b} ≤ q * Nat.card Blocks := by
    have e : {b : Blocks // bad b ∧ ¬ fool b} ≃
        {x : Others × OneTime // bad (Blocks.join x.1 x.2) ∧ ¬ fool (Blocks.join x.1 x.2)} :=
      Blocks.split.subtypeEquiv fun b => by
        have : Blocks.join (Blocks.split b).1 (Blocks.split b).2 = b := Blocks.split.symm_apply_apply b
        rw [this]
    rw [Nat.card_congr e, Nat.card_congr Blocks.split]
    refine card_prod_le (2 ^ 91) q (fun o mk => bad (Blocks.join o mk) ∧ ¬ fool (Blocks.join o mk)) fun o => ?_
    refine card_fiber (fun mk => impostor.play P rest (Blocks.join o mk)) _ (2 ^ 91) q fun p => ?_
    have hst : ∀ mk, (Blocks.join o mk).stream rest = streamOf rest o := fun mk => Blocks.stream_join rest o mk _
    -- what follows for every choice of one-time keys with this run of the attacker
    have key : ∀ (s : Arr 32 × Answer), s ∈ p.served → s.2.prologue = prologue → s.2.first = w1 → s.2.second = p.result →
        ∀ mk, impostor.play P rest (Blocks.join o mk) = p → bad (Blocks.join o mk) →
        let i2 := clientAfter P prologue eI w1 p.result (P.publicOf s.1)
        let start : SNet := { rnet := { net := { i := i2, r := s.2.session } } }
        InSync i2 s.2.session (i2.cs1.k, i2.cs2.k) 0 0 ∧
        Private (streamOf rest o) (i2.cs1.k, i2.cs2.k) E
          (p.used P ++ (network p).used P rest (Blocks.join o mk) start rounds) ∧
        ¬ (SNet.attacked (P.withBlocks rest (Blocks.join o mk)) ((network p).forger P rest (Blocks.join o mk))
          start rounds).1.Genuine := by
      intro s hs e1 e2 e3 mk hp hbad i2 start
      have hser := served_answer P rest (Blocks.join o mk) impostor
      obtain ⟨i2', out, rs, hrecv, hrs, hcare, hno⟩ := hbad
      rw [hp] at hser hrecv hcare hno
      obtain ⟨c, hc, hans⟩ := hser s hs
      rw [withBlocks_join o mk fun _ => EMPTY] at hans hrecv
      rw [hmid] at hrecv
      have ha := Serving.answered (P.withMac (streamOf rest o) mk) ⟨hD.comm, hD.public_ok⟩ (withMac_correct P _ mk) hans
        hpub hrecv hrs e1 e2 e3
      rw [hc] at ha
      have hi := client_after P hrecv hrs
      have hr : rs = P.publicOf s.1 := ha.static
      rw [hr] at hi
      have hi : i2' = i2 := hi
      subst hi
      have hn := fun g => hno ⟨s, hs, ⟨ha.1, ha.2, ha.3, ha.4, ha.5, ha.6, ha.7⟩, g⟩
      simp only [hst] at hn
      obtain ⟨hn1, hn2⟩ := Classical.not_imp.mp hn
      refine ⟨?_, hn1, hn2⟩
      obtain ⟨keys, hk⟩ := ha.keys
      have hk1 : i2.cs1.k = keys.1 := by rw [hk.initiator.1]
      have hk2 : i2.cs2.k = keys.2 := by rw [hk.initiator.2]
      rw [hk1, hk2]
      exact hk
    by_cases hne : Nonempty {mk // impostor.play P rest (Blocks.join o mk) = p ∧
        (bad (Blocks.join o mk) ∧ ¬ fool (Blocks.join o mk))}
    · obtain ⟨mk0, hp0, hb0, hf0⟩ := hne
      have : ∃ s ∈ p.served, s.2.prologue = prologue ∧ s.2.first = w1 ∧ s.2.second = p.result := by
        obtain ⟨i2, out, rs, hrecv, hrs, hcare, _⟩ := hb0
        by_contra hno
        refine hf0 ⟨i2, out, rs, hrecv, hrs, hcare, ?_⟩
        rintro ⟨s, hs, ha⟩
        rw [hp0] at hs ha
        exact hno ⟨s, hs, ha.prologue, ha.first, ha.second⟩
      obtain ⟨s, hs, e1, e2, e3⟩ := this
      obtain ⟨hsync, hpriv, -⟩ := key s hs e1 e2 e3 mk0 hp0 hb0
      let i2 := clientAfter P prologue eI w1 p.result (P.publicOf s.1)
      have hused : ∀ k ∈ p.used P, ¬ SessionKey (streamOf rest o) (i2.cs1.k, i2.cs2.k) E k :=
        fun k hk => hpriv.unused k (List.mem_append_left _ hk)
      have hG : Apart (streamOf rest o) (i2.cs1.k, i2.cs2.k) E fun mk => impostor.play P rest (Blocks.join o mk) = p := by
        intro mk row y hrow
        have hup : ∀ r : Arr 32 × Arr 12, ¬ SessionKey (streamOf rest o) (i2.cs1.k, i2.cs2.k) E r.1 → Function.update mk row y r = mk r :=
          fun r hr => Function.update_of_ne (fun e => hr (by rw [e]; exact hrow)) _ _
        apply propext
        constructor
        · intro h
          rw [← h]
          exact play_apart o (K := SessionKey (streamOf rest o) (i2.cs1.k, i2.cs2.k) E) hup impostor (by rw [h]; exact hused)
        · intro h
          rw [← h]
          exact play_apart o (K := SessionKey (streamOf rest o) (i2.cs1.k, i2.cs2.k) E) (fun r hr => (hup r hr).symm) impostor
            (by rw [h]; exact hused)
      have hc := card_network (P := P) o (asker := network p) (fun mk => hE p _) (fun mk => hq p _) hsync hpriv.distinct hG rounds
      refine le_trans (Nat.mul_le_mul_left _ ?_) hc
      refine Nat.card_le_card_of_injective (fun mk => ⟨mk.1, mk.2.1, ?_⟩) fun a b h => Subtype.ext (congrArg (fun x => x.1) h)
      obtain ⟨-, g1, g2⟩ := key s hs e1 e2 e3 mk.1 mk.2.1 mk.2.2.1
      exact ⟨fun k hk => g1.unused k (List.mem_append_right _ hk), g2⟩
    · have : IsEmpty {mk // impostor.play P rest (Blocks.join o mk) = p ∧
        (bad (Blocks.join o mk) ∧ ¬ fool (Blocks.join o mk))} := not_nonempty_iff.mp hne
      rw [Nat.card_of_isEmpty]
      simp
  have h3 : Nat.card {b : Blocks // bad b} ≤ Nat.card {b : Blocks // bad b ∧ ¬ fool b} + Nat.card {b : Blocks // fool b} := by
    have f1 : Finite {b : Blocks // bad b ∧ ¬ fool b} := inferInstance
    have f2 : Finite {b : Blocks // fool b} := inferInstance
    rw [← Nat.card_sum]
    refine Nat.card_le_card_of_injective
      (fun b => if hr : fool b.1 then Sum.inr ⟨b.1, hr⟩ else Sum.inl ⟨b.1, b.2, hr⟩) fun a b hab => ?_
    by_cases ha : fool a.1 <;> by_cases hb : fool b.1 <;> simp only [ha, hb, dif_pos, dif_neg, not_false_iff] at hab
    · exact Subtype.ext (congrArg (fun x => x.1) (Sum.inr.inj hab))
    · cases hab
    · cases hab
    · exact Subtype.ext (congrArg (fun x => x.1) (Sum.inl.inj hab))
  calc 2 ^ 91 * Nat.card {b : Blocks // bad b}
      ≤ 2 ^ 91 * (Nat.card {b : Blocks // bad b ∧ ¬ fool b} + Nat.card {b : Blocks // fool b}) := Nat.mul_le_mul_left _ h3
    _ = 2 ^ 91 * Nat.card {b : Blocks // bad b ∧ ¬ fool b} + 2 ^ 91 * Nat.card {b : Blocks // fool b} := Nat.mul_add _ _ _
    _ ≤ q * Nat.card Blocks + Nat.card Blocks := Nat.add_le_add hcut hfool
    _ = (q + 1) * Nat.card Blocks := by ring

/-- The second part alone: two sessions after any handshake, and an attacker on the network that computes blocks and has
responders run handshakes.  For all but a share of `q / 2^91` of the block functions, what each side reads is the
beginning of the frames the other one sent, or one of the session keys was used for something else. -/
theorem C96_network (i r : NoiseSession) (keys : Arr 32 × Arr 32) (n1 n2 : UInt64) (h : InSync i r keys n1 n2)
    (asker : Asker) (E q : Nat) (hq : ∀ blocks, (asker.forger P rest blocks).AtMost q)
    (hE : ∀ blocks, (asker.forger P rest blocks).Rekeys E) (rounds : Nat) :
    let start : SNet := { rnet := { net := { i := i, r := r } } }
    2 ^ 91 * Nat.card {blocks : Blocks //
      Private (blocks.stream rest) keys E (asker.used P rest blocks start rounds) ∧
      ¬ (SNet.attacked (P.withBlocks rest blocks) (asker.forger P rest blocks) start rounds).1.Genuine} ≤
    q * Nat.card Blocks := by
  classical
  intro start
  let bad : Blocks → Prop := fun b => Private (b.stream rest) keys E (asker.used P rest b start rounds) ∧
    ¬ (SNet.attacked (P.withBlocks rest b) (asker.forger P rest b) start rounds).1.Genuine
  have e : {b : Blocks // bad b} ≃ {x : Others × OneTime // bad (Blocks.join x.1 x.2)} :=
    Blocks.split.subtypeEquiv fun b => by
      have : Blocks.join (Blocks.split b).1 (Blocks.split b).2 = b := Blocks.split.symm_apply_apply b
      rw [this]
  show 2 ^ 91 * Nat.card {b : Blocks // bad b} ≤ _
  rw [Nat.card_congr e, Nat.card_congr Blocks.split]
  refine card_prod_le (2 ^ 91) q (fun o mk => bad (Blocks.join o mk)) fun o => ?_
  have hst : ∀ mk, (Blocks.join o mk).stream rest = streamOf rest o := fun mk => Blocks.stream_join rest o mk _
  by_cases hk : ∀ e ≤ E, streamKey (streamOf rest o) keys.1 e ≠ keys.2
  · have hc := card_network (P := P) (rest := rest) o (asker := asker) (fun mk => hE _) (fun mk => hq _) h hk
      (G := fun _ => True) (fun _ _ _ _ => rfl) rounds
    simp only [true_and, Nat.card_congr (Equiv.subtypeUnivEquiv fun (_ : OneTime) => trivial)] at hc
    refine le_trans (Nat.mul_le_mul_left _ ?_) hc
    refine Nat.card_le_card_of_injective (fun mk => ⟨mk.1, ?_, mk.2.2⟩) fun a b h => Subtype.ext (congrArg (fun x => x.1) h)
    have := mk.2.1.unused
    rw [hst] at this
    exact this
  · have : IsEmpty {mk : OneTime // bad (Blocks.join o mk)} := by
      refine ⟨fun mk => hk ?_⟩
      have := mk.2.1.distinct
      rw [hst] at this
      exact this
    rw [Nat.card_of_isEmpty]
    simp

/-- The responder reads the frame that somebody with the key encrypted. -/
theorem step_forged {Q : Prims} (hA : AeadCorrect Q) {i r : NoiseSession} {keys : Arr 32 × Arr 32} {n1 n2 : UInt64}
    (h : InSync i r keys n1 n2) (hk : keys.1 ≠ EMPTY) (hn : n1 ≠ MAX_NONCE) {f : Message} (hf : f.payload.length ≤ 65513) :
    let n := SNet.step Q { rnet := { net := { i := i, r := r } } } (.stack (.toR (NX.enc Q keys.1 n1.toNat [] (Wire.frame f))))
    Stack.read n.rnet.net.gotR = [.ok f] ∧ n.framesI = [] ∧ ¬ n.Genuine := by
  intro n
  have hfl := wire_frame_length f
  have hwl : (NX.enc Q keys.1 n1.toNat [] (Wire.frame f)).length = (Wire.frame f).length + 16 := enc_length _ _ _ _
  obtain ⟨w, hwQ⟩ : ∃ w, w = NX.enc Q keys.1 n1.toNat [] (Wire.frame f) := ⟨_, rfl⟩
  rw [← hwQ] at hwl
  have hrecv : r.recvMessage Q w =
      (.ok (), { r with cs1 := ⟨keys.1, n1 + 1⟩, mc := r.mc + 1 }, Wire.frame f ++ tag w) := by
    have hcs : r.recvCs = ⟨keys.1, n1⟩ := by simp [NoiseSession.recvCs, h.roles.2, h.responder.1]
    have hm := h.count.2
    have b1 := n1.toNat_lt
    have b2 := n2.toNat_lt
    have ho : Q.aeadOpen r.recvCs.k (prepNonce r.recvCs.n) [] (body w) (CipherState.tagArr w (by omega)) =
        some (Wire.frame f) := by
      subst hwQ
      rw [hcs, body_enc, tagArr_enc, prepNonce_eq]
      exact hA _ _ _ _
    rw [NoiseSession.recv_transport r w (by omega) (by omega), CipherState.read_eq _ _ (by omega),
      CipherState.decrypt_some _ _ _ _ _ (by rw [hcs]; exact hn) (by rw [hcs]; exact hk) ho]
    simp only []
    rw [NoiseSession.count_ok _ _ (by simp; omega), setRecv_false h.roles.2, hcs]
  have e : n = SNet.step Q { rnet := { net := { i := i, r := r } } } (.stack (.toR w)) := by rw [hwQ]
  have hread : Stack.read n.rnet.net.gotR = [.ok f] := by
    rw [e]
    simp only [SNet.step, SAct.act, StackAct.act, RNet.step, Net.step, hrecv]
    show [deserialize Message (Wire.frame f ++ tag w)] = _
    rw [read_plain hf (plain_append (tag_length (by omega)))]
  have hnone : n.framesI = [] := by
    rw [e]
    simp only [SNet.step, SAct.act, StackAct.act, RNet.step, Net.step]
    rfl
  refine ⟨hread, hnone, fun g => ?_⟩
  have := g.toR
  rw [hread, hnone] at this
  exact absurd (List.prefix_nil.mp this) (by simp)

/-- The condition on the session keys is needed: for any two sessions after a handshake and any frame there is an attacker
that computes the blocks of one row of the responder's receiving key, makes one delivery, and has the responder read the
frame though the initiator sent nothing, whatever the block function is. -/
theorem C96_informed (i r : NoiseSession) (keys : Arr 32 × Arr 32) (n1 n2 : UInt64) (h : InSync i r keys n1 n2)
    (hk : keys.1 ≠ EMPTY) (hn : n1 ≠ MAX_NONCE) (f : Message) (hf : f.payload.length ≤ 65513) :
    ∃ asker : Asker, ∀ blocks : Blocks,
      let start : SNet := { rnet := { net := { i := i, r := r } } }
      let n := (SNet.attacked (P.withBlocks rest blocks) (asker.forger P rest blocks) start 1).1
      (asker.forger P rest blocks).AtMost 1 ∧ (asker.forger P rest blocks).Rekeys 0 ∧
      (∀ k ∈ asker.used P rest blocks start 1, k = keys.1) ∧
      Stack.read n.rnet.net.gotR = [.ok f] ∧ n.framesI = [] ∧ ¬ n.Genuine := by
  let wire : Blocks → Bytes := fun b => NX.enc (P.withBlocks rest b) keys.1 n1.toNat [] (Wire.frame f)
  let other : Asking SAct := .reply (.stack (.iSend EMPTY sampleFrame (Arr.replicate 16 0)))
  let asker : Asker := fun past =>
    match past with
    | [n] => if n.rnet.net.gotR.length + n.rnet.net.gotI.length = 0 then
        Asking.learn (fun b => .reply (.stack (.toR (wire b)))) (rowOf keys.1 n1.toNat) (fun _ => Arr.replicate 64 0) else other
    | _ => other
  refine ⟨asker, fun blocks => ?_⟩
  intro start n
  obtain ⟨b', hb, -, hp⟩ := Asking.play_learn (P := P) (rest := rest) (fun b => SAct.stack (.toR (wire b))) blocks
    (rowOf keys.1 n1.toNat) (fun _ => Arr.replicate 64 0)
  have hw : wire b' = wire blocks := enc_row hb _ _
  rw [hw] at hp
  have hother : (other.play P rest blocks).result = .stack (.iSend EMPTY sampleFrame (Arr.replicate 16 0)) := rfl
  generalize hQ : P.withBlocks rest blocks = Q at *
  have hA : AeadCorrect Q := by rw [← hQ]; exact withMac_correct P _ blocks.oneTime
  generalize hW : wire blocks = w at *
  have hwQ : w = NX.enc Q keys.1 n1.toNat [] (Wire.frame f) := by rw [← hW, ← hQ]
  have hact : asker.forger P rest blocks [start] = .stack (.toR w) := by
    show (Asking.play P rest blocks (if (0 : Nat) = 0 then _ else _)).result = _
    rw [if_pos rfl, hp]
  have one : ∀ (Q : Prims) (forger : SForger) (s : SNet), (SNet.attacked Q forger s 1).1 = s.step Q (forger [s]) :=
    fun _ _ _ => rfl
  have e : n = start.step Q (.stack (.toR w)) := by
    rw [← hact, ← one, ← hQ]
  obtain ⟨hread, hnone, hno⟩ := step_forged hA h hk hn hf
  rw [← hwQ] at hread hnone hno
  rw [← e] at hread hnone hno
  refine ⟨?_, ?_, ?_, hread, hnone, hno⟩
  · intro m past w' hq
    have : asker.forger P rest blocks (m :: past) = .stack (.iSend EMPTY sampleFrame (Arr.replicate 16 0)) := by
      cases past with
      | nil =>
        show (Asking.play P rest blocks (if m.rnet.net.gotR.length + m.rnet.net.gotI.length = 0 then _ else other)).result = _
        rw [if_neg (by omega)]
        exact hother
      | cons m' past => exact hother
    rw [this]
    constructor <;> intro h <;> cases h
  · intro m past remote
    have : asker.forger P rest blocks (m :: past) = .stack (.iSend EMPTY sampleFrame (Arr.replicate 16 0)) ∨
        asker.forger P rest blocks (m :: past) = .stack (.toR w) := by
      cases past with
      | nil =>
        show (Asking.play P rest blocks (if m.rnet.net.gotR.length + m.rnet.net.gotI.length = 0 then _ else other)).result = _ ∨
          (Asking.play P rest blocks (if m.rnet.net.gotR.length + m.rnet.net.gotI.length = 0 then _ else other)).result = _
        split
        · rw [hp]; exact .inr rfl
        · exact .inl hother
      | cons m' past => exact .inl hother
    rcases this with e | e <;> rw [e] <;> constructor <;> intro _ h <;> cases h
  · intro k hk
    have hk : k ∈ Asker.used P rest blocks asker start 0 ++ ((asker [start]).play P rest blocks).used P := hk
    have hpl : (asker [start]).play P rest blocks =
        { result := .stack (.toR w), keys := (rowOf keys.1 n1.toNat).map (·.1) } := by
      show Asking.play P rest blocks (if (0 : Nat) = 0 then _ else _) = _
      rw [if_pos rfl, hp]
    rw [hpl] at hk
    simp only [Asker.used, Played.used, List.flatMap_nil, List.append_nil, List.nil_append, rowOf, List.map_map,
      List.mem_map, Function.comp] at hk
    obtain ⟨_, _, rfl⟩ := hk
    rfl

/-! ## Cases -/

/-- A network that passes on the first message of each side, and changes the second one to the responder. -/
def courier (_ : Played Bytes) : Asker := fun past =>
  match past with
  | [] => .reply (.stack (.iSend EMPTY sampleFrame (Arr.replicate 16 0)))
  | n :: past =>
    if 3 ≤ n.rnet.net.gotR.length + n.rnet.net.gotI.length then .reply (.stack (.iSend EMPTY sampleFrame (Arr.replicate 16 0)))
    else
      let wireI := fun j => (n.rnet.net.sentI.map (·.2)).getD j []
      let wireR := fun j => (n.rnet.net.sentR.map (·.2)).getD j []
      match past.length with
      | 0 => .reply (.stack (.iSend EMPTY sampleFrame (Arr.replicate 16 0)))
      | 1 => .block (Arr.replicate 32 2, NX.nonce 0, 0) fun _ => .reply (.stack (.toR (wireI 0)))
      | 2 => .reply (.stack (.rSend EMPTY ⟨.setupConnectionSuccess, [2, 0, 1, 0, 0, 0]⟩ (Arr.replicate 16 0)))
      | 3 => .reply (.stack (.toI (wireR 0)))
      | 4 => .reply (.stack (.iSend EMPTY sampleFrame (Arr.replicate 16 0)))
      | _ => .reply (.stack (.toR ((wireI 1).set 0 0)))

example : ∀ p blocks, ((courier p).forger toyPrims (fun _ _ _ => 7) blocks).AtMost 3 ∧
    ((courier p).forger toyPrims (fun _ _ _ => 7) blocks).Rekeys 0 := by
  intro p blocks
  constructor
  · intro n past w h
    have : (courier p).forger toyPrims (fun _ _ _ => 7) blocks (n :: past) =
        .stack (.iSend EMPTY sampleFrame (Arr.replicate 16 0)) := by
      unfold Asker.forger courier
      simp only [if_pos h]
      rfl
    rw [this]
    constructor <;> intro h <;> cases h
  · intro n past remote
    unfold Asker.forger courier
    simp only []
    constructor <;> intro h e <;> split at e
    · cases e
    · split at e <;> cases e
    · cases e
    · split at e <;> cases e

/-- The client accepts the server's answer, the two read each other's frames, and not the changed one; no session key was
used for anything else. -/
example : let rest := fun _ _ _ => 7
    let m := firstOf (Arr.replicate 32 3)
    let p := (between m.2.2 id).play toyPrims rest toyBlocks
    let Q := toyPrims.withBlocks rest toyBlocks
    let c := m.2.1.recvMessage Q p.result
    let start : SNet := { rnet := { net := { i := c.2.1, r := (p.served.map (·.2.session)).getD 0 toyR } } }
    let n := (SNet.attacked Q ((courier p).forger toyPrims rest toyBlocks) start 6).1
    let used := p.used toyPrims ++ (courier p).used toyPrims rest toyBlocks start 6
    c.1 = .ok () ∧ p.served.length = 1 ∧ n.rnet.net.gotR.map (·.2.1) = [.ok (), .err .decryptionError] ∧
    Stack.read n.rnet.net.gotR = [.ok sampleFrame] ∧ n.framesI = [sampleFrame, sampleFrame] ∧
    Stack.read n.rnet.net.gotI = [.ok ⟨.setupConnectionSuccess, [2, 0, 1, 0, 0, 0]⟩] ∧
    c.2.1.cs1.k ∉ used ∧ c.2.1.cs2.k ∉ used ∧ c.2.1.cs1.k ≠ c.2.1.cs2.k := by
  decide +kernel

/-- A network that computes the blocks of the session key. -/
def informed (_ : Played Bytes) : Asker := fun past =>
  match past with
  | [] => .reply (.stack (.iSend EMPTY sampleFrame (Arr.replicate 16 0)))
  | n :: _ =>
    let k := n.rnet.net.i.cs1.k
    .block (k, NX.nonce 0, 0) fun x0 => .block (k, NX.nonce 0, 1) fun x1 =>
    let blocks : Blocks := fun x => if x.2.2 = 0 then x0 else x1
    .reply (.stack (.toR (NX.enc (toyPrims.withBlocks (fun _ _ _ => 7) blocks) k 0 [] (Wire.frame sampleFrame))))

/-- The server reads a frame that nobody sent: the condition on the session keys is needed. -/
example : let rest := fun _ _ _ => 7
    let m := firstOf (Arr.replicate 32 3)
    let p := (between m.2.2 id).play toyPrims rest toyBlocks
    let Q := toyPrims.withBlocks rest toyBlocks
    let c := m.2.1.recvMessage Q p.result
    let start : SNet := { rnet := { net := { i := c.2.1, r := (p.served.map (·.2.session)).getD 0 toyR } } }
    let n := (SNet.attacked Q ((informed p).forger toyPrims rest toyBlocks) start 1).1
    Stack.read n.rnet.net.gotR = [.ok sampleFrame] ∧ n.framesI = [] ∧
      c.2.1.cs1.k ∈ (informed p).used toyPrims rest toyBlocks start 1 := by
  decide +kernel

/-- The hypotheses of `C96_informed`. -/
example : InSync toyI toyR (Arr.replicate 32 3, Arr.replicate 32 4) 0 0 ∧ (Arr.replicate 32 3 : Arr 32) ≠ EMPTY ∧
    (0 : UInt64) ≠ MAX_NONCE ∧ sampleFrame.payload.length ≤ 65513 := ⟨toy_inSync, by decide +kernel⟩

end SV2.Stack
