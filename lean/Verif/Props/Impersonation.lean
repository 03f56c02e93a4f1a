import Verif.Lemmas.Impersonation
import Verif.Props.Authentication
import Verif.Props.Ideal
/-!
# C95: nobody answers for a server without its key, if ChaCha20 is random

The attacker, and what it means to fool a client, are in `Verif/Spec/Impersonation.lean`.
-/

namespace SV2.Noise

variable (P : Prims) (rest : Arr 32 → Arr 12 → Nat → UInt8)

/-- An answer that was made for this client, received by it: the client and the responder agree. -/
theorem Serving.answered (hD : DhLaws P) (hA : AeadCorrect P) {c : Serving} {a : Answer} (ha : c.answer P = some a)
    {prologue : Bytes} {s : Keypair} {eI : Arr 32} {first second out : Bytes} {i2 : NoiseSession} {rs : Arr 32}
    (hfirst : first.take 32 = (P.publicOf eI).toList)
    (h2 : (mid P true prologue s (Keypair.default P eI) EMPTY (first.take 32) (first.drop 32)).recvMessage P second =
      (.ok (), i2, out))
    (hrs : i2.getRemoteStaticPublicKey = some rs)
    (e1 : a.prologue = prologue) (e2 : a.first = first) (e3 : a.second = second) :
    Answered P prologue first second i2 out rs c.sR a := by
  obtain ⟨hok, rfl⟩ := (c.answer_iff a).mp ha
  obtain ⟨f1, f2, f3⟩ := c.made_parts (P := P)
  rw [e3] at f1 f2 f3
  have e2' : c.first = first := e2
  have hei : keyIn c.first = P.publicOf eI := by
    symm
    apply eq_keyIn (by have := hok.first; omega)
    rw [e2', hfirst]
  obtain ⟨re, rs', hl, hre, _, _, hl', ho, ⟨q, hq, hout⟩, hdone⟩ := recv_second_ok h2
  have hr : rs' = rs := by
    rw [hdone] at hrs
    exact Option.some.inj hrs
  subst hr
  have her : re = P.publicOf c.eR := arr_ext (by rw [hre, f1])
  subst her
  have hsplit : second = (P.publicOf c.eR).toList ++ c.encS P ++ c.encP P := e3.symm
  have hk1 : (NX.afterEE P (P.dh (Keypair.default P eI).private_key (P.publicOf c.eR))).2 ≠ NX.zeros := by
    have := hok.k1
    rw [hei, hD.comm c.eR eI] at this
    exact this
  have hS : c.encS P = NX.encryptedStatic P prologue (first.take 32) (first.drop 32) (P.publicOf c.eR).toList
      (P.dh (Keypair.default P eI).private_key (P.publicOf c.eR)) (P.publicOf c.sR).toList := by
    unfold Serving.encS
    rw [hei, hD.comm c.eR eI, e2', show c.prologue = prologue from e1]
    rfl
  have hstat := openS_mid hA true prologue s (Keypair.default P eI) EMPTY (P.publicOf c.eR) (P.publicOf c.sR)
    (first.take 32) (first.drop 32) (c.encP P) hk1 second (by rw [hsplit, hS]) (by omega)
  rw [hstat] at ho
  have hrs' : rs' = P.publicOf c.sR := arr_ext (Option.some.inj ho).symm
  subst hrs'
  have hk2 : (NX.afterES P (P.dh (Keypair.default P eI).private_key (P.publicOf c.eR))
      (P.dh (Keypair.default P eI).private_key (P.publicOf c.sR))).2 ≠ NX.zeros := by
    have := hok.k2
    rw [hei, hD.comm c.eR eI, hD.comm c.sR eI] at this
    exact this
  have hP : c.encP P = NX.encryptedPayload P prologue (first.take 32) (first.drop 32) (P.publicOf c.eR).toList (c.encS P)
      (P.dh (Keypair.default P eI).private_key (P.publicOf c.eR))
      (P.dh (Keypair.default P eI).private_key (P.publicOf c.sR)) (body (c.buf.drop 80)) := by
    unfold Serving.encP
    rw [hei, hD.comm c.eR eI, hD.comm c.sR eI, e2', show c.prologue = prologue from e1]
    rfl
  have hlen : second.length = 80 + (body (c.buf.drop 80)).length + 16 := by
    rw [hsplit]
    simp only [List.length_append, c.encS_length, c.encP_length, (P.publicOf c.eR).len]
    omega
  have hrecv := recv_second hA true prologue s (Keypair.default P eI) EMPTY (P.publicOf c.eR) (P.publicOf c.sR)
    (first.take 32) (first.drop 32) (body (c.buf.drop 80)) (hD.public_ok _) (hD.public_ok _) (by omega) hk1 hk2
  simp only [← hS, ← hP, ← hsplit] at hrecv
  rw [hrecv] at h2
  simp only [Prod.mk.injEq, true_and] at h2
  obtain ⟨rfl, rfl⟩ := h2
  refine ⟨e1, e2, e3, rfl, ?_, ?_, ?_⟩
  · have ht : ∀ x : Bytes, 16 ≤ x.length → (tag x).length = 16 := fun x hx => tag_length hx
    have l1 := (P.publicOf c.eR).len
    have l2 := (P.publicOf c.sR).len
    have l3 := ht (c.encS P) (by rw [c.encS_length]; omega)
    have l4 := ht (c.encP P) (by rw [c.encP_length]; omega)
    rw [List.drop_left' (by simp only [List.length_append, l1, l2, l3])]
    show List.take _ _ = body (c.buf.drop 80)
    rw [List.length_append, l4, Nat.add_sub_cancel, List.take_left' rfl]
  · show some _ = some (NX.transcript P [c.prologue, c.first.take 32, c.first.drop 32, _, _, _])
    rw [e2', show c.prologue = prologue from e1]
    rfl
  · refine ⟨NX.transportKeys P (P.dh eI (P.publicOf c.eR)) (P.dh eI (P.publicOf c.sR)), ⟨rfl, rfl⟩, ⟨rfl, rfl⟩, ⟨rfl, rfl⟩, ?_⟩
    have hkeys : NX.transportKeys P (P.dh c.eR (keyIn c.first)) (P.dh c.sR (keyIn c.first)) =
        NX.transportKeys P (P.dh eI (P.publicOf c.eR)) (P.dh eI (P.publicOf c.sR)) := by
      rw [hei, hD.comm c.eR eI, hD.comm c.sR eI]
    rw [← hkeys]
    exact ⟨rfl, rfl⟩

theorem served_answer {α : Type} (b : Blocks) (imp : Asking α) : ∀ s ∈ (imp.play P rest b).served,
    ∃ c : Serving, c.sR = s.1 ∧ c.answer (P.withBlocks rest b) = some s.2 := by
  induction imp with
  | reply w => intro s h; cases h
  | block x next ih => exact ih _
  | serve c next ih =>
    intro s h
    simp only [Asking.play, List.mem_append, Option.mem_toList, Option.map_eq_some_iff] at h
    rcases h with ⟨a, ha, rfl⟩ | h
    · exact ⟨c, rfl, ha⟩
    · exact ih _ s h

/-- Two messages with the same hash before the payload of the second, and the same encrypted payload. -/
theorem same_parts {prologue prologue' w1 w1' w2 w2' : Bytes}
    (h1 : NX.payloadHash P prologue w1 w2 = NX.payloadHash P prologue' w1' w2') (h2 : w2.drop 80 = w2'.drop 80) :
    (prologue = prologue' ∧ w1 = w1' ∧ w2 = w2') ∨
      NX.Collision P (NX.hashInputs P (NX.h0 P) (NX.parts prologue w1 w2))
        (NX.hashInputs P (NX.h0 P) (NX.parts prologue' w1' w2')) := by
  have hsix : NX.transcript P (NX.parts prologue w1 w2) = NX.transcript P (NX.parts prologue' w1' w2') := by
    have e1 := transcript_snoc (P := P) [prologue, w1.take 32, w1.drop 32, w2.take 32, (w2.drop 32).take 48] (w2.drop 80)
    have e2 := transcript_snoc (P := P) [prologue', w1'.take 32, w1'.drop 32, w2'.take 32, (w2'.drop 32).take 48] (w2'.drop 80)
    simp only [List.cons_append, List.nil_append] at e1 e2
    unfold NX.payloadHash at h1
    rw [NX.parts, NX.parts, e1, e2, h1, h2]
  rcases transcript_binding_aux P (NX.parts prologue w1 w2) (NX.parts prologue' w1' w2') rfl
    (NX.h0 P) (NX.h0 P) hsix with ⟨_, hp⟩ | hc
  · left
    simp only [NX.parts, List.cons.injEq, and_true] at hp
    obtain ⟨hp0, ha1, ha2, hb1, hb2, hb3⟩ := hp
    have hsplit : ∀ w : Bytes, w = w.take 32 ++ ((w.drop 32).take 48 ++ w.drop 80) := by
      intro w
      rw [show w.drop 80 = (w.drop 32).drop 48 by rw [List.drop_drop], List.take_append_drop, List.take_append_drop]
    exact ⟨hp0, by rw [← List.take_append_drop 32 w1, ha1, ha2, List.take_append_drop],
      by rw [hsplit w2, hb1, hb2, hb3, ← hsplit]⟩
  · exact .inr hc

/-- The hash before the payload is that before the static key of another connection: a collision. -/
theorem other_parts {prologue prologue' w1 w1' w2 w2' : Bytes} (hl : 96 ≤ w2.length) (hl' : 96 ≤ w2'.length)
    (h : NX.transcript P [prologue', w1'.take 32, w1'.drop 32, w2'.take 32] = NX.payloadHash P prologue w1 w2) :
    NX.Collision P (NX.hashInputs P (NX.h0 P) (NX.parts prologue w1 w2))
      (NX.hashInputs P (NX.h0 P) (NX.parts prologue' w1' w2')) := by
  refine ⟨(NX.transcript P [prologue, w1.take 32, w1.drop 32, w2.take 32]).toList ++ (w2.drop 32).take 48, ?_,
    (NX.transcript P [prologue', w1'.take 32, w1'.drop 32]).toList ++ w2'.take 32, ?_, ?_, ?_⟩
  · simp [NX.hashInputs, NX.parts, NX.transcript]
  · simp [NX.hashInputs, NX.parts, NX.transcript]
  · intro e
    have := congrArg List.length e
    simp only [List.length_append, Arr.len, List.length_take, List.length_drop] at this
    omega
  · have e1 := transcript_snoc (P := P) [prologue, w1.take 32, w1.drop 32, w2.take 32] ((w2.drop 32).take 48)
    have e2 := transcript_snoc (P := P) [prologue', w1'.take 32, w1'.drop 32] (w2'.take 32)
    simp only [List.cons_append, List.nil_append] at e1 e2
    unfold NX.payloadHash at h
    rw [← e1, ← e2, h]

/-- A client has sent its first message.  An attacker that computes any blocks of ChaCha20, and has responders with any
secrets - the real servers among them - answer any messages, gives it a reply.  For all but a share of `1 / 2^91` of the
block functions: if the client accepts, then a responder made this very answer for this very message and the two sides
agree, or the attacker computed a block with the payload key, which takes the shared secret of the client's ephemeral key
and the static key in the answer, or responders used this key twice, or there is a collision of the hash function. -/
theorem C95_impostor (hD : DhLaws P) (prologue : Bytes) (kp : Keypair) (eI : Arr 32) (buf1 w1 : Bytes) (i1 : NoiseSession)
    (h1 : (NoiseSession.initSession P true prologue kp).sendMessage P (Keypair.default P eI) buf1 = (.ok (), i1, w1))
    (impostor : Impostor) :
    2 ^ 91 * Nat.card {blocks : Blocks // Fooled P rest prologue eI i1 w1 impostor blocks} ≤ Nat.card Blocks := by
  classical
  obtain ⟨hmid, hpub, _⟩ := send_first_ok h1
  have e : {b : Blocks // Fooled P rest prologue eI i1 w1 impostor b} ≃
      {x : Others × OneTime // Fooled P rest prologue eI i1 w1 impostor (Blocks.join x.1 x.2)} :=
    Blocks.split.subtypeEquiv fun b => by
      have : Blocks.join (Blocks.split b).1 (Blocks.split b).2 = b := Blocks.split.symm_apply_apply b
      rw [this]
  rw [Nat.card_congr e, Nat.card_congr Blocks.split, ← Nat.one_mul (Nat.card (Others × OneTime))]
  refine card_prod_le (2 ^ 91) 1 (fun o mk => Fooled P rest prologue eI i1 w1 impostor (Blocks.join o mk)) fun o => ?_
  rw [Nat.one_mul]
  refine le_trans (Nat.mul_le_mul_left _ ?_) (Played.few P rest prologue eI w1 impostor o)
  refine Nat.card_le_card_of_injective (fun mk => ⟨mk.1, ?_⟩) fun a b h => Subtype.ext (congrArg (fun x => x.1) h)
  obtain ⟨mk, i2, out, rs, hrecv, hrs, ⟨hkey, hcount, hcoll⟩, hno⟩ := mk
  have hQ := withBlocks_join (P := P) (rest := rest) o mk fun _ => EMPTY
  have hser := served_answer P rest (Blocks.join o mk) impostor
  simp only
  generalize impostor.play P rest (Blocks.join o mk) = p at *
  rw [hQ] at hser
  rw [hQ, hmid] at hrecv
  obtain ⟨hst, hl, hl', hl2, htag⟩ := accepts (P := P) (stream := streamOf rest o) hrecv hrs
  have hk : payloadKey P eI p.result rs = p.key P rest eI o := by rw [hst]; rfl
  rw [hk] at hkey hcount htag
  refine ⟨⟨hkey, ?_, hl, hl'⟩, ⟨hl2, htag⟩, ?_⟩
  · rw [← p.tagged_keys P, List.count, List.countP_map, List.countP_eq_length_filter] at hcount
    unfold Played.under
    refine le_trans (Nat.le_of_eq ?_) hcount
    congr 2
  · rintro t ht ⟨hta, htw⟩
    have ht := (List.mem_filter.mp ht).1
    obtain ⟨s, hs, hts⟩ := List.mem_flatMap.mp ht
    obtain ⟨c, hc, hans⟩ := hser s hs
    obtain ⟨sR, a⟩ := s
    simp only at hts hc hans
    subst hc
    obtain ⟨hok, ha⟩ := (c.answer_iff a).mp hans
    have hal : 96 ≤ a.second.length := by
      rw [ha]
      show 96 ≤ (_ ++ _ ++ _ : Bytes).length
      rw [List.length_append, List.length_append, Arr.len, c.encS_length, c.encP_length]
      omega
    simp only [Answer.tagged, List.mem_cons, List.not_mem_nil, or_false] at hts
    rcases hts with rfl | rfl
    · exact hcoll _ hs (other_parts P hl hal hta)
    · rcases same_parts P hta.symm htw.symm with ⟨g1, g2, g3⟩ | hc
      · refine hno ⟨_, hs, ?_⟩
        have := Serving.answered (P.withMac (streamOf rest o) mk) ⟨hD.comm, hD.public_ok⟩ (withMac_correct P _ mk) hans hpub
          hrecv hrs g1.symm g2.symm g3.symm
        exact ⟨this.1, this.2, this.3, this.4, this.5, this.6, this.7⟩
      · exact hcoll _ hs hc

/-- The condition on the payload key is needed: for every client, every static key `rs` and every payload there is an
attacker that computes blocks with the keys of the handshake only, asks no responder, and whose reply the client accepts
as one of the owner of `rs`, whatever the block function is.  (The keys of the handshake are not zero.) -/
theorem C95_informed (prologue : Bytes) (kp : Keypair) (eI : Arr 32) (buf1 w1 : Bytes) (i1 : NoiseSession)
    (h1 : (NoiseSession.initSession P true prologue kp).sendMessage P (Keypair.default P eI) buf1 = (.ok (), i1, w1))
    (re rs : Arr 32) (hre : re.toList ∉ forbiddenCurveValues) (hrs : rs.toList ∉ forbiddenCurveValues)
    (hk1 : (NX.afterEE P (P.dh eI re)).2 ≠ NX.zeros) (hk2 : (NX.afterES P (P.dh eI re) (P.dh eI rs)).2 ≠ NX.zeros)
    (payload : Bytes) (hl : payload.length ≤ 2032) :
    ∃ impostor : Impostor, ∀ blocks : Blocks,
      let p := impostor.play P rest blocks
      p.served = [] ∧ (∀ k ∈ p.keys, k = (NX.afterEE P (P.dh eI re)).2 ∨ k = payloadKey P eI p.result rs) ∧
      ∃ i2 out, i1.recvMessage (P.withBlocks rest blocks) p.result = (.ok (), i2, out) ∧
        i2.getRemoteStaticPublicKey = some rs ∧ plain (out.drop 80) = payload := by
  obtain ⟨hmid, hpub, _⟩ := send_first_ok h1
  let k1 := (NX.afterEE P (P.dh eI re)).2
  let k2 := (NX.afterES P (P.dh eI re) (P.dh eI rs)).2
  let encS : Prims → Bytes := fun Q =>
    NX.encryptedStatic Q prologue (w1.take 32) (w1.drop 32) re.toList (P.dh eI re) rs.toList
  let encP : Prims → Bytes := fun Q => NX.encryptedPayload Q prologue (w1.take 32) (w1.drop 32) re.toList (encS Q)
    (P.dh eI re) (P.dh eI rs) payload
  let reply : Blocks → Bytes := fun b => re.toList ++ encS (P.withBlocks rest b) ++ encP (P.withBlocks rest b)
  refine ⟨Asking.learn (fun b => .reply (reply b)) (rowOf k1 0 ++ rowOf k2 0) (fun _ => Arr.replicate 64 0), fun blocks => ?_⟩
  obtain ⟨b', hb, -, hp⟩ := Asking.play_learn (P := P) (rest := rest) reply blocks (rowOf k1 0 ++ rowOf k2 0)
    (fun _ => Arr.replicate 64 0)
  rw [hp]
  have hS : encS (P.withBlocks rest b') = encS (P.withBlocks rest blocks) :=
    enc_row (fun x hx => hb x (List.mem_append_left _ hx)) _ _
  have hP : encP (P.withBlocks rest b') = encP (P.withBlocks rest blocks) := by
    show NX.encryptedPayload _ _ _ _ _ (encS (P.withBlocks rest b')) _ _ _ = _
    rw [hS]
    exact enc_row (fun x hx => hb x (List.mem_append_right _ hx)) _ _
  have hr : reply b' = re.toList ++ encS (P.withBlocks rest blocks) ++ encP (P.withBlocks rest blocks) := by
    show _ ++ encS (P.withBlocks rest b') ++ encP (P.withBlocks rest b') = _
    rw [hS, hP]
  have hkey : keyIn (reply b') = re := by
    symm
    apply eq_keyIn
    · rw [hr, List.append_assoc, List.length_append, re.len]; omega
    · rw [hr, List.append_assoc, List.take_left' re.len]
  generalize hQ : P.withBlocks rest blocks = Q at *
  have hmid' : i1 = mid Q true prologue kp (Keypair.default P eI) EMPTY (w1.take 32) (w1.drop 32) := by
    rw [← hQ]; exact hmid
  have hA : AeadCorrect Q := by rw [← hQ]; exact withMac_correct P _ blocks.oneTime
  have hdh : Q.dh = P.dh := by rw [← hQ]; rfl
  have hk1' : (NX.afterEE Q (Q.dh eI re)).2 ≠ NX.zeros := by rw [← hQ]; exact hk1
  have hk2' : (NX.afterES Q (Q.dh eI re) (Q.dh eI rs)).2 ≠ NX.zeros := by rw [← hQ]; exact hk2
  have hrecv := recv_second hA true prologue kp (Keypair.default P eI) EMPTY re rs (w1.take 32) (w1.drop 32) payload hre hrs
    hl hk1' hk2'
  have he : (Keypair.default P eI).private_key = eI := rfl
  simp only [hdh, he] at hrecv
  have hfin : i1.recvMessage Q (reply b') = (.ok (), done true rs (NX.transcript Q [prologue, w1.take 32, w1.drop 32,
      re.toList, encS Q, encP Q]) (NX.transportKeys Q (P.dh eI re) (P.dh eI rs)) 1,
      re.toList ++ (rs.toList ++ tag (encS Q)) ++ (payload ++ tag (encP Q))) := by
    rw [hr, hmid']
    exact hrecv
  refine ⟨rfl, ?_, _, _, hfin, rfl, ?_⟩
  · intro k hk
    show _ ∨ k = payloadKey P eI (reply b') rs
    unfold payloadKey
    rw [hkey]
    simp only [rowOf, List.map_append, List.map_map, List.mem_append, List.mem_map, Function.comp] at hk
    rcases hk with ⟨_, _, rfl⟩ | ⟨_, _, rfl⟩
    · exact .inl rfl
    · exact .inr rfl
  · have l1 := re.len
    have l2 := rs.len
    have l3 : (tag (encS Q)).length = 16 :=
      tag_length (by show 16 ≤ (NX.enc _ _ _ _ _).length; rw [enc_length]; omega)
    have l4 : (tag (encP Q)).length = 16 :=
      tag_length (by show 16 ≤ (NX.enc _ _ _ _ _).length; rw [enc_length]; omega)
    rw [List.drop_left' (by simp only [List.length_append, l1, l2]; exact congrArg _ (congrArg _ l3))]
    exact plain_append l4

/-! ## Cases -/

/-- The client's first message. -/
def firstOf (eI : Arr 32) : NResult Unit × NoiseSession × Bytes :=
  (NoiseSession.initSession toyPrims true [1, 2] Keypair.empty).sendMessage toyPrims (Keypair.default toyPrims eI)
    (List.replicate 50 8)

/-- A server's connection. -/
def serving (first : Bytes) : Serving := ⟨[1, 2], Arr.replicate 32 5, Arr.replicate 32 4, first, List.replicate 100 9⟩

/-- An attacker that computes a block, passes the client's message on to the server, and changes the answer. -/
def between (first : Bytes) (change : Bytes → Bytes) : Impostor :=
  .block (Arr.replicate 32 1, NX.nonce 0, 0) fun _ => .serve (serving first) fun a => .reply (change ((a.map (·.second)).getD []))

example : (firstOf (Arr.replicate 32 3)).1 = .ok () := by decide +kernel

/-- Without a change the client accepts the answer, and it is the server's. -/
example : let m := firstOf (Arr.replicate 32 3)
    let p := (between m.2.2 id).play toyPrims (fun _ _ _ => 7) toyBlocks
    let r := m.2.1.recvMessage (toyPrims.withBlocks (fun _ _ _ => 7) toyBlocks) p.result
    let key := payloadKey toyPrims (Arr.replicate 32 3) p.result (toyPrims.publicOf (Arr.replicate 32 5))
    r.1 = .ok () ∧ r.2.1.getRemoteStaticPublicKey = some (toyPrims.publicOf (Arr.replicate 32 5)) ∧
      key ∉ p.keys ∧ (p.served.flatMap fun s => s.2.keys toyPrims s.1).count key = 1 ∧ p.served.map (·.2.second) = [p.result] := by
  decide +kernel

/-- The hypotheses of `C95_informed` for this client. -/
example : let re := toyPrims.publicOf (Arr.replicate 32 4)
    let rs := toyPrims.publicOf (Arr.replicate 32 5)
    let eI := Arr.replicate 32 3
    re.toList ∉ forbiddenCurveValues ∧ rs.toList ∉ forbiddenCurveValues ∧
    (NX.afterEE toyPrims (toyPrims.dh eI re)).2 ≠ NX.zeros ∧
    (NX.afterES toyPrims (toyPrims.dh eI re) (toyPrims.dh eI rs)).2 ≠ NX.zeros := by
  decide +kernel

/-- With a change it does not. -/
example : let m := firstOf (Arr.replicate 32 3)
    let p := (between m.2.2 fun w => w.set 85 0).play toyPrims (fun _ _ _ => 7) toyBlocks
    (m.2.1.recvMessage (toyPrims.withBlocks (fun _ _ _ => 7) toyBlocks) p.result).1 = .err .decryptionError := by
  decide +kernel

/-- An attacker that computes the blocks of the server itself. -/
def knowing (c : Serving) : Impostor :=
  let k1 := (NX.afterEE toyPrims (toyPrims.dh c.eR (keyIn c.first))).2
  let k2 := (NX.afterES toyPrims (toyPrims.dh c.eR (keyIn c.first)) (toyPrims.dh c.sR (keyIn c.first))).2
  .block (k1, NX.nonce 0, 0) fun x0 => .block (k1, NX.nonce 0, 1) fun x1 =>
  .block (k2, NX.nonce 0, 0) fun y0 => .block (k2, NX.nonce 0, 1) fun y1 =>
  let blocks : Blocks := fun x => if x.1 = k1 then if x.2.2 = 0 then x0 else x1 else if x.2.2 = 0 then y0 else y1
  .reply (((c.answer (toyPrims.withBlocks (fun _ _ _ => 7) blocks)).map (·.second)).getD [])

/-- It is accepted though no server answered: the condition on the payload key is needed. -/
example : let m := firstOf (Arr.replicate 32 3)
    let p := (knowing (serving m.2.2)).play toyPrims (fun _ _ _ => 7) toyBlocks
    (m.2.1.recvMessage (toyPrims.withBlocks (fun _ _ _ => 7) toyBlocks) p.result).1 = .ok () ∧ p.served.length = 0 ∧
      payloadKey toyPrims (Arr.replicate 32 3) p.result (toyPrims.publicOf (Arr.replicate 32 5)) ∈ p.keys := by
  decide +kernel

end SV2.Noise
