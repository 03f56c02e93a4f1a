import Verif.Lemmas.Insistence
import Verif.Props.Impersonation
/-!
# C101: a client that keeps asking does not take the answer of somebody else, if ChaCha20 is random

The attacker, and what it is not to achieve, are in `Verif/Spec/Insistence.lean`.
-/

namespace SV2.Noise

variable (P : Prims) (rest : Arr 32 → Arr 12 → Nat → UInt8)

/-! ## Transcripts of different lengths -/

theorem hashInputs_append (ds es : List Bytes) : ∀ h : Arr 32,
    NX.hashInputs P h (ds ++ es) = NX.hashInputs P h ds ++ NX.hashInputs P (mixAll P h ds) es := by
  induction ds with
  | nil => exact fun h => rfl
  | cons d ds ih =>
    intro h
    simp only [List.cons_append, NX.hashInputs, ih]
    rfl

/-- The longer one of two lists with the same hash is the other one, or it has an input with the hash that the handshake
starts with, or there is a collision. -/
theorem longer_transcript (ds ds' : List Bytes) (hl : ds'.length ≤ ds.length)
    (h : NX.transcript P ds = NX.transcript P ds') :
    ds = ds' ∨ (∃ x ∈ NX.hashInputs P (NX.h0 P) ds, P.hash x = NX.h0 P) ∨
      NX.Collision P (NX.hashInputs P (NX.h0 P) ds) (NX.hashInputs P (NX.h0 P) ds') := by
  obtain ⟨a, b, rfl, hb⟩ : ∃ a b, ds = a ++ b ∧ b.length = ds'.length :=
    ⟨ds.take (ds.length - ds'.length), ds.drop (ds.length - ds'.length), (List.take_append_drop _ _).symm, by
      rw [List.length_drop]; omega⟩
  have h : b.foldl (fun h d => P.hash (h.toList ++ d)) (mixAll P (NX.h0 P) a) =
      ds'.foldl (fun h d => P.hash (h.toList ++ d)) (NX.h0 P) := by
    unfold NX.transcript at h
    rw [List.foldl_append] at h
    exact h
  rw [hashInputs_append]
  rcases transcript_binding_aux P b ds' hb _ _ h with ⟨h1, rfl⟩ | ⟨x, hx, y, hy, hc⟩
  · rcases List.eq_nil_or_concat a with rfl | ⟨a', d, rfl⟩
    · exact .inl rfl
    · refine .inr (.inl ⟨(mixAll P (NX.h0 P) a').toList ++ d, ?_, ?_⟩)
      · rw [List.concat_eq_append, hashInputs_append]
        simp [NX.hashInputs]
      · rw [List.concat_eq_append] at h1
        unfold mixAll at h1
        rw [List.foldl_append] at h1
        exact h1
  · exact .inr (.inr ⟨x, List.mem_append_right _ hx, y, hy, hc⟩)

/-! ## What the client accepts -/

variable {P} in
/-- An accepted reply: its tag is right. -/
theorem accepts_any {stream : Arr 32 → Arr 12 → Nat → UInt8} {mk : OneTime} {i i2 : NoiseSession} (hi : i.mc = 1)
    {w out : Bytes} {rs : Arr 32} (h : i.recvMessage (P.withMac stream mk) w = (.ok (), i2, out))
    (hrs : i2.getRemoteStaticPublicKey = some rs) :
    rs = staticOf P stream i.progress i.hs.e.private_key w ∧ 96 ≤ w.length ∧ w.length ≤ 2128 ∧
    ∃ hl : 16 ≤ (w.drop 80).length, polyTag (mk ((askedPayload P stream i.progress i.hs.e.private_key w).key, NX.nonce 0))
      (askedPayload P stream i.progress i.hs.e.private_key w).ad.toList (body (w.drop 80)) =
        CipherState.tagArr (w.drop 80) hl := by
  have hs := C99_second (P.withMac stream mk) i hi w
  rw [h] at hs
  rcases hs with ⟨hash, keys, rs', ha, -, -, -, g, -⟩ | ⟨-, g1, -⟩
  · have : rs' = rs := Option.some.inj (g.symm.trans hrs)
    subst this
    rcases ha with ⟨re, _, text, hk, -, h3, h4, ho⟩
    obtain rfl : re = keyIn w := eq_keyIn (by omega) hk.ephemeral
    have hlS : (NX.staticPart w).length = 48 := HandshakeState.partS_length (by omega)
    have hrs' : rs' = staticOf P stream i.progress i.hs.e.private_key w := by
      have ho := ((opens_iff _ _ _ _ _ (by omega)).mp hk.opens).2
      simp only [Prims.withMac] at ho
      split at ho
      · have e := Option.some.inj ho
        rw [prepNonce_zero] at e
        unfold staticOf
        apply eq_keyIn
        · exact Nat.le_of_eq ((congrArg List.length e).trans rs'.len).symm
        · refine e.symm.trans (List.take_of_length_le ?_).symm
          exact Nat.le_of_eq ((congrArg List.length e).trans rs'.len)
      · cases ho
    have hl : 16 ≤ (w.drop 80).length := by rw [List.length_drop]; omega
    refine ⟨hrs', h3, h4, hl, ?_⟩
    have ho := ((opens_iff _ _ _ _ _ hl).mp ho).2
    simp only [Prims.withMac] at ho
    split at ho
    · next ht =>
      rw [prepNonce_zero] at ht
      unfold askedPayload
      rw [← hrs']
      exact ht
    · cases ho
  · have := (NoiseSession.recv_basic (P := P.withMac stream mk) i w).mc
    have g1 : i2.mc = 1 := g1
    rw [h] at this
    rw [g1, hi] at this
    simp [Out.isOk] at this

/-- A client has sent its first message and calls `recv_message` until it accepts a reply.  An attacker that computes any
blocks of ChaCha20, and has responders with any secrets - the real servers among them - answer any messages, gives it up to
`q` replies, one after the other, and sees what comes of each.  For all but a share of `q / 2^90` of the block functions:
if the client accepts one of them, then a responder made this very answer for this very message, the two sides agree, and
none of the replies before had an ephemeral key that is taken; or up to then the attacker computed a block with the payload
key of this reply, or responders used this key twice, or there is a collision of the hash function, or an input of the
client has the hash that every handshake starts with. -/
theorem C101_insistent (hD : DhLaws P) (prologue : Bytes) (kp : Keypair) (eI : Arr 32) (buf1 w1 : Bytes) (i1 : NoiseSession)
    (h1 : (NoiseSession.initSession P true prologue kp).sendMessage P (Keypair.default P eI) buf1 = (.ok (), i1, w1))
    (insistent : Insistent) (q : Nat) :
    2 ^ 90 * Nat.card {blocks : Blocks // Worn P rest prologue eI i1 w1 insistent q blocks} ≤ q * Nat.card Blocks := by
  classical
  obtain ⟨hmid, hpub, _⟩ := send_first_ok h1
  have e : {b : Blocks // Worn P rest prologue eI i1 w1 insistent q b} ≃
      {x : Others × OneTime // Worn P rest prologue eI i1 w1 insistent q (Blocks.join x.1 x.2)} :=
    Blocks.split.subtypeEquiv fun b => by
      have : Blocks.join (Blocks.split b).1 (Blocks.split b).2 = b := Blocks.split.symm_apply_apply b
      rw [this]
  rw [Nat.card_congr e, Nat.card_congr Blocks.split]
  refine card_prod_le (2 ^ 90) q (fun o mk => Worn P rest prologue eI i1 w1 insistent q (Blocks.join o mk)) fun o => ?_
  let hit : Nat → OneTime → Prop := fun j mk => ∃ s w, insistent.reach P rest o mk (j / 2) { client := i1 } = some (s, w) ∧
    s.Guessed P rest o mk w (decide (j % 2 = 1))
  have hfew := Rows.union (2 ^ 91) (2 * q) (2 * q) hit (fun _ _ => True)
    (fun j => by
      have := few_guessed P rest o insistent (j / 2) { client := i1 } rfl (decide (j % 2 = 1))
      rwa [show Nat.card {mk : OneTime // True} = Nat.card OneTime from
        Nat.card_congr (Equiv.subtypeUnivEquiv fun _ => trivial)])
    (fun _ s hs => by
      have : s ⊆ Finset.range (2 * q) := fun j hj => Finset.mem_range.mpr (hs j hj).1
      have := Finset.card_le_card this
      rwa [Finset.card_range] at this)
  have hsub : Nat.card {mk : OneTime // Worn P rest prologue eI i1 w1 insistent q (Blocks.join o mk)} ≤
      Nat.card {mk : OneTime // ∃ j < 2 * q, hit j mk} := by
    refine Nat.card_le_card_of_injective (fun mk => ⟨mk.1, ?_⟩) fun a b h => Subtype.ext (congrArg (fun x => x.1) h)
    obtain ⟨mk, w, i2, out, rs, hacc, hrs, hcare, hno⟩ := mk
    have hguess : ∀ j < q, ∀ s w payload, insistent.reach P rest o mk j { client := i1 } = some (s, w) →
        s.Guessed P rest o mk w payload → ∃ j < 2 * q, hit j mk := by
      intro j hj s w payload hr hg
      cases payload with
      | false => exact ⟨2 * j, by omega, s, w, by rw [show 2 * j / 2 = j by omega]; exact hr, by
          rw [show decide (2 * j % 2 = 1) = false from decide_eq_false (by omega)]; exact hg⟩
      | true => exact ⟨2 * j + 1, by omega, s, w, by rw [show (2 * j + 1) / 2 = j by omega]; exact hr, by
          rw [show decide ((2 * j + 1) % 2 = 1) = true from decide_eq_true (by omega)]; exact hg⟩
    have hi1 : i1.mc = 1 := by rw [hmid]; rfl
    rcases play_reach P rest o mk i1 hi1 insistent w i2 out q { client := i1 } rfl (fun a ha => by cases ha)
      ⟨rfl, trivial⟩ hacc with ⟨j, hj, s, w', payload, hr, hg⟩ | ⟨j, hj, s, hr, hserved, hrefused, hplay, hrecv⟩
    · exact hguess j hj s w' payload hr hg
    rw [hplay] at hcare hno
    have hQ := withBlocks_join (P := P) (rest := rest) o mk fun _ => EMPTY
    obtain ⟨m1, m2, kept, k1, k2, k3⟩ := receives_refused _ s.refused i1 hi1 hrefused.all
    rw [← hrefused.client] at m1 m2 k2
    have hrecv' := hrecv
    rw [hQ] at hrecv'
    obtain ⟨hst, hl, hl', hl2, htag⟩ := accepts_any m1 hrecv' hrs
    have he : s.client.hs.e.private_key = eI := by rw [m2, hmid]; rfl
    have hask : s.asked P rest o w true = askedPayload P (streamOf rest o) s.client.progress eI w := by
      unfold Siege.asked
      rw [he]
      rfl
    rw [he] at hst htag
    have hkey : (s.asked P rest o w true).key = s.payloadKey P eI w rs := by rw [hask, hst]; rfl
    have hh : s.client.progress.h = NX.transcript P (sentParts prologue w1 ++ kept) := by
      have : i1.progress.h = NX.transcript P (sentParts prologue w1) := by rw [hmid]; rfl
      rw [k2, this]
      show _ = List.foldl _ _ (_ ++ _)
      rw [List.foldl_append]
      rfl
    obtain ⟨hpre, hcoll⟩ := hcare.hash kept k1 hh
    have had : (s.asked P rest o w true).ad =
        NX.transcript P (sentParts prologue w1 ++ kept ++ [w.take 32, NX.staticPart w]) := by
      have e : (askedPayload P (streamOf rest o) s.client.progress eI w).ad =
          P.hash ((P.hash (s.client.progress.h.toList ++ (keyIn w).toList)).toList ++ NX.staticPart w) := rfl
      rw [hask, e, hh, keyIn_eq (by omega)]
      show _ = List.foldl _ _ (_ ++ _)
      rw [List.foldl_append]
      rfl
    by_cases hnew : ∀ t ∈ s.under P (s.asked P rest o w true).key,
        ¬ (t.ad = (s.asked P rest o w true).ad ∧ t.wire = (s.asked P rest o w true).wire)
    · refine hguess j hj s w true hr ⟨?_, ?_, ?_, ?_, ?_, hnew⟩
      · rw [hkey]; exact hcare.keys
      · have hcount := hcare.once
        have hmap : (s.served.flatMap fun a => a.2.keys P a.1) = (s.tagged P).map (·.key) := by
          unfold Siege.tagged
          rw [List.map_flatMap]
          rfl
        rw [hkey]
        have hcount : ((s.served.flatMap fun a => a.2.keys P a.1)).count (s.payloadKey P eI w rs) ≤ 1 := hcount
        rw [hmap, List.count, List.countP_map, List.countP_eq_length_filter] at hcount
        unfold Siege.under
        refine le_trans (Nat.le_of_eq ?_) hcount
        congr 2
      · exact hl2
      · show (w.drop 80).length ≤ _
        rw [List.length_drop]; omega
      · rw [hask]; exact ⟨hl2, htag⟩
    · exfalso
      simp only [not_forall, not_not] at hnew
      obtain ⟨t, ht, hta, htw⟩ := hnew
      obtain ⟨a, ha, hat⟩ := List.mem_flatMap.mp (Siege.mem_under.mp ht).1
      obtain ⟨c, hc, hans⟩ := hserved a ha
      rw [had] at hta
      have hin : ∀ x ∈ NX.hashInputs P (NX.h0 P) (sentParts prologue w1 ++ kept ++ [w.take 32, NX.staticPart w]),
          x ∈ NX.hashInputs P (NX.h0 P)
            (sentParts prologue w1 ++ kept ++ [w.take 32, NX.staticPart w, w.drop 80]) := by
        intro x hx
        have : sentParts prologue w1 ++ kept ++ [w.take 32, NX.staticPart w, w.drop 80] =
            (sentParts prologue w1 ++ kept ++ [w.take 32, NX.staticPart w]) ++ [w.drop 80] := by simp
        rw [this, hashInputs_append]
        exact List.mem_append_left _ hx
      have hin' : ∀ parts : List Bytes, parts <+: NX.parts a.2.prologue a.2.first a.2.second →
          ∀ x ∈ NX.hashInputs P (NX.h0 P) parts, x ∈ NX.hashInputs P (NX.h0 P)
            (NX.parts a.2.prologue a.2.first a.2.second) := by
        rintro parts ⟨r, hr⟩ x hx
        rw [← hr, hashInputs_append]
        exact List.mem_append_left _ hx
      have hsame : ∀ parts : List Bytes, parts <+: NX.parts a.2.prologue a.2.first a.2.second → parts.length ≤ 5 →
          NX.transcript P parts = NX.transcript P (sentParts prologue w1 ++ kept ++ [w.take 32, NX.staticPart w]) →
          sentParts prologue w1 ++ kept ++ [w.take 32, NX.staticPart w] = parts := by
        intro parts hp hlen heq
        rcases longer_transcript P _ parts (by simp [sentParts]; omega) heq.symm with h | ⟨x, hx, hx0⟩ | ⟨x, hx, y, hy, hc⟩
        · exact h
        · exact absurd hx0 (hpre x (hin x hx))
        · exact absurd ⟨x, hin x hx, y, hin' parts hp y hy, hc⟩ (hcoll a ha)
      simp only [Answer.tagged, List.mem_cons, List.not_mem_nil, or_false] at hat
      rcases hat with rfl | rfl
      · have := congrArg List.length (hsame _ ⟨[(a.2.second.drop 32).take 48, a.2.second.drop 80], rfl⟩ (by simp) hta)
        simp [sentParts] at this
      · have hparts := hsame [a.2.prologue, a.2.first.take 32, a.2.first.drop 32, a.2.second.take 32,
          (a.2.second.drop 32).take 48] ⟨[a.2.second.drop 80], rfl⟩ (by simp) hta
        have hkept : kept = [] := by
          have := congrArg List.length hparts
          simp [sentParts] at this
          exact this
        subst hkept
        have hfree : ∀ x ∈ s.refused, ¬ NX.Taken x := fun x hx ht => k3 ⟨x, hx, ht⟩ rfl
        refine hno ⟨hfree, a, ha, ?_⟩
        simp only [sentParts, List.append_nil, List.cons_append, List.nil_append, List.cons.injEq, and_true] at hparts
        obtain ⟨e1, e2, e3, e4, e5⟩ := hparts
        have e6 : a.2.second.drop 80 = w.drop 80 := htw
        have hsplit : ∀ w : Bytes, w = w.take 32 ++ ((w.drop 32).take 48 ++ w.drop 80) := by
          intro w
          rw [show w.drop 80 = (w.drop 32).drop 48 by rw [List.drop_drop], List.take_append_drop, List.take_append_drop]
        have g2 : a.2.first = w1 := by rw [← List.take_append_drop 32 w1, e2, e3, List.take_append_drop]
        have g3 : a.2.second = w := by
          rw [hsplit w, hsplit a.2.second, e4, e6]
          unfold NX.staticPart at e5
          rw [e5]
        have hclient : s.client = i1 := by
          rw [hrefused.client]
          exact (C99_harmless _ i1 hi1 s.refused hfree).1
        rw [hclient, hmid] at hrecv'
        rw [hQ] at hans
        have := Serving.answered (P.withMac (streamOf rest o) mk) ⟨hD.comm, hD.public_ok⟩ (withMac_correct P _ mk) hans hpub
          hrecv' hrs e1.symm g2 g3
        rw [hc] at this
        exact ⟨this.1, this.2, this.3, this.4, this.5, this.6, this.7⟩
  have := (Nat.mul_le_mul_left (2 ^ 91) hsub).trans hfew
  have e2 : (2 : Nat) ^ 91 = 2 * 2 ^ 90 := by decide
  rw [e2, Nat.mul_assoc, Nat.mul_assoc] at this
  exact Nat.le_of_mul_le_mul_left this (by decide)

/-! ## What a run is -/

/-- A run of the attacker is what its parts say it is: it is the client with the session `i1` that refused these replies one
after the other, at most `q` of them, and accepted the last one, and the answers are those of responders. -/
theorem C101_run (blocks : Blocks) (i1 : NoiseSession) (insistent : Insistent) (q : Nat) :
    let Q := P.withBlocks rest blocks
    let s := insistent.play P rest blocks q { client := i1 }
    s.client = i1.receives Q s.refused ∧ i1.AllRefused Q s.refused ∧ s.refused.length ≤ q ∧
    (∀ w i2 out, s.accepted = some (w, i2, out) → s.client.recvMessage Q w = (.ok (), i2, out) ∧ s.refused.length < q) ∧
    ∀ a ∈ s.served, ∃ c : Serving, c.sR = a.1 ∧ c.answer Q = some a.2 := by
  intro Q
  have main : ∀ (T : Insistent) (n : Nat) (s : Siege), s.Refused Q i1 → s.Served P rest blocks → s.accepted = none →
      let s' := T.play P rest blocks n s
      s'.Refused Q i1 ∧ s'.Served P rest blocks ∧ s'.refused.length ≤ s.refused.length + n ∧
      ∀ w i2 out, s'.accepted = some (w, i2, out) →
        s'.client.recvMessage Q w = (.ok (), i2, out) ∧ s'.refused.length < s.refused.length + n := by
    intro T
    induction T with
    | stop =>
      intro n s h1 h2 h3
      refine ⟨h1, h2, Nat.le_add_right _ _, fun w i2 out h => ?_⟩
      rw [Insistent.play, h3] at h
      cases h
    | block x next ih => exact fun n s h1 h2 h3 => ih _ n _ ⟨h1.client, h1.all⟩ h2 h3
    | serve c next ih => exact fun n s h1 h2 h3 => ih _ n _ ⟨h1.client, h1.all⟩ (served_add h2 c) h3
    | deliver m next ih =>
      intro n s h1 h2 h3
      have hstop : ∀ n, s.Refused Q i1 ∧ s.Served P rest blocks ∧ s.refused.length ≤ s.refused.length + n ∧
          ∀ w i2 out, s.accepted = some (w, i2, out) →
            s.client.recvMessage Q w = (.ok (), i2, out) ∧ s.refused.length < s.refused.length + n := by
        refine fun n => ⟨h1, h2, Nat.le_add_right _ _, fun w i2 out h => ?_⟩
        rw [h3] at h
        cases h
      cases n with
      | zero => exact hstop 0
      | succ n =>
        intro s'
        rcases hres : s.client.recvMessage Q m with ⟨r, i, b⟩
        have hs' : s' = (Insistent.deliver m next).play P rest blocks (n + 1) s := rfl
        rw [Insistent.play, hres] at hs'
        match r, hres, hs' with
        | .ok (), hres, hs' =>
          have hs' : s' = { s with accepted := some (m, i, b) } := hs'
          rw [hs']
          refine ⟨⟨h1.client, h1.all⟩, h2, Nat.le_add_right _ _, fun w i2 out h => ?_⟩
          have h := Option.some.inj h
          obtain ⟨e1, h⟩ := Prod.mk.inj h
          obtain ⟨e2, e3⟩ := Prod.mk.inj h
          rw [← e1, ← e2, ← e3]
          exact ⟨hres, by show s.refused.length < _; omega⟩
        | .panic, hres, hs' =>
          have hs' : s' = s := hs'
          rw [hs']
          exact hstop (n + 1)
        | .err e, hres, hs' =>
          have h1' : Siege.Refused Q i1 { s with client := i, refused := s.refused ++ [m] } := by
            refine ⟨?_, refused_snoc _ _ _ _ h1.all ⟨e, ?_⟩⟩
            · show i = List.foldl _ i1 (s.refused ++ [m])
              rw [List.foldl_append]
              show i = ((i1.receives _ s.refused).recvMessage _ m).2.1
              rw [← h1.client, hres]
            · rw [← h1.client, hres]
          have := ih (.err e, i, b) n { s with client := i, refused := s.refused ++ [m] } h1' h2 h3
          rw [hs']
          have hlen : s.refused.length + (n + 1) = (s.refused ++ [m]).length + n := by
            rw [List.length_append, List.length_singleton]; omega
          rw [hlen]
          exact this
  obtain ⟨h1, h2, h3, h4⟩ := main insistent q { client := i1 } ⟨rfl, trivial⟩ (fun a ha => by cases ha) rfl
  simp only [List.length_nil, Nat.zero_add] at h3 h4
  exact ⟨h1.client, h1.all, h3, h4, h2⟩

/-! ## The condition on the key -/

/-- An attacker with one reply only. -/
def Asking.insist : Asking Bytes → Insistent
  | .reply w => .deliver w fun _ => .stop
  | .block x next => .block x fun y => (next y).insist
  | .serve c next => .serve c fun a => (next a).insist

theorem play_insist (blocks : Blocks) (imp : Impostor) : ∀ (q : Nat) (s : Siege) (i2 : NoiseSession) (out : Bytes),
    s.client.recvMessage (P.withBlocks rest blocks) (imp.play P rest blocks).result = (.ok (), i2, out) →
    let s' := imp.insist.play P rest blocks (q + 1) s
    s'.accepted = some ((imp.play P rest blocks).result, i2, out) ∧ s'.refused = s.refused ∧
      s'.served = s.served ++ (imp.play P rest blocks).served ∧
      ∀ k, k ∈ s'.keys ↔ k ∈ s.keys ∨ k ∈ (imp.play P rest blocks).keys := by
  induction imp with
  | reply w =>
    intro q s i2 out h
    have h : s.client.recvMessage (P.withBlocks rest blocks) w = (.ok (), i2, out) := h
    simp only [Asking.insist, Asking.play, Insistent.play, h]
    simp
  | block x next ih =>
    intro q s i2 out h
    obtain ⟨h1, h2, h3, h4⟩ := ih (blocks x) q { s with keys := x.1 :: s.keys } i2 out h
    refine ⟨h1, h2, h3, fun k => (h4 k).trans ?_⟩
    simp only [Asking.play, List.mem_cons]
    tauto
  | serve c next ih =>
    intro q s i2 out h
    obtain ⟨h1, h2, h3, h4⟩ := ih (c.answer (P.withBlocks rest blocks)) q
      { s with served := s.served ++ ((c.answer (P.withBlocks rest blocks)).map fun a => (c.sR, a)).toList } i2 out h
    refine ⟨h1, h2, ?_, h4⟩
    simp only [Asking.play]
    rw [← List.append_assoc]
    exact h3

/-- The condition on the payload key is needed: an attacker that computes blocks with the keys of the handshake gets the
client to accept its first reply as one of the owner of any static key, with any payload, whatever the block function is. -/
theorem C101_informed (prologue : Bytes) (kp : Keypair) (eI : Arr 32) (buf1 w1 : Bytes) (i1 : NoiseSession)
    (h1 : (NoiseSession.initSession P true prologue kp).sendMessage P (Keypair.default P eI) buf1 = (.ok (), i1, w1))
    (re rs : Arr 32) (hre : re.toList ∉ forbiddenCurveValues) (hrs : rs.toList ∉ forbiddenCurveValues)
    (hk1 : (NX.afterEE P (P.dh eI re)).2 ≠ NX.zeros) (hk2 : (NX.afterES P (P.dh eI re) (P.dh eI rs)).2 ≠ NX.zeros)
    (payload : Bytes) (hl : payload.length ≤ 2032) (q : Nat) :
    ∃ insistent : Insistent, ∀ blocks : Blocks,
      let s := insistent.play P rest blocks (q + 1) { client := i1 }
      s.served = [] ∧ s.refused = [] ∧ ∃ w i2 out, s.accepted = some (w, i2, out) ∧
        (∀ k ∈ s.keys, k = (NX.afterEE P (P.dh eI re)).2 ∨ k = payloadKey P eI w rs) ∧
        i2.getRemoteStaticPublicKey = some rs ∧ plain (out.drop 80) = payload := by
  obtain ⟨imp, himp⟩ := C95_informed P rest prologue kp eI buf1 w1 i1 h1 re rs hre hrs hk1 hk2 payload hl
  refine ⟨imp.insist, fun blocks => ?_⟩
  obtain ⟨g1, g2, i2, out, g3, g4, g5⟩ := himp blocks
  obtain ⟨f1, f2, f3, f4⟩ := play_insist P rest blocks imp q { client := i1 } i2 out g3
  refine ⟨?_, f2, _, i2, out, f1, fun k hk => g2 k ?_, g4, g5⟩
  · rw [f3, g1]
    rfl
  · rcases (f4 k).mp hk with h | h
    · cases h
    · exact h

/-! ## Cases -/

/-- An attacker that gives the client some bytes, then has the server answer, and passes the answer on. -/
def junkThen (junk first : Bytes) : Insistent :=
  .deliver junk fun _ => .serve (serving first) fun a => .deliver ((a.map (·.second)).getD []) fun _ => .stop

/-- After bytes without an ephemeral key the client accepts the answer of the server: the key is used once, the attacker did
not compute blocks with it, and the two sides have the same hash. -/
example :
    let m := firstOf (Arr.replicate 32 3)
    let s := (junkThen (List.replicate 40 9) m.2.2).play toyPrims (fun _ _ _ => 7) toyBlocks 2 { client := m.2.1 }
    let rs := toyPrims.publicOf (Arr.replicate 32 5)
    let r := s.accepted.getD ([], m.2.1, [])
    m.1 = .ok () ∧ s.refused = [List.replicate 40 9] ∧ s.served.length = 1 ∧ s.accepted.isSome ∧
      s.served.map (·.2.second) = [r.1] ∧ r.2.1.getRemoteStaticPublicKey = some rs ∧
      s.served.map (·.2.session.getHandshakeHash) = [r.2.1.getHandshakeHash] ∧
      s.payloadKey toyPrims (Arr.replicate 32 3) r.1 rs ∉ s.keys ∧
      (s.served.flatMap fun a => a.2.keys toyPrims a.1).count (s.payloadKey toyPrims (Arr.replicate 32 3) r.1 rs) = 1 := by
  decide +kernel

/-- After bytes with an ephemeral key it does not. -/
example :
    let m := firstOf (Arr.replicate 32 3)
    let s := (junkThen (List.replicate 60 9) m.2.2).play toyPrims (fun _ _ _ => 7) toyBlocks 2 { client := m.2.1 }
    s.refused.length = 2 ∧ s.served.map (·.2.second) = s.refused.drop 1 ∧ s.accepted.isNone := by
  decide +kernel

end SV2.Noise
