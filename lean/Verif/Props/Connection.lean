import Verif.Lemmas.Connection
import Verif.Props.Channel
import Verif.Props.Certificate
/-!
# C102: a connection from the first message on, if ChaCha20 is random

The attacker, and what it means to break the connection, are in `Verif/Spec/Connection.lean`.
-/

namespace SV2.Noise

variable {P : Prims}

/-- The client asks for the tags of an accepted answer under the keys that the responder encrypted with. -/
theorem answered_keys (hD : DhLaws P) {stream : Arr 32 → Arr 12 → Nat → UInt8} {Q : Prims} {prologue : Bytes} {kp : Keypair}
    {eI : Arr 32} {first w out : Bytes} {i2 : NoiseSession} {rs : Arr 32} {a : Arr 32 × Answer}
    (hpub : first.take 32 = (P.publicOf eI).toList) (hlen : 32 ≤ first.length) (hw : 32 ≤ w.length)
    (hsec : a.2.second.take 32 = (P.publicOf a.2.eR).toList) (ha : Answered Q prologue first w i2 out rs a.1 a.2)
    (hQ : Q.publicOf = P.publicOf) :
    let i := mid P true prologue kp (Keypair.default P eI) EMPTY (first.take 32) (first.drop 32)
    rs = staticOf P stream i.progress i.hs.e.private_key w →
    (askedStatic P i.progress i.hs.e.private_key w).key ∈ a.2.keys P a.1 ∧
    (askedPayload P stream i.progress i.hs.e.private_key w).key ∈ a.2.keys P a.1 := by
  intro i hst
  have hei : keyIn a.2.first = P.publicOf eI := by
    symm
    apply eq_keyIn (by rw [ha.first]; exact hlen)
    rw [ha.first, hpub]
  have her : keyIn w = P.publicOf a.2.eR := by
    symm
    apply eq_keyIn hw
    rw [← ha.second, hsec]
  have hrs : rs = P.publicOf a.1 := by rw [ha.static, hQ]
  have k1 : (askedStatic P i.progress i.hs.e.private_key w).key = (NX.afterEE P (P.dh eI (keyIn w))).2 := rfl
  have k2 : (askedPayload P stream i.progress i.hs.e.private_key w).key =
      (NX.afterES P (P.dh eI (keyIn w)) (P.dh eI (staticOf P stream i.progress i.hs.e.private_key w))).2 := rfl
  rw [k1, k2, ← hst, hrs, her]
  have hkeys : a.2.keys P a.1 = [(NX.afterEE P (P.dh eI (P.publicOf a.2.eR))).2,
      (NX.afterES P (P.dh eI (P.publicOf a.2.eR)) (P.dh eI (P.publicOf a.1))).2] := by
    unfold Answer.keys
    simp only [hei, hD.comm a.2.eR eI, hD.comm a.1 eI]
  rw [hkeys]
  simp

end SV2.Noise

namespace SV2.Stack
open Noise

variable (P : Prims) (rest : Arr 32 → Arr 12 → Nat → UInt8)

theorem card_overrun (hD : DhLaws P) (prologue : Bytes) (kp : Keypair) (eI : Arr 32) (buf1 w1 : Bytes) (i1 : NoiseSession)
    (h1 : (NoiseSession.initSession P true prologue kp).sendMessage P (Keypair.default P eI) buf1 = (.ok (), i1, w1))
    (insistent : Insistent) (network : Siege → Asker) (n E q : Nat)
    (hq : ∀ s blocks, ((network s).forger P rest blocks).AtMost q)
    (hE : ∀ s blocks, ((network s).forger P rest blocks).Rekeys E) (rounds : Nat)
    (Trusts Known : Siege → Bytes → Arr 32 → Prop) (hknown : ∀ s out rs, Trusts s out rs → Known s out rs) :
    2 ^ 91 * Nat.card {blocks : Blocks //
      Overrun P rest blocks prologue eI i1 w1 insistent network n E rounds Trusts Known} ≤ (2 * n + q) * Nat.card Blocks := by
  classical
  have hworn := C101_insistent P rest hD prologue kp eI buf1 w1 i1 h1 insistent n
  obtain ⟨hmid, hpub, hlen1⟩ := send_first_ok h1
  have hi1 : i1.mc = 1 := by rw [hmid]; rfl
  let fool : Blocks → Prop := fun b => Worn P rest prologue eI i1 w1 insistent n b
  let bad : Blocks → Prop := fun b => Overrun P rest b prologue eI i1 w1 insistent network n E rounds Trusts Known
  have hcut : 2 ^ 91 * Nat.card {b : Blocks // bad b ∧ ¬ fool b} ≤ q * Nat.card Blocks := by
    have e : {b : Blocks // bad b ∧ ¬ fool b} ≃
        {x : Others × OneTime // bad (Blocks.join x.1 x.2) ∧ ¬ fool (Blocks.join x.1 x.2)} :=
      Blocks.split.subtypeEquiv fun b => by
        have : Blocks.join (Blocks.split b).1 (Blocks.split b).2 = b := Blocks.split.symm_apply_apply b
        rw [this]
    rw [Nat.card_congr e, Nat.card_congr Blocks.split]
    refine card_prod_le (2 ^ 91) q (fun o mk => bad (Blocks.join o mk) ∧ ¬ fool (Blocks.join o mk)) fun o => ?_
    let play : OneTime → Siege := fun mk => insistent.play P rest (Blocks.join o mk) n { client := i1 }
    refine card_fiber play _ (2 ^ 91) q fun s => ?_
    have hst : ∀ mk, (Blocks.join o mk).stream rest = streamOf rest o := fun mk => Blocks.stream_join rest o mk _
    by_cases hne : Nonempty {mk // play mk = s ∧ (bad (Blocks.join o mk) ∧ ¬ fool (Blocks.join o mk))}
    · obtain ⟨mk0, hp0, hb0, hf0⟩ := hne
      obtain ⟨w, i2, out, rs, hacc, hrs, hcare, htr, hno0⟩ := hb0
      have hgood : (∀ x ∈ s.refused, ¬ NX.Taken x) ∧ ∃ a ∈ s.served, Answered P prologue w1 w i2 out rs a.1 a.2 := by
        by_contra hno
        exact hf0 ⟨w, i2, out, rs, hacc, hrs, hcare, by rw [← hp0] at hno; exact hno⟩
      have hp0' : insistent.play P rest (Blocks.join o mk0) n { client := i1 } = s := hp0
      rw [hp0'] at hacc htr
      obtain ⟨hfree, a, ha, hans⟩ := hgood
      have hk : Known s out (P.publicOf a.1) := by
        rw [← hans.static]
        exact hknown _ _ _ htr
      -- what follows for every choice of one-time keys with this run of the attacker
      have key : ∀ mk, play mk = s → bad (Blocks.join o mk) →
          Private (streamOf rest o) (i2.cs1.k, i2.cs2.k) E
            (s.used P ++ (network s).used P rest (Blocks.join o mk) { rnet := { net := { i := i2, r := a.2.session } } } rounds) ∧
          ¬ (SNet.attacked (P.withBlocks rest (Blocks.join o mk)) ((network s).forger P rest (Blocks.join o mk))
            { rnet := { net := { i := i2, r := a.2.session } } } rounds).1.Genuine := by
        intro mk hp hbad
        obtain ⟨w', i2', out', rs', hacc', hrs', -, -, hno⟩ := hbad
        have hp' : insistent.play P rest (Blocks.join o mk) n { client := i1 } = s := hp
        rw [hp'] at hacc' hno
        rw [hacc] at hacc'
        have h := Option.some.inj hacc'
        obtain ⟨e1, h⟩ := Prod.mk.inj h
        obtain ⟨e2, e3⟩ := Prod.mk.inj h
        subst e1 e2 e3
        have hr : rs' = rs := Option.some.inj (hrs'.symm.trans hrs)
        subst hr
        have hn := fun g => hno ⟨a, ha, hans, hk, g⟩
        unfold Talk at hn
        simp only [hst] at hn
        exact Classical.not_imp.mp hn
      obtain ⟨hpriv, -⟩ := key mk0 hp0 ⟨w, i2, out, rs, by rw [hp0']; exact hacc, hrs, hcare, by rw [hp0']; exact htr, hno0⟩
      have hused : ∀ k ∈ s.used P, ¬ SessionKey (streamOf rest o) (i2.cs1.k, i2.cs2.k) E k :=
        fun k hk => hpriv.unused k (List.mem_append_left _ hk)
      have hsync : InSync i2 a.2.session (i2.cs1.k, i2.cs2.k) 0 0 := by
        obtain ⟨keys, hk⟩ := hans.keys
        have hk1 : i2.cs1.k = keys.1 := by rw [hk.initiator.1]
        have hk2 : i2.cs2.k = keys.2 := by rw [hk.initiator.2]
        rw [hk1, hk2]
        exact hk
      have same : ∀ mk mk', (∀ row : Arr 32 × Arr 12, ¬ SessionKey (streamOf rest o) (i2.cs1.k, i2.cs2.k) E row.1 →
          mk row = mk' row) → play mk = s → play mk' = s := by
        intro mk mk' hm hp
        have hp' : insistent.play P rest (Blocks.join o mk) n { client := i1 } = s := hp
        have hrun := C101_run P rest (Blocks.join o mk) i1 insistent n
        rw [hp'] at hrun
        obtain ⟨r1, -, -, r4, r5⟩ := hrun
        have hclient : s.client = i1 := by
          rw [r1]
          exact (C99_harmless _ i1 hi1 s.refused hfree).1
        obtain ⟨hrecv, -⟩ := r4 w i2 out hacc
        rw [hclient] at hrecv
        obtain ⟨c, hc, hca⟩ := r5 a ha
        have hsec : a.2.second.take 32 = (P.publicOf a.2.eR).toList := by
          obtain ⟨-, hm⟩ := (c.answer_iff a.2).mp hca
          rw [hm]
          exact c.made_parts.1
        have hQ := withBlocks_join (P := P) (rest := rest) o mk fun _ => EMPTY
        have hQ' := withBlocks_join (P := P) (rest := rest) o mk' fun _ => EMPTY
        have hrecv' := hrecv
        rw [hQ] at hrecv'
        obtain ⟨hstat, hl, -⟩ := accepts_any hi1 hrecv' hrs
        have hasked : (askedStatic P i1.progress i1.hs.e.private_key w).key ∈ a.2.keys P a.1 ∧
            (askedPayload P (streamOf rest o) i1.progress i1.hs.e.private_key w).key ∈ a.2.keys P a.1 := by
          rw [hmid] at hstat ⊢
          exact answered_keys hD hpub (by have := congrArg List.length hpub; rw [List.length_take, Arr.len] at this; omega)
            (by omega) hsec hans rfl hstat
        have hmem : ∀ k ∈ a.2.keys P a.1, mk (k, NX.nonce 0) = mk' (k, NX.nonce 0) := fun k hk =>
          hm _ (hused k (List.mem_append_right _ (List.mem_flatMap.mpr ⟨a, ha, hk⟩)))
        have hrecv2 : i1.recvMessage (P.withBlocks rest (Blocks.join o mk')) w = (.ok (), i2, out) := by
          have := recv_reply_rows (stream := streamOf rest o) i1 hi1 w (hmem _ hasked.1) (hmem _ hasked.2)
          rw [hQ']
          exact this.symm.trans hrecv'
        have := siege_apart o hm i1 hi1 w i2 out hrecv2 insistent n { client := i1 } rfl rfl
          (by rw [hp']; exact hused) (by rw [hp']; exact hfree) (by rw [hp']; exact hacc)
        rw [hp'] at this
        exact this
      have hG : Apart (streamOf rest o) (i2.cs1.k, i2.cs2.k) E fun mk => play mk = s := by
        intro mk row y hrow
        have hup : ∀ r : Arr 32 × Arr 12, ¬ SessionKey (streamOf rest o) (i2.cs1.k, i2.cs2.k) E r.1 →
            Function.update mk row y r = mk r :=
          fun r hr => Function.update_of_ne (fun e => hr (by rw [e]; exact hrow)) _ _
        exact propext ⟨same _ _ hup, same _ _ fun r hr => (hup r hr).symm⟩
      have hc := card_network (P := P) o (asker := network s) (fun mk => hE s _) (fun mk => hq s _) hsync hpriv.distinct hG rounds
      refine le_trans (Nat.mul_le_mul_left _ ?_) hc
      refine Nat.card_le_card_of_injective (fun mk => ⟨mk.1, mk.2.1, ?_⟩) fun a b h => Subtype.ext (congrArg (fun x => x.1) h)
      obtain ⟨g1, g2⟩ := key mk.1 mk.2.1 mk.2.2.1
      exact ⟨fun k hk => g1.unused k (List.mem_append_right _ hk), g2⟩
    · have : IsEmpty {mk // play mk = s ∧ (bad (Blocks.join o mk) ∧ ¬ fool (Blocks.join o mk))} := not_nonempty_iff.mp hne
      rw [Nat.card_of_isEmpty]
      simp
  have h3 : Nat.card {b : Blocks // bad b} ≤ Nat.card {b : Blocks // bad b ∧ ¬ fool b} + Nat.card {b : Blocks // fool b} := by
    have f1 : Finite {b : Blocks // bad b ∧ ¬ fool b} := inferInstance
    have f2 : Finite {b : Blocks // fool b} := inferInstance
    rw [← Nat.card_sum]
    refine Nat.card_le_card_of_injective
      (fun b => if hr : fool b.1 then Sum.inr ⟨b.1, hr⟩ else Sum.inl ⟨b.1, b.2, hr⟩) fun a b hab => ?_
    by_cases ha : fool a.1 <;> by_cases hb : fool b.1 <;> simp only [ha, hb, dif_pos, dif_neg, not_false_iff] at hab
    · exact Subtype.ext (congrArg (fun x => x.1) (Sum.inr.inj hab))
    · cases hab
    · cases hab
    · exact Subtype.ext (congrArg (fun x => x.1) (Sum.inl.inj hab))
  have hworn' : 2 ^ 91 * Nat.card {b : Blocks // fool b} ≤ 2 * n * Nat.card Blocks := by
    have e2 : (2 : Nat) ^ 91 = 2 * 2 ^ 90 := by decide
    rw [e2, Nat.mul_assoc, Nat.mul_assoc]
    exact Nat.mul_le_mul_left 2 hworn
  calc 2 ^ 91 * Nat.card {b : Blocks // bad b}
      ≤ 2 ^ 91 * (Nat.card {b : Blocks // bad b ∧ ¬ fool b} + Nat.card {b : Blocks // fool b}) := Nat.mul_le_mul_left _ h3
    _ = 2 ^ 91 * Nat.card {b : Blocks // bad b ∧ ¬ fool b} + 2 ^ 91 * Nat.card {b : Blocks // fool b} := Nat.mul_add _ _ _
    _ ≤ q * Nat.card Blocks + 2 * n * Nat.card Blocks := Nat.add_le_add hcut hworn'
    _ = (2 * n + q) * Nat.card Blocks := by ring

/-- A client has sent its first message and calls `recv_message` until it accepts a reply, or `n` times.  An attacker that
computes any blocks of ChaCha20, and has responders with any secrets - the real servers among them - answer any messages,
gives it the replies.  When the client has accepted one the attacker goes on as the network between the client and the
responder, has both sides send any frames and rekey at most `E` times each, and delivers at most `q` messages.  For all but
a share of `(2 n + q) / 2^91` of the block functions: if the client accepts, then a responder made this very answer for
this very message, and what each of the two reads is the beginning of the frames that the other one sent - or a key was
used for something else, or there is a collision of the hash function, or an input of the client has the hash that every
handshake starts with. -/
theorem C102_connection (hD : DhLaws P) (prologue : Bytes) (kp : Keypair) (eI : Arr 32) (buf1 w1 : Bytes) (i1 : NoiseSession)
    (h1 : (NoiseSession.initSession P true prologue kp).sendMessage P (Keypair.default P eI) buf1 = (.ok (), i1, w1))
    (insistent : Insistent) (network : Siege → Asker) (n E q : Nat)
    (hq : ∀ s blocks, ((network s).forger P rest blocks).AtMost q)
    (hE : ∀ s blocks, ((network s).forger P rest blocks).Rekeys E) (rounds : Nat) :
    2 ^ 91 * Nat.card {blocks : Blocks //
      Overrun P rest blocks prologue eI i1 w1 insistent network n E rounds (fun _ _ _ => True) fun _ _ _ => True} ≤
      (2 * n + q) * Nat.card Blocks :=
  card_overrun P rest hD prologue kp eI buf1 w1 i1 h1 insistent network n E q hq hE rounds _ _ fun _ _ _ _ => trivial

/-- The same with a certificate: an authority issued certificates, and when the client has accepted a reply it has a
certificate - from the payload, or whatever the attacker likes it to be - and the time, and its check returns `Ok`.  For all
but a share of `(2 n + q) / 2^91` of the block functions the responder then has a static key for which the authority
issued this certificate; or the signature is a forgery. -/
theorem C102_certified {E : SigScheme} (hD : DhLaws P) (prologue : Bytes) (kp : Keypair) (eI : Arr 32) (buf1 w1 : Bytes)
    (i1 : NoiseSession)
    (h1 : (NoiseSession.initSession P true prologue kp).sendMessage P (Keypair.default P eI) buf1 = (.ok (), i1, w1))
    (text : String) (issued : List SignedCertificate) (signed : List Bytes)
    (hsigned : ∀ b, b ∈ signed ↔ ∃ c ∈ issued, serialize c = .ok b)
    (cert : Siege → Bytes → SignatureNoiseMessage E) (clock : Siege → SystemTime)
    (insistent : Insistent) (network : Siege → Asker) (n R q : Nat)
    (hq : ∀ s blocks, ((network s).forger P rest blocks).AtMost q)
    (hR : ∀ s blocks, ((network s).forger P rest blocks).Rekeys R) (rounds : Nat) :
    2 ^ 91 * Nat.card {blocks : Blocks // Overrun P rest blocks prologue eI i1 w1 insistent network n R rounds
      (fun s out rs => Trusted text signed (cert s out) (clock s) rs)
      fun s out rs => Vouched issued (cert s out) (clock s) rs} ≤ (2 * n + q) * Nat.card Blocks := by
  refine card_overrun P rest hD prologue kp eI buf1 w1 i1 h1 insistent network n R q hq hR rounds _ _ ?_
  rintro s out rs ⟨⟨cf, hcf, hok⟩, hf⟩
  rcases C33_signed_or_forged issued signed hsigned text rs (cert s out) cf (clock s) hcf hok with h | h
  · refine ⟨h, fun hnow => ?_⟩
    have := C34_unexpired cf (clock s) hnow hok
    have hm : cf.signature_noise_message = cert s out := by
      unfold CertificateFormat.new at hcf
      split at hcf
      · cases hcf
      · split at hcf
        · cases hcf
        · split at hcf
          · cases hcf; rfl
          · cases hcf
    rw [hm] at this
    exact this
  · exact absurd h hf

/-! ## A case -/

/-- The certificate that an authority with the key `"key"` made for a server, and the payload with it. -/
def serverCert : SignatureNoiseMessage toyScheme := ⟨0, 100, 200, ⟨Arr.replicate 64 7, rfl⟩⟩

def certified (first : Bytes) : Serving :=
  ⟨[1, 2], Arr.replicate 32 5, Arr.replicate 32 4, first,
    List.replicate 80 0 ++ Wire.signatureNoiseMessage serverCert ++ List.replicate 16 0⟩

/-- Some bytes, and then the answer of the server. -/
def visit (first : Bytes) : Insistent :=
  .deliver (List.replicate 40 9) fun _ => .serve (certified first) fun a => .deliver ((a.map (·.second)).getD []) fun _ => .stop

/-- The certificate in the payload. -/
def certOf (out : Bytes) : SignatureNoiseMessage toyScheme :=
  match deserialize (SignatureNoiseMessage toyScheme) (plain (out.drop 80)) with
  | .ok m => m
  | _ => ⟨0, 0, 0, ⟨Arr.replicate 64 0, rfl⟩⟩

/-- The client refuses the bytes, accepts the answer, and finds the certificate in it, which is in order.  The two then read
each other's frames, and not the changed one; no session key was used for anything else. -/
example :
    let rest := fun _ _ _ => 7
    let m := firstOf (Arr.replicate 32 3)
    let s := (visit m.2.2).play toyPrims rest toyBlocks 2 { client := m.2.1 }
    let Q := toyPrims.withBlocks rest toyBlocks
    let c := s.accepted.getD ([], m.2.1, [])
    let rs := c.2.1.getRemoteStaticPublicKey.getD EMPTY
    let start : SNet := { rnet := { net := { i := c.2.1, r := (s.served.map (·.2.session)).getD 0 toyR } } }
    let n := (SNet.attacked Q ((courier ⟨[], [], []⟩).forger toyPrims rest toyBlocks) start 6).1
    let used := s.used toyPrims ++ (courier ⟨[], [], []⟩).used toyPrims rest toyBlocks start 6
    s.refused.length = 1 ∧ s.served.length = 1 ∧ s.accepted.isSome ∧ rs = toyPrims.publicOf (Arr.replicate 32 5) ∧
    Wire.signatureNoiseMessage (certOf c.2.2) = Wire.signatureNoiseMessage serverCert ∧ Stack.read n.rnet.net.gotR = [.ok sampleFrame] ∧
    Stack.read n.rnet.net.gotI = [.ok ⟨.setupConnectionSuccess, [2, 0, 1, 0, 0, 0]⟩] ∧
    c.2.1.cs1.k ∉ used ∧ c.2.1.cs2.k ∉ used ∧ c.2.1.cs1.k ≠ c.2.1.cs2.k := by
  decide +kernel

/-- It was issued, and the client's check returns `Ok`. -/
example : Trusted "key" [Wire.certBytes 0 100 200 (toyPrims.publicOf (Arr.replicate 32 5))] serverCert ⟨150 * 1000000000⟩
    (toyPrims.publicOf (Arr.replicate 32 5)) ∧
    Vouched [⟨0, 100, 200, toyPrims.publicOf (Arr.replicate 32 5)⟩] serverCert ⟨150 * 1000000000⟩
      (toyPrims.publicOf (Arr.replicate 32 5)) ∧
    ∀ b, b ∈ [Wire.certBytes 0 100 200 (toyPrims.publicOf (Arr.replicate 32 5))] ↔
      ∃ c ∈ [(⟨0, 100, 200, toyPrims.publicOf (Arr.replicate 32 5)⟩ : SignedCertificate)], serialize c = .ok b := by
  refine ⟨⟨⟨⟨Arr.replicate 32 7, toyPrims.publicOf (Arr.replicate 32 5), serverCert⟩, rfl, by decide +kernel⟩, ?_⟩,
    ⟨List.mem_cons_self, by decide⟩, ?_⟩
  · rintro ⟨pk, -, h, -⟩
    exact h List.mem_cons_self
  · intro b
    simp only [List.mem_singleton, exists_eq_left, (emits_signedCertificate _).serialize, Out.ok.injEq]
    exact eq_comm

end SV2.Stack
