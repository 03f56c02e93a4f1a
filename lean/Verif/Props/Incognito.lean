import Verif.Props.Forward
import Verif.Lemmas.Incognito
/-!
# C108: an observer cannot tell which server a client talks to, if the hash function and ChaCha20 are random

The attacker is the one of `Verif/Spec/Forward.lean`; what it does not look at is in `Verif/Spec/Incognito.lean`.
-/

namespace SV2.Noise.Distant
open SV2.Long
open SV2.Noise.Veiled (Ask cut splitName name_hash)

variable (P : Prims) (rest : Arr 32 → Arr 12 → Nat → UInt8)

theorem few_know (hD : DhLaws P) (far : Bytes → Arr 32) (M : Nat) (hM : 97 ≤ M) (prologue : Bytes) (kp kp' : Keypair)
    (eI : Arr 32) (buf1 : Bytes) (sR sR' eR : Arr 32) (buf2 buf2' : Bytes) (hl : buf2.length = buf2'.length)
    (listener : Bytes → Bytes → Listener) (m : Nat)
    (hm : ∀ a b past, ((listener a b).next past).Within M m ∧ ((listener a b).verdict past).Within M m)
    (ho : ∀ a b, (listener a b).Outside)
    (hb : ∀ a b past, ((listener a b).next past).Alone ∧ ((listener a b).verdict past).Alone) (rounds : Nat) (second second' : Bool) :
    2 ^ 256 * Nat.card {x : Hashes M × Blocks //
      Overheard P rest x.2 far prologue kp eI buf1 sR eR buf2 listener rounds second x.1} ≤
    2 ^ 256 * Nat.card {x : Hashes M × Blocks //
      Overheard P rest x.2 far prologue kp' eI buf1 sR' eR buf2' listener rounds second' x.1} +
      2 ^ 10 * ((rounds + 1) * m + 7) ^ 2 * Nat.card (Hashes M × Blocks) := by
  by_cases hfits : Fits buf1 buf2
  swap
  · have : IsEmpty {x : Hashes M × Blocks //
        Overheard P rest x.2 far prologue kp eI buf1 sR eR buf2 listener rounds second x.1} := by
      refine ⟨fun x => hfits ?_⟩
      obtain ⟨x, i1, first, h1, a, h2, i2, out, h3, -⟩ := x
      obtain ⟨hmid, hpub, g1, g2, g3⟩ := send_first_ok h1
      subst hmid
      obtain ⟨ok, rfl⟩ := ((Serving.mk prologue sR eR first buf2).answer_iff _).mp h2
      obtain ⟨_, _, _, _, _, _, hl, -⟩ := recv_second_ok h3
      have k1 := ok.first
      have k2 := ok.buf
      simp only at k1 k2
      have l1 := congrArg List.length g3
      rw [List.length_drop, List.length_drop] at l1
      have l2 : ((Serving.mk prologue sR eR first buf2).made ((P.withHash (x.1.at far)).withBlocks rest x.2)).second.length =
          32 + 48 + ((body (buf2.drop 80)).length + 16) := by
        show (_ ++ _ ++ _ : Bytes).length = _
        rw [List.length_append, List.length_append, Arr.len, Serving.encS_length, Serving.encP_length]
      rw [l2] at hl
      simp only [body, List.length_take, List.length_drop] at hl
      exact ⟨by omega, by omega⟩
    rw [Nat.card_of_isEmpty, Nat.mul_zero]
    exact Nat.zero_le _
  have hfits' : Fits buf1 buf2' := ⟨hfits.first, hl ▸ hfits.second⟩
  obtain ⟨w1, hw⟩ : ∃ w1, w1 = (P.publicOf eI).toList ++ buf1.drop 32 := ⟨_, rfl⟩
  let e : Hashes M × Blocks ≃ Arr 32 × ((Ask M → Arr 32) × (Arr 32 → KeyRow)) :=
    ((splitName hM).prodCongr (Equiv.curry (Arr 32) (Arr 12 × Fin 1025) (Arr 64))).trans (Equiv.prodAssoc _ _ _)
  let yes : Keypair → Arr 32 → Bytes → Bool → Arr 32 → (Ask M → Arr 32) × (Arr 32 → KeyRow) → Prop := fun kp sR buf second h y =>
    Overheard P rest (e.symm (h, y)).2 far prologue kp eI buf1 sR eR buf listener rounds second (e.symm (h, y)).1
  have e' : ∀ kp sR buf second, Nat.card {x : Hashes M × Blocks //
      Overheard P rest x.2 far prologue kp eI buf1 sR eR buf listener rounds second x.1} =
      Nat.card {x : Arr 32 × ((Ask M → Arr 32) × (Arr 32 → KeyRow)) // yes kp sR buf second x.1 x.2} := fun kp sR buf second =>
    Nat.card_congr (e.subtypeEquiv fun x => by
      show _ ↔ Overheard P rest (e.symm (e x)).2 far prologue kp eI buf1 sR eR buf listener rounds second (e.symm (e x)).1
      rw [Equiv.symm_apply_apply])
  rw [e', e', Nat.card_congr e]
  refine card_prod_diff _ _ _ _ fun h => ?_
  have : Nonempty (Arr 32) := ⟨NX.zeros⟩
  have : Nonempty KeyRow := ⟨fun _ => Arr.replicate 64 0⟩
  obtain ⟨ee, hee⟩ : ∃ ee, ee = P.dh eI (P.publicOf eR) := ⟨_, rfl⟩
  obtain ⟨es, hes⟩ : ∃ es, es = P.dh eI (P.publicOf sR) := ⟨_, rfl⟩
  obtain ⟨es', hes'⟩ : ∃ es', es' = P.dh eI (P.publicOf sR') := ⟨_, rfl⟩
  let job : Arr 32 → Bytes → Bool → Job M (Option Bool) := fun sR buf second =>
    (listenJob P far h ⟨prologue, sR, eR, w1, buf⟩ listener rounds second).guard (shape hM h ee es).A
  have hcalls : ∀ sR buf second w, ((job sR buf second).log w).length ≤ (rounds + 1) * m + 7 := fun sR buf second w =>
    (Prog.guard_prefix _ w _).length_le.trans (listenJob_calls P far h _ listener rounds m (fun a b past => (hm a b past).1)
      (fun a b past => (hm a b past).2) second w)
  have b := card_real (shape hM h ee es) (shape hM h ee es') (job sR buf2 second) (job sR' buf2' second') _ (hcalls sR buf2 second)
    (hcalls sR' buf2' second')
    (fun w p => Prog.guard_never _ w _ p) (fun w p => Prog.guard_never _ w _ p) (fun a => a = some true)
    (listenJob_swap P far h _ (c := ⟨prologue, sR, eR, w1, buf2⟩) (c' := ⟨prologue, sR', eR, w1, buf2'⟩)
      ⟨rfl, rfl, rfl, hl, hfits'.second.2.trans (by decide)⟩ listener ho rounds second second')
  rw [Crypto.Poly1305.card_keys] at b
  have hname : ∀ y : (Ask M → Arr 32) × (Arr 32 → KeyRow), NX.h0 (P.withHash ((e.symm (h, y)).1.at far)) = h := by
    intro y
    rw [name_hash P hM]
    exact congrArg Prod.fst (e.apply_symm_apply (h, y))
  have hworld : ∀ (es : Arr 32) (y : (Ask M → Arr 32) × (Arr 32 → KeyRow)), world hM (e.symm (h, y)).1 (e.symm (h, y)).2 h ee es =
      real (shape hM h ee es) y.1 y.2 ∧ cut (e.symm (h, y)).1 = y.1 := by
    intro es y
    have h1 : cut (e.symm (h, y)).1 = y.1 := congrArg (fun z => z.2.1) (e.apply_symm_apply (h, y))
    refine ⟨?_, h1⟩
    unfold world
    rw [h1]
    rfl
  refine (Nat.mul_le_mul_left _ ?_).trans (b.trans (Nat.add_le_add (Nat.mul_le_mul_left _ ?_) (Nat.mul_le_mul_right _ ?_)))
  · refine Nat.card_le_card_of_injective (fun y => ⟨y.1, fun F => ?_⟩) fun a b h => Subtype.ext (congrArg (fun z => z.1) h)
    obtain ⟨y, hy⟩ := y
    obtain ⟨hw1, hw2⟩ := hworld es y
    rw [← hw1] at F ⊢
    simp only [← hw2] at F
    exact (overheard_run P rest hM (fun a b past => (hb a b past).1) (fun a b past => (hb a b past).2) rfl (hname y)
      ⟨hD.comm, hD.public_ok⟩ hfits hw rfl hee hes F).mp hy
  · refine Nat.card_le_card_of_injective (fun y => ⟨y.1, ?_⟩) fun a b h => Subtype.ext (congrArg (fun z => z.1) h)
    obtain ⟨y, F, hy⟩ := y
    obtain ⟨hw1, hw2⟩ := hworld es' y
    rw [← hw1] at F hy
    simp only [← hw2] at F
    exact (overheard_run P rest hM (fun a b past => (hb a b past).1) (fun a b past => (hb a b past).2) rfl (hname y)
      ⟨hD.comm, hD.public_ok⟩ hfits' hw rfl hee hes' F).mpr hy
  · exact Nat.mul_le_mul_right _ (by decide)

end SV2.Noise.Distant

namespace SV2.Noise

variable (P : Prims) (rest : Arr 32 → Arr 12 → Nat → UInt8)

/-- A client does a handshake with one of two servers, which have any two static secrets, and nobody changes the two messages.
An attacker - which may depend on all secrets, those of both servers among them, and sees the two messages - then sits
between the two: in each of `rounds` steps, after at most `m` hashes and blocks of ChaCha20, it names two texts of the same
length of which one of the two sends the first (or the second), or delivers something to one of the two; it sees all
messages and errors, but neither the keys nor the static key that the client got.  After `m` more hashes and blocks it says
yes or no.  The numbers of the hash and block functions for which it says yes with the one server and with the other - and
with any two clients, any two payloads of the same length in the server's handshake message, and either of the texts -, and
nobody hashed the shared secret of the two ephemeral keys other than for keys, differ by at most a share of
`((rounds + 1) * m + 7)^2 / 2^246`. -/
theorem C108_incognito (hD : DhLaws P) (far : Bytes → Arr 32) (M : Nat) (hM : 97 ≤ M) (prologue : Bytes) (kp kp' : Keypair)
    (eI : Arr 32) (buf1 : Bytes) (sR sR' eR : Arr 32) (buf2 buf2' : Bytes) (hl : buf2.length = buf2'.length)
    (listener : Bytes → Bytes → Listener) (m : Nat)
    (hm : ∀ a b past, ((listener a b).next past).Within M m ∧ ((listener a b).verdict past).Within M m)
    (ho : ∀ a b, (listener a b).Outside)
    (hb : ∀ a b past, ((listener a b).next past).Alone ∧ ((listener a b).verdict past).Alone) (rounds : Nat)
    (second second' : Bool) :
    2 ^ 256 * Nat.card {x : Hashes M × Blocks //
      Overheard P rest x.2 far prologue kp eI buf1 sR eR buf2 listener rounds second x.1} ≤
    2 ^ 256 * Nat.card {x : Hashes M × Blocks //
      Overheard P rest x.2 far prologue kp' eI buf1 sR' eR buf2' listener rounds second' x.1} +
      2 ^ 10 * ((rounds + 1) * m + 7) ^ 2 * Nat.card (Hashes M × Blocks) :=
  Distant.few_know P rest hD far M hM prologue kp kp' eI buf1 sR sR' eR buf2 buf2' hl listener m hm ho hb rounds second second'

/-! ## Who does learn it -/

/-- It computes the first handshake key from the shared secret of the ephemeral keys, and decrypts the server's static key. -/
def peek (ee : Arr 32) (wire : Bytes) : Curious Bytes :=
  (Curious.hashed nameBytes).bind fun h =>
  (Curious.hkdf h ee.toList).bind fun a =>
  (Curious.learn (rowOf a.2 0)).bind fun bl =>
  .reply ((NX.enc (P.withBlocks rest bl) a.2 0 [] ((wire.drop 32).take 32)).take 32)

theorem peek_hash (hash : Bytes → Arr 32) (ee : Arr 32) (wire : Bytes) :
    peek (P.withHash hash) rest ee wire = peek P rest ee wire := by
  have e : ∀ b k n ad p, NX.enc ((P.withHash hash).withBlocks rest b) k n ad p = NX.enc (P.withBlocks rest b) k n ad p :=
    fun _ _ _ _ _ => rfl
  unfold peek
  simp only [e]

seal Curious.Within in
theorem peek_within (M : Nat) (ee : Arr 32) (wire : Bytes) : (peek P rest ee wire).Within M 1032 := by
  have l : ∀ k, (rowOf k 0).length = 1025 := fun k => by rw [rowOf, List.length_map, List.length_finRange]
  obtain ⟨N, hN⟩ : ∃ N, N = 1025 := ⟨_, rfl⟩
  obtain ⟨N', hN'⟩ : ∃ N, N = 1032 := ⟨_, rfl⟩
  have hl : ∀ k, (Curious.learn (rowOf k 0)).Within M N := fun k => by
    have := Curious.learn_within (M := M) (rowOf k 0)
    rw [(l k).trans hN.symm] at this
    exact this
  have e : N' = 1 + (6 + (N + 0)) := by omega
  rw [← hN', e]
  exact (Curious.hashed_within _).bind fun h => (Curious.hkdf_within _ _).bind fun a => (hl _).bind fun b1 => Curious.reply_within _

seal Curious.Alone in
theorem peek_alone (ee : Arr 32) (wire : Bytes) : (peek P rest ee wire).Alone :=
  Distant.Alone.bind (Distant.hashed_alone _) fun _ => Distant.Alone.bind (Distant.hkdf_alone _ _) fun _ =>
    Distant.Alone.bind (Distant.learn_alone _) fun _ => by unfold Curious.Alone; trivial

theorem peek_gives (blocks : Blocks) (ee : Arr 32) (wire : Bytes) : (peek P rest ee wire).Gives P rest blocks
    ((NX.enc (P.withBlocks rest blocks) (NX.afterEE P ee).2 0 [] ((wire.drop 32).take 32)).take 32) := by
  obtain ⟨b, g, e⟩ := Curious.learn_gives (P := P) (rest := rest) blocks (rowOf (NX.afterEE P ee).2 0)
  refine (Curious.hashed_gives blocks _).bind ((Curious.hkdf_gives blocks _ _).bind (g.bind ⟨?_, rfl⟩))
  have h : NX.enc (P.withBlocks rest b) (NX.afterEE P ee).2 0 [] ((wire.drop 32).take 32) =
    NX.enc (P.withBlocks rest blocks) (NX.afterEE P ee).2 0 [] ((wire.drop 32).take 32) := enc_row e _ _
  exact congrArg (fun w => w.take 32) h

theorem peek_hashed (blocks : Blocks) (ee : Arr 32) (wire : Bytes) :
    innerInput (NX.h0 P) ee ∈ ((peek P rest ee wire).play P rest blocks).hashed :=
  Curious.hashed_right (Curious.hashed_gives blocks _).1 (Curious.hashed_left (Curious.hkdf_hashed blocks _ _))

theorem enc_take_mask (blocks : Blocks) (k : Arr 32) (n : Nat) (ad p : Bytes) :
    (NX.enc (P.withBlocks rest blocks) k n ad p).take p.length = mask (blocks.stream rest k (NX.nonce n)) p :=
  List.take_left' (length_mask _ _)

seal Curious.Within Curious.Alone peek in
/-- The condition on the hashes is needed: for any shared secret of ephemeral keys there is an attacker that asks for some hashes
- one of them of this shared secret - and blocks, but no responder, and which finds the static public key of any server in
the server's handshake message, if client and server have this shared secret, whatever the hash and the block function are. -/
theorem C108_informed (far : Bytes → Arr 32) (M : Nat) (ee : Arr 32) :
    ∃ who : Bytes → Curious Bytes, (∀ wire, (who wire).Within M 1032 ∧ (who wire).Alone) ∧
      ∀ (H : Hashes M) (blocks : Blocks) (c : Serving) (a : Answer),
        let Q := P.withHash (H.at far)
        c.answer (Q.withBlocks rest blocks) = some a → Q.dh c.eR (keyIn c.first) = ee →
        let v := (who a.second).play Q rest blocks
        v.result = (Q.publicOf c.sR).toList ∧ innerInput (NX.h0 Q) ee ∈ v.asked Q := by
  refine ⟨peek P rest ee, fun wire => ⟨peek_within P rest M ee wire, peek_alone P rest ee wire⟩, ?_⟩
  intro H blocks c a Q ha hee
  rw [← peek_hash P rest (H.at far)]
  refine ⟨?_, List.mem_append_left _ (peek_hashed Q rest blocks ee _)⟩
  refine (peek_gives Q rest blocks ee _).1.trans ?_
  obtain ⟨-, rfl⟩ := (c.answer_iff a).mp ha
  obtain ⟨-, f2, -⟩ := c.made_parts (P := Q.withBlocks rest blocks)
  have e : ((c.made (Q.withBlocks rest blocks)).second.drop 32).take 32 =
      mask (blocks.stream rest (NX.afterEE Q ee).2 (NX.nonce 0)) (Q.publicOf c.sR).toList := by
    have h : (c.encS (Q.withBlocks rest blocks)).take 32 =
        mask (blocks.stream rest (NX.afterEE Q ee).2 (NX.nonce 0)) (Q.publicOf c.sR).toList := by
      rw [← enc_take_mask Q rest blocks (NX.afterEE Q ee).2 0 (NX.transcript Q [c.prologue, c.first.take 32, c.first.drop 32,
        (Q.publicOf c.eR).toList]).toList (Q.publicOf c.sR).toList, Arr.len, ← hee]
      rfl
    rw [← h, ← f2, List.take_take]
    rfl
  rw [e]
  have h := enc_take_mask Q rest blocks (NX.afterEE Q ee).2 0 []
    (mask (blocks.stream rest (NX.afterEE Q ee).2 (NX.nonce 0)) (Q.publicOf c.sR).toList)
  rw [length_mask, Arr.len, mask_mask] at h
  exact h

/-- Somebody who connects to a server themself learns its static public key: from every answer of the server to their first
message, if this answer is not longer than what a client takes. -/
theorem C108_probe {P : Prims} (hD : DhLaws P) (hA : AeadCorrect P) (prologue : Bytes) (kp : Keypair) (eI : Arr 32) (buf1 : Bytes)
    (i1 : NoiseSession) (first : Bytes)
    (h1 : (NoiseSession.initSession P true prologue kp).sendMessage P (Keypair.default P eI) buf1 = (.ok (), i1, first))
    (sR eR : Arr 32) (buf2 : Bytes) (a : Answer) (h2 : (Serving.mk prologue sR eR first buf2).answer P = some a)
    (hl : a.second.length ≤ 2128) :
    ∃ i2 out, i1.recvMessage P a.second = (.ok (), i2, out) ∧ i2.getRemoteStaticPublicKey = some (P.publicOf sR) := by
  obtain ⟨hmid, hpub, g1, g2, g3⟩ := send_first_ok h1
  obtain ⟨ok, hmade⟩ := ((Serving.mk prologue sR eR first buf2).answer_iff _).mp h2
  subst hmid
  obtain ⟨⟨out, h⟩, -⟩ := Serving.completes hD hA h2 (prologue := prologue) (s := kp) (eI := eI) (second := a.second)
    hpub (by rw [hmade]; rfl) (by rw [hmade]; rfl) rfl hl
  exact ⟨_, out, h, rfl⟩

/-! ## Cases -/

/-- The attacker of C106 looks at messages only. -/
example : quietListener.Outside := by
  have e : ∀ past : List Seen, (past.map Seen.unnamed).map Seen.wire = past.map Seen.wire := fun past => by
    rw [List.map_map]
    rfl
  intro past
  unfold quietListener
  simp only [e, List.length_map, and_self]

/-- An attacker that looks at the errors and counters of the two is one of those meant, too; one that looks at the static key is
not. -/
example : Listener.Outside ⟨fun past => .reply (.deliver .responder ((past.map Seen.wire).flatten)),
    fun past => .reply (past.all fun s => s.outcome = .ok () ∧ s.initiator.mc = s.responder.mc)⟩ := by
  intro past
  simp only [List.map_map, List.all_map]
  exact ⟨rfl, rfl⟩

example : ¬ Listener.Outside ⟨fun _ => .reply (.deliver .responder []),
    fun past => .reply (past.all fun s => s.initiator.hs.rs = NX.zeros)⟩ := by
  intro h
  have e := (h [⟨.ok (), [], { toyR with hs := { toyR.hs with rs := Arr.replicate 32 1 } }, toyR⟩]).2
  have e := Curious.reply.inj e
  exact absurd e (by decide +kernel)

/-- A handshake with each of two servers succeeds, all messages arrive, and nobody hashed the shared secret of the ephemeral
keys other than for keys; the two answers are different, and the clients get the static keys of the two. -/
example : let rest := fun _ _ _ => 7
    let m := firstOf (Arr.replicate 32 3)
    let Q := toyPrims.withBlocks rest toyBlocks
    let a := fun s => (Serving.mk [1, 2] (Arr.replicate 32 s) (Arr.replicate 32 4) m.2.2 (List.replicate 100 9)).answer Q
    let w := fun s => ((a s).map (·.second)).getD []
    let c := fun s => m.2.1.recvMessage Q (w s)
    let h := fun s => quietListener.listen toyPrims rest toyBlocks true 4 ((c s).2.1, ((a s).map (·.session)).getD toyR) [] []
    let v := fun s => (quietListener.verdict (h s).1).play toyPrims rest toyBlocks
    w 5 ≠ w 6 ∧ (w 5).take 32 = (w 6).take 32 ∧ (c 5).2.1.hs.rs ≠ (c 6).2.1.hs.rs ∧
    ∀ s ∈ ([5, 6] : List UInt8), m.1 = .ok () ∧ (a s).isSome ∧ (w s).length ≤ 2128 ∧ (c s).1 = .ok () ∧
      (c s).2.1.getRemoteStaticPublicKey = some (toyPrims.publicOf (Arr.replicate 32 s)) ∧
      (h s).1.map Seen.outcome = [.ok (), .ok (), .ok (), .ok ()] ∧
      ∀ x ∈ NX.hashInputs toyPrims (NX.h0 toyPrims) (NX.parts [1, 2] m.2.2 (w s)) ++ (h s).2 ++ (v s).asked toyPrims,
        x ≠ innerInput (NX.h0 toyPrims) (toyPrims.dh (Arr.replicate 32 3) (toyPrims.publicOf (Arr.replicate 32 4))) := by
  decide +kernel

end SV2.Noise
