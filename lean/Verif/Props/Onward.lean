import Verif.Lemmas.OnwardTalk
import Verif.Props.Outsider
/-!
# C112: who does not hash a shared secret cannot talk in the place of a server, also when the sides change keys

As `C104_outsider`, but the attacker has the two sides rekey when it likes.
-/

namespace SV2.Noise.Veiled
open SV2.Veil SV2.Stack SV2.Stack.Renewal
open SV2.Noise.Distant (gathered trail seat_trail trail_rekeyed trail_like)

variable (P : Prims) (rest : Arr 32 → Arr 12 → Nat → UInt8)

/-- Nothing happens by chance. -/
def AllFineOn {M : Nat} (hM : 97 ≤ M) (far : Bytes → Arr 32) (D : List (Arr 32)) (prologue : Bytes) (eI : Arr 32) (first : Bytes)
    (impostor : Curious Bytes) (watcher : Watcher) (E : Nat) (labels : Fin (E + 2) → Arr 32) (rounds : Nat) (H : Hashes M)
    (blocks : Blocks) : Prop :=
  Fine (shape hM (nameOf hM H) D) (((onwardJob P far (nameOf hM H) D rest prologue eI first impostor watcher E labels rounds).guard
    (shape hM (nameOf hM H) D).A).log (world hM H blocks (nameOf hM H) D)) (cut H)

/-- The hashes and blocks under which something happens by chance are few. -/
theorem few_not_allFineOn {M : Nat} (hM : 97 ≤ M) (far : Bytes → Arr 32) (D : List (Arr 32)) (prologue : Bytes) (eI : Arr 32)
    (first : Bytes) (impostor : Curious Bytes) (watcher : Watcher) (E : Nat) (labels : Fin (E + 2) → Arr 32) (rounds n m : Nat)
    (hn : impostor.Within M n) (hm : ∀ past, (watcher past).Within M m) :
    2 ^ 256 * Nat.card {x : Hashes M × Blocks //
      ¬ AllFineOn P rest hM far D prologue eI first impostor watcher E labels rounds x.1 x.2} ≤
      67200 * (n + rounds * m + E + 1) ^ 2 * Nat.card (Hashes M × Blocks) := by
  let bad : Arr 32 → (Ask M → Arr 32) × (Arr 32 → KeyRow) → Prop := fun h y =>
    ¬ Fine (shape hM h D) (((onwardJob P far h D rest prologue eI first impostor watcher E labels rounds).guard (shape hM h D).A).log
      (real (shape hM h D) y.1 y.2)) y.1
  let e : Hashes M × Blocks ≃ Arr 32 × ((Ask M → Arr 32) × (Arr 32 → KeyRow)) :=
    ((splitName hM).prodCongr (Equiv.curry (Arr 32) (Arr 12 × Fin 1025) (Arr 64))).trans (Equiv.prodAssoc _ _ _)
  have e' : {x : Hashes M × Blocks // ¬ AllFineOn P rest hM far D prologue eI first impostor watcher E labels rounds x.1 x.2} ≃
      {x : Arr 32 × ((Ask M → Arr 32) × (Arr 32 → KeyRow)) // bad x.1 x.2} := e.subtypeEquiv fun x => Iff.rfl
  rw [Nat.card_congr e, Nat.card_congr e']
  refine card_prod_le _ _ bad fun h => ?_
  have : Nonempty (Arr 32) := ⟨NX.zeros⟩
  have : Nonempty KeyRow := ⟨fun _ => Arr.replicate 64 0⟩
  have b := few_not_fine (shape hM h D)
    ((onwardJob P far h D rest prologue eI first impostor watcher E labels rounds).guard (shape hM h D).A)
    (20 * (n + rounds * m + E + 1))
    (fun w => ((onwardJob P far h D rest prologue eI first impostor watcher E labels rounds).guard_prefix _ w).length_le.trans
      (onwardJob_calls P far h D rest prologue eI first impostor watcher E labels rounds n m hn hm w))
    fun w p => Prog.guard_never _ w _ p
  rw [Crypto.Poly1305.card_keys] at b
  refine b.trans (Nat.mul_le_mul_right _ ?_)
  rw [Nat.mul_pow, ← Nat.mul_assoc]

/-- If nothing happens by chance, who breaches the connection also breaks it in the sense of `Verif/Spec/Channel.lean`. -/
theorem breached_on {M : Nat} (hM : 97 ≤ M) (hM' : 65567 ≤ M) {far : Bytes → Arr 32} {prologue : Bytes} (hp : prologue.length + 32 ≤ M)
    {kp : Keypair} {eI : Arr 32} {buf1 w1 : Bytes} {i1 : NoiseSession} {servers : List (Arr 32)} {impostor : Bytes → Curious Bytes}
    {watcher : Watcher} {rounds n m : Nat} (hn : (impostor w1).Within M n) (hb : (impostor w1).Blind)
    (hm : ∀ past, (watcher past).Within M m) (hb' : ∀ past, (watcher past).Blind) {H : Hashes M} {blocks : Blocks}
    {Q : Prims} (hQ : Q = P.withHash (H.at far))
    (h1 : (NoiseSession.initSession Q true prologue kp).sendMessage Q (Keypair.default Q eI) buf1 = (.ok (), i1, w1)) {E : Nat}
    (hE : (watcher.forger Q rest blocks).Rekeys E) {labels : Fin (E + 2) → Arr 32} (hlab : Function.Injective labels)
    (hlab0 : ∀ a, labels a ≠ EMPTY)
    (F : AllFineOn P rest hM far (servers.map (P.dh eI)) prologue eI w1 (impostor w1) watcher E labels rounds H blocks)
    (hset : Onset Q rest prologue eI w1 (impostor w1) watcher E rounds blocks)
    (h : Breached P rest blocks far prologue kp eI buf1 servers impostor watcher rounds H) :
    Broken Q rest blocks prologue eI i1 w1 ((impostor w1).asking Q.hash) (fun _ => asker watcher Q) E rounds := by
  have hh : NX.h0 Q = nameOf hM H := by rw [hQ]; exact name_hash P hM far H
  unfold AllFineOn at F
  unfold Breached at h
  rw [← hQ] at h
  generalize nameOf hM H = h0 at hh F
  obtain ⟨i, first, h1', i2, out, rs, h2, hrs, hmem, ht, hc, hno⟩ := h
  rw [h1] at h1'
  simp only [Prod.mk.injEq, true_and] at h1'
  obtain ⟨rfl, rfl⟩ := h1'
  have hplay := (impostor w1).play_asking Q rest blocks
  unfold Broken
  simp only [hplay]
  obtain ⟨hmid, hpub, hb1, hb2, hdr⟩ := send_first_ok h1
  have hwl : w1.length ≤ 65535 := by
    have e1 := congrArg List.length hpub
    have e2 := congrArg List.length hdr
    simp only [List.length_take, List.length_drop, Arr.len] at e1 e2
    omega
  subst hmid
  obtain ⟨hst, hl, hl', -⟩ := accepts (P := Q) (stream := blocks.stream rest) (mk := blocks.oneTime) h2 hrs
  have hi2 := client_after Q (stream := blocks.stream rest) (mk := blocks.oneTime) h2 hrs
  have hdh : Q.dh = P.dh := by rw [hQ]; rfl
  have hD : Q.dh eI rs ∈ servers.map (P.dh eI) := by rw [hdh]; exact List.mem_map_of_mem hmem
  have hserved := served_answer Q rest blocks ((impostor w1).asking Q.hash)
  rw [hplay] at hserved
  have notTold : ∀ heard, ¬ Told Q eI servers heard → ∀ q : Deep h0 (servers.map (P.dh eI)),
      padded 0x36 q.1.1 ++ q.1.2.toList ∉ heard := by
    intro heard ht q hq
    obtain ⟨rs', hm, he⟩ := List.mem_map.mp q.2.1
    refine ht ⟨q.1.1, rs', hm, ?_⟩
    rw [hdh, he]
    exact hq
  generalize servers.map (P.dh eI) = D at *
  -- the first part
  obtain ⟨L1, hL1⟩ : ∃ L1, L1 = (firstJob P far h0 D prologue eI w1 (impostor w1)).log (world hM H blocks h0 D) := ⟨_, rfl⟩
  have hL1' := hL1
  unfold firstJob at hL1'
  rw [Prog.log_bind] at hL1'
  obtain ⟨r1, a2, a3, a4⟩ := attackJob_spec (L := L1) hM D P H blocks hQ hh rest hM' (impostor w1) n hn hb
    (by rw [hL1']; exact List.subset_append_left _ _)
  have hrun : (firstJob P far h0 D prologue eI w1 (impostor w1)).run (world hM H blocks h0 D) =
      (clientJob P far h0 D prologue eI w1 ((impostor w1).play Q rest blocks).result).run (world hM H blocks h0 D) := by
    unfold firstJob
    rw [Prog.run_bind, r1]
  rw [r1] at hL1'
  generalize hpl : (impostor w1).play Q rest blocks = p at *
  obtain ⟨c1, c2, c3, c4, c5⟩ := clientJob_spec (L := L1) hM D P H blocks hQ hh rest hM' prologue eI w1 p.result hst
    (by rw [hL1']; exact List.subset_append_right _ _)
  have hA1 : ∀ q, .hash ((shape hM h0 D).A q) ∉ L1 := by
    intro q hq
    rw [hL1'] at hq
    refine notTold _ ht q ?_
    unfold Spied.heard
    rcases List.mem_append.mp hq with hq | hq
    · rcases a4 _ hq with hq | hq
      · exact absurd rfl (hq _ q.2.2 _ q.2.1)
      · exact List.mem_append_left _ hq
    · rcases c5 _ hq with hq | hq
      · exact absurd rfl (hq _ q.2.2 _ q.2.1)
      · exact List.mem_append_right _ hq
  have F1 : Fine (shape hM h0 D) L1 (cut H) := F.subset (by
    rw [hL1] at hA1 ⊢
    exact Prog.guard_bind _ _ _ _ hA1)
  have hcare := careful hM H hQ hh F1 a2 a3 c2 c3 (c4 hp hwl (by omega)) hD hc
  have hd := And.intro hD (ck_ne hM H hQ hh F1 c2)
  have c1 := c1 hd
  refine ⟨i2, out, rs, h2, hrs, hcare, ?_⟩
  rintro ⟨s, hs, ha, hgen⟩
  refine hno ⟨s, hs, ha, ?_⟩
  intro start ht2
  -- the second part
  obtain ⟨ck, hck⟩ : ∃ ck, ck = (NX.afterEE Q (Q.dh eI (keyIn p.result))).1 := ⟨_, rfl⟩
  rw [← hck] at c1 c3 hd
  obtain ⟨t, htr⟩ : ∃ t, t = NX.transcript Q (NX.parts prologue w1 p.result) := ⟨_, rfl⟩
  rw [← htr] at c1
  have hkeys : NX.transportKeys Q (Q.dh eI (keyIn p.result)) (Q.dh eI rs) =
      (keysOf Q ck (Q.dh eI rs) 1, keysOf Q ck (Q.dh eI rs) 2) := by rw [hck]; rfl
  have hi2' : i2 = done true rs t (keysOf Q ck (Q.dh eI rs) 1, keysOf Q ck (Q.dh eI rs) 2) 1 := by
    rw [hi2, ← hkeys, htr]
    rfl
  have hs2 : s.2.session = done false EMPTY t (keysOf Q ck (Q.dh eI rs) 1, keysOf Q ck (Q.dh eI rs) 2) 1 := by
    obtain ⟨c, -, hans⟩ := hserved s hs
    have e := ((c.answer_iff _).mp hans).2
    have e' : ∃ t' k', s.2.session = done false EMPTY t' k' 1 := by rw [e]; exact ⟨_, _, rfl⟩
    obtain ⟨t', k', e'⟩ := e'
    have hhash := ha.hash
    obtain ⟨keys, hk⟩ := ha.keys
    have k1 := hk.initiator.1.trans hk.responder.1.symm
    have k2 := hk.initiator.2.trans hk.responder.2.symm
    rw [hi2', e'] at hhash k1 k2
    have k1 : keysOf Q ck (Q.dh eI rs) 1 = k'.1 := congrArg CipherState.k k1
    have k2 : keysOf Q ck (Q.dh eI rs) 2 = k'.2 := congrArg CipherState.k k2
    have ht' : t = t' := by simpa [NoiseSession.getHandshakeHash, done] using hhash
    rw [e', ← ht', k1, k2]
  have hstart : start = afterwards rs t (keysOf Q ck (Q.dh eI rs) 1, keysOf Q ck (Q.dh eI rs) 2) := by
    show ({ rnet := { net := { i := i2, r := s.2.session } } } : SNet) = _
    rw [hi2', hs2]
    rfl
  -- the later keys
  have hk1 := key_zero hM H hQ F1 hd c3 1
  have hk2 := key_zero hM H hQ F1 hd c3 2
  have hbef : ∀ x ∈ p.toPlayed.used Q, Known D L1 Q x := by
    intro x hx
    rcases List.mem_append.mp hx with hx | hx
    · exact .inl (a2 x hx)
    · obtain ⟨s', hs', hx⟩ := List.mem_flatMap.mp hx
      exact .inr ⟨s'.1, s'.2, a3 s' hs', hx⟩
  have hnot : ∀ j : Fin 3, j ≠ 0 →
      keysOf Q ck (Q.dh eI rs) j ∉ p.toPlayed.used Q ++ [(NX.afterEE Q (Q.dh eI (keyIn p.result))).2] := by
    intro j hj hx
    refine unknown hM H hQ F1 hd c3 j hj ?_
    rcases List.mem_append.mp hx with hx | hx
    · exact hbef _ hx
    · rw [List.mem_singleton.mp hx]
      exact .inl c2.row
  unfold Onset Free gotten before firstKeys at hset
  simp only [hpl, ← hst, hkeys, ← htr] at hset
  obtain ⟨s1, s2⟩ := hset ⟨fun e => absurd (two_keys hM H hQ F1 hd c3 e) (by decide), hk1, hk2, hnot 1 (by decide), hnot 2 (by decide)⟩
  rw [← hstart] at s2
  -- the second part
  obtain ⟨L, hL⟩ : ∃ L, L = (onwardJob P far h0 D rest prologue eI w1 (impostor w1) watcher E labels rounds).log
    (world hM H blocks h0 D) := ⟨_, rfl⟩
  have hL' := hL
  unfold onwardJob at hL'
  rw [Prog.log_bind, ← hL1, hrun.trans c1] at hL'
  unfold onJob at hL'
  rw [Prog.log_bind] at hL'
  obtain ⟨g1, g2⟩ := laterJob_spec (h0 := h0) hM D H blocks rest (keysOf Q ck (Q.dh eI rs) 1) E
  obtain ⟨-, -, t3, t4⟩ := talkJob_clad (L := L)
    (keys := trail blocks rest (keysOf Q ck (Q.dh eI rs) 1, keysOf Q ck (Q.dh eI rs) 2) E) hM D H blocks hQ hh rest hM'
    hm hb' hE (trail_like blocks rest Q P s1 hk2 hlab hlab0 g1 rfl fun _ => Arr.replicate 64 0)
    (trail_rekeyed blocks rest Q _ E) (build_rekeyed P rest hlab _ _)
    (start := afterwards rs t (seat labels 0)) ⟨⟨rfl, rfl, Nat.le_refl _⟩, ⟨rfl, rfl, Nat.le_refl _⟩⟩ rounds (by
      rw [hL']
      exact fun x hx => List.mem_append_right _ (List.mem_append_right _ hx))
  have hclad : clad (trail blocks rest (keysOf Q ck (Q.dh eI rs) 1, keysOf Q ck (Q.dh eI rs) 2) E) (afterwards rs t (seat labels 0)) =
      afterwards rs t (keysOf Q ck (Q.dh eI rs) 1, keysOf Q ck (Q.dh eI rs) 2) := by
    have : ∀ keys : Fin (E + 2) → Arr 32, clad keys (afterwards rs t (seat labels 0)) = afterwards rs t (seat keys 0) := fun _ => rfl
    rw [this, seat_trail blocks rest _ (Nat.zero_le _)]
    rfl
  rw [hclad, ← hstart] at t3 t4
  have hA : ∀ q, .hash ((shape hM h0 D).A q) ∉ L := by
    intro q hq
    rw [hL'] at hq
    rcases List.mem_append.mp hq with hq | hq
    · exact hA1 q hq
    · rcases List.mem_append.mp hq with hq | hq
      · exact g2 (fun _ => False) _ hq
      · rcases t4 _ hq with hq | hq
        · exact hq _ q.2.2 _ q.2.1 rfl
        · exact notTold _ ht2 q hq
  have F : Fine (shape hM h0 D) L (cut H) := by
    rw [hL] at hA ⊢
    rw [Prog.guard_log _ _ _ hA] at F
    exact F
  have sub : L1 ⊆ L := by rw [hL']; exact List.subset_append_left _ _
  have c3' : EsLogged D L Q ck (Q.dh eI rs) := ⟨fun h => sub (c3.hidden h), fun h => sub (c3.row h)⟩
  have hpriv : Private (blocks.stream rest) (i2.cs1.k, i2.cs2.k) E
      (p.toPlayed.used Q ++ (asker watcher Q).used Q rest blocks start rounds) := by
    rw [hi2']
    rcases s2 with s2 | s2 | s2
    · exact absurd (t3 _ s2) (unknown hM H hQ F hd c3' 1 (by decide))
    · exact absurd (t3 _ s2) (unknown hM H hQ F hd c3' 2 (by decide))
    · refine ⟨s2.1, fun x hx => s2.2 x ?_⟩
      rcases List.mem_append.mp hx with hx | hx
      · exact List.mem_append_left _ (List.mem_append_left _ hx)
      · exact List.mem_append_right _ hx
  have := hgen hpriv
  rw [asker_forger] at this
  exact this

end SV2.Noise.Veiled

namespace SV2.Stack
open Noise SV2.Veil

variable (P : Prims) (rest : Arr 32 → Arr 12 → Nat → UInt8)

/-- A client sends its first message.  An attacker with at most `n` questions - hashes, blocks of ChaCha20, and answers of
responders with any secrets, the real servers among them - gives it a reply; if the client accepts, the attacker goes on as
the network between the client and the responder: for `rounds` steps it has one of the two send a frame or rekey, or delivers
something to it, after at most `m` questions each time, with at most `q` deliveries, and each side rekeys at most `E` times.
It does not see the keys of the sessions.  For all but a share of `(q + 1) / 2^91` and `(n + rounds * m + E + 1)^2 / 2^239` of
the hash and block functions: if the client accepts the reply as one of one of the `servers`, then a responder made this very
answer for this very message and what each of the two reads is the beginning of the frames that the other one sent - or a shared
secret of the client and one of these servers was hashed by somebody, other than for keys, or two responders had the same two
shared secrets with the client. -/
theorem C112_outsider (hD : DhLaws P) (far : Bytes → Arr 32) (M : Nat) (hM : 65567 ≤ M) (prologue : Bytes)
    (hp : prologue.length + 32 ≤ M) (kp : Keypair) (eI : Arr 32) (buf1 : Bytes) (servers : List (Arr 32))
    (impostor : Bytes → Curious Bytes) (n : Nat) (hn : ∀ first, (impostor first).Within M n)
    (hb : ∀ first, (impostor first).Blind)
    (watcher : Watcher) (m : Nat) (hm : ∀ past, (watcher past).Within M m) (hb' : ∀ past, (watcher past).Blind) (q E : Nat)
    (hq : ∀ hash blocks, (watcher.forger (P.withHash hash) rest blocks).AtMost q)
    (hE : ∀ hash blocks, (watcher.forger (P.withHash hash) rest blocks).Rekeys E) (rounds : Nat) :
    2 ^ 256 * Nat.card {x : Hashes M × Blocks //
      Breached P rest x.2 far prologue kp eI buf1 servers impostor watcher rounds x.1} ≤
      (2 ^ 165 * (q + 1) + 2 ^ 17 * (n + rounds * m + E + 1) ^ 2) * Nat.card (Hashes M × Blocks) := by
  by_cases hbuf : 32 ≤ buf1.length ∧ buf1.length ≤ 65535
  swap
  · have : IsEmpty {x : Hashes M × Blocks //
        Breached P rest x.2 far prologue kp eI buf1 servers impostor watcher rounds x.1} := by
      refine ⟨fun x => hbuf ?_⟩
      obtain ⟨_, i1, first, h1, -⟩ := x
      obtain ⟨-, -, h2, h3, -⟩ := send_first_ok h1
      exact ⟨h2, h3⟩
    rw [Nat.card_of_isEmpty, Nat.mul_zero]
    exact Nat.zero_le _
  by_cases hbig : E + 3 ≤ 2 ^ 256
  swap
  · refine Nat.mul_le_mul ?_ (Nat.card_le_card_of_injective _ Subtype.val_injective)
    have h2 : n + rounds * m + E + 1 ≤ (n + rounds * m + E + 1) ^ 2 := Nat.le_self_pow (by decide) _
    generalize (n + rounds * m + E + 1) ^ 2 = y at *
    omega
  obtain ⟨labels, hl, hl0⟩ := Renewal.labels_exist hbig
  have hM' : 97 ≤ M := by omega
  obtain ⟨w1, hw⟩ : ∃ w1, w1 = (P.publicOf eI).toList ++ buf1.drop 32 := ⟨_, rfl⟩
  have b1 := Veiled.few_not_allFineOn P rest hM' far (servers.map (P.dh eI)) prologue eI w1 (impostor w1) watcher E labels rounds n m
    (hn w1) hm
  let i1 : Hashes M → NoiseSession := fun H => mid (P.withHash (H.at far)) true prologue kp
    (Keypair.default (P.withHash (H.at far)) eI) EMPTY (P.publicOf eI).toList (buf1.drop 32)
  have hsend : ∀ H : Hashes M, (NoiseSession.initSession (P.withHash (H.at far)) true prologue kp).sendMessage
      (P.withHash (H.at far)) (Keypair.default (P.withHash (H.at far)) eI) buf1 = (.ok (), i1 H, w1) := by
    intro H
    rw [hw]
    exact send_first true prologue kp (Keypair.default (P.withHash (H.at far)) eI) buf1 hbuf.1 hbuf.2
  have b2 := card_prod_le (A := Hashes M) (B := Blocks) (2 ^ 91) (q + 1) (fun H blocks => Broken (P.withHash (H.at far)) rest blocks
    prologue eI (i1 H) w1 ((impostor w1).asking (P.withHash (H.at far)).hash) (fun _ => Veiled.asker watcher (P.withHash (H.at far))) E
    rounds) fun H => by
      refine C96_channel (P.withHash (H.at far)) rest ⟨hD.comm, hD.public_ok⟩ prologue kp eI buf1 w1 (i1 H) (hsend H) _
        (fun _ => Veiled.asker watcher (P.withHash (H.at far))) E q ?_ ?_ rounds
      · intro _ blocks
        rw [Veiled.asker_forger]
        exact hq _ blocks
      · intro _ blocks
        rw [Veiled.asker_forger]
        exact hE _ blocks
  have b3 := card_prod_le (A := Hashes M) (B := Blocks) (2 ^ 256) (E * (2 * (rounds * m) + (2 * n + 1) + E + 2)) (fun H blocks =>
    ¬ Veiled.Onset (P.withHash (H.at far)) rest prologue eI w1 (impostor w1) watcher E rounds blocks) fun H =>
      Veiled.few_not_onset _ rest prologue eI w1 (impostor w1) (hn w1) hm (fun blocks => hE _ blocks) rounds
  have sub : ∀ x : Hashes M × Blocks, Breached P rest x.2 far prologue kp eI buf1 servers impostor watcher rounds x.1 →
      ¬ Veiled.AllFineOn P rest hM' far (servers.map (P.dh eI)) prologue eI w1 (impostor w1) watcher E labels rounds x.1 x.2 ∨
      (Broken (P.withHash (x.1.at far)) rest x.2 prologue eI (i1 x.1) w1 ((impostor w1).asking (P.withHash (x.1.at far)).hash)
        (fun _ => Veiled.asker watcher (P.withHash (x.1.at far))) E rounds ∨
      ¬ Veiled.Onset (P.withHash (x.1.at far)) rest prologue eI w1 (impostor w1) watcher E rounds x.2) := by
    rintro ⟨H, blocks⟩ h
    by_cases F : Veiled.AllFineOn P rest hM' far (servers.map (P.dh eI)) prologue eI w1 (impostor w1) watcher E labels rounds H blocks
    · refine .inr ?_
      by_cases hs : Veiled.Onset (P.withHash (H.at far)) rest prologue eI w1 (impostor w1) watcher E rounds blocks
      · exact .inl (Veiled.breached_on P rest hM' hM hp (hn w1) (hb w1) hm hb' rfl (hsend H) (hE _ blocks) hl hl0 F hs h)
      · exact .inr hs
    · exact .inl F
  have g1 := card_imp_or sub
  have g2 := card_imp_or (p := fun x : Hashes M × Blocks => Broken (P.withHash (x.1.at far)) rest x.2 prologue eI (i1 x.1) w1
      ((impostor w1).asking (P.withHash (x.1.at far)).hash) (fun _ => Veiled.asker watcher (P.withHash (x.1.at far))) E rounds ∨
      ¬ Veiled.Onset (P.withHash (x.1.at far)) rest prologue eI w1 (impostor w1) watcher E rounds x.2) fun x h => h
  clear sub
  have g3 := Nat.mul_le_mul_left (2 ^ 256) (g1.trans (Nat.add_le_add_left g2 _))
  rw [Nat.mul_add, Nat.mul_add] at g3
  have g4 := Nat.mul_le_mul_left (2 ^ 165) b2
  rw [← Nat.mul_assoc, ← Nat.mul_assoc] at g4
  refine g3.trans ((Nat.add_le_add b1 (Nat.add_le_add g4 b3)).trans ?_)
  rw [← Nat.add_mul, ← Nat.add_mul]
  refine Nat.mul_le_mul_right _ ?_
  have h4 : E * (2 * (rounds * m) + (2 * n + 1) + E + 2) ≤ 3 * (n + rounds * m + E + 1) ^ 2 := by
    have e : 3 * (n + rounds * m + E + 1) ^ 2 = (n + rounds * m + E + 1) * (3 * (n + rounds * m + E + 1)) := by
      rw [Nat.pow_two, Nat.mul_left_comm]
    rw [e]
    exact Nat.mul_le_mul (by omega) (by omega)
  generalize (n + rounds * m + E + 1) ^ 2 = y at *
  omega

/-! ## Cases -/

/-- The attacker of `Verif/Props/Renewal.lean`, which now also has a responder answer each time. -/
def gossip (guess : Arr 32) : Watcher := fun past => .serve (serving (List.replicate 50 9)) fun _ => renewer guess past

theorem blind_of_alone {α : Type} {c : Curious α} (h : c.Alone) : c.Blind := by
  induction c with
  | reply a => trivial
  | hash x next ih => exact fun y => ih y (h y)
  | block x next ih => exact fun y => ih y (h y)
  | serve c next ih => exact h.elim

/-- It meets the hypotheses, and so does the attacker that passes the client's message on to the server. -/
example (far : Bytes → Arr 32) (guess : Arr 32) : let rest := fun _ _ _ => 7
    2 ^ 256 * Nat.card {x : Hashes 65567 × Blocks // Breached toyPrims rest x.2 far [1, 2] (Keypair.default toyPrims EMPTY)
      (Arr.replicate 32 3) (List.replicate 60 9) [toyPrims.publicOf (Arr.replicate 32 5)] relay (gossip guess) 7 x.1} ≤
    (2 ^ 165 * (3 + 1) + 2 ^ 17 * (3 + 7 * 3 + 1 + 1) ^ 2) * Nat.card (Hashes 65567 × Blocks) := by
  intro rest
  have h := fun hash => renewer_ok (toyPrims.withHash hash) rest guess 65567
  have e : ∀ hash blocks, (gossip guess).forger (toyPrims.withHash hash) rest blocks =
    (renewer guess).forger (toyPrims.withHash hash) rest blocks := fun _ _ => rfl
  refine C112_outsider toyPrims rest toy_dh far 65567 (Nat.le_refl _) [1, 2] (by decide) _ _ _ _ relay 3
    (fun _ _ _ => ⟨show 2 + 32 ≤ 65567 by decide, fun _ => trivial⟩)
    (fun _ _ _ => ⟨fun _ => trivial, fun a a' (h : a.map Answer.second = a'.map Answer.second) => ?_⟩) (gossip guess) 3
    (fun past => ⟨show 2 + 32 ≤ 65567 by decide, fun _ => (h toyPrims.hash).1 past⟩)
    (fun past => ⟨fun _ => blind_of_alone ((h toyPrims.hash).2.1 past), fun _ _ _ => rfl⟩) 3 1
    (fun hash blocks => by rw [e]; exact (h hash).2.2.1 blocks) (fun hash blocks => by rw [e]; exact (h hash).2.2.2 blocks) 7
  show Curious.reply ((a.map Answer.second).getD []) = Curious.reply ((a'.map Answer.second).getD [])
  rw [h]

/-- The client accepts the server's answer, both frames of the client are read, the second one under the new key, and the first
one is not read again; nobody hashed the shared secret other than for keys, and the two shared secrets are those of one
responder. -/
example : let rest := fun _ _ _ => 7
    let m := firstOf (Arr.replicate 32 3)
    let eI := Arr.replicate 32 3
    let rs := toyPrims.publicOf (Arr.replicate 32 5)
    let p := (relay m.2.2).play toyPrims rest toyBlocks
    let Q := toyPrims.withBlocks rest toyBlocks
    let c := m.2.1.recvMessage Q p.result
    let start : SNet := { rnet := { net := { i := c.2.1, r := (p.served.map (·.2.session)).getD 0 toyR } } }
    let watcher := gossip (Arr.replicate 32 5)
    let n := (SNet.attacked Q (watcher.forger toyPrims rest toyBlocks) start 7).1
    c.1 = .ok () ∧ c.2.1.getRemoteStaticPublicKey = some rs ∧ p.served.length = 1 ∧
    n.rnet.net.gotR.map (·.2.1) = [.ok (), .ok (), .err .decryptionError] ∧
    Stack.read n.rnet.net.gotR = [.ok sampleFrame, .ok sampleFrame] ∧ n.framesI = [sampleFrame, sampleFrame] ∧
    n.rnet.rekeysI = 1 ∧ n.rnet.rekeysR = 1 ∧ n.rnet.net.i.cs1.k ≠ c.2.1.cs1.k ∧ n.rnet.net.i.cs1.k = n.rnet.net.r.cs1.k ∧
    (p.served.map fun s => s.2.secrets toyPrims s.1).count (toyPrims.dh eI (keyIn p.result), toyPrims.dh eI rs) = 1 ∧
    (∀ x ∈ p.heard toyPrims [1, 2] m.2.2, x.drop 64 ≠ (toyPrims.dh eI rs).toList) ∧
    (∀ x ∈ watcher.heard toyPrims rest toyBlocks start 7, x.drop 64 ≠ (toyPrims.dh eI rs).toList) := by
  decide +kernel

end SV2.Stack
