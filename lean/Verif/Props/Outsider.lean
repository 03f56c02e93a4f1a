import Verif.Lemmas.VeilEnd
import Verif.Props.Channel
import Verif.Props.Oracle
/-!
# C104: who does not hash a shared secret cannot talk in the place of a server, if the hash function and ChaCha20 are random

The attacker, and what it means to breach the connection, are in `Verif/Spec/Outsider.lean`.
-/

namespace SV2.Noise.Veiled
open SV2.Veil SV2.Stack

variable (P : Prims) (rest : Arr 32 → Arr 12 → Nat → UInt8)

instance (M : Nat) : Finite (Ask M) :=
  Finite.of_injective (fun x : Ask M => (⟨x.1, x.2.1⟩ : Input M)) fun _ _ h => Subtype.ext (congrArg (fun z => z.1) h)

/-- The hash of the name, and the other hashes. -/
def splitName {M : Nat} (hM : 97 ≤ M) : Hashes M ≃ Arr 32 × (Ask M → Arr 32) where
  toFun H := (H ⟨nameBytes, by rw [name_length]; omega⟩, cut H)
  invFun y x := if h : x.1 = nameBytes then y.1 else y.2 ⟨x.1, x.2, h⟩
  left_inv H := by
    funext x
    by_cases h : x.1 = nameBytes
    · simp only [h, dite_true]
      congr 1
      exact Subtype.ext h.symm
    · simp only [h, dite_false, cut]
  right_inv y := by
    refine Prod.ext ?_ (funext fun x => ?_)
    · simp
    · simp only [cut, dif_neg x.2.2]

/-- The hash of the name. -/
def nameOf {M : Nat} (hM : 97 ≤ M) (H : Hashes M) : Arr 32 := H ⟨nameBytes, by rw [name_length]; omega⟩

theorem name_hash {M : Nat} (hM : 97 ≤ M) (far : Bytes → Arr 32) (H : Hashes M) :
    NX.h0 (P.withHash (H.at far)) = nameOf hM H := by
  show H.at far nameBytes = _
  unfold Hashes.at
  rw [dif_pos (by rw [name_length]; omega)]
  rfl

/-- Nothing happens by chance. -/
def AllFine {M : Nat} (hM : 97 ≤ M) (far : Bytes → Arr 32) (D : List (Arr 32)) (prologue : Bytes) (eI : Arr 32) (first : Bytes)
    (impostor : Curious Bytes) (watcher : Watcher) (rounds : Nat) (H : Hashes M) (blocks : Blocks) : Prop :=
  Fine (shape hM (nameOf hM H) D) (((wholeJob P far (nameOf hM H) D prologue eI first impostor watcher rounds).guard
    (shape hM (nameOf hM H) D).A).log (world hM H blocks (nameOf hM H) D)) (cut H)

/-- The hashes and blocks under which something happens by chance are few. -/
theorem few_not_allFine {M : Nat} (hM : 97 ≤ M) (far : Bytes → Arr 32) (D : List (Arr 32)) (prologue : Bytes) (eI : Arr 32)
    (first : Bytes) (impostor : Curious Bytes) (watcher : Watcher) (rounds n m : Nat) (hn : impostor.Within M n)
    (hm : ∀ past, (watcher past).Within M m) :
    2 ^ 256 * Nat.card {x : Hashes M × Blocks //
      ¬ AllFine P hM far D prologue eI first impostor watcher rounds x.1 x.2} ≤
      2 ^ 17 * (n + rounds * m + 1) ^ 2 * Nat.card (Hashes M × Blocks) := by
  let bad : Arr 32 → (Ask M → Arr 32) × (Arr 32 → KeyRow) → Prop := fun h y =>
    ¬ Fine (shape hM h D) (((wholeJob P far h D prologue eI first impostor watcher rounds).guard (shape hM h D).A).log
      (real (shape hM h D) y.1 y.2)) y.1
  let e : Hashes M × Blocks ≃ Arr 32 × ((Ask M → Arr 32) × (Arr 32 → KeyRow)) :=
    ((splitName hM).prodCongr (Equiv.curry (Arr 32) (Arr 12 × Fin 1025) (Arr 64))).trans (Equiv.prodAssoc _ _ _)
  have e' : {x : Hashes M × Blocks // ¬ AllFine P hM far D prologue eI first impostor watcher rounds x.1 x.2} ≃
      {x : Arr 32 × ((Ask M → Arr 32) × (Arr 32 → KeyRow)) // bad x.1 x.2} := e.subtypeEquiv fun x => Iff.rfl
  rw [Nat.card_congr e, Nat.card_congr e']
  refine card_prod_le _ _ bad fun h => ?_
  have : Nonempty (Arr 32) := ⟨NX.zeros⟩
  have : Nonempty KeyRow := ⟨fun _ => Arr.replicate 64 0⟩
  have b := few_not_fine (shape hM h D) ((wholeJob P far h D prologue eI first impostor watcher rounds).guard (shape hM h D).A)
    (20 * (n + rounds * m + 1))
    (fun w => ((wholeJob P far h D prologue eI first impostor watcher rounds).guard_prefix _ w).length_le.trans
      (wholeJob_calls P far h D prologue eI first impostor watcher rounds n m hn hm w))
    fun w p => Prog.guard_never _ w _ p
  rw [Crypto.Poly1305.card_keys] at b
  refine b.trans (Nat.mul_le_mul_right _ ?_)
  rw [Nat.mul_pow, ← Nat.mul_assoc]
  exact Nat.mul_le_mul_right _ (by decide)

/-- If nothing happens by chance, who breaches the connection also breaks it in the sense of `Verif/Spec/Channel.lean`. -/
theorem breached_broken {M : Nat} (hM : 97 ≤ M) (hM' : 65567 ≤ M) {far : Bytes → Arr 32} {prologue : Bytes} (hp : prologue.length + 32 ≤ M)
    {kp : Keypair} {eI : Arr 32} {buf1 w1 : Bytes} {i1 : NoiseSession} {servers : List (Arr 32)} {impostor : Bytes → Curious Bytes}
    {watcher : Watcher} {rounds n m : Nat} (hn : (impostor w1).Within M n) (hb : (impostor w1).Blind)
    (hm : ∀ past, (watcher past).Within M m) (hb' : ∀ past, (watcher past).Blind) {H : Hashes M} {blocks : Blocks}
    {Q : Prims} (hQ : Q = P.withHash (H.at far))
    (h1 : (NoiseSession.initSession Q true prologue kp).sendMessage Q (Keypair.default Q eI) buf1 = (.ok (), i1, w1))
    (hE : (watcher.forger Q rest blocks).Rekeys 0)
    (F : AllFine P hM far (servers.map (P.dh eI)) prologue eI w1 (impostor w1) watcher rounds H blocks)
    (h : Breached P rest blocks far prologue kp eI buf1 servers impostor watcher rounds H) :
    Broken Q rest blocks prologue eI i1 w1 ((impostor w1).asking Q.hash) (fun _ => asker watcher Q) 0 rounds := by
  have hh : NX.h0 Q = nameOf hM H := by rw [hQ]; exact name_hash P hM far H
  unfold AllFine at F
  unfold Breached at h
  rw [← hQ] at h
  generalize nameOf hM H = h0 at hh F
  obtain ⟨i, first, h1', i2, out, rs, h2, hrs, hmem, ht, hc, hno⟩ := h
  rw [h1] at h1'
  simp only [Prod.mk.injEq, true_and] at h1'
  obtain ⟨rfl, rfl⟩ := h1'
  have hplay := (impostor w1).play_asking Q rest blocks
  unfold Broken
  simp only [hplay]
  obtain ⟨hmid, hpub, hb1, hb2, hdr⟩ := send_first_ok h1
  have hwl : w1.length ≤ 65535 := by
    have e1 := congrArg List.length hpub
    have e2 := congrArg List.length hdr
    simp only [List.length_take, List.length_drop, Arr.len] at e1 e2
    omega
  subst hmid
  obtain ⟨hst, hl, hl', -⟩ := accepts (P := Q) (stream := blocks.stream rest) (mk := blocks.oneTime) h2 hrs
  have hi2 := client_after Q (stream := blocks.stream rest) (mk := blocks.oneTime) h2 hrs
  have hdh : Q.dh = P.dh := by rw [hQ]; rfl
  have hD : Q.dh eI rs ∈ servers.map (P.dh eI) := by rw [hdh]; exact List.mem_map_of_mem hmem
  have hserved := served_answer Q rest blocks ((impostor w1).asking Q.hash)
  rw [hplay] at hserved
  have notTold : ∀ heard, ¬ Told Q eI servers heard → ∀ q : Deep h0 (servers.map (P.dh eI)),
      padded 0x36 q.1.1 ++ q.1.2.toList ∉ heard := by
    intro heard ht q hq
    obtain ⟨rs', hm, he⟩ := List.mem_map.mp q.2.1
    refine ht ⟨q.1.1, rs', hm, ?_⟩
    rw [hdh, he]
    exact hq
  generalize servers.map (P.dh eI) = D at *
  -- the first part
  obtain ⟨L1, hL1⟩ : ∃ L1, L1 = (firstJob P far h0 D prologue eI w1 (impostor w1)).log (world hM H blocks h0 D) := ⟨_, rfl⟩
  have hL1' := hL1
  unfold firstJob at hL1'
  rw [Prog.log_bind] at hL1'
  obtain ⟨r1, a2, a3, a4⟩ := attackJob_spec (L := L1) hM D P H blocks hQ hh rest hM' (impostor w1) n hn hb
    (by rw [hL1']; exact List.subset_append_left _ _)
  have hrun : (firstJob P far h0 D prologue eI w1 (impostor w1)).run (world hM H blocks h0 D) =
      (clientJob P far h0 D prologue eI w1 ((impostor w1).play Q rest blocks).result).run (world hM H blocks h0 D) := by
    unfold firstJob
    rw [Prog.run_bind, r1]
  rw [r1] at hL1'
  generalize hpl : (impostor w1).play Q rest blocks = p at *
  obtain ⟨c1, c2, c3, c4, c5⟩ := clientJob_spec (L := L1) hM D P H blocks hQ hh rest hM' prologue eI w1 p.result hst
    (by rw [hL1']; exact List.subset_append_right _ _)
  have hA1 : ∀ q, .hash ((shape hM h0 D).A q) ∉ L1 := by
    intro q hq
    rw [hL1'] at hq
    refine notTold _ ht q ?_
    unfold Spied.heard
    rcases List.mem_append.mp hq with hq | hq
    · rcases a4 _ hq with hq | hq
      · exact absurd rfl (hq _ q.2.2 _ q.2.1)
      · exact List.mem_append_left _ hq
    · rcases c5 _ hq with hq | hq
      · exact absurd rfl (hq _ q.2.2 _ q.2.1)
      · exact List.mem_append_right _ hq
  have F1 : Fine (shape hM h0 D) L1 (cut H) := F.subset (by
    rw [hL1] at hA1 ⊢
    exact Prog.guard_bind _ _ _ _ hA1)
  have hcare := careful hM H hQ hh F1 a2 a3 c2 c3 (c4 hp hwl (by omega)) hD hc
  have hd := And.intro hD (ck_ne hM H hQ hh F1 c2)
  have c1 := c1 hd
  refine ⟨i2, out, rs, h2, hrs, hcare, ?_⟩
  rintro ⟨s, hs, ha, hgen⟩
  refine hno ⟨s, hs, ha, ?_⟩
  intro start ht2
  -- the second part
  obtain ⟨ck, hck⟩ : ∃ ck, ck = (NX.afterEE Q (Q.dh eI (keyIn p.result))).1 := ⟨_, rfl⟩
  rw [← hck] at c1 c3 hd
  obtain ⟨t, htr⟩ : ∃ t, t = NX.transcript Q (NX.parts prologue w1 p.result) := ⟨_, rfl⟩
  rw [← htr] at c1
  have hkeys : NX.transportKeys Q (Q.dh eI (keyIn p.result)) (Q.dh eI rs) =
      (keysOf Q ck (Q.dh eI rs) 1, keysOf Q ck (Q.dh eI rs) 2) := by rw [hck]; rfl
  have hi2' : i2 = done true rs t (keysOf Q ck (Q.dh eI rs) 1, keysOf Q ck (Q.dh eI rs) 2) 1 := by
    rw [hi2, ← hkeys, htr]
    rfl
  have hs2 : s.2.session = done false EMPTY t (keysOf Q ck (Q.dh eI rs) 1, keysOf Q ck (Q.dh eI rs) 2) 1 := by
    obtain ⟨c, -, hans⟩ := hserved s hs
    have e := ((c.answer_iff _).mp hans).2
    have e' : ∃ t' k', s.2.session = done false EMPTY t' k' 1 := by rw [e]; exact ⟨_, _, rfl⟩
    obtain ⟨t', k', e'⟩ := e'
    have hhash := ha.hash
    obtain ⟨keys, hk⟩ := ha.keys
    have k1 := hk.initiator.1.trans hk.responder.1.symm
    have k2 := hk.initiator.2.trans hk.responder.2.symm
    rw [hi2', e'] at hhash k1 k2
    have k1 : keysOf Q ck (Q.dh eI rs) 1 = k'.1 := congrArg CipherState.k k1
    have k2 : keysOf Q ck (Q.dh eI rs) 2 = k'.2 := congrArg CipherState.k k2
    have ht' : t = t' := by simpa [NoiseSession.getHandshakeHash, done] using hhash
    rw [e', ← ht', k1, k2]
  have hstart : start = (afterwards rs t mocks).dressed (keysOf Q ck (Q.dh eI rs) 1, keysOf Q ck (Q.dh eI rs) 2) := by
    show ({ rnet := { net := { i := i2, r := s.2.session } } } : SNet) = _
    rw [hi2', hs2]
    rfl
  obtain ⟨L, hL⟩ : ∃ L, L = (wholeJob P far h0 D prologue eI w1 (impostor w1) watcher rounds).log (world hM H blocks h0 D) :=
    ⟨_, rfl⟩
  have hL' := hL
  unfold wholeJob at hL'
  rw [Prog.log_bind, ← hL1, hrun.trans c1] at hL'
  have hk1 := key_zero hM H hQ F1 hd c3 1
  have hk2 := key_zero hM H hQ F1 hd c3 2
  obtain ⟨t1, -, t3, t4⟩ := talkJob_spec (keys := (keysOf Q ck (Q.dh eI rs) 1, keysOf Q ck (Q.dh eI rs) 2)) (L := L) D hM H blocks hQ hh rest hM'
    hm hb' hE (r := fun j x => blocks (keysOf Q ck (Q.dh eI rs) j, x.1, x.2)) (fun _ _ => rfl) (fun _ _ => rfl) hk1 hk2
    (afterwards_wears rs t mocks) rounds (by rw [hL']; exact List.subset_append_right _ _)
  rw [← hstart] at t1 t3 t4
  have hA : ∀ q, .hash ((shape hM h0 D).A q) ∉ L := by
    intro q hq
    rw [hL'] at hq
    rcases List.mem_append.mp hq with hq | hq
    · exact hA1 q hq
    · rcases t4 _ hq with hq | hq
      · exact hq _ q.2.2 _ q.2.1 rfl
      · exact notTold _ ht2 q hq
  have F : Fine (shape hM h0 D) L (cut H) := by
    rw [hL] at hA ⊢
    rw [Prog.guard_log _ _ _ hA] at F
    exact F
  have sub : L1 ⊆ L := by rw [hL']; exact List.subset_append_left _ _
  have hpriv : Private (blocks.stream rest) (i2.cs1.k, i2.cs2.k) 0
      (p.toPlayed.used Q ++ (asker watcher Q).used Q rest blocks start rounds) := by
    rw [hi2']
    refine private_keys hM H hQ F hd ⟨fun h => sub (c3.hidden h), fun h => sub (c3.row h)⟩ fun k hk => ?_
    rcases List.mem_append.mp hk with hk | hk
    · rcases List.mem_append.mp hk with hk | hk
      · exact .inl (sub (a2 k hk))
      · obtain ⟨s', hs', hk⟩ := List.mem_flatMap.mp hk
        obtain ⟨g1, g2, g3⟩ := a3 s' hs'
        exact .inr ⟨s'.1, s'.2, ⟨⟨g1.inner.mono sub, g1.temp.mono sub, g1.out.mono sub, sub g1.row⟩,
          ⟨fun h => sub (g2.hidden h), fun h => sub (g2.row h)⟩, fun x hx => (g3 x hx).mono sub⟩, hk⟩
    · exact t3 k hk
  have := hgen hpriv
  rw [asker_forger] at this
  exact this

end SV2.Noise.Veiled

namespace SV2.Stack
open Noise SV2.Veil

variable (P : Prims) (rest : Arr 32 → Arr 12 → Nat → UInt8)

/-- A client sends its first message.  An attacker with at most `n` questions - hashes, blocks of ChaCha20, and answers of
responders with any secrets, the real servers among them - gives it a reply; if the client accepts, the attacker goes on as
the network between the client and the responder: for `rounds` steps it has one of the two send a frame or delivers something
to it, after at most `m` questions each time, with at most `q` deliveries and no rekeying.  It does not see the keys of the
sessions.  For all but a share of `(q + 1) / 2^91` and `(n + rounds * m + 1)^2 / 2^239` of the hash and block functions: if
the client accepts the reply as one of one of the `servers`, then a responder made this very answer for this very message and
what each of the two reads is the beginning of the frames that the other one sent - or a shared secret of the client and one
of these servers was hashed by somebody, other than for keys, or two responders had the same two shared secrets with the
client. -/
theorem C104_outsider (hD : DhLaws P) (far : Bytes → Arr 32) (M : Nat) (hM : 65567 ≤ M) (prologue : Bytes)
    (hp : prologue.length + 32 ≤ M) (kp : Keypair) (eI : Arr 32) (buf1 : Bytes) (servers : List (Arr 32))
    (impostor : Bytes → Curious Bytes) (n : Nat) (hn : ∀ first, (impostor first).Within M n)
    (hb : ∀ first, (impostor first).Blind)
    (watcher : Watcher) (m : Nat) (hm : ∀ past, (watcher past).Within M m) (hb' : ∀ past, (watcher past).Blind) (q : Nat)
    (hq : ∀ hash blocks, (watcher.forger (P.withHash hash) rest blocks).AtMost q)
    (hE : ∀ hash blocks, (watcher.forger (P.withHash hash) rest blocks).Rekeys 0) (rounds : Nat) :
    2 ^ 256 * Nat.card {x : Hashes M × Blocks //
      Breached P rest x.2 far prologue kp eI buf1 servers impostor watcher rounds x.1} ≤
      (2 ^ 165 * (q + 1) + 2 ^ 17 * (n + rounds * m + 1) ^ 2) * Nat.card (Hashes M × Blocks) := by
  by_cases hbuf : 32 ≤ buf1.length ∧ buf1.length ≤ 65535
  swap
  · have : IsEmpty {x : Hashes M × Blocks //
        Breached P rest x.2 far prologue kp eI buf1 servers impostor watcher rounds x.1} := by
      refine ⟨fun x => hbuf ?_⟩
      obtain ⟨_, i1, first, h1, -⟩ := x
      obtain ⟨-, -, h2, h3, -⟩ := send_first_ok h1
      exact ⟨h2, h3⟩
    rw [Nat.card_of_isEmpty, Nat.mul_zero]
    exact Nat.zero_le _
  have hM' : 97 ≤ M := by omega
  obtain ⟨w1, hw⟩ : ∃ w1, w1 = (P.publicOf eI).toList ++ buf1.drop 32 := ⟨_, rfl⟩
  have b1 := Veiled.few_not_allFine P hM' far (servers.map (P.dh eI)) prologue eI w1 (impostor w1) watcher rounds n m (hn w1) hm
  let i1 : Hashes M → NoiseSession := fun H => mid (P.withHash (H.at far)) true prologue kp
    (Keypair.default (P.withHash (H.at far)) eI) EMPTY (P.publicOf eI).toList (buf1.drop 32)
  have hsend : ∀ H : Hashes M, (NoiseSession.initSession (P.withHash (H.at far)) true prologue kp).sendMessage
      (P.withHash (H.at far)) (Keypair.default (P.withHash (H.at far)) eI) buf1 = (.ok (), i1 H, w1) := by
    intro H
    rw [hw]
    exact send_first true prologue kp (Keypair.default (P.withHash (H.at far)) eI) buf1 hbuf.1 hbuf.2
  have b2 := card_prod_le (A := Hashes M) (B := Blocks) (2 ^ 91) (q + 1) (fun H blocks => Broken (P.withHash (H.at far)) rest blocks
    prologue eI (i1 H) w1 ((impostor w1).asking (P.withHash (H.at far)).hash) (fun _ => Veiled.asker watcher (P.withHash (H.at far))) 0
    rounds) fun H => by
      refine C96_channel (P.withHash (H.at far)) rest ⟨hD.comm, hD.public_ok⟩ prologue kp eI buf1 w1 (i1 H) (hsend H) _
        (fun _ => Veiled.asker watcher (P.withHash (H.at far))) 0 q ?_ ?_ rounds
      · intro _ blocks
        rw [Veiled.asker_forger]
        exact hq _ blocks
      · intro _ blocks
        rw [Veiled.asker_forger]
        exact hE _ blocks
  have sub : ∀ x : Hashes M × Blocks, Breached P rest x.2 far prologue kp eI buf1 servers impostor watcher rounds x.1 →
      ¬ Veiled.AllFine P hM' far (servers.map (P.dh eI)) prologue eI w1 (impostor w1) watcher rounds x.1 x.2 ∨
      Broken (P.withHash (x.1.at far)) rest x.2 prologue eI (i1 x.1) w1 ((impostor w1).asking (P.withHash (x.1.at far)).hash)
        (fun _ => Veiled.asker watcher (P.withHash (x.1.at far))) 0 rounds := by
    rintro ⟨H, blocks⟩ h
    by_cases F : Veiled.AllFine P hM' far (servers.map (P.dh eI)) prologue eI w1 (impostor w1) watcher rounds H blocks
    · exact .inr (Veiled.breached_broken P rest hM' hM hp (hn w1) (hb w1) hm hb' rfl (hsend H) (hE _ blocks) F h)
    · exact .inl F
  refine (Nat.mul_le_mul_left _ (card_imp_or sub)).trans ?_
  rw [Nat.mul_add, Nat.add_mul, Nat.add_comm]
  refine Nat.add_le_add ?_ b1
  have := Nat.mul_le_mul_left (2 ^ 165) b2
  rw [← Nat.mul_assoc, ← Nat.mul_assoc] at this
  exact this

/-! ## An attacker that hashes the shared secret -/

theorem Blind.bind {α β : Type} {c : Curious α} {f : α → Curious β} (h : c.Blind) (hf : ∀ x, (f x).Blind) : (c.bind f).Blind := by
  induction c with
  | reply a => exact hf a
  | hash x next ih => exact fun y => ih y (h y)
  | block x next ih => exact fun y => ih y (h y)
  | serve c next ih => exact ⟨fun a => ih a (h.1 a), fun a a' e => congrArg (Curious.bind · f) (h.2 a a' e)⟩

theorem hashed_blind (x : Bytes) : (Curious.hashed x).Blind := fun _ => trivial

theorem hmac_blind (k : Arr 32) (x : Bytes) : (Curious.hmac k x).Blind := Blind.bind (hashed_blind _) fun _ => hashed_blind _

theorem hkdf_blind (k : Arr 32) (x : Bytes) : (Curious.hkdf k x).Blind :=
  Blind.bind (hmac_blind _ _) fun _ => Blind.bind (hmac_blind _ _) fun _ => Blind.bind (hmac_blind _ _) fun _ => trivial

theorem learn_blind (l : List (Arr 32 × Arr 12 × Fin 1025)) : (Curious.learn l).Blind := by
  induction l with
  | nil => trivial
  | cons x l ih => exact fun y => Blind.bind ih fun _ => trivial

/-- It computes the session key for the responder with the two shared secrets, and encrypts a frame. -/
def keyed (ee es : Arr 32) (f : Message) : Curious SAct :=
  (Curious.hashed nameBytes).bind fun h =>
  (Curious.hkdf h ee.toList).bind fun a =>
  (Curious.hkdf a.1 es.toList).bind fun b =>
  (Curious.hkdf b.1 []).bind fun k =>
  (Curious.learn (rowOf k.1 0)).bind fun bl =>
  .reply (.stack (.toR (NX.enc (P.withBlocks rest bl) k.1 0 [] (Wire.frame f))))

theorem keyed_hash (hash : Bytes → Arr 32) (ee es : Arr 32) (f : Message) :
    keyed (P.withHash hash) rest ee es f = keyed P rest ee es f := by
  have e : ∀ b k n ad p, NX.enc ((P.withHash hash).withBlocks rest b) k n ad p = NX.enc (P.withBlocks rest b) k n ad p :=
    fun _ _ _ _ _ => rfl
  unfold keyed
  simp only [e]

seal Curious.Within in
theorem keyed_within (M : Nat) (ee es : Arr 32) (f : Message) : (keyed P rest ee es f).Within M 1044 := by
  have l : ∀ k, (rowOf k 0).length = 1025 := fun k => by rw [rowOf, List.length_map, List.length_finRange]
  obtain ⟨N, hN⟩ : ∃ N, N = 1025 := ⟨_, rfl⟩
  obtain ⟨N', hN'⟩ : ∃ N, N = 1044 := ⟨_, rfl⟩
  have hl : ∀ k, (Curious.learn (rowOf k 0)).Within M N := fun k => by
    have := Curious.learn_within (M := M) (rowOf k 0)
    rw [(l k).trans hN.symm] at this
    exact this
  have e : N' = 1 + (6 + (6 + (6 + (N + 0)))) := by omega
  rw [← hN', e]
  exact (Curious.hashed_within _).bind fun h => (Curious.hkdf_within _ _).bind fun a => (Curious.hkdf_within _ _).bind fun b =>
    (Curious.hkdf_within _ _).bind fun k => (hl _).bind fun b1 => Curious.reply_within _

seal Curious.Blind in
theorem keyed_blind (ee es : Arr 32) (f : Message) : (keyed P rest ee es f).Blind :=
  Blind.bind (hashed_blind _) fun _ => Blind.bind (hkdf_blind _ _) fun _ => Blind.bind (hkdf_blind _ _) fun _ =>
    Blind.bind (hkdf_blind _ _) fun _ => Blind.bind (learn_blind _) fun _ => by unfold Curious.Blind; trivial

theorem keyed_gives (blocks : Blocks) (ee es : Arr 32) (f : Message) : (keyed P rest ee es f).Gives P rest blocks
    (.stack (.toR (NX.enc (P.withBlocks rest blocks) (NX.transportKeys P ee es).1 0 [] (Wire.frame f)))) := by
  obtain ⟨b, g, e⟩ := Curious.learn_gives (P := P) (rest := rest) blocks (rowOf (NX.transportKeys P ee es).1 0)
  refine (Curious.hashed_gives blocks _).bind ((Curious.hkdf_gives blocks _ _).bind ((Curious.hkdf_gives blocks _ _).bind
    ((Curious.hkdf_gives blocks _ _).bind (g.bind ⟨?_, rfl⟩))))
  have h : NX.enc (P.withBlocks rest b) (NX.transportKeys P ee es).1 0 [] (Wire.frame f) =
    NX.enc (P.withBlocks rest blocks) (NX.transportKeys P ee es).1 0 [] (Wire.frame f) := enc_row e _ _
  exact congrArg (fun w => SAct.stack (.toR w)) h

theorem keyed_hashed (blocks : Blocks) (ee es : Arr 32) (f : Message) :
    innerInput (NX.afterEE P ee).1 es ∈ ((keyed P rest ee es f).play P rest blocks).hashed :=
  Curious.hashed_right (Curious.hashed_gives blocks _).1 (Curious.hashed_right (Curious.hkdf_gives blocks _ _).1
    (Curious.hashed_left (Curious.hkdf_hashed blocks _ _)))

/-- It sends a frame. -/
def idle : SAct := .stack (.iSend EMPTY sampleFrame (Arr.replicate 16 0))

/-- It makes one delivery. -/
def holder (ee es : Arr 32) (f : Message) : Watcher := fun past =>
  match past with
  | [n] => if n.rnet.net.gotR.length + n.rnet.net.gotI.length = 0 then keyed P rest ee es f else .reply idle
  | _ => .reply idle

theorem holder_two (ee es : Arr 32) (f : Message) (past : List SNet) :
    holder P rest ee es f past = keyed P rest ee es f ∨ holder P rest ee es f past = .reply idle := by
  match past with
  | [] => exact .inr rfl
  | [n] =>
    by_cases h : n.rnet.net.gotR.length + n.rnet.net.gotI.length = 0
    · exact .inl (if_pos h)
    · exact .inr (if_neg h)
  | _ :: _ :: _ => exact .inr rfl

theorem reply_blind {α : Type} (a : α) : (Curious.reply a).Blind := trivial

theorem reply_any {α : Type} {M : Nat} (a : α) (m : Nat) : (Curious.reply a).Within M m := by
  cases m <;> trivial

seal Curious.Within Curious.Blind keyed in
theorem holder_ok (M : Nat) (ee es : Arr 32) (f : Message) (past : List SNet) :
    (holder P rest ee es f past).Within M 1044 ∧ (holder P rest ee es f past).Blind := by
  have kw : (keyed P rest ee es f).Within M 1044 := keyed_within P rest M ee es f
  have kb : (keyed P rest ee es f).Blind := keyed_blind P rest ee es f
  rcases holder_two P rest ee es f past with e | e <;> rw [e]
  · exact ⟨kw, kb⟩
  · exact ⟨reply_any _ _, reply_blind _⟩

seal keyed in
theorem holder_atMost (hash : Bytes → Arr 32) (blocks : Blocks) (ee es : Arr 32) (f : Message) :
    ((holder P rest ee es f).forger (P.withHash hash) rest blocks).AtMost 1 := by
  intro m past w hq
  have : (holder P rest ee es f).forger (P.withHash hash) rest blocks (m :: past) = idle := by
    unfold Watcher.forger
    have e : holder P rest ee es f ((m :: past).map SNet.seen) = .reply idle := by
      cases past with
      | nil => exact if_neg (by
          show ¬ m.rnet.net.gotR.length + m.rnet.net.gotI.length = 0
          omega)
      | cons m' past => rfl
    rw [e]
    rfl
  rw [this]
  constructor <;> intro h <;> cases h

seal keyed in
theorem holder_rekeys (hash : Bytes → Arr 32) (blocks : Blocks) (ee es : Arr 32) (f : Message) :
    ((holder P rest ee es f).forger (P.withHash hash) rest blocks).Rekeys 0 := by
  intro m past remote
  have : ∃ act, (holder P rest ee es f).forger (P.withHash hash) rest blocks (m :: past) = .stack act := by
    unfold Watcher.forger
    rcases holder_two P rest ee es f ((m :: past).map SNet.seen) with e | e <;> rw [e]
    · rw [← keyed_hash P rest hash, (keyed_gives (P.withHash hash) rest blocks ee es f).1]
      exact ⟨_, rfl⟩
    · exact ⟨_, rfl⟩
  obtain ⟨act, e⟩ := this
  rw [e]
  constructor <;> intro _ h <;> cases h

seal keyed in
theorem holder_first (hash : Bytes → Arr 32) (ee es : Arr 32) (f : Message) (i r : NoiseSession) :
    holder P rest ee es f ([({ rnet := { net := { i := i, r := r } } } : SNet)].map SNet.seen) =
      keyed (P.withHash hash) rest ee es f := by
  rw [keyed_hash]
  rfl

theorem attacked_one (Q : Prims) (forger : SForger) (start : SNet) : (SNet.attacked Q forger start 1).1 = start.step Q (forger [start]) :=
  rfl

theorem heard_one (Q : Prims) (blocks : Blocks) (watcher : Watcher) (start : SNet) :
    watcher.heard Q rest blocks start 1 = ((watcher ([start].map SNet.seen)).play Q rest blocks).asked Q :=
  rfl

theorem toR_congr {Q : Prims} {k : Arr 32} {p : Bytes} {a : SAct} {j j' : Nat} (h : a = .stack (.toR (NX.enc Q k j [] p))) (e : j = j') :
    a = .stack (.toR (NX.enc Q k j' [] p)) := by
  rw [h, e]

seal keyed in
theorem forger_keyed (Q : Prims) (blocks : Blocks) (ee es : Arr 32) (f : Message) (past : List SNet)
    (hw : holder P rest ee es f (past.map SNet.seen) = keyed Q rest ee es f) :
    (holder P rest ee es f).forger Q rest blocks past = .stack (.toR (NX.enc (Q.withBlocks rest blocks)
      (NX.transportKeys Q ee es).1 (0 : UInt64).toNat [] (Wire.frame f))) := by
  have e : (holder P rest ee es f).forger Q rest blocks past = ((keyed Q rest ee es f).play Q rest blocks).result := by
    rw [← hw]
    rfl
  exact toR_congr (e.trans (keyed_gives Q rest blocks ee es f).1) (by decide)

theorem holder_reads (hash : Bytes → Arr 32) (blocks : Blocks) (ee es : Arr 32) (f : Message) (hf : f.payload.length ≤ 65513)
    (i r : NoiseSession) : let Q := P.withHash hash
    Agreed i r (NX.transportKeys Q ee es) → (NX.transportKeys Q ee es).1 ≠ EMPTY →
    let start : SNet := { rnet := { net := { i := i, r := r } } }
    let n := (SNet.attacked (Q.withBlocks rest blocks) ((holder P rest ee es f).forger Q rest blocks) start 1).1
    innerInput (NX.afterEE Q ee).1 es ∈ (holder P rest ee es f).heard Q rest blocks start 1 ∧
    Stack.read n.rnet.net.gotR = [.ok f] ∧ n.framesI = [] ∧ ¬ n.Genuine := by
  intro Q h hk start n
  have hw : holder P rest ee es f ([start].map SNet.seen) = keyed Q rest ee es f := holder_first P rest _ ee es f i r
  have hA : AeadCorrect (Q.withBlocks rest blocks) := withMac_correct Q _ blocks.oneTime
  have hn : n = start.step (Q.withBlocks rest blocks) ((holder P rest ee es f).forger Q rest blocks [start]) := attacked_one _ _ _
  clear_value n Q
  have hact := forger_keyed P rest Q blocks ee es f [start] hw
  have hheard : innerInput (NX.afterEE Q ee).1 es ∈ (holder P rest ee es f).heard Q rest blocks start 1 := by
    rw [heard_one, hw]
    exact List.mem_append_left _ (keyed_hashed Q rest blocks ee es f)
  have hz : (0 : UInt64) ≠ MAX_NONCE := by decide
  rw [hact] at hn
  subst hn
  exact ⟨hheard, step_forged hA h hk hz hf⟩

/-- The condition on the hashes is needed: for any two shared secrets and any frame there is an attacker on the network that
asks for some hashes - one of them of the second shared secret - and blocks, does not see the keys, makes one delivery,
and has the responder of a handshake with these shared secrets read the frame though the initiator sent nothing, whatever the
hash and the block function are.  (The session key is not zero.) -/
theorem C104_informed (far : Bytes → Arr 32) (M : Nat) (ee es : Arr 32) (f : Message) (hf : f.payload.length ≤ 65513) :
    ∃ watcher : Watcher, (∀ past, (watcher past).Within M 1044 ∧ (watcher past).Blind) ∧
      (∀ hash blocks, (watcher.forger (P.withHash hash) rest blocks).AtMost 1 ∧
        (watcher.forger (P.withHash hash) rest blocks).Rekeys 0) ∧
      ∀ (H : Hashes M) (blocks : Blocks) (i r : NoiseSession),
        let Q := P.withHash (H.at far)
        Agreed i r (NX.transportKeys Q ee es) → (NX.transportKeys Q ee es).1 ≠ EMPTY →
        let start : SNet := { rnet := { net := { i := i, r := r } } }
        let n := (SNet.attacked (Q.withBlocks rest blocks) (watcher.forger Q rest blocks) start 1).1
        innerInput (NX.afterEE Q ee).1 es ∈ watcher.heard Q rest blocks start 1 ∧
        Stack.read n.rnet.net.gotR = [.ok f] ∧ n.framesI = [] ∧ ¬ n.Genuine := by
  refine ⟨holder P rest ee es f, holder_ok P rest M ee es f, fun hash blocks =>
    ⟨holder_atMost P rest hash blocks ee es f, holder_rekeys P rest hash blocks ee es f⟩, fun H blocks i r => ?_⟩
  exact holder_reads P rest (H.at far) blocks ee es f hf i r

/-! ## Cases -/

example (first : Bytes) : (relay first).Blind :=
  fun _ _ => ⟨fun _ => trivial, fun a a' (h : a.map Answer.second = a'.map Answer.second) => by
    show Curious.reply ((a.map Answer.second).getD []) = Curious.reply ((a'.map Answer.second).getD [])
    rw [h]⟩

/-- A network that passes on the first message of each side, and changes the second one to the responder.  In between it
hashes something and has a responder answer. -/
def postman : Watcher := fun past =>
  match past with
  | [] => .reply (.stack (.iSend EMPTY sampleFrame (Arr.replicate 16 0)))
  | n :: past =>
    if 3 ≤ n.rnet.net.gotR.length + n.rnet.net.gotI.length then .reply (.stack (.iSend EMPTY sampleFrame (Arr.replicate 16 0)))
    else
      let wireI := fun j => (n.rnet.net.sentI.map (·.2)).getD j []
      let wireR := fun j => (n.rnet.net.sentR.map (·.2)).getD j []
      match past.length with
      | 0 => .reply (.stack (.iSend EMPTY sampleFrame (Arr.replicate 16 0)))
      | 1 => .hash (List.replicate 96 1) fun _ => .block (Arr.replicate 32 2, NX.nonce 0, 0) fun _ => .reply (.stack (.toR (wireI 0)))
      | 2 => .reply (.stack (.rSend EMPTY ⟨.setupConnectionSuccess, [2, 0, 1, 0, 0, 0]⟩ (Arr.replicate 16 0)))
      | 3 => .serve (serving (List.replicate 50 9)) fun _ => .reply (.stack (.toI (wireR 0)))
      | 4 => .reply (.stack (.iSend EMPTY sampleFrame (Arr.replicate 16 0)))
      | _ => .reply (.stack (.toR ((wireI 1).set 0 0)))

example : ∀ past, (postman past).Within 65567 2 ∧ (postman past).Blind := by
  intro past
  match past with
  | [] => exact ⟨trivial, trivial⟩
  | n :: past =>
    unfold postman
    simp only []
    split
    · exact ⟨trivial, trivial⟩
    · split
      · exact ⟨trivial, trivial⟩
      · exact ⟨fun _ _ => trivial, fun _ _ => trivial⟩
      · exact ⟨trivial, trivial⟩
      · exact ⟨⟨show 2 + 32 ≤ 65567 by decide, fun _ => trivial⟩, fun _ => trivial, fun _ _ _ => rfl⟩
      · exact ⟨trivial, trivial⟩
      · exact ⟨trivial, trivial⟩

example : ∀ hash blocks, (postman.forger (toyPrims.withHash hash) (fun _ _ _ => 7) blocks).AtMost 3 ∧
    (postman.forger (toyPrims.withHash hash) (fun _ _ _ => 7) blocks).Rekeys 0 := by
  intro hash blocks
  constructor
  · intro n past w h
    have : postman.forger (toyPrims.withHash hash) (fun _ _ _ => 7) blocks (n :: past) =
        .stack (.iSend EMPTY sampleFrame (Arr.replicate 16 0)) := by
      unfold Watcher.forger
      have : postman ((n :: past).map SNet.seen) = .reply (.stack (.iSend EMPTY sampleFrame (Arr.replicate 16 0))) := if_pos h
      rw [this]
      rfl
    rw [this]
    constructor <;> intro h <;> cases h
  · intro n past remote
    unfold Watcher.forger postman
    simp only [List.map_cons]
    constructor <;> intro h e <;> split at e
    · cases e
    · split at e <;> cases e
    · cases e
    · split at e <;> cases e

/-- The client accepts the server's answer, the two read each other's frames, and not the changed one; nobody hashed the
shared secret other than for keys. -/
example : let rest := fun _ _ _ => 7
    let m := firstOf (Arr.replicate 32 3)
    let eI := Arr.replicate 32 3
    let rs := toyPrims.publicOf (Arr.replicate 32 5)
    let p := (relay m.2.2).play toyPrims rest toyBlocks
    let Q := toyPrims.withBlocks rest toyBlocks
    let c := m.2.1.recvMessage Q p.result
    let start : SNet := { rnet := { net := { i := c.2.1, r := (p.served.map (·.2.session)).getD 0 toyR } } }
    let n := (SNet.attacked Q (postman.forger toyPrims rest toyBlocks) start 6).1
    c.1 = .ok () ∧ c.2.1.getRemoteStaticPublicKey = some rs ∧ p.served.length = 1 ∧
    n.rnet.net.gotR.map (·.2.1) = [.ok (), .err .decryptionError] ∧
    Stack.read n.rnet.net.gotR = [.ok sampleFrame] ∧ n.framesI = [sampleFrame, sampleFrame] ∧
    Stack.read n.rnet.net.gotI = [.ok ⟨.setupConnectionSuccess, [2, 0, 1, 0, 0, 0]⟩] ∧
    (∀ x ∈ p.heard toyPrims [1, 2] m.2.2, x.drop 64 ≠ (toyPrims.dh eI rs).toList) ∧
    (∀ x ∈ postman.heard toyPrims rest toyBlocks start 6, x.drop 64 ≠ (toyPrims.dh eI rs).toList) := by
  decide +kernel

/-- The hypotheses of `C104_informed`, and its conclusion for the toy primitives: the keys of the sample handshake. -/
example : let m := firstOf (Arr.replicate 32 3)
    let p := (relay m.2.2).play toyPrims (fun _ _ _ => 7) toyBlocks
    let c := m.2.1.recvMessage (toyPrims.withBlocks (fun _ _ _ => 7) toyBlocks) p.result
    let r := (p.served.map (·.2.session)).getD 0 toyR
    let k := NX.transportKeys toyPrims (toyPrims.dh (Arr.replicate 32 3) (keyIn p.result))
      (toyPrims.dh (Arr.replicate 32 3) (toyPrims.publicOf (Arr.replicate 32 5)))
    (c.2.1.i = true ∧ r.i = false) ∧ (c.2.1.mc = 2 ∧ r.mc = 2) ∧ (c.2.1.cs1 = ⟨k.1, 0⟩ ∧ c.2.1.cs2 = ⟨k.2, 0⟩) ∧
      (r.cs1 = ⟨k.1, 0⟩ ∧ r.cs2 = ⟨k.2, 0⟩) ∧ k.1 ≠ EMPTY ∧ sampleFrame.payload.length ≤ 65513 := by
  decide +kernel

end SV2.Stack
