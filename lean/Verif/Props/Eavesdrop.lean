import Verif.Lemmas.VeilEar
import Verif.Props.Outsider
/-!
# C105: who does not hash a shared secret cannot tell what is sent, if the hash function and ChaCha20 are random

The attacker, and when it says yes, are in `Verif/Spec/Eavesdrop.lean`.
-/

namespace SV2.Noise

theorem card_prod_diff {A B : Type} [Finite A] [Finite B] (c k : Nat) (p q : A → B → Prop)
    (h : ∀ a, c * Nat.card {b // p a b} ≤ c * Nat.card {b // q a b} + k * Nat.card B) :
    c * Nat.card {x : A × B // p x.1 x.2} ≤ c * Nat.card {x : A × B // q x.1 x.2} + k * Nat.card (A × B) := by
  have := Fintype.ofFinite A
  rw [Nat.card_congr (Equiv.subtypeProdEquivSigmaSubtype p), Nat.card_sigma, Finset.mul_sum,
    Nat.card_congr (Equiv.subtypeProdEquivSigmaSubtype q), Nat.card_sigma, Finset.mul_sum]
  refine (Finset.sum_le_sum fun a _ => h a).trans ?_
  rw [Finset.sum_add_distrib, Finset.sum_const, Finset.card_univ, Nat.card_prod, ← Nat.card_eq_fintype_card, smul_eq_mul]
  exact Nat.le_of_eq (by ring)

/-- The client gets an answer that was made for it: it accepts, and the two sessions have the same keys. -/
theorem Serving.completes {P : Prims} (hD : DhLaws P) (hA : AeadCorrect P) {c : Serving} {a : Answer} (ha : c.answer P = some a)
    {prologue : Bytes} {s : Keypair} {eI : Arr 32} {first second : Bytes}
    (hfirst : first.take 32 = (P.publicOf eI).toList) (e1 : a.prologue = prologue) (e2 : a.first = first) (e3 : a.second = second)
    (hl' : second.length ≤ 2128) :
    (∃ out, (mid P true prologue s (Keypair.default P eI) EMPTY (first.take 32) (first.drop 32)).recvMessage P second =
      (.ok (), done true (P.publicOf c.sR) (NX.transcript P (NX.parts prologue first second))
        (NX.transportKeys P (P.dh eI (keyIn second)) (P.dh eI (P.publicOf c.sR))) 1, out)) ∧
    a.session = done false EMPTY (NX.transcript P (NX.parts prologue first second))
      (NX.transportKeys P (P.dh eI (keyIn second)) (P.dh eI (P.publicOf c.sR))) 1 := by
  obtain ⟨hok, rfl⟩ := (c.answer_iff a).mp ha
  obtain ⟨f1, f2, f3⟩ := c.made_parts (P := P)
  rw [e3] at f1 f2 f3
  have e2' : c.first = first := e2
  have hei : keyIn c.first = P.publicOf eI := by
    symm
    apply eq_keyIn (by have := hok.first; omega)
    rw [e2', hfirst]
  have hsplit : second = (P.publicOf c.eR).toList ++ c.encS P ++ c.encP P := e3.symm
  have hlen : second.length = 80 + (body (c.buf.drop 80)).length + 16 := by
    rw [hsplit]
    simp only [List.length_append, c.encS_length, c.encP_length, (P.publicOf c.eR).len]
    omega
  have her : keyIn second = P.publicOf c.eR := (eq_keyIn (by omega) f1.symm).symm
  have hk1 : (NX.afterEE P (P.dh (Keypair.default P eI).private_key (P.publicOf c.eR))).2 ≠ NX.zeros := by
    have := hok.k1
    rw [hei, hD.comm c.eR eI] at this
    exact this
  have hS : c.encS P = NX.encryptedStatic P prologue (first.take 32) (first.drop 32) (P.publicOf c.eR).toList
      (P.dh (Keypair.default P eI).private_key (P.publicOf c.eR)) (P.publicOf c.sR).toList := by
    unfold Serving.encS
    rw [hei, hD.comm c.eR eI, e2', show c.prologue = prologue from e1]
    rfl
  have hk2 : (NX.afterES P (P.dh (Keypair.default P eI).private_key (P.publicOf c.eR))
      (P.dh (Keypair.default P eI).private_key (P.publicOf c.sR))).2 ≠ NX.zeros := by
    have := hok.k2
    rw [hei, hD.comm c.eR eI, hD.comm c.sR eI] at this
    exact this
  have hP : c.encP P = NX.encryptedPayload P prologue (first.take 32) (first.drop 32) (P.publicOf c.eR).toList (c.encS P)
      (P.dh (Keypair.default P eI).private_key (P.publicOf c.eR))
      (P.dh (Keypair.default P eI).private_key (P.publicOf c.sR)) (body (c.buf.drop 80)) := by
    unfold Serving.encP
    rw [hei, hD.comm c.eR eI, hD.comm c.sR eI, e2', show c.prologue = prologue from e1]
    rfl
  have hrecv := recv_second hA true prologue s (Keypair.default P eI) EMPTY (P.publicOf c.eR) (P.publicOf c.sR)
    (first.take 32) (first.drop 32) (body (c.buf.drop 80)) (hD.public_ok _) (hD.public_ok _) (by omega) hk1 hk2
  simp only [← hS, ← hP, ← hsplit] at hrecv
  have hkeys : NX.transportKeys P (P.dh c.eR (keyIn c.first)) (P.dh c.sR (keyIn c.first)) =
      NX.transportKeys P (P.dh eI (P.publicOf c.eR)) (P.dh eI (P.publicOf c.sR)) := by
    rw [hei, hD.comm c.eR eI, hD.comm c.sR eI]
  unfold NX.parts
  rw [her, f1, f2, f3]
  refine ⟨⟨_, hrecv⟩, ?_⟩
  show done false EMPTY (NX.transcript P [c.prologue, c.first.take 32, c.first.drop 32, _, _, _]) _ 1 = _
  rw [hkeys, e2', show c.prologue = prologue from e1]

end SV2.Noise

namespace SV2.Noise.Veiled
open SV2.Veil SV2.Stack

variable (P : Prims) (rest : Arr 32 → Arr 12 → Nat → UInt8)

/-! ## The program -/

section
variable {M : Nat} (far : Bytes → Arr 32) (h0 : Arr 32) (D : List (Arr 32))

/-- The attacker, and the client up to where it mixes the second shared secret in. -/
def preJob (prologue : Bytes) (eI : Arr 32) (first : Bytes) (impostor : Curious Bytes) :
    Job M h0 D ((Bytes × List Noted) × Arr 32 × Arr 32 × Arr 32) :=
  (attackJob P far h0 D (recorded [] impostor)).bind fun x => (earlyJob P far h0 D prologue eI first x.1).bind fun c => .ret (x, c)

theorem preJob_modest (prologue : Bytes) (eI : Arr 32) (first : Bytes) (impostor : Curious Bytes) :
    (preJob (M := M) P far h0 D prologue eI first impostor).Modest :=
  (attackJob_modest P far h0 D _).bind fun _ => (earlyJob_modest P far h0 D _ _ _ _).bind fun _ => trivial

/-- One of the servers made the reply for this message. -/
def Met (prologue first : Bytes) (servers : List (Arr 32)) (x : Bytes × List Noted) : Prop :=
  x.1.length ≤ 2128 ∧ ∃ e ∈ x.2, e.2.1 = prologue ∧ e.2.2.1 = first ∧ e.2.2.2 = x.1 ∧ P.publicOf e.1 ∈ servers

open Classical in
/-- The chain of the client. -/
noncomputable def chosen (prologue : Bytes) (eI : Arr 32) (first : Bytes) (servers : List (Arr 32))
    (x : (Bytes × List Noted) × Arr 32 × Arr 32 × Arr 32) : Option (Deep h0 D) :=
  if h : P.dh eI x.2.2.2 ∈ D ∧ x.2.1 ≠ h0 then if Met P prologue first servers x.1 then some ⟨(x.2.1, P.dh eI x.2.2.2), h⟩ else none
  else none

/-- All of it. -/
noncomputable def listenJob (prologue : Bytes) (eI : Arr 32) (first : Bytes) (servers : List (Arr 32)) (impostor : Curious Bytes)
    (listener : Listener) (rounds : Nat) (second : Bool) : Job M h0 D Bool :=
  (preJob P far h0 D prologue eI first impostor).bind (withRows (chosen P h0 D prologue eI first servers) fun x a b =>
    verdictJob P far h0 D listener (pairPrims P a b) second rounds (talking x.2.2.2 x.2.2.1 mocks))

theorem listenJob_calls (prologue : Bytes) (eI : Arr 32) (first : Bytes) (servers : List (Arr 32)) (impostor : Curious Bytes)
    (listener : Listener) (rounds n m : Nat) (hn : impostor.Within M n) (hm : ∀ past, (listener.next past).Within M m)
    (hv : ∀ past, (listener.verdict past).Within M m) (second : Bool) :
    Calls (M := M) h0 D (20 * (n + (rounds + 1) * m + 1))
      (listenJob P far h0 D prologue eI first servers impostor listener rounds second) := by
  refine (((attackJob_calls P far h0 D _ n (recorded_within impostor [] n hn)).bind fun x =>
    (earlyJob_calls P far h0 D _ _ _ _).bind fun c => Calls.ret _).bind (b := 20 * ((rounds + 1) * m) + 1) fun x => ?_).mono (by omega)
  intro w
  unfold withRows
  split
  · exact Nat.zero_le _
  · exact Nat.succ_le_succ (verdictJob_calls P far h0 D listener _ second m hm hv rounds _ w)

theorem listenJob_alike [Finite (Ask M)] (hM : 97 ≤ M) (prologue : Bytes) (eI : Arr 32) (first : Bytes) (servers : List (Arr 32))
    (impostor : Curious Bytes) (listener : Listener) (rounds : Nat) (second : Bool) :
    Nat.card {z : (Place (Ask M) (Deep h0 D) → Arr 32) × (Arr 32 ⊕ Deep h0 D × Fin 3 → KeyRow) //
      ((listenJob P far h0 D prologue eI first servers impostor listener rounds second).guard (shape hM h0 D).A).run
        (ideal z.1 z.2) = some true} =
    Nat.card {z : (Place (Ask M) (Deep h0 D) → Arr 32) × (Arr 32 ⊕ Deep h0 D × Fin 3 → KeyRow) //
      ((listenJob P far h0 D prologue eI first servers impostor listener rounds (!second)).guard (shape hM h0 D).A).run
        (ideal z.1 z.2) = some true} := by
  have : Nonempty KeyRow := ⟨fun _ => Arr.replicate 64 0⟩
  exact card_alike (shape hM h0 D).A (preJob P far h0 D prologue eI first impostor) (preJob_modest P far h0 D _ _ _ _) _ _ _
    (fun x a b => verdictJob_modest P far h0 D _ _ _ _ _) (fun x a b => verdictJob_modest P far h0 D _ _ _ _ _)
    fun x w => verdictJob_alike P (shape hM h0 D).A w listener second rounds _ _

end

/-! ## The program and the parties -/

section
variable {P}
variable {M : Nat} (hM : 97 ≤ M) {far : Bytes → Arr 32} {h0 : Arr 32} (D : List (Arr 32)) (H : Hashes M)
variable (blocks : Blocks) {Q : Prims} (hQ : Q = P.withHash (H.at far)) (hh : NX.h0 Q = h0) (hM' : 65567 ≤ M)

include hQ hh hM'

theorem preJob_spec (prologue : Bytes) (eI : Arr 32) (first : Bytes) {impostor : Curious Bytes} {n : Nat} (hn : impostor.Within M n)
    (hb : impostor.Blind) {p : Spied Bytes} (hp : p = impostor.play Q rest blocks) {L : Log M h0 D}
    (hL : (preJob P far h0 D prologue eI first impostor).log (world hM H blocks h0 D) ⊆ L) :
    (preJob P far h0 D prologue eI first impostor).run (world hM H blocks h0 D) =
      ((p.result, p.served.map noted), (NX.afterEE Q (Q.dh eI (keyIn p.result))).1,
        NX.transcript Q (NX.parts prologue first p.result), staticIn Q (blocks.stream rest) eI p.result) ∧
    EeLogged D L Q (Q.dh eI (keyIn p.result)) ∧
    (prologue.length + 32 ≤ M → first.length ≤ 65535 → p.result.length ≤ 65535 →
      ∀ x ∈ p.heard Q prologue first, x.length ≤ M → Logged L x) ∧
    Asks ((preJob P far h0 D prologue eI first impostor).log (world hM H blocks h0 D)) fun x => Unlike h0 D x ∨
      x ∈ p.heard Q prologue first := by
  have hr := recorded_play Q rest blocks impostor []
  have hask := recorded_asked Q rest blocks impostor []
  rw [← hp] at hr hask
  unfold preJob at hL ⊢
  rw [Prog.log_bind] at hL
  obtain ⟨l1, l2⟩ := List.append_subset.mp hL
  obtain ⟨a1, -, -, a4⟩ := attackJob_spec hM D P H blocks hQ hh rest hM' (recorded [] impostor) n (recorded_within _ _ _ hn)
    (recorded_blind _ _ hb) l1
  have a5 := attackJob_logged hM D P H blocks hQ hh rest hM' (recorded [] impostor) n (recorded_within _ _ _ hn)
    (recorded_blind _ _ hb) l1
  rw [hask] at a4 a5
  rw [hr.1, List.nil_append] at a1
  rw [a1, Prog.log_bind] at l2
  obtain ⟨l2, -⟩ := List.append_subset.mp l2
  obtain ⟨c1, c2, c3, c4⟩ := earlyJob_spec hM D P H blocks hQ hh rest hM' prologue eI first p.result l2
  rw [Prog.run_bind, a1, Prog.run_bind, c1, Prog.log_bind, a1, Prog.log_bind]
  refine ⟨rfl, c2, fun h1 h2 h3 x hx hl => ?_, (a4.mono fun x hx => hx.imp_right fun hx => ?_).append
    ((c4.mono fun x hx => hx.imp_right fun hx => ?_).append Asks.nil)⟩
  · rcases List.mem_append.mp hx with hx | hx
    · exact a5 x hx hl
    · exact c3 h1 h2 h3 x hx
  · exact List.mem_append_left _ hx
  · exact List.mem_append_right _ hx

end

/-- What both directions need. -/
theorem met {Q : Prims} (hD : DhLaws Q) {blocks : Blocks} {prologue : Bytes} {kp : Keypair} {eI : Arr 32} {first : Bytes}
    (hfirst : first.take 32 = (Q.publicOf eI).toList) {c : Curious Bytes} {p : Spied Bytes} (hp : p = c.play Q rest blocks)
    {s : Arr 32 × Answer} (hs : s ∈ p.served) (e1 : s.2.prologue = prologue) (e2 : s.2.first = first) (e3 : s.2.second = p.result)
    (hl : p.result.length ≤ 2128) {ck d t : Arr 32} (hck : ck = (NX.afterEE Q (Q.dh eI (keyIn p.result))).1)
    (hd : d = Q.dh eI (Q.publicOf s.1)) (ht : t = NX.transcript Q (NX.parts prologue first p.result)) :
    (∃ out, (mid Q true prologue kp (Keypair.default Q eI) EMPTY (first.take 32) (first.drop 32)).recvMessage
      (Q.withBlocks rest blocks) p.result =
        (.ok (), (talking (Q.publicOf s.1) t (keysOf Q ck d 1, keysOf Q ck d 2)).1, out)) ∧
    s.2.session = (talking (Q.publicOf s.1) t (keysOf Q ck d 1, keysOf Q ck d 2)).2 ∧
    Q.publicOf s.1 = staticIn Q (blocks.stream rest) eI p.result := by
  have hserved := served_answer Q rest blocks (c.asking Q.hash)
  rw [c.play_asking Q rest blocks, ← hp] at hserved
  obtain ⟨sv, hsv, hans⟩ := hserved s hs
  obtain ⟨⟨out, h1⟩, h2⟩ := Serving.completes (P := Q.withBlocks rest blocks) (s := kp) (eI := eI) ⟨hD.comm, hD.public_ok⟩
    (withMac_correct Q _ _) hans hfirst e1 e2 e3 hl
  rw [hsv] at h1 h2
  subst hck hd ht
  refine ⟨⟨out, h1⟩, h2, ?_⟩
  exact (accepts (P := Q) (stream := blocks.stream rest) (mk := blocks.oneTime) h1 rfl).1

section
variable {M : Nat} (hM : 97 ≤ M) (hM' : 65567 ≤ M) {far : Bytes → Arr 32} {prologue : Bytes}
variable {kp : Keypair} {eI : Arr 32} {buf1 w1 : Bytes} {i1 : NoiseSession} {servers : List (Arr 32)}
variable {impostor : Bytes → Curious Bytes} {listener : Listener} {rounds n m : Nat} (hn : (impostor w1).Within M n)
variable (hb : (impostor w1).Blind) (hm : ∀ past, (listener.next past).Within M m) (hb' : ∀ past, (listener.next past).Blind)
variable (hv : ∀ past, (listener.verdict past).Within M m) (hv' : ∀ past, (listener.verdict past).Blind)
variable {H : Hashes M} {blocks : Blocks} {Q : Prims} (hQ : Q = P.withHash (H.at far)) {h0 : Arr 32} (hh : NX.h0 Q = h0)
variable (hlaws : DhLaws Q)
variable (h1 : (NoiseSession.initSession Q true prologue kp).sendMessage Q (Keypair.default Q eI) buf1 = (.ok (), i1, w1))
variable {second : Bool} {D : List (Arr 32)} (hDs : D = servers.map (P.dh eI))
variable (F : Fine (shape hM h0 D) (((listenJob P far h0 D prologue eI w1 servers (impostor w1) listener rounds second).guard
    (shape hM h0 D).A).log (world hM H blocks h0 D)) (cut H))

include hM' hn hb hm hb' hv hv' hQ hh hlaws h1 hDs F

/-- If nothing happens by chance and the attacker says yes, so does the program. -/
theorem says_run (h : SaysYes P rest blocks far prologue kp eI buf1 servers impostor listener rounds second H) :
    ((listenJob P far h0 D prologue eI w1 servers (impostor w1) listener rounds second).guard (shape hM h0 D).A).run
      (world hM H blocks h0 D) = some true := by
  unfold SaysYes at h
  rw [← hQ] at h
  obtain ⟨i, first, h1', i2, out, h2, s, hs, e1, e2, e3, e4, hleak, hyes⟩ := h
  rw [h1] at h1'
  simp only [Prod.mk.injEq, true_and] at h1'
  obtain ⟨rfl, rfl⟩ := h1'
  obtain ⟨hmid, hpub, -, -, -⟩ := send_first_ok h1
  subst hmid
  have hpubs : Q.publicOf = P.publicOf := by rw [hQ]; rfl
  have hdh : Q.dh = P.dh := by rw [hQ]; rfl
  obtain ⟨p, hp⟩ : ∃ p, p = (impostor w1).play Q rest blocks := ⟨_, rfl⟩
  rw [← hp] at h2 hs e3 hleak
  have hl : p.result.length ≤ 2128 := by
    obtain ⟨_, _, _, _, _, _, hl, -⟩ := recv_second_ok h2
    exact hl
  obtain ⟨ck, hck⟩ : ∃ ck, ck = (NX.afterEE Q (Q.dh eI (keyIn p.result))).1 := ⟨_, rfl⟩
  obtain ⟨t, ht⟩ : ∃ t, t = NX.transcript Q (NX.parts prologue w1 p.result) := ⟨_, rfl⟩
  obtain ⟨d, hd⟩ : ∃ d, d = Q.dh eI (Q.publicOf s.1) := ⟨_, rfl⟩
  obtain ⟨⟨out', m1⟩, m2, m3⟩ := met rest hlaws (kp := kp) hpub hp hs e1 e2 e3 hl hck hd ht
  rw [m1] at h2
  simp only [Prod.mk.injEq, true_and] at h2
  obtain ⟨rfl, rfl⟩ := h2
  have hno : ∀ q : Deep h0 D, ∀ heard, ¬ Leaked Q eI servers heard → padded 0x36 q.1.1 ++ q.1.2.toList ∉ heard := by
    intro q heard hl hq
    obtain ⟨rs', hm, he⟩ := List.mem_map.mp (show q.1.2 ∈ servers.map (P.dh eI) from hDs.subst (motive := fun D => q.1.2 ∈ D) q.2.1)
    refine hl ⟨q.1.1, by rw [hh]; exact q.2.2, rs', hm, ?_⟩
    rw [hdh, he]
    exact hq
  have part : ∀ a b : List Bytes, (∀ x ∈ a, x ∈ b) → ¬ Leaked Q eI servers b → ¬ Leaked Q eI servers a := by
    rintro a b hab hb ⟨ck, h1, rs, h2, h3⟩
    exact hb ⟨ck, h1, rs, h2, hab _ h3⟩
  have hdD : d ∈ D := by
    rw [hDs, hd, hdh]
    exact List.mem_map_of_mem e4
  -- the first part
  obtain ⟨L1, hL1⟩ : ∃ L1, L1 = (preJob P far h0 D prologue eI w1 (impostor w1)).log (world hM H blocks h0 D) := ⟨_, rfl⟩
  obtain ⟨p1, p2, -, p4⟩ := preJob_spec (L := L1) rest hM D H blocks hQ hh hM' prologue eI w1 hn hb hp (by rw [hL1]; exact List.Subset.refl _)
  rw [← hck, ← ht, ← m3] at p1
  have hA1 : ∀ q, .hash ((shape hM h0 D).A q) ∉ L1 := by
    intro q hq
    rw [hL1] at hq
    rcases p4 _ hq with hq | hq
    · exact hq _ q.2.2 _ q.2.1 rfl
    · exact hno q _ hleak (List.mem_append_left _ (List.mem_append_left _ hq))
  have F1 : Fine (shape hM h0 D) L1 (cut H) := F.subset (by
    rw [hL1] at hA1 ⊢
    exact Prog.guard_bind _ _ _ _ hA1)
  have hdeep : d ∈ D ∧ ck ≠ h0 := ⟨hdD, hck ▸ ck_ne hM H hQ hh F1 p2⟩
  have hchosen : chosen P h0 D prologue eI w1 servers ((p.result, p.served.map noted), ck, t, Q.publicOf s.1) =
      some ⟨(ck, d), hdeep⟩ := by
    have hmet : Met P prologue w1 servers (p.result, p.served.map noted) :=
      ⟨hl, noted s, List.mem_map_of_mem hs, e1, e2, e3, by rw [← hpubs]; exact e4⟩
    subst hd
    unfold chosen
    simp only [← hdh]
    rw [dif_pos hdeep, if_pos hmet]
  -- the second part
  have hrow : ∀ j, (((world hM H blocks h0 D).mix ⟨(ck, d), hdeep⟩).1 j : KeyRow) = fun x => blocks (keysOf Q ck d j, x.1, x.2) := by
    intro j
    rw [← chain_keys hM D P H hQ ⟨(ck, d), hdeep⟩ j]
    rfl
  unfold listenJob at F ⊢
  rw [Prog.guard_log_bind _ _ _ _ (by rw [hL1] at hA1; exact hA1), p1] at F
  rw [Prog.guard_run_bind, Prog.guard_run _ _ _ (by rw [hL1] at hA1; exact hA1), p1, Option.bind_some]
  unfold withRows at F ⊢
  simp only [hchosen] at F ⊢
  have hes : EsLogged D ((preJob P far h0 D prologue eI w1 (impostor w1)).log (world hM H blocks h0 D) ++ .mix ⟨(ck, d), hdeep⟩ ::
      ((verdictJob P far h0 D listener (pairPrims P (((world hM H blocks h0 D).mix ⟨(ck, d), hdeep⟩).1 1)
        (((world hM H blocks h0 D).mix ⟨(ck, d), hdeep⟩).1 2)) second rounds (talking (Q.publicOf s.1) t mocks)).guard
          (shape hM h0 D).A).log (world hM H blocks h0 D)) Q ck d :=
    ⟨fun _ => List.mem_append_right _ List.mem_cons_self, fun h => absurd hdeep h⟩
  have hk1 := key_zero hM H hQ F hdeep hes 1
  have hk2 := key_zero hM H hQ F hdeep hes 2
  simp only [Prog.guard, Prog.run]
  rw [hrow 1, hrow 2]
  obtain ⟨v1, -, v3⟩ := verdictJob_spec (keys := (keysOf Q ck d 1, keysOf Q ck d 2)) (a := fun x => blocks (keysOf Q ck d 1, x.1, x.2))
    (b := fun x => blocks (keysOf Q ck d 2, x.1, x.2)) D hM H blocks hQ hh rest hM' hm hb' hv hv' (fun _ _ => rfl) (fun _ _ => rfl)
    hk1 hk2 second rounds (talking_wears (Q.publicOf s.1) t mocks) rfl rfl (List.Subset.refl _)
  have hstart : (talking (Q.publicOf s.1) t mocks).dressed (keysOf Q ck d 1, keysOf Q ck d 2) =
      ((talking (Q.publicOf s.1) t (keysOf Q ck d 1, keysOf Q ck d 2)).1, s.2.session) := by
    rw [m2]
    rfl
  rw [hstart] at v1 v3
  rw [Prog.guard_run, v1, hyes]
  intro q hq
  rcases v3 _ hq with hq | hq
  · exact hq _ q.2.2 _ q.2.1 rfl
  · refine hno q _ (part _ _ (fun x hx => ?_) hleak) hq
    rw [List.append_assoc]
    exact List.mem_append_right _ hx

/-- And the other way round. -/
theorem run_says (hp' : prologue.length + 32 ≤ M)
    (h : ((listenJob P far h0 D prologue eI w1 servers (impostor w1) listener rounds second).guard (shape hM h0 D).A).run
      (world hM H blocks h0 D) = some true) :
    SaysYes P rest blocks far prologue kp eI buf1 servers impostor listener rounds second H := by
  have hA := Prog.guard_some _ _ _ _ h
  rw [Prog.guard_run _ _ _ hA] at h
  rw [Prog.guard_log _ _ _ hA] at F
  have h := Option.some.inj h
  have hpubs : Q.publicOf = P.publicOf := by rw [hQ]; rfl
  have hdh : Q.dh = P.dh := by rw [hQ]; rfl
  obtain ⟨hmid, hpub, hb1, hb2, hdr⟩ := send_first_ok h1
  have hwl : w1.length ≤ 65535 := by
    have e1 := congrArg List.length hpub
    have e2 := congrArg List.length hdr
    simp only [List.length_take, List.length_drop, Arr.len] at e1 e2
    omega
  subst hmid
  obtain ⟨p, hp⟩ : ∃ p, p = (impostor w1).play Q rest blocks := ⟨_, rfl⟩
  obtain ⟨L, hL⟩ : ∃ L, L = (listenJob P far h0 D prologue eI w1 servers (impostor w1) listener rounds second).log
    (world hM H blocks h0 D) := ⟨_, rfl⟩
  rw [← hL] at F hA
  unfold listenJob at hL h
  rw [Prog.log_bind] at hL
  obtain ⟨p1, -, p3, -⟩ := preJob_spec (L := L) rest hM D H blocks hQ hh hM' prologue eI w1 hn hb hp
    (by rw [hL]; exact List.subset_append_left _ _)
  rw [Prog.run_bind, p1] at h
  rw [p1] at hL
  obtain ⟨ck, hck⟩ : ∃ ck, ck = (NX.afterEE Q (Q.dh eI (keyIn p.result))).1 := ⟨_, rfl⟩
  obtain ⟨t, ht⟩ : ∃ t, t = NX.transcript Q (NX.parts prologue w1 p.result) := ⟨_, rfl⟩
  obtain ⟨rs, hrs⟩ : ∃ rs, rs = staticIn Q (blocks.stream rest) eI p.result := ⟨_, rfl⟩
  rw [← hck, ← ht, ← hrs] at h hL
  by_cases hdeep : P.dh eI rs ∈ D ∧ ck ≠ h0
  swap
  · have : chosen P h0 D prologue eI w1 servers ((p.result, p.served.map noted), ck, t, rs) = none := dif_neg hdeep
    unfold withRows at h
    rw [this] at h
    exact absurd h Bool.false_ne_true
  by_cases hmet : Met P prologue w1 servers (p.result, p.served.map noted)
  swap
  · have : chosen P h0 D prologue eI w1 servers ((p.result, p.served.map noted), ck, t, rs) = none :=
      (dif_pos hdeep).trans (if_neg hmet)
    unfold withRows at h
    rw [this] at h
    exact absurd h Bool.false_ne_true
  have hchosen : chosen P h0 D prologue eI w1 servers ((p.result, p.served.map noted), ck, t, rs) = some ⟨(ck, P.dh eI rs), hdeep⟩ :=
    (dif_pos hdeep).trans (if_pos hmet)
  obtain ⟨hl, e, he, e1, e2, e3, e4⟩ := hmet
  have hl : p.result.length ≤ 2128 := hl
  obtain ⟨s, hs, rfl⟩ := List.mem_map.mp he
  have e4 : Q.publicOf s.1 ∈ servers := by rw [hpubs]; exact e4
  obtain ⟨d, hd⟩ : ∃ d, d = Q.dh eI (Q.publicOf s.1) := ⟨_, rfl⟩
  obtain ⟨⟨out, m1⟩, m2, m3⟩ := met rest hlaws (kp := kp) hpub hp hs e1 e2 e3 hl hck hd ht
  have hrs' : rs = Q.publicOf s.1 := hrs.trans m3.symm
  have hd' : P.dh eI rs = d := by rw [hd, hdh, hrs']
  have hrow : ∀ j, (((world hM H blocks h0 D).mix ⟨(ck, P.dh eI rs), hdeep⟩).1 j : KeyRow) =
      fun x => blocks (keysOf Q ck d j, x.1, x.2) := by
    intro j
    rw [← hd', ← chain_keys hM D P H hQ ⟨(ck, P.dh eI rs), hdeep⟩ j]
    rfl
  unfold withRows at h hL
  simp only [hchosen, Prog.run, Prog.log] at h hL
  rw [hrow 1, hrow 2] at h hL
  have hes : EsLogged D L Q ck (P.dh eI rs) :=
    ⟨fun _ => by rw [hL]; exact List.mem_append_right _ List.mem_cons_self, fun h => absurd hdeep h⟩
  have hk1 := key_zero hM H hQ F hdeep hes 1
  have hk2 := key_zero hM H hQ F hdeep hes 2
  rw [hd'] at hk1 hk2
  obtain ⟨v1, v2, -⟩ := verdictJob_spec (L := L) (keys := (keysOf Q ck d 1, keysOf Q ck d 2))
    (a := fun x => blocks (keysOf Q ck d 1, x.1, x.2)) (b := fun x => blocks (keysOf Q ck d 2, x.1, x.2)) D hM H blocks hQ hh rest hM'
    hm hb' hv hv' (fun _ _ => rfl) (fun _ _ => rfl) hk1 hk2 second rounds (talking_wears rs t mocks) rfl rfl
    (by rw [hL]; exact List.Subset.trans (List.subset_cons_self _ _) (List.subset_append_right _ _))
  have hstart : (talking rs t mocks).dressed (keysOf Q ck d 1, keysOf Q ck d 2) =
      ((talking (Q.publicOf s.1) t (keysOf Q ck d 1, keysOf Q ck d 2)).1, s.2.session) := by
    rw [m2, hrs']
    rfl
  rw [hstart] at v1 v2
  unfold SaysYes
  rw [← hQ]
  refine ⟨_, w1, h1, _, out, by rw [← hp]; exact m1, s, by rw [← hp]; exact hs, e1, e2, by rw [← hp]; exact e3, e4, ?_, ?_⟩
  · rintro ⟨ck', hck', rs', hmem, hx⟩
    have hlen : (innerInput ck' (Q.dh eI rs')).length ≤ M := by
      have : (innerInput ck' (Q.dh eI rs')).length = 96 := length_96 0x36 ck' (Q.dh eI rs')
      omega
    have hlog : Logged L (innerInput ck' (Q.dh eI rs')) := by
      rw [List.append_assoc, ← hp] at hx
      rcases List.mem_append.mp hx with hx | hx
      · exact p3 hp' hwl (by omega) _ hx hlen
      · exact v2 _ hx hlen
    rcases hlog with hlog | ⟨hx', hlog⟩
    · exact ne_name (by rw [show (innerInput ck' (Q.dh eI rs')).length = 96 from length_96 0x36 ck' (Q.dh eI rs')]; decide) hlog
    · refine hA ⟨(ck', Q.dh eI rs'), ?_, by rw [← hh]; exact hck'⟩ hlog
      rw [hDs, hdh]
      exact List.mem_map_of_mem hmem
  · rw [← v1]
    exact h

end

theorem few_tell (hD : DhLaws P) (far : Bytes → Arr 32) (M : Nat) (hM : 65567 ≤ M) (prologue : Bytes)
    (hp : prologue.length + 32 ≤ M) (kp : Keypair) (eI : Arr 32) (buf1 : Bytes) (servers : List (Arr 32))
    (impostor : Bytes → Curious Bytes) (n : Nat) (hn : ∀ first, (impostor first).Within M n)
    (hb : ∀ first, (impostor first).Blind) (listener : Listener) (m : Nat) (hm : ∀ past, (listener.next past).Within M m)
    (hb' : ∀ past, (listener.next past).Blind) (hv : ∀ past, (listener.verdict past).Within M m)
    (hv' : ∀ past, (listener.verdict past).Blind) (rounds : Nat) (second : Bool) :
    2 ^ 256 * Nat.card {x : Hashes M × Blocks //
      SaysYes P rest x.2 far prologue kp eI buf1 servers impostor listener rounds second x.1} ≤
    2 ^ 256 * Nat.card {x : Hashes M × Blocks //
      SaysYes P rest x.2 far prologue kp eI buf1 servers impostor listener rounds (!second) x.1} +
      2 ^ 18 * (n + (rounds + 1) * m + 1) ^ 2 * Nat.card (Hashes M × Blocks) := by
  by_cases hbuf : 32 ≤ buf1.length ∧ buf1.length ≤ 65535
  swap
  · have : IsEmpty {x : Hashes M × Blocks //
        SaysYes P rest x.2 far prologue kp eI buf1 servers impostor listener rounds second x.1} := by
      refine ⟨fun x => hbuf ?_⟩
      obtain ⟨_, i1, first, h1, -⟩ := x
      obtain ⟨-, -, h2, h3, -⟩ := send_first_ok h1
      exact ⟨h2, h3⟩
    rw [Nat.card_of_isEmpty, Nat.mul_zero]
    exact Nat.zero_le _
  have hM' : 97 ≤ M := by omega
  obtain ⟨w1, hw⟩ : ∃ w1, w1 = (P.publicOf eI).toList ++ buf1.drop 32 := ⟨_, rfl⟩
  let i1 : Hashes M → NoiseSession := fun H => mid (P.withHash (H.at far)) true prologue kp
    (Keypair.default (P.withHash (H.at far)) eI) EMPTY (P.publicOf eI).toList (buf1.drop 32)
  have hsend : ∀ H : Hashes M, (NoiseSession.initSession (P.withHash (H.at far)) true prologue kp).sendMessage
      (P.withHash (H.at far)) (Keypair.default (P.withHash (H.at far)) eI) buf1 = (.ok (), i1 H, w1) := by
    intro H
    rw [hw]
    exact send_first true prologue kp (Keypair.default (P.withHash (H.at far)) eI) buf1 hbuf.1 hbuf.2
  let e : Hashes M × Blocks ≃ Arr 32 × ((Ask M → Arr 32) × (Arr 32 → KeyRow)) :=
    ((splitName hM').prodCongr (Equiv.curry (Arr 32) (Arr 12 × Fin 1025) (Arr 64))).trans (Equiv.prodAssoc _ _ _)
  let yes : Bool → Arr 32 → (Ask M → Arr 32) × (Arr 32 → KeyRow) → Prop := fun second h y =>
    SaysYes P rest (e.symm (h, y)).2 far prologue kp eI buf1 servers impostor listener rounds second (e.symm (h, y)).1
  have e' : ∀ second, Nat.card {x : Hashes M × Blocks //
      SaysYes P rest x.2 far prologue kp eI buf1 servers impostor listener rounds second x.1} =
      Nat.card {x : Arr 32 × ((Ask M → Arr 32) × (Arr 32 → KeyRow)) // yes second x.1 x.2} := fun second =>
    Nat.card_congr (e.subtypeEquiv fun x => by
      show _ ↔ SaysYes P rest (e.symm (e x)).2 far prologue kp eI buf1 servers impostor listener rounds second (e.symm (e x)).1
      rw [Equiv.symm_apply_apply])
  rw [e', e', Nat.card_congr e]
  refine card_prod_diff _ _ _ _ fun h => ?_
  have : Nonempty (Arr 32) := ⟨NX.zeros⟩
  have : Nonempty KeyRow := ⟨fun _ => Arr.replicate 64 0⟩
  let job : Bool → Job M h (servers.map (P.dh eI)) (Option Bool) := fun second =>
    (listenJob P far h (servers.map (P.dh eI)) prologue eI w1 servers (impostor w1) listener rounds second).guard
      (shape hM' h (servers.map (P.dh eI))).A
  have hcalls : ∀ second w, ((job second).log w).length ≤ 20 * (n + (rounds + 1) * m + 1) := fun second w =>
    (Prog.guard_prefix _ w _).length_le.trans (listenJob_calls P far h (servers.map (P.dh eI)) prologue eI w1 servers (impostor w1)
      listener rounds n m (hn w1) hm hv second w)
  have b := card_real (shape hM' h (servers.map (P.dh eI))) (job second) (job (!second)) _ (hcalls second) (hcalls (!second))
    (fun w p => Prog.guard_never _ w _ p) (fun w p => Prog.guard_never _ w _ p) (fun a => a = some true)
    (listenJob_alike P far h (servers.map (P.dh eI)) hM' prologue eI w1 servers (impostor w1) listener rounds second)
  rw [Crypto.Poly1305.card_keys] at b
  have hname : ∀ y : (Ask M → Arr 32) × (Arr 32 → KeyRow), NX.h0 (P.withHash ((e.symm (h, y)).1.at far)) = h := by
    intro y
    rw [name_hash P hM']
    exact congrArg Prod.fst (e.apply_symm_apply (h, y))
  have hworld : ∀ y : (Ask M → Arr 32) × (Arr 32 → KeyRow), world hM' (e.symm (h, y)).1 (e.symm (h, y)).2 h (servers.map (P.dh eI)) =
      real (shape hM' h (servers.map (P.dh eI))) y.1 y.2 ∧ cut (e.symm (h, y)).1 = y.1 := by
    intro y
    have h1 : cut (e.symm (h, y)).1 = y.1 := congrArg (fun z => z.2.1) (e.apply_symm_apply (h, y))
    refine ⟨?_, h1⟩
    unfold world
    rw [h1]
    rfl
  refine (Nat.mul_le_mul_left _ ?_).trans (b.trans (Nat.add_le_add (Nat.mul_le_mul_left _ ?_) (Nat.mul_le_mul_right _ ?_)))
  · refine Nat.card_le_card_of_injective (fun y => ⟨y.1, fun F => ?_⟩) fun a b h => Subtype.ext (congrArg (fun z => z.1) h)
    obtain ⟨y, hy⟩ := y
    obtain ⟨hw1, hw2⟩ := hworld y
    rw [← hw1]
    simp only [← hw2] at F
    exact says_run P rest hM' hM (hn w1) (hb w1) hm hb' hv hv' rfl (hname y) ⟨hD.comm, hD.public_ok⟩ (hsend _) rfl F hy
  · refine Nat.card_le_card_of_injective (fun y => ⟨y.1, ?_⟩) fun a b h => Subtype.ext (congrArg (fun z => z.1) h)
    obtain ⟨y, F, hy⟩ := y
    obtain ⟨hw1, hw2⟩ := hworld y
    simp only [← hw2] at F
    rw [← hw1] at hy
    exact run_says P rest hM' hM (hn w1) (hb w1) hm hb' hv hv' rfl (hname y) ⟨hD.comm, hD.public_ok⟩ (hsend _) rfl F hp hy
  · rw [Nat.mul_pow, ← Nat.mul_assoc]
    exact Nat.mul_le_mul_right _ (by decide)

end SV2.Noise.Veiled

namespace SV2.Noise

variable (P : Prims) (rest : Arr 32 → Arr 12 → Nat → UInt8)

/-- A client sends its first message, and an attacker with at most `n` questions - hashes, blocks of ChaCha20, and answers of
responders with any secrets, the real servers among them - gives it a reply.  If the client accepts and one of the servers
made this reply for this message, the two talk: in each of `rounds` steps the attacker, after at most `m` questions, names
two texts of the same length of which one of the two sends the first (or, in the other world, the second), or delivers
something to one of the two; it sees all messages, but not the keys.  After `m` more questions it says yes or no.  The
numbers of the hash and block functions for which it says yes in the two worlds, and nobody hashed a shared secret of the
client with one of the servers other than for keys, differ by at most a share of `(n + (rounds + 1) * m + 1)^2 / 2^238`. -/
theorem C105_secret (hD : DhLaws P) (far : Bytes → Arr 32) (M : Nat) (hM : 65567 ≤ M) (prologue : Bytes)
    (hp : prologue.length + 32 ≤ M) (kp : Keypair) (eI : Arr 32) (buf1 : Bytes) (servers : List (Arr 32))
    (impostor : Bytes → Curious Bytes) (n : Nat) (hn : ∀ first, (impostor first).Within M n)
    (hb : ∀ first, (impostor first).Blind) (listener : Listener) (m : Nat) (hm : ∀ past, (listener.next past).Within M m)
    (hb' : ∀ past, (listener.next past).Blind) (hv : ∀ past, (listener.verdict past).Within M m)
    (hv' : ∀ past, (listener.verdict past).Blind) (rounds : Nat) (second : Bool) :
    2 ^ 256 * Nat.card {x : Hashes M × Blocks //
      SaysYes P rest x.2 far prologue kp eI buf1 servers impostor listener rounds second x.1} ≤
    2 ^ 256 * Nat.card {x : Hashes M × Blocks //
      SaysYes P rest x.2 far prologue kp eI buf1 servers impostor listener rounds (!second) x.1} +
      2 ^ 18 * (n + (rounds + 1) * m + 1) ^ 2 * Nat.card (Hashes M × Blocks) :=
  Veiled.few_tell P rest hD far M hM prologue hp kp eI buf1 servers impostor n hn hb listener m hm hb' hv hv' rounds second

/-! ## An attacker that hashes the shared secret -/

/-- It computes the session key of the initiator from the two shared secrets, encrypts a text, and compares. -/
def spy (ee es : Arr 32) (text wire : Bytes) : Curious Bool :=
  (Curious.hashed nameBytes).bind fun h =>
  (Curious.hkdf h ee.toList).bind fun a =>
  (Curious.hkdf a.1 es.toList).bind fun b =>
  (Curious.hkdf b.1 []).bind fun k =>
  (Curious.learn (rowOf k.1 0)).bind fun bl =>
  .reply (decide (NX.enc (P.withBlocks rest bl) k.1 0 [] text = wire))

theorem spy_hash (hash : Bytes → Arr 32) (ee es : Arr 32) (text wire : Bytes) :
    spy (P.withHash hash) rest ee es text wire = spy P rest ee es text wire := by
  have e : ∀ b k n ad p, NX.enc ((P.withHash hash).withBlocks rest b) k n ad p = NX.enc (P.withBlocks rest b) k n ad p :=
    fun _ _ _ _ _ => rfl
  unfold spy
  simp only [e]

seal Curious.Within in
theorem spy_within (M : Nat) (ee es : Arr 32) (text wire : Bytes) : (spy P rest ee es text wire).Within M 1044 := by
  have l : ∀ k, (rowOf k 0).length = 1025 := fun k => by rw [rowOf, List.length_map, List.length_finRange]
  obtain ⟨N, hN⟩ : ∃ N, N = 1025 := ⟨_, rfl⟩
  obtain ⟨N', hN'⟩ : ∃ N, N = 1044 := ⟨_, rfl⟩
  have hl : ∀ k, (Curious.learn (rowOf k 0)).Within M N := fun k => by
    have := Curious.learn_within (M := M) (rowOf k 0)
    rw [(l k).trans hN.symm] at this
    exact this
  have e : N' = 1 + (6 + (6 + (6 + (N + 0)))) := by omega
  rw [← hN', e]
  exact (Curious.hashed_within _).bind fun h => (Curious.hkdf_within _ _).bind fun a => (Curious.hkdf_within _ _).bind fun b =>
    (Curious.hkdf_within _ _).bind fun k => (hl _).bind fun b1 => Curious.reply_within _

seal Curious.Blind in
theorem spy_blind (ee es : Arr 32) (text wire : Bytes) : (spy P rest ee es text wire).Blind :=
  Stack.Blind.bind (Stack.hashed_blind _) fun _ => Stack.Blind.bind (Stack.hkdf_blind _ _) fun _ =>
    Stack.Blind.bind (Stack.hkdf_blind _ _) fun _ => Stack.Blind.bind (Stack.hkdf_blind _ _) fun _ =>
      Stack.Blind.bind (Stack.learn_blind _) fun _ => by unfold Curious.Blind; trivial

theorem spy_gives (blocks : Blocks) (ee es : Arr 32) (text wire : Bytes) : (spy P rest ee es text wire).Gives P rest blocks
    (decide (NX.enc (P.withBlocks rest blocks) (NX.transportKeys P ee es).1 0 [] text = wire)) := by
  obtain ⟨b, g, e⟩ := Curious.learn_gives (P := P) (rest := rest) blocks (rowOf (NX.transportKeys P ee es).1 0)
  refine (Curious.hashed_gives blocks _).bind ((Curious.hkdf_gives blocks _ _).bind ((Curious.hkdf_gives blocks _ _).bind
    ((Curious.hkdf_gives blocks _ _).bind (g.bind ⟨?_, rfl⟩))))
  have h : NX.enc (P.withBlocks rest b) (NX.transportKeys P ee es).1 0 [] text =
    NX.enc (P.withBlocks rest blocks) (NX.transportKeys P ee es).1 0 [] text := enc_row e _ _
  exact congrArg (fun w => decide (w = wire)) h

theorem spy_hashed (blocks : Blocks) (ee es : Arr 32) (text wire : Bytes) :
    innerInput (NX.afterEE P ee).1 es ∈ ((spy P rest ee es text wire).play P rest blocks).hashed :=
  Curious.hashed_right (Curious.hashed_gives blocks _).1 (Curious.hashed_right (Curious.hkdf_gives blocks _ _).1
    (Curious.hashed_left (Curious.hkdf_hashed blocks _ _)))

/-- It has the initiator send one of the texts, and looks at the last message. -/
def spying (ee es : Arr 32) (m0 m1 : Bytes) : Listener where
  next _ := .reply (.send .initiator m0 m1)
  verdict seen := spy P rest ee es (body m1) ((seen.map Seen.wire).getLastD [])

theorem send_agreed {Q : Prims} {i r : NoiseSession} {keys : Arr 32 × Arr 32} (h : Agreed i r keys) (hk : keys.1 ≠ EMPTY) {m : Bytes}
    (h1 : 16 ≤ m.length) (h2 : m.length ≤ 65535) :
    ∃ i', i.sendMessage Q Keypair.empty m = (.ok (), i', NX.enc Q keys.1 0 [] (body m)) := by
  have hcs : i.sendCs = ⟨keys.1, 0⟩ := by simp [NoiseSession.sendCs, h.roles.1, h.initiator.1]
  have hm := h.count.1
  have h0 : (0 : UInt64).toNat = 0 := rfl
  rw [h0] at hm
  rw [NoiseSession.send_transport _ _ _ (by omega) (by omega), hcs, CipherState.write_ok _ _ h1 (show (0 : UInt64) ≠ MAX_NONCE by decide) hk]
  simp only []
  rw [NoiseSession.count_ok _ _ (by rw [NoiseSession.setSend, if_pos h.roles.1]; simp only []; omega), sealed_eq]
  exact ⟨_, rfl⟩

seal spy in
theorem spying_says (Q : Prims) (blocks : Blocks) (ee es : Arr 32) (m0 m1 : Bytes) (hl : m0.length = m1.length) (h1 : 16 ≤ m0.length)
    (h2 : m0.length ≤ 65535) (hne : body m0 ≠ body m1) {i r : NoiseSession} (h : Agreed i r (NX.transportKeys Q ee es))
    (hk : (NX.transportKeys Q ee es).1 ≠ EMPTY) (hspy : ∀ wire, spy P rest ee es (body m1) wire = spy Q rest ee es (body m1) wire)
    (second : Bool) :
    let v := ((spying P rest ee es m0 m1).verdict ((spying P rest ee es m0 m1).listen Q rest blocks second 1 (i, r) [] []).1).play
      Q rest blocks
    v.result = second ∧ innerInput (NX.afterEE Q ee).1 es ∈ v.asked Q := by
  obtain ⟨i', e⟩ := send_agreed (Q := Q.withBlocks rest blocks) (m := if second then m1 else m0) h hk
    (by cases second <;> simp only [Bool.false_eq_true, if_false, if_true] <;> omega)
    (by cases second <;> simp only [Bool.false_eq_true, if_false, if_true] <;> omega)
  have hact : Duo.act (Q.withBlocks rest blocks) second (i, r) (.send .initiator m0 m1) =
      (.ok (), NX.enc (Q.withBlocks rest blocks) (NX.transportKeys Q ee es).1 0 [] (body (if second then m1 else m0)), (i', r)) := by
    simp only [Duo.act, Duo.get, if_pos hl, e, Duo.set]
  have hlast : (((spying P rest ee es m0 m1).listen Q rest blocks second 1 (i, r) [] []).1.map Seen.wire).getLastD [] =
      NX.enc (Q.withBlocks rest blocks) (NX.transportKeys Q ee es).1 0 [] (body (if second then m1 else m0)) := by
    show (([] ++ [Seen.blind ⟨_, (Duo.act (Q.withBlocks rest blocks) second (i, r) (.send .initiator m0 m1)).2.1, _, _⟩]).map
      Seen.wire).getLastD [] = _
    rw [hact]
    rfl
  intro v
  have hv : v = (spy Q rest ee es (body m1) (NX.enc (Q.withBlocks rest blocks) (NX.transportKeys Q ee es).1 0 []
      (body (if second then m1 else m0)))).play Q rest blocks := by
    rw [← hlast, ← hspy]
    rfl
  clear_value v
  subst hv
  refine ⟨?_, List.mem_append_left _ (spy_hashed Q rest blocks ee es _ _)⟩
  rw [(spy_gives Q rest blocks ee es _ _).1]
  cases second
  · refine decide_eq_false fun h => hne ?_
    exact (enc_injective (P := Q.withBlocks rest blocks) (withMac_correct Q _ _) h).symm
  · exact decide_eq_true rfl

seal spy Curious.Within Curious.Blind in
/-- The condition on the hashes is needed: for any two shared secrets and any two different texts there is an attacker that asks
for some hashes - one of them of the second shared secret - and blocks, does not see the keys, and after a handshake with
these shared secrets says which of the texts was sent, whatever the hash and the block function are.  (The session key is
not zero.) -/
theorem C105_informed (far : Bytes → Arr 32) (M : Nat) (ee es : Arr 32) (m0 m1 : Bytes) (hl : m0.length = m1.length)
    (h1 : 16 ≤ m0.length) (h2 : m0.length ≤ 65535) (hne : body m0 ≠ body m1) :
    ∃ listener : Listener, (∀ past, (listener.next past).Within M 1044 ∧ (listener.next past).Blind ∧
        (listener.verdict past).Within M 1044 ∧ (listener.verdict past).Blind) ∧
      ∀ (H : Hashes M) (blocks : Blocks) (i r : NoiseSession) (second : Bool),
        let Q := P.withHash (H.at far)
        Agreed i r (NX.transportKeys Q ee es) → (NX.transportKeys Q ee es).1 ≠ EMPTY →
        let h := listener.listen Q rest blocks second 1 (i, r) [] []
        let v := (listener.verdict h.1).play Q rest blocks
        v.result = second ∧ innerInput (NX.afterEE Q ee).1 es ∈ v.asked Q := by
  refine ⟨spying P rest ee es m0 m1, fun past => ⟨Stack.reply_any _ _, Stack.reply_blind _, spy_within P rest M ee es _ _,
    spy_blind P rest ee es _ _⟩, ?_⟩
  intro H blocks i r second Q h hk
  exact spying_says P rest Q blocks ee es m0 m1 hl h1 h2 hne h hk (fun wire => (spy_hash P rest (H.at far) ee es _ wire).symm) second

/-! ## Cases -/

/-- An attacker that has the client send one of two texts, passes the message on after hashing something and computing a
block, has the server send one of two texts, passes that on too, and in the end looks at the first byte of the first
message. -/
def curiousListener : Listener where
  next seen :=
    let wire := fun j => (seen.map Seen.wire).getD j []
    match seen.length with
    | 0 => .reply (.send .initiator (List.replicate 40 1) (List.replicate 40 2))
    | 1 => .hash (List.replicate 96 1) fun _ => .block (Arr.replicate 32 2, NX.nonce 0, 0) fun _ =>
      .reply (.deliver .responder (wire 0))
    | 2 => .reply (.send .responder (List.replicate 30 3) (List.replicate 30 4))
    | _ => .serve (Noise.serving (List.replicate 50 9)) fun _ => .reply (.deliver .initiator (wire 2))
  verdict seen := .hash [1] fun _ => .reply ((seen.map Seen.wire).getD 0 [] |>.getD 0 0 |>.toNat |>.testBit 0)

example (past : List Seen) : (curiousListener.next past).Within 65567 2 ∧ (curiousListener.next past).Blind ∧
    (curiousListener.verdict past).Within 65567 2 ∧ (curiousListener.verdict past).Blind := by
  refine ⟨?_, ?_, fun _ => trivial, fun _ => trivial⟩ <;> unfold curiousListener <;> simp only [] <;> split
  · trivial
  · exact fun _ _ => trivial
  · trivial
  · exact ⟨show 2 + 32 ≤ 65567 by decide, fun _ => trivial⟩
  · trivial
  · exact fun _ _ => trivial
  · trivial
  · exact ⟨fun _ => trivial, fun _ _ _ => rfl⟩

/-- The client accepts the server's reply, which was made for its message; all messages arrive, nobody hashed the shared
secret other than for keys, and the attacker says yes when the second texts are sent, and no when the first are. -/
example : let rest := fun _ _ _ => 7
    let m := firstOf (Arr.replicate 32 3)
    let eI := Arr.replicate 32 3
    let rs := toyPrims.publicOf (Arr.replicate 32 5)
    let p := (relay m.2.2).play toyPrims rest toyBlocks
    let Q := toyPrims.withBlocks rest toyBlocks
    let c := m.2.1.recvMessage Q p.result
    let start : Duo := (c.2.1, (p.served.map (·.2.session)).getD 0 toyR)
    let h := fun second => curiousListener.listen toyPrims rest toyBlocks second 4 start [] []
    let v := fun second => (curiousListener.verdict (h second).1).play toyPrims rest toyBlocks
    m.1 = .ok () ∧ c.1 = .ok () ∧ (p.served.map fun s => (s.2.prologue, s.2.first, s.2.second, toyPrims.publicOf s.1)) =
      [([1, 2], m.2.2, p.result, rs)] ∧ (h true).1.map Seen.outcome = [.ok (), .ok (), .ok (), .ok ()] ∧
    (v true).result = true ∧ (v false).result = false ∧
    ∀ second : Bool, ∀ x ∈ p.heard toyPrims [1, 2] m.2.2 ++ (h second).2 ++ (v second).asked toyPrims,
      x.drop 64 ≠ (toyPrims.dh eI rs).toList := by
  decide +kernel

/-- The hypotheses of `C105_informed`: two texts, and the keys of the sample handshake. -/
example : let m := firstOf (Arr.replicate 32 3)
    let p := (relay m.2.2).play toyPrims (fun _ _ _ => 7) toyBlocks
    let c := m.2.1.recvMessage (toyPrims.withBlocks (fun _ _ _ => 7) toyBlocks) p.result
    let r := (p.served.map (·.2.session)).getD 0 toyR
    let k := NX.transportKeys toyPrims (toyPrims.dh (Arr.replicate 32 3) (keyIn p.result))
      (toyPrims.dh (Arr.replicate 32 3) (toyPrims.publicOf (Arr.replicate 32 5)))
    (c.2.1.i = true ∧ r.i = false) ∧ (c.2.1.mc = 2 ∧ r.mc = 2) ∧ (c.2.1.cs1 = ⟨k.1, 0⟩ ∧ c.2.1.cs2 = ⟨k.2, 0⟩) ∧
      (r.cs1 = ⟨k.1, 0⟩ ∧ r.cs2 = ⟨k.2, 0⟩) ∧ k.1 ≠ EMPTY ∧
      body (List.replicate 40 1 : Bytes) ≠ body (List.replicate 40 2) := by
  decide +kernel

end SV2.Noise
