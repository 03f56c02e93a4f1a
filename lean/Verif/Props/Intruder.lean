import Verif.Lemmas.Intruder
import Verif.Props.Outsider
import Verif.Props.Forward
/-!
# C109: who has the server's static secret cannot talk in the place of a side, if the hash function and ChaCha20 are random

The attacker, and what it means to get in between, are in `Verif/Spec/Intruder.lean`.
-/

namespace SV2.Noise.Distant
open SV2.Long SV2.Stack
open SV2.Noise.Veiled (Ask ne_name length_96 cut pairPrims mocks splitName name_hash nameOf hash_short afterwards afterwards_wears
  asker asker_forger)

variable (P : Prims) (rest : Arr 32 → Arr 12 → Nat → UInt8)

/-- An attacker in the sense of `Verif/Spec/Impersonation.lean` that passes on the server's answer. -/
def passing (c : Serving) : Impostor := .serve c fun a => .reply ((a.map Answer.second).getD [])

theorem passing_play {Q : Prims} (blocks : Blocks) {c : Serving} {a : Answer} (h : c.answer (Q.withBlocks rest blocks) = some a) :
    (passing c).play Q rest blocks = ⟨a.second, [], [(c.sR, a)]⟩ := by
  simp only [passing, Asking.play, h]
  rfl

section
variable {M : Nat} (hM : 97 ≤ M) (hM' : 65567 ≤ M) {far : Bytes → Arr 32} {prologue : Bytes} (hpl : prologue.length + 32 ≤ M)
variable {kp : Keypair} {eI sR eR : Arr 32} {buf1 buf2 : Bytes}
variable {watcher : Bytes → Bytes → Watcher} {rounds : Nat} (hb : ∀ a b past, (watcher a b past).Alone)
variable {H : Hashes M} {blocks : Blocks} {Q : Prims} (hQ : Q = P.withHash (H.at far)) {h0 : Arr 32} (hh : NX.h0 Q = h0)
variable (hE : ∀ a b, ((watcher a b).forger Q rest blocks).Rekeys 0)
variable (hlaws : DhLaws Q) {w1 : Bytes} {c : Serving} {ee es : Arr 32} {i1 : NoiseSession}
variable (hsend : (NoiseSession.initSession Q true prologue kp).sendMessage Q (Keypair.default Q eI) buf1 = (.ok (), i1, w1))
variable (hc : c = ⟨prologue, sR, eR, w1, buf2⟩)
variable (hee : ee = Q.dh eI (Q.publicOf eR)) (hes : es = Q.dh eI (Q.publicOf sR))
variable (F : Fine (shape hM h0 ee es) (((intrudeJob P far h0 c watcher rounds).guard (shape hM h0 ee es).A).log
    (world hM H blocks h0 ee es)) (cut H))

include hM' hpl hb hQ hh hE hlaws hsend hc hee hes F

/-- If nothing happens by chance, who gets in between also breaks the connection in the sense of `Verif/Spec/Channel.lean`. -/
theorem intruded_broken (h : Intruded P rest blocks far prologue kp eI buf1 sR eR buf2 watcher rounds H) :
    Broken Q rest blocks prologue eI i1 w1 (passing c) (fun p => asker (watcher w1 p.result) Q) 0 rounds := by
  unfold Intruded at h
  rw [← hQ] at h
  obtain ⟨i1', first, g1, a, hans, i2, out, hrecv, htold, hgen⟩ := h
  rw [hsend] at g1
  simp only [Prod.mk.injEq, true_and] at g1
  obtain ⟨rfl, rfl⟩ := g1
  rw [← hc] at hans
  obtain ⟨hmid, hwt, hb1, hb2, hdr⟩ := send_first_ok hsend
  have hwl : w1.length = buf1.length := by
    have e1 := congrArg List.length hwt
    have e2 := congrArg List.length hdr
    simp only [List.length_take, List.length_drop, Arr.len] at e1 e2
    omega
  have hpubs : (Keypair.default Q eI).public_key = Q.publicOf eI := rfl
  have hkey : keyIn w1 = Q.publicOf eI := (eq_keyIn (by omega) hwt.symm).symm
  -- the keys
  have hmix : .mix () ∈ ((intrudeJob P far h0 c watcher rounds).guard (shape hM h0 ee es).A).log (world hM H blocks h0 ee es) :=
    List.mem_cons_self
  obtain ⟨k0, k1, k2, k3⟩ := chain_keys (ee := ee) (es := es) hM P H hQ hh
  have z2 := F.bad () hmix 2
  have z3 := F.bad () hmix 3
  have d01 := fun e => (F.key () () hmix hmix 0 1 e).2
  have d02 := fun e => (F.key () () hmix hmix 0 2 e).2
  have d03 := fun e => (F.key () () hmix hmix 0 3 e).2
  have d12 := fun e => (F.key () () hmix hmix 1 2 e).2
  have d13 := fun e => (F.key () () hmix hmix 1 3 e).2
  have d23 := fun e => (F.key () () hmix hmix 2 3 e).2
  have hmixed : ∀ j, ((world hM H blocks h0 ee es).mix () j : KeyRow) =
      fun x => blocks ((shape hM h0 ee es).chain (cut H) () (keyAt j), x.1, x.2) := fun j => rfl
  have m0 := hmixed 0
  have m1 := hmixed 1
  have m2 := hmixed 2
  have m3 := hmixed 3
  have hrows := fun k hk => F.row () k hmix hk
  have q2 := fun k hk => hrows k hk 2
  have q3 := fun k hk => hrows k hk 3
  simp only [keyAt, k0, k1, k2, k3] at z2 z3 m0 m1 m2 m3 d01 d02 d03 d12 d13 d23 q2 q3
  -- the server
  have hs : c.sR = sR := by rw [hc]
  have he : c.eR = eR := by rw [hc]
  have hp : c.prologue = prologue := by rw [hc]
  have hf : c.first = w1 := by rw [hc]
  obtain ⟨ok, ha⟩ := (c.answer_iff (P := Q.withBlocks rest blocks) _).mp hans
  have e1 : Q.dh c.eR (keyIn c.first) = ee := by rw [he, hf, hkey, hee, hlaws.comm]
  have e2 : Q.dh c.sR (keyIn c.first) = es := by rw [hs, hf, hkey, hes, hlaws.comm]
  -- the client
  have hal : a.second.length ≤ 2128 := by
    rw [hmid] at hrecv
    obtain ⟨_, _, _, _, _, _, hl, -⟩ := recv_second_ok hrecv
    omega
  rw [hmid] at hrecv
  obtain ⟨⟨out', hrecv'⟩, hsess⟩ := Serving.completes (P := Q.withBlocks rest blocks) (s := kp) (eI := eI) (prologue := prologue)
    (first := w1) (second := a.second) ⟨hlaws.comm, hlaws.public_ok⟩ (withMac_correct Q _ _) hans
    hwt (by rw [ha]; exact hp) (by rw [ha]; exact hf) rfl hal
  have hsec : a.second = (Q.publicOf c.eR).toList ++ c.encS (Q.withBlocks rest blocks) ++ c.encP (Q.withBlocks rest blocks) := by
    rw [ha]
    rfl
  have e3 : keyIn a.second = Q.publicOf eR := by
    refine (eq_keyIn ?_ ?_).symm
    · rw [hsec]
      simp only [List.length_append, Arr.len]
      omega
    · rw [hsec, List.append_assoc, List.take_left' (Q.publicOf c.eR).len, he]
  have hkeys : NX.transportKeys (Q.withBlocks rest blocks) ((Q.withBlocks rest blocks).dh eI
      (keyIn a.second)) ((Q.withBlocks rest blocks).dh eI ((Q.withBlocks rest blocks).publicOf c.sR)) =
      NX.transportKeys Q ee es := by
    rw [e3, hee, hes, hs]
    rfl
  rw [hkeys] at hrecv' hsess
  obtain ⟨t, ht⟩ : ∃ t, t = NX.transcript Q (NX.parts prologue w1 a.second) := ⟨_, rfl⟩
  have hi2 : i2 = done true (Q.publicOf sR) t (NX.transportKeys Q ee es) 1 := by
    have e := hrecv.symm.trans hrecv'
    simp only [Prod.mk.injEq, true_and] at e
    rw [e.1, hs, ht]
    rfl
  have hsess' : a.session = done false EMPTY t (NX.transportKeys Q ee es) 1 := by
    rw [hsess, ht]
    rfl
  have hstart : ({ rnet := { net := { i := i2, r := a.session } } } : SNet) =
      (afterwards (Q.publicOf sR) t mocks).dressed (NX.transportKeys Q ee es) := by
    rw [hi2, hsess']
    rfl
  -- the program
  have hdh : Q.dh = P.dh := by rw [hQ]; rfl
  have hpub : Q.publicOf = P.publicOf := by rw [hQ]; rfl
  have hk1 : (NX.afterEE Q (P.dh c.eR (keyIn c.first))).2 = (NX.afterEE Q ee).2 := by rw [← hdh, e1]
  have hk2 : (NX.afterES Q (P.dh c.eR (keyIn c.first)) (P.dh c.sR (keyIn c.first))).2 = (NX.afterES Q ee es).2 := by
    rw [← hdh, e1, e2]
  obtain ⟨L, hL⟩ : ∃ L, L = (intrudeJob P far h0 c watcher rounds).log (world hM H blocks h0 ee es) := ⟨_, rfl⟩
  have hL' : L = .mix () :: ((replyJob P far h0 c ((world hM H blocks h0 ee es).mix () 0) ((world hM H blocks h0 ee es).mix () 1)).bind
      fun x => stackJob far h0 (watcher c.first x.1) (pairPrims P ((world hM H blocks h0 ee es).mix () 2)
        ((world hM H blocks h0 ee es).mix () 3)) (afterwards (P.publicOf c.sR) x.2 mocks) rounds).log (world hM H blocks h0 ee es) := hL
  rw [m0, m1, m2, m3, Prog.log_bind] at hL'
  have l1 : (replyJob P far h0 c (fun x => blocks ((NX.afterEE Q ee).2, x.1, x.2))
      (fun x => blocks ((NX.afterES Q ee es).2, x.1, x.2))).log (world hM H blocks h0 ee es) ⊆ L := by
    rw [hL']
    exact fun x hx => List.mem_cons_of_mem _ (List.mem_append_left _ hx)
  obtain ⟨r1, r2, r3⟩ := replyJob_spec hM P H blocks hQ hh rest c ok hk1 hk2 l1
  rw [← ha, hp, hf, ← ht] at r1
  rw [← ha, hp, hf] at r2 r3
  rw [r1, hf, hs, ← hpub] at hL'
  obtain ⟨t1, -, t3, t4⟩ := stackJob_spec (L := L) (keys := NX.transportKeys Q ee es) hM P H blocks hQ hh rest (hb w1 a.second)
    (hE w1 a.second) (fun _ _ => rfl) (fun _ _ => rfl) z2 z3 (afterwards_wears (Q.publicOf sR) t mocks) rounds (by
      rw [hL']
      exact fun x hx => List.mem_cons_of_mem _ (List.mem_append_right _ hx))
  rw [← hstart] at t1 t3 t4
  have hA : ∀ q, .hash ((shape hM h0 ee es).A q) ∉ L := by
    intro q hq
    rw [hL'] at hq
    have e : ((shape hM h0 ee es).A q).1 = innerInput (NX.h0 Q) (Q.dh eI (Q.publicOf eR)) := by rw [hh, ← hee]; rfl
    rcases List.mem_cons.mp hq with hq | hq
    · cases hq
    · refine htold ?_
      rw [← e]
      rcases List.mem_append.mp hq with hq | hq
      · exact List.mem_append_left _ (r3 _ hq)
      · exact List.mem_append_right _ (t4 _ hq)
  rw [hL] at hA
  rw [Prog.guard_log _ _ _ hA, ← hL] at F q2 q3
  -- the conditions
  have hplay := passing_play rest blocks hans
  have hpk : payloadKey Q eI a.second (Q.publicOf sR) = (NX.afterES Q ee es).2 := by
    unfold payloadKey
    rw [e3, ← hee, ← hes]
  have hused : a.keys Q sR = [(NX.afterEE Q ee).2, (NX.afterES Q ee es).2] := by
    have h1 : a.eR = c.eR := by rw [ha]; rfl
    have h2 : a.first = c.first := by rw [ha]; rfl
    unfold Answer.keys
    simp only [h1, h2, ← hs, e1, e2]
  have hcare : Careful Q prologue eI w1 ⟨a.second, [], [(c.sR, a)]⟩ (Q.publicOf sR) := by
    refine ⟨List.not_mem_nil, ?_, ?_⟩
    · rw [hpk]
      simp only [List.flatMap_cons, List.flatMap_nil, List.append_nil, hs, hused]
      rw [List.count_cons_of_ne (fun e => absurd (d01 e) (by decide)), List.count_cons_self, List.count_nil]
    · rintro s hs' ⟨x, hx, y, hy, hne, hxy⟩
      obtain rfl := List.mem_singleton.mp hs'
      have h1 : a.prologue = prologue := by rw [ha]; exact hp
      have h2 : a.first = w1 := by rw [ha]; exact hf
      simp only [h1, h2] at hy
      have hlen : ∀ x ∈ NX.hashInputs Q (NX.h0 Q) (NX.parts prologue w1 a.second), x.length ≤ M := by
        intro x hx
        have : x.length ≤ 32 + (M - 32) := by
          refine hashInputs_length Q _ (fun d hd => ?_) _ x hx
          simp only [NX.parts, List.mem_cons, List.not_mem_nil, or_false] at hd
          rcases hd with rfl | rfl | rfl | rfl | rfl | rfl <;> (try simp only [List.length_take, List.length_drop]) <;> omega
        omega
      have hname : ∀ z, Logged L z → z ≠ nameBytes → Q.hash z ≠ h0 := by
        intro z hz hn
        obtain ⟨lz, hz⟩ := hz.resolve_left hn
        rw [hash_short P H hQ lz.1]
        exact F.start _ hz
      have hx' := r2 x hx (hlen x hx)
      have hy' := r2 y hy (hlen y hy)
      refine hne ?_
      have name : Q.hash nameBytes = h0 := hh
      by_cases nx : x = nameBytes <;> by_cases ny : y = nameBytes
      · rw [nx, ny]
      · rw [nx, name] at hxy
        exact absurd hxy.symm (hname y hy' ny)
      · rw [ny, name] at hxy
        exact absurd hxy (hname x hx' nx)
      · obtain ⟨lx, hx'⟩ := hx'.resolve_left nx
        obtain ⟨ly, hy'⟩ := hy'.resolve_left ny
        rw [hash_short P H hQ lx.1, hash_short P H hQ ly.1] at hxy
        exact congrArg Subtype.val (F.hash _ _ hx' hy' hxy)
  unfold Broken
  simp only [hplay]
  refine ⟨i2, out, Q.publicOf sR, by rw [hmid]; exact hrecv, by rw [hi2]; rfl, hcare, ?_⟩
  rintro ⟨s, hs', -, hpriv⟩
  obtain rfl := List.mem_singleton.mp hs'
  rw [asker_forger] at hpriv
  refine hgen (hpriv ⟨fun e he' => ?_, fun k hk => ?_⟩)
  · obtain rfl := Nat.le_zero.mp he'
    rw [hi2]
    exact fun e => absurd (d23 e) (by decide)
  · have n1 : k ≠ (NX.transportKeys Q ee es).1 ∧ k ≠ (NX.transportKeys Q ee es).2 := by
      rcases List.mem_append.mp hk with hk | hk
      · have hk : k ∈ a.keys Q sR := by
          unfold Played.used at hk
          simp only [List.flatMap_cons, List.flatMap_nil, List.append_nil, List.nil_append, hs] at hk
          exact hk
        rw [hused] at hk
        rcases List.mem_cons.mp hk with rfl | hk
        · exact ⟨fun e => absurd (d02 e) (by decide), fun e => absurd (d03 e) (by decide)⟩
        · obtain rfl := List.mem_singleton.mp hk
          exact ⟨fun e => absurd (d12 e) (by decide), fun e => absurd (d13 e) (by decide)⟩
      · exact ⟨fun e => q2 k (t3 k hk) e.symm, fun e => q3 k (t3 k hk) e.symm⟩
    rw [hi2]
    rintro (h | ⟨e, he', h⟩)
    · exact n1.2 h
    · obtain rfl := Nat.le_zero.mp he'
      exact n1.1 h.symm

end

/-- The hashes and blocks under which something happens by chance are few. -/
theorem few_by_chance {M : Nat} (hM : 97 ≤ M) (far : Bytes → Arr 32) (ee es : Arr 32) (c : Serving)
    (watcher : Bytes → Bytes → Watcher) (rounds m : Nat) (hm : ∀ a b past, (watcher a b past).Within M m) :
    2 ^ 256 * Nat.card {x : Hashes M × Blocks // ¬ Fine (shape hM (nameOf hM x.1) ee es)
      (((intrudeJob P far (nameOf hM x.1) c watcher rounds).guard (shape hM (nameOf hM x.1) ee es).A).log
        (world hM x.1 x.2 (nameOf hM x.1) ee es)) (cut x.1)} ≤
      2 ^ 9 * (rounds * m + 7) ^ 2 * Nat.card (Hashes M × Blocks) := by
  let bad : Arr 32 → (Ask M → Arr 32) × (Arr 32 → KeyRow) → Prop := fun h y =>
    ¬ Fine (shape hM h ee es) (((intrudeJob P far h c watcher rounds).guard (shape hM h ee es).A).log
      (real (shape hM h ee es) y.1 y.2)) y.1
  let e : Hashes M × Blocks ≃ Arr 32 × ((Ask M → Arr 32) × (Arr 32 → KeyRow)) :=
    ((splitName hM).prodCongr (Equiv.curry (Arr 32) (Arr 12 × Fin 1025) (Arr 64))).trans (Equiv.prodAssoc _ _ _)
  have e' : {x : Hashes M × Blocks // ¬ Fine (shape hM (nameOf hM x.1) ee es)
      (((intrudeJob P far (nameOf hM x.1) c watcher rounds).guard (shape hM (nameOf hM x.1) ee es).A).log
        (world hM x.1 x.2 (nameOf hM x.1) ee es)) (cut x.1)} ≃
      {x : Arr 32 × ((Ask M → Arr 32) × (Arr 32 → KeyRow)) // bad x.1 x.2} := e.subtypeEquiv fun x => Iff.rfl
  rw [Nat.card_congr e, Nat.card_congr e']
  refine card_prod_le _ _ bad fun h => ?_
  have : Nonempty (Arr 32) := ⟨NX.zeros⟩
  have : Nonempty KeyRow := ⟨fun _ => Arr.replicate 64 0⟩
  have b := Long.few_by_chance (shape hM h ee es) ((intrudeJob P far h c watcher rounds).guard (shape hM h ee es).A)
    (rounds * m + 7)
    (fun w => ((intrudeJob P far h c watcher rounds).guard_prefix _ w).length_le.trans
      (intrudeJob_calls P far h c watcher rounds m hm w))
    fun w p => Prog.guard_never _ w _ p
  rw [Crypto.Poly1305.card_keys] at b
  exact b.trans (Nat.mul_le_mul_right _ (Nat.mul_le_mul_right _ (by decide)))

end SV2.Noise.Distant

namespace SV2.Stack
open Noise SV2.Long

variable (P : Prims) (rest : Arr 32 → Arr 12 → Nat → UInt8)

/-- A client and a server do a handshake, and nobody changes their two messages.  An attacker - which may depend on all
secrets, the server's static secret among them, and sees the two messages - then is the network between the two: for `rounds`
steps it has one of the two send a frame or delivers something to it, after at most `m` hashes and blocks of ChaCha20 each
time, with at most `q` deliveries and no rekeying.  It does not see the keys of the sessions.  For all but a share of
`(q + 1) / 2^91` and `(rounds * m + 7)^2 / 2^247` of the hash and block functions: what each of the two reads is the beginning
of the frames that the other one sent - or the shared secret of the two ephemeral keys was hashed by somebody, other than for
keys. -/
theorem C109_intruder (hD : DhLaws P) (far : Bytes → Arr 32) (M : Nat) (hM : 65567 ≤ M) (prologue : Bytes)
    (hp : prologue.length + 32 ≤ M) (kp : Keypair) (eI : Arr 32) (buf1 : Bytes) (sR eR : Arr 32) (buf2 : Bytes)
    (watcher : Bytes → Bytes → Watcher) (m : Nat) (hm : ∀ a b past, (watcher a b past).Within M m)
    (hb : ∀ a b past, (watcher a b past).Alone) (q : Nat)
    (hq : ∀ a b hash blocks, ((watcher a b).forger (P.withHash hash) rest blocks).AtMost q)
    (hE : ∀ a b hash blocks, ((watcher a b).forger (P.withHash hash) rest blocks).Rekeys 0) (rounds : Nat) :
    2 ^ 256 * Nat.card {x : Hashes M × Blocks //
      Intruded P rest x.2 far prologue kp eI buf1 sR eR buf2 watcher rounds x.1} ≤
      (2 ^ 165 * (q + 1) + 2 ^ 9 * (rounds * m + 7) ^ 2) * Nat.card (Hashes M × Blocks) := by
  by_cases hbuf : 32 ≤ buf1.length ∧ buf1.length ≤ 65535
  swap
  · have : IsEmpty {x : Hashes M × Blocks //
        Intruded P rest x.2 far prologue kp eI buf1 sR eR buf2 watcher rounds x.1} := by
      refine ⟨fun x => hbuf ?_⟩
      obtain ⟨_, i1, first, h1, -⟩ := x
      obtain ⟨-, -, h2, h3, -⟩ := send_first_ok h1
      exact ⟨h2, h3⟩
    rw [Nat.card_of_isEmpty, Nat.mul_zero]
    exact Nat.zero_le _
  have hM' : 97 ≤ M := by omega
  obtain ⟨w1, hw⟩ : ∃ w1, w1 = (P.publicOf eI).toList ++ buf1.drop 32 := ⟨_, rfl⟩
  obtain ⟨c, hc⟩ : ∃ c : Serving, c = ⟨prologue, sR, eR, w1, buf2⟩ := ⟨_, rfl⟩
  have b1 := Distant.few_by_chance P hM' far (P.dh eI (P.publicOf eR)) (P.dh eI (P.publicOf sR)) c watcher rounds m hm
  let i1 : Hashes M → NoiseSession := fun H => mid (P.withHash (H.at far)) true prologue kp
    (Keypair.default (P.withHash (H.at far)) eI) EMPTY (P.publicOf eI).toList (buf1.drop 32)
  have hsend : ∀ H : Hashes M, (NoiseSession.initSession (P.withHash (H.at far)) true prologue kp).sendMessage
      (P.withHash (H.at far)) (Keypair.default (P.withHash (H.at far)) eI) buf1 = (.ok (), i1 H, w1) := by
    intro H
    rw [hw]
    exact send_first true prologue kp (Keypair.default (P.withHash (H.at far)) eI) buf1 hbuf.1 hbuf.2
  have b2 := card_prod_le (A := Hashes M) (B := Blocks) (2 ^ 91) (q + 1) (fun H blocks => Broken (P.withHash (H.at far)) rest blocks
    prologue eI (i1 H) w1 (Distant.passing c) (fun p => Veiled.asker (watcher w1 p.result) (P.withHash (H.at far))) 0
    rounds) fun H => by
      refine C96_channel (P.withHash (H.at far)) rest ⟨hD.comm, hD.public_ok⟩ prologue kp eI buf1 w1 (i1 H) (hsend H) _
        (fun p => Veiled.asker (watcher w1 p.result) (P.withHash (H.at far))) 0 q ?_ ?_ rounds
      · intro p blocks
        rw [Veiled.asker_forger]
        exact hq _ _ _ blocks
      · intro p blocks
        rw [Veiled.asker_forger]
        exact hE _ _ _ blocks
  refine (Nat.mul_le_mul_left _ (card_imp_or (q := fun x : Hashes M × Blocks => ¬ Fine (Distant.shape hM' (Veiled.nameOf hM' x.1)
      (P.dh eI (P.publicOf eR)) (P.dh eI (P.publicOf sR)))
      (((Distant.intrudeJob P far (Veiled.nameOf hM' x.1) c watcher rounds).guard (Distant.shape hM' (Veiled.nameOf hM' x.1)
        (P.dh eI (P.publicOf eR)) (P.dh eI (P.publicOf sR))).A).log
        (Distant.world hM' x.1 x.2 (Veiled.nameOf hM' x.1) (P.dh eI (P.publicOf eR)) (P.dh eI (P.publicOf sR)))) (Veiled.cut x.1))
      (r := fun x : Hashes M × Blocks => Broken (P.withHash (x.1.at far)) rest x.2
        prologue eI (i1 x.1) w1 (Distant.passing c) (fun p => Veiled.asker (watcher w1 p.result) (P.withHash (x.1.at far))) 0 rounds)
      ?_)).trans ?_
  · rintro ⟨H, blocks⟩ h
    by_cases F : Fine (Distant.shape hM' (Veiled.nameOf hM' H) (P.dh eI (P.publicOf eR)) (P.dh eI (P.publicOf sR)))
      (((Distant.intrudeJob P far (Veiled.nameOf hM' H) c watcher rounds).guard (Distant.shape hM' (Veiled.nameOf hM' H)
        (P.dh eI (P.publicOf eR)) (P.dh eI (P.publicOf sR))).A).log
        (Distant.world hM' H blocks (Veiled.nameOf hM' H) (P.dh eI (P.publicOf eR)) (P.dh eI (P.publicOf sR)))) (Veiled.cut H)
    · exact .inr (Distant.intruded_broken P rest hM' hM hp hb rfl (Veiled.name_hash P hM' far H) (fun a b => hE a b _ blocks)
        ⟨hD.comm, hD.public_ok⟩ (hsend H) hc rfl rfl F h)
    · exact .inl F
  rw [Nat.mul_add, Nat.add_mul, Nat.add_comm]
  refine Nat.add_le_add ?_ b1
  have := Nat.mul_le_mul_left (2 ^ 165) b2
  rw [← Nat.mul_assoc, ← Nat.mul_assoc] at this
  exact this

/-! ## A first message that is used again -/

namespace SNet

/-- Another session in the place of the initiator. -/
def withI (i : NoiseSession) (n : SNet) : SNet := { n with rnet := { n.rnet with net := { n.rnet.net with i := i } } }

theorem step_withI (Q : Prims) (i : NoiseSession) (n : SNet) {act : StackAct}
    (h : ∀ secret f room wire, act ≠ .iSend secret f room ∧ act ≠ .toI wire) :
    (n.withI i).step Q (.stack act) = (n.step Q (.stack act)).withI i ∧ (n.step Q (.stack act)).framesI = n.framesI := by
  cases act with
  | iSend secret f room => exact absurd rfl (h secret f room []).1
  | toI wire => exact absurd rfl (h EMPTY sampleFrame (Arr.replicate 16 0) wire).2
  | rSend secret f room =>
    refine ⟨rfl, if_neg ?_⟩
    exact Nat.lt_irrefl _
  | toR wire =>
    refine ⟨rfl, if_neg ?_⟩
    exact Nat.lt_irrefl _

end SNet

/-- An attacker that takes this session for the initiator's. -/
def taken (i0 : NoiseSession) (watcher : Watcher) : Watcher := fun past => watcher (past.map (SNet.withI i0.seen))

theorem taken_forger (i0 : NoiseSession) (watcher : Watcher) (Q : Prims) (blocks : Blocks) (past : List SNet) :
    (taken i0 watcher).forger Q rest blocks past = watcher.forger Q rest blocks (past.map (SNet.withI i0)) := by
  unfold Watcher.forger taken
  rw [List.map_map, List.map_map]
  rfl

theorem attacked_taken (i0 i : NoiseSession) (watcher : Watcher) (Q Q' : Prims) (blocks : Blocks)
    (hl : (watcher.forger Q rest blocks).Lonely) (start : SNet) (j : Nat) :
    SNet.attacked Q' ((taken i0 watcher).forger Q rest blocks) (start.withI i) j =
      ((SNet.attacked Q' (watcher.forger Q rest blocks) (start.withI i0) j).1.withI i,
        (SNet.attacked Q' (watcher.forger Q rest blocks) (start.withI i0) j).2.map (SNet.withI i)) ∧
    (∃ n : SNet, (SNet.attacked Q' (watcher.forger Q rest blocks) (start.withI i0) j).1 = n.withI i0) ∧
    (∀ n ∈ (SNet.attacked Q' (watcher.forger Q rest blocks) (start.withI i0) j).2, n = n.withI i0) ∧
    (SNet.attacked Q' (watcher.forger Q rest blocks) (start.withI i0) j).1.framesI = start.framesI := by
  induction j with
  | zero => exact ⟨rfl, ⟨start, rfl⟩, fun n hn => (List.not_mem_nil hn).elim, rfl⟩
  | succ j ih =>
    obtain ⟨e1, ⟨n, e2⟩, e3, e4⟩ := ih
    unfold SNet.attacked
    rw [e1]
    generalize SNet.attacked Q' (watcher.forger Q rest blocks) (start.withI i0) j = h at *
    have back : (h.1.withI i :: h.2.map (SNet.withI i)).map (SNet.withI i0) = h.1 :: h.2 := by
      rw [List.map_cons, List.map_map]
      congr 1
      · rw [e2]
        rfl
      · exact (List.map_congr_left (g := id) (fun n hn => (e3 n hn).symm)).trans (List.map_id _)
    obtain ⟨act, ha, hact⟩ := hl (h.1 :: h.2)
    simp only [taken_forger, back, ha]
    refine ⟨?_, ?_, ?_, ?_⟩
    · rw [(SNet.step_withI Q' i h.1 hact).1]
      rfl
    · rw [e2]
      exact ⟨_, (SNet.step_withI Q' i0 n hact).1⟩
    · intro n' hn'
      rcases List.mem_cons.mp hn' with rfl | hn'
      · rw [e2]
        rfl
      · exact e3 n' hn'
    · exact (SNet.step_withI Q' i h.1 hact).2.trans e4

theorem heard_taken (i0 i : NoiseSession) (watcher : Watcher) (Q : Prims) (blocks : Blocks)
    (hl : (watcher.forger Q rest blocks).Lonely) (start : SNet) (j : Nat) :
    (taken i0 watcher).heard Q rest blocks (start.withI i) j = watcher.heard Q rest blocks (start.withI i0) j := by
  induction j with
  | zero => rfl
  | succ j ih =>
    obtain ⟨e1, ⟨n, e2⟩, e3, -⟩ := attacked_taken rest i0 i watcher Q (Q.withBlocks rest blocks) blocks hl start j
    unfold Watcher.heard
    rw [ih, e1]
    generalize SNet.attacked (Q.withBlocks rest blocks) (watcher.forger Q rest blocks) (start.withI i0) j = h at *
    have back : (h.1.withI i :: h.2.map (SNet.withI i)).map (SNet.withI i0) = h.1 :: h.2 := by
      rw [List.map_cons, List.map_map]
      congr 1
      · rw [e2]
        rfl
      · exact (List.map_congr_left (g := id) (fun n hn => (e3 n hn).symm)).trans (List.map_id _)
    have : taken i0 watcher ((h.1.withI i :: h.2.map (SNet.withI i)).map SNet.seen) = watcher ((h.1 :: h.2).map SNet.seen) := by
      rw [← back]
      unfold taken
      rw [List.map_map, List.map_map]
      rfl
    simp only [this]

/-- Somebody gives a server a message with the public key of `eI` - it can be a copy of what a client sent before - and the
server answers.  The attacker - which may depend on all secrets, the server's static secret among them, and sees the answer -
then goes on alone with the server: for `rounds` steps it has the server send a frame or delivers something to it, after
at most `m` hashes and blocks of ChaCha20 each time, with at most `q` deliveries.  It does not see the keys of the session.
For all but a share of `(q + 1) / 2^91` and `(rounds * m + 7)^2 / 2^247` of the hash and block functions, the server accepts
nothing - or the shared secret of the two ephemeral keys was hashed by somebody, other than for keys.  (The server's message is
not longer than what a client takes.) -/
theorem C109_replay (hD : DhLaws P) (far : Bytes → Arr 32) (M : Nat) (hM : 65567 ≤ M) (prologue : Bytes)
    (hp : prologue.length + 32 ≤ M) (i0 : NoiseSession) (first : Bytes) (eI : Arr 32) (hf : first.take 32 = (P.publicOf eI).toList)
    (sR eR : Arr 32) (buf2 : Bytes) (hl : buf2.length ≤ 2128)
    (watcher : Bytes → Watcher) (m : Nat) (hm : ∀ a past, (watcher a past).Within M m)
    (hb : ∀ a past, (watcher a past).Alone) (q : Nat)
    (hq : ∀ a hash blocks, ((watcher a).forger (P.withHash hash) rest blocks).AtMost q)
    (hE : ∀ a hash blocks, ((watcher a).forger (P.withHash hash) rest blocks).Lonely) (rounds : Nat) :
    2 ^ 256 * Nat.card {x : Hashes M × Blocks //
      Replayed P rest x.2 far i0 prologue first eI sR eR buf2 watcher rounds x.1} ≤
      (2 ^ 165 * (q + 1) + 2 ^ 9 * (rounds * m + 7) ^ 2) * Nat.card (Hashes M × Blocks) := by
  have b := C109_intruder P rest hD far M hM prologue hp (Keypair.default P eI) eI first sR eR buf2
    (fun _ second => taken i0 (watcher second)) m (fun _ _ _ => hm _ _) (fun _ _ _ => hb _ _) q
    (fun _ second hash blocks n past w h => by
      rw [taken_forger]
      exact hq second hash blocks (n.withI i0) (past.map (SNet.withI i0)) w h)
    (fun _ second hash blocks n past remote => by
      rw [taken_forger]
      obtain ⟨act, e, -⟩ := hE second hash blocks ((n :: past).map (SNet.withI i0))
      rw [e]
      constructor <;> intro _ h <;> cases h) rounds
  refine (Nat.mul_le_mul_left _ ?_).trans b
  refine Nat.card_le_card_of_injective (fun x => ⟨x.1, ?_⟩) fun a b h => Subtype.ext (congrArg (fun z => z.1) h)
  obtain ⟨⟨H, blocks⟩, a, hans, htold, d, hd, hok⟩ := x
  show Intruded P rest blocks far prologue (Keypair.default P eI) eI first sR eR buf2 _ rounds H
  unfold Intruded
  simp only at htold hd hans
  have hlaws : DhLaws ((P.withHash (H.at far)).withBlocks rest blocks) := ⟨hD.comm, hD.public_ok⟩
  have hA := withMac_correct (P.withHash (H.at far)) (blocks.stream rest) blocks.oneTime
  have hf : first.take 32 = ((P.withHash (H.at far)).publicOf eI).toList := hf
  have hone := hE a.second (H.at far) blocks
  generalize P.withHash (H.at far) = Q at *
  obtain ⟨ok, ha⟩ := (Serving.answer_iff (P := Q.withBlocks rest blocks) _ _).mp hans
  have hlen := ok.first
  have hbuf := ok.buf
  simp only at hlen hbuf
  have hal : a.second.length ≤ 2128 := by
    rw [ha]
    show (_ ++ _ ++ _ : Bytes).length ≤ 2128
    rw [List.length_append, List.length_append, Arr.len, Serving.encS_length, Serving.encP_length]
    simp only [body, List.length_take, List.length_drop]
    omega
  obtain ⟨⟨out, hrecv⟩, -⟩ := Serving.completes (P := Q.withBlocks rest blocks) (s := Keypair.default P eI) (eI := eI)
    (prologue := prologue) (first := first) (second := a.second) hlaws hA hans hf (by rw [ha]; rfl) (by rw [ha]; rfl) rfl hal
  have hsend := send_first (P := Q) true prologue (Keypair.default P eI) (Keypair.default Q eI) first (by omega) hlen.2
  have e : (Keypair.default Q eI).public_key.toList ++ first.drop 32 = first := by
    show (Q.publicOf eI).toList ++ first.drop 32 = first
    rw [← hf, List.take_append_drop]
  have e' : (Keypair.default Q eI).public_key.toList = first.take 32 := hf.symm
  rw [e, e'] at hsend
  refine ⟨_, first, hsend, a, hans, _, out, hrecv, ?_, fun g => ?_⟩
  · have := heard_taken rest i0 (done true (Q.publicOf sR) (NX.transcript Q (NX.parts prologue first a.second))
      (NX.transportKeys Q (Q.dh eI (keyIn a.second)) (Q.dh eI (Q.publicOf sR))) 1) (watcher a.second) Q blocks hone
      { rnet := { net := { i := i0, r := a.session } } } rounds
    intro hx
    refine htold ?_
    rcases List.mem_append.mp hx with hx | hx
    · exact List.mem_append_left _ hx
    · refine List.mem_append_right _ ?_
      exact this ▸ hx
  · obtain ⟨t1, -, -, t4⟩ := attacked_taken rest i0 (done true (Q.publicOf sR) (NX.transcript Q (NX.parts prologue first a.second))
      (NX.transportKeys Q (Q.dh eI (keyIn a.second)) (Q.dh eI (Q.publicOf sR))) 1) (watcher a.second) Q (Q.withBlocks rest blocks)
      blocks hone { rnet := { net := { i := i0, r := a.session } } } rounds
    have g : Stack.read (SNet.attacked (Q.withBlocks rest blocks) ((watcher a.second).forger Q rest blocks)
      { rnet := { net := { i := i0, r := a.session } } } rounds).1.rnet.net.gotR <+:
      (SNet.attacked (Q.withBlocks rest blocks) ((watcher a.second).forger Q rest blocks)
      { rnet := { net := { i := i0, r := a.session } } } rounds).1.framesI.map .ok := by
      have e := congrArg Prod.fst t1
      exact (congrArg (fun n : SNet => Stack.read n.rnet.net.gotR <+: n.framesI.map .ok) e) ▸ g.toR
    have t4 : (SNet.attacked (Q.withBlocks rest blocks) ((watcher a.second).forger Q rest blocks)
      { rnet := { net := { i := i0, r := a.session } } } rounds).1.framesI = [] := t4
    rw [t4, List.map_nil, List.prefix_nil] at g
    unfold Stack.read at g
    rw [List.map_eq_nil_iff, List.filter_eq_nil_iff] at g
    refine g d hd ?_
    rw [hok]
    rfl

/-! ## The condition on the hashes is needed -/

seal Curious.Alone in
theorem keyed_alone (ee es : Arr 32) (f : Message) : (keyed P rest ee es f).Alone :=
  Distant.Alone.bind (Distant.hashed_alone _) fun _ => Distant.Alone.bind (Distant.hkdf_alone _ _) fun _ =>
    Distant.Alone.bind (Distant.hkdf_alone _ _) fun _ => Distant.Alone.bind (Distant.hkdf_alone _ _) fun _ =>
      Distant.Alone.bind (Distant.learn_alone _) fun _ => by unfold Curious.Alone; trivial

theorem reply_alone {α : Type} (a : α) : (Curious.reply a).Alone := trivial

theorem keyed_hashed_ee (blocks : Blocks) (ee es : Arr 32) (f : Message) :
    innerInput (NX.h0 P) ee ∈ ((keyed P rest ee es f).play P rest blocks).hashed :=
  Curious.hashed_right (Curious.hashed_gives blocks _).1 (Curious.hashed_left (Curious.hkdf_hashed blocks _ _))

seal Curious.Within Curious.Alone keyed in
theorem holder_alone (ee es : Arr 32) (f : Message) (past : List SNet) : (holder P rest ee es f past).Alone := by
  have ka : (keyed P rest ee es f).Alone := keyed_alone P rest ee es f
  rcases holder_two P rest ee es f past with e | e <;> rw [e]
  · exact ka
  · exact reply_alone _

theorem holder_hashed_ee (hash : Bytes → Arr 32) (blocks : Blocks) (ee es : Arr 32) (f : Message) (i r : NoiseSession) :
    innerInput (NX.h0 (P.withHash hash)) ee ∈
      (holder P rest ee es f).heard (P.withHash hash) rest blocks { rnet := { net := { i := i, r := r } } } 1 := by
  have hw := holder_first P rest hash ee es f i r
  generalize P.withHash hash = Q at *
  rw [heard_one, hw]
  exact List.mem_append_left _ (keyed_hashed_ee Q rest blocks ee es f)

seal keyed holder Watcher.heard SNet.attacked in
/-- The condition on the hashes is needed: for any two shared secrets and any frame there is an attacker on the network that
asks for some hashes - one of them of the shared secret of the ephemeral keys - and blocks, does not see the keys, makes one
delivery, and has the responder of a handshake with these shared secrets read the frame though the initiator sent nothing,
whatever the hash and the block function are.  (The session key is not zero.) -/
theorem C109_informed (far : Bytes → Arr 32) (M : Nat) (ee es : Arr 32) (f : Message) (hf : f.payload.length ≤ 65513) :
    ∃ watcher : Watcher, (∀ past, (watcher past).Within M 1044 ∧ (watcher past).Alone) ∧
      (∀ hash blocks, (watcher.forger (P.withHash hash) rest blocks).AtMost 1 ∧
        (watcher.forger (P.withHash hash) rest blocks).Rekeys 0) ∧
      ∀ (H : Hashes M) (blocks : Blocks) (i r : NoiseSession),
        let Q := P.withHash (H.at far)
        Agreed i r (NX.transportKeys Q ee es) → (NX.transportKeys Q ee es).1 ≠ EMPTY →
        let start : SNet := { rnet := { net := { i := i, r := r } } }
        let n := (SNet.attacked (Q.withBlocks rest blocks) (watcher.forger Q rest blocks) start 1).1
        innerInput (NX.h0 Q) ee ∈ watcher.heard Q rest blocks start 1 ∧
        Stack.read n.rnet.net.gotR = [.ok f] ∧ n.framesI = [] ∧ ¬ n.Genuine := by
  refine ⟨holder P rest ee es f, fun past => ⟨(holder_ok P rest M ee es f past).1, holder_alone P rest ee es f past⟩,
    fun hash blocks => ⟨holder_atMost P rest hash blocks ee es f, holder_rekeys P rest hash blocks ee es f⟩,
    fun H blocks i r => ?_⟩
  have hr := holder_reads P rest (H.at far) blocks ee es f hf i r
  have hh := holder_hashed_ee P rest (H.at far) blocks ee es f i r
  intro Q h hk
  exact ⟨hh, (hr h hk).2⟩

/-! ## Cases -/

/-- An attacker that has client and server send frames, passes them on after some hashes and blocks, and then delivers a
changed frame to the server. -/
def lurker : Watcher := fun past =>
  match past with
  | [] => .reply (.stack (.iSend EMPTY sampleFrame (Arr.replicate 16 0)))
  | n :: past =>
    if 3 ≤ n.rnet.net.gotR.length + n.rnet.net.gotI.length then .reply (.stack (.iSend EMPTY sampleFrame (Arr.replicate 16 0)))
    else
      let wireI := fun j => (n.rnet.net.sentI.map (·.2)).getD j []
      let wireR := fun j => (n.rnet.net.sentR.map (·.2)).getD j []
      match past.length with
      | 0 => .reply (.stack (.iSend EMPTY sampleFrame (Arr.replicate 16 0)))
      | 1 => .hash (List.replicate 96 1) fun _ => .block (Arr.replicate 32 2, NX.nonce 0, 0) fun _ => .reply (.stack (.toR (wireI 0)))
      | 2 => .reply (.stack (.rSend EMPTY ⟨.setupConnectionSuccess, [2, 0, 1, 0, 0, 0]⟩ (Arr.replicate 16 0)))
      | 3 => .reply (.stack (.toI (wireR 0)))
      | 4 => .reply (.stack (.iSend EMPTY sampleFrame (Arr.replicate 16 0)))
      | _ => .reply (.stack (.toR ((wireI 1).set 0 0)))

example : ∀ past, (lurker past).Within 65567 2 ∧ (lurker past).Alone := by
  intro past
  match past with
  | [] => exact ⟨trivial, trivial⟩
  | n :: past =>
    unfold lurker
    simp only []
    split
    · exact ⟨trivial, trivial⟩
    · split
      · exact ⟨trivial, trivial⟩
      · exact ⟨fun _ _ => trivial, fun _ _ => trivial⟩
      · exact ⟨trivial, trivial⟩
      · exact ⟨trivial, trivial⟩
      · exact ⟨trivial, trivial⟩
      · exact ⟨trivial, trivial⟩

example : ∀ hash blocks, (lurker.forger (toyPrims.withHash hash) (fun _ _ _ => 7) blocks).AtMost 3 ∧
    (lurker.forger (toyPrims.withHash hash) (fun _ _ _ => 7) blocks).Rekeys 0 := by
  intro hash blocks
  constructor
  · intro n past w h
    have : lurker.forger (toyPrims.withHash hash) (fun _ _ _ => 7) blocks (n :: past) =
        .stack (.iSend EMPTY sampleFrame (Arr.replicate 16 0)) := by
      unfold Watcher.forger
      have : lurker ((n :: past).map SNet.seen) = .reply (.stack (.iSend EMPTY sampleFrame (Arr.replicate 16 0))) := if_pos h
      rw [this]
      rfl
    rw [this]
    constructor <;> intro h <;> cases h
  · intro n past remote
    unfold Watcher.forger lurker
    simp only [List.map_cons]
    constructor <;> intro h e <;> split at e
    · cases e
    · split at e <;> cases e
    · cases e
    · split at e <;> cases e

/-- The handshake succeeds, the two read each other's frames, and not the changed one; nobody hashed the shared secret of the
ephemeral keys other than for keys. -/
example : let rest := fun _ _ _ => 7
    let m := firstOf (Arr.replicate 32 3)
    let Q := toyPrims.withBlocks rest toyBlocks
    let a := (Serving.mk [1, 2] (Arr.replicate 32 5) (Arr.replicate 32 4) m.2.2 (List.replicate 100 8)).answer Q
    let c := m.2.1.recvMessage Q ((a.map (·.second)).getD [])
    let start : SNet := { rnet := { net := { i := c.2.1, r := (a.map (·.session)).getD toyR } } }
    let n := (SNet.attacked Q (lurker.forger toyPrims rest toyBlocks) start 6).1
    m.1 = .ok () ∧ a.isSome ∧ c.1 = .ok () ∧
    n.rnet.net.gotR.map (·.2.1) = [.ok (), .err .decryptionError] ∧
    Stack.read n.rnet.net.gotR = [.ok sampleFrame] ∧ n.framesI = [sampleFrame, sampleFrame] ∧
    Stack.read n.rnet.net.gotI = [.ok ⟨.setupConnectionSuccess, [2, 0, 1, 0, 0, 0]⟩] ∧
    ∀ x ∈ NX.hashInputs toyPrims (NX.h0 toyPrims) (NX.parts [1, 2] m.2.2 ((a.map (·.second)).getD [])) ++
        lurker.heard toyPrims rest toyBlocks start 6,
      x ≠ innerInput (NX.h0 toyPrims) (toyPrims.dh (Arr.replicate 32 3) (toyPrims.publicOf (Arr.replicate 32 4))) := by
  decide +kernel

/-- An attacker that has the server send a frame, and delivers to the server what it sent, and something else. -/
def echoer : Watcher := fun past =>
  match past with
  | [] => .reply (.stack (.rSend EMPTY sampleFrame (Arr.replicate 16 0)))
  | n :: past =>
    if 2 ≤ n.rnet.net.gotR.length + n.rnet.net.gotI.length then .reply (.stack (.rSend EMPTY sampleFrame (Arr.replicate 16 0)))
    else
      match past.length with
      | 0 => .reply (.stack (.rSend EMPTY sampleFrame (Arr.replicate 16 0)))
      | 1 => .reply (.stack (.toR ((n.rnet.net.sentR.map (·.2)).getD 0 [])))
      | _ => .hash (List.replicate 96 1) fun y => .reply (.stack (.toR y.toList))

theorem echoer_act (Q : Prims) (blocks : Blocks) (past : List SNet) :
    echoer.forger Q rest blocks past = .stack (.rSend EMPTY sampleFrame (Arr.replicate 16 0)) ∨
    (∃ w, echoer.forger Q rest blocks past = .stack (.toR w)) ∧
      ∀ n past', past = n :: past' → n.rnet.net.gotR.length + n.rnet.net.gotI.length < 2 := by
  match past with
  | [] => exact .inl rfl
  | n :: past =>
    unfold Watcher.forger echoer
    simp only [List.map_cons]
    split
    · exact .inl rfl
    · next h =>
      split
      · exact .inl rfl
      · refine .inr ⟨⟨_, rfl⟩, ?_⟩
        rintro _ _ e
        cases e
        exact Nat.lt_of_not_le h
      · refine .inr ⟨⟨_, rfl⟩, ?_⟩
        rintro _ _ e
        cases e
        exact Nat.lt_of_not_le h

example : ∀ hash blocks, (echoer.forger (toyPrims.withHash hash) (fun _ _ _ => 7) blocks).AtMost 2 ∧
    (echoer.forger (toyPrims.withHash hash) (fun _ _ _ => 7) blocks).Lonely := by
  refine fun hash blocks => ⟨fun n past w h => ?_, fun past => ?_⟩
  · rcases echoer_act (fun _ _ _ => 7) (toyPrims.withHash hash) blocks (n :: past) with e | ⟨-, e⟩
    · rw [e]
      constructor <;> intro h <;> cases h
    · exact absurd h (Nat.not_le.mpr (e n past rfl))
  · rcases echoer_act (fun _ _ _ => 7) (toyPrims.withHash hash) blocks past with e | ⟨⟨w, e⟩, -⟩
    · exact ⟨_, e, fun _ _ _ _ => by constructor <;> intro h <;> cases h⟩
    · exact ⟨_, e, fun _ _ _ _ => by constructor <;> intro h <;> cases h⟩

example : ∀ past, (echoer past).Within 65567 2 ∧ (echoer past).Alone := by
  intro past
  match past with
  | [] => exact ⟨trivial, trivial⟩
  | n :: past =>
    unfold echoer
    simp only []
    split
    · exact ⟨trivial, trivial⟩
    · split
      · exact ⟨trivial, trivial⟩
      · exact ⟨trivial, trivial⟩
      · exact ⟨fun _ => trivial, fun _ => trivial⟩

/-- The server answers a first message that is used again, and refuses what is delivered afterwards. -/
example : let rest := fun _ _ _ => 7
    let m := firstOf (Arr.replicate 32 3)
    let Q := toyPrims.withBlocks rest toyBlocks
    let a := (Serving.mk [1, 2] (Arr.replicate 32 5) (Arr.replicate 32 6) m.2.2 (List.replicate 100 8)).answer Q
    let start : SNet := { rnet := { net := { i := toyR, r := (a.map (·.session)).getD toyR } } }
    let n := (SNet.attacked Q (echoer.forger toyPrims rest toyBlocks) start 4).1
    m.2.2.take 32 = (toyPrims.publicOf (Arr.replicate 32 3)).toList ∧ a.isSome ∧ (List.replicate 100 (8 : UInt8)).length ≤ 2128 ∧
    n.rnet.net.gotR.map (·.2.1) = [.err .decryptionError, .err .decryptionError] ∧ n.framesR.length = 2 ∧
    ∀ x ∈ NX.hashInputs toyPrims (NX.h0 toyPrims) (NX.parts [1, 2] m.2.2 ((a.map (·.second)).getD [])) ++
        echoer.heard toyPrims rest toyBlocks start 4,
      x ≠ innerInput (NX.h0 toyPrims) (toyPrims.dh (Arr.replicate 32 3) (toyPrims.publicOf (Arr.replicate 32 6))) := by
  decide +kernel

end SV2.Stack
