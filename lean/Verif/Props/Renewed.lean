import Verif.Lemmas.Renewed
import Verif.Props.Intruder
/-!
# C111: who has the server's static secret cannot talk in the place of a side, also when the sides change keys

As `C109_intruder`, but the attacker has the two sides rekey when it likes.
-/

namespace SV2.Noise.Distant
open SV2.Long SV2.Stack SV2.Stack.Renewal
open SV2.Noise.Veiled (Ask ne_name length_96 cut mocks splitName name_hash nameOf hash_short afterwards asker asker_forger)

variable (P : Prims) (rest : Arr 32 → Arr 12 → Nat → UInt8)

/-- If the keys of the handshake are all different and not empty, then none of the later ones is empty, and who does not use
the first keys of the sessions uses none of these. -/
def Settled (Q : Prims) (h0 : Arr 32) (c : Serving) (ee es : Arr 32) (watcher : Bytes → Bytes → Watcher) (E rounds : Nat)
    (B : Blocks) : Prop :=
  let k := NX.transportKeys Q ee es
  let S := [(NX.afterEE Q ee).2, (NX.afterES Q ee es).2]
  let x := replied Q h0 c (fun x => B ((NX.afterEE Q ee).2, x.1, x.2)) (fun x => B ((NX.afterES Q ee es).2, x.1, x.2))
  let used := (asker (watcher c.first x.1) Q).used Q rest B (afterwards (Q.publicOf c.sR) x.2 k) rounds
  (k.1 ≠ k.2 ∧ k.1 ≠ EMPTY ∧ k.2 ≠ EMPTY ∧ k.1 ∉ S ∧ k.2 ∉ S) →
    (∀ e ≤ E, streamKey (B.stream rest) k.1 e ≠ EMPTY) ∧
      (k.1 ∈ used ∨ k.2 ∈ used ∨ Private (B.stream rest) k E (S ++ used))

theorem few_unsettled (Q : Prims) (h0 : Arr 32) (c : Serving) (ee es : Arr 32) (watcher : Bytes → Bytes → Watcher) (E rounds M m : Nat)
    (hm : ∀ a b past, (watcher a b past).Within M m) (hb : ∀ a b past, (watcher a b past).Alone)
    (hE : ∀ a b blocks, ((watcher a b).forger Q rest blocks).Rekeys E) :
    2 ^ 256 * Nat.card {B : Blocks // ¬ Settled rest Q h0 c ee es watcher E rounds B} ≤
      E * (rounds * m + E + 4) * Nat.card Blocks := by
  obtain ⟨k, hk⟩ : ∃ k, k = NX.transportKeys Q ee es := ⟨_, rfl⟩
  obtain ⟨S, hS⟩ : ∃ S, S = [(NX.afterEE Q ee).2, (NX.afterES Q ee es).2] := ⟨_, rfl⟩
  by_cases hc : k.1 ≠ k.2 ∧ k.1 ≠ EMPTY ∧ k.2 ≠ EMPTY ∧ k.1 ∉ S ∧ k.2 ∉ S
  · obtain ⟨h1, h2, h3, h4, h5⟩ := hc
    have := few_known Q rest h1 h2 h3 (fun B => replied Q h0 c (fun x => B ((NX.afterEE Q ee).2, x.1, x.2))
      (fun x => B ((NX.afterES Q ee es).2, x.1, x.2))) S (fun B B' h => by
        have g1 : ∀ x : Arr 12 × Fin 1025, B ((NX.afterEE Q ee).2, x.1, x.2) = B' ((NX.afterEE Q ee).2, x.1, x.2) :=
          fun x => h _ (by rw [hS]; exact List.mem_cons_self) x
        have g2 : ∀ x : Arr 12 × Fin 1025, B ((NX.afterES Q ee es).2, x.1, x.2) = B' ((NX.afterES Q ee es).2, x.1, x.2) :=
          fun x => h _ (by rw [hS]; exact List.mem_cons_of_mem _ List.mem_cons_self) x
        simp only [g1, g2]) h4 h5 (fun x => watcher c.first x.1) (fun x => done true (Q.publicOf c.sR) x.2 mocks 1)
      (fun x => done false EMPTY x.2 mocks 1) (fun _ => Nat.le_refl _) (fun _ => Nat.le_refl _) M m (fun _ _ => hm _ _ _)
      (fun _ _ => hb _ _ _) (fun _ blocks => hE _ _ blocks) rounds
    have hlen : S.length = 2 := by rw [hS]; rfl
    rw [hlen] at this
    have e : rounds * m + 2 + E + 2 = rounds * m + E + 4 := by omega
    rw [e] at this
    refine (Nat.mul_le_mul_left _ ?_).trans this
    refine Nat.card_le_card_of_injective (fun x => ⟨x.1, fun hx => x.2 fun _ => ?_⟩) fun a b h =>
      Subtype.ext (congrArg (fun z => z.1) h)
    rw [hk, hS] at hx
    exact hx
  · have : IsEmpty {B : Blocks // ¬ Settled rest Q h0 c ee es watcher E rounds B} :=
      ⟨fun x => x.2 fun h => absurd (by rw [hk, hS]; exact h) hc⟩
    rw [Nat.card_of_isEmpty, Nat.mul_zero]
    exact Nat.zero_le _

section
variable {M : Nat} (hM : 97 ≤ M) (hM' : 65567 ≤ M) {far : Bytes → Arr 32} {prologue : Bytes} (hpl : prologue.length + 32 ≤ M)
variable {kp : Keypair} {eI sR eR : Arr 32} {buf1 buf2 : Bytes}
variable {watcher : Bytes → Bytes → Watcher} {rounds : Nat} (hb : ∀ a b past, (watcher a b past).Alone)
variable {H : Hashes M} {blocks : Blocks} {Q : Prims} (hQ : Q = P.withHash (H.at far)) {h0 : Arr 32} (hh : NX.h0 Q = h0)
variable {E : Nat} (hE : ∀ a b, ((watcher a b).forger Q rest blocks).Rekeys E)
variable {labels : Fin (E + 2) → Arr 32} (hl : Function.Injective labels) (hl0 : ∀ a, labels a ≠ EMPTY)
variable (hlaws : DhLaws Q) {w1 : Bytes} {c : Serving} {ee es : Arr 32} {i1 : NoiseSession}
variable (hsend : (NoiseSession.initSession Q true prologue kp).sendMessage Q (Keypair.default Q eI) buf1 = (.ok (), i1, w1))
variable (hc : c = ⟨prologue, sR, eR, w1, buf2⟩)
variable (hee : ee = Q.dh eI (Q.publicOf eR)) (hes : es = Q.dh eI (Q.publicOf sR))
variable (F : Fine (shape hM h0 ee es) (((renewJob P far h0 rest c watcher E labels rounds).guard (shape hM h0 ee es).A).log
    (world hM H blocks h0 ee es)) (cut H))
variable (hset : Settled rest Q h0 c ee es watcher E rounds blocks)

include hM' hpl hb hQ hh hE hl hl0 hlaws hsend hc hee hes F hset

/-- If nothing happens by chance, who gets in between also breaks the connection in the sense of `Verif/Spec/Channel.lean`. -/
theorem renewed_broken (h : Intruded P rest blocks far prologue kp eI buf1 sR eR buf2 watcher rounds H) :
    Broken Q rest blocks prologue eI i1 w1 (passing c) (fun p => asker (watcher w1 p.result) Q) E rounds := by
  unfold Intruded at h
  rw [← hQ] at h
  obtain ⟨i1', first, g1, a, hans, i2, out, hrecv, htold, hgen⟩ := h
  rw [hsend] at g1
  simp only [Prod.mk.injEq, true_and] at g1
  obtain ⟨rfl, rfl⟩ := g1
  rw [← hc] at hans
  obtain ⟨hmid, hwt, hb1, hb2, hdr⟩ := send_first_ok hsend
  have hwl : w1.length = buf1.length := by
    have e1 := congrArg List.length hwt
    have e2 := congrArg List.length hdr
    simp only [List.length_take, List.length_drop, Arr.len] at e1 e2
    omega
  have hpubs : (Keypair.default Q eI).public_key = Q.publicOf eI := rfl
  have hkey : keyIn w1 = Q.publicOf eI := (eq_keyIn (by omega) hwt.symm).symm
  -- the keys
  have hmix : .mix () ∈ ((renewJob P far h0 rest c watcher E labels rounds).guard (shape hM h0 ee es).A).log (world hM H blocks h0 ee es) :=
    List.mem_cons_self
  obtain ⟨k0, k1, k2, k3⟩ := chain_keys (ee := ee) (es := es) hM P H hQ hh
  have z2 := F.bad () hmix 2
  have z3 := F.bad () hmix 3
  have d01 := fun e => (F.key () () hmix hmix 0 1 e).2
  have d02 := fun e => (F.key () () hmix hmix 0 2 e).2
  have d03 := fun e => (F.key () () hmix hmix 0 3 e).2
  have d12 := fun e => (F.key () () hmix hmix 1 2 e).2
  have d13 := fun e => (F.key () () hmix hmix 1 3 e).2
  have d23 := fun e => (F.key () () hmix hmix 2 3 e).2
  have hmixed : ∀ j, ((world hM H blocks h0 ee es).mix () j : KeyRow) =
      fun x => blocks ((shape hM h0 ee es).chain (cut H) () (keyAt j), x.1, x.2) := fun j => rfl
  have m0 := hmixed 0
  have m1 := hmixed 1
  have m2 := hmixed 2
  have m3 := hmixed 3
  have hrows := fun k hk => F.row () k hmix hk
  have q2 := fun k hk => hrows k hk 2
  have q3 := fun k hk => hrows k hk 3
  simp only [keyAt, k0, k1, k2, k3] at z2 z3 m0 m1 m2 m3 d01 d02 d03 d12 d13 d23 q2 q3
  -- the server
  have hs : c.sR = sR := by rw [hc]
  have he : c.eR = eR := by rw [hc]
  have hp : c.prologue = prologue := by rw [hc]
  have hf : c.first = w1 := by rw [hc]
  obtain ⟨ok, ha⟩ := (c.answer_iff (P := Q.withBlocks rest blocks) _).mp hans
  have e1 : Q.dh c.eR (keyIn c.first) = ee := by rw [he, hf, hkey, hee, hlaws.comm]
  have e2 : Q.dh c.sR (keyIn c.first) = es := by rw [hs, hf, hkey, hes, hlaws.comm]
  -- the client
  have hal : a.second.length ≤ 2128 := by
    rw [hmid] at hrecv
    obtain ⟨_, _, _, _, _, _, hl, -⟩ := recv_second_ok hrecv
    omega
  rw [hmid] at hrecv
  obtain ⟨⟨out', hrecv'⟩, hsess⟩ := Serving.completes (P := Q.withBlocks rest blocks) (s := kp) (eI := eI) (prologue := prologue)
    (first := w1) (second := a.second) ⟨hlaws.comm, hlaws.public_ok⟩ (withMac_correct Q _ _) hans
    hwt (by rw [ha]; exact hp) (by rw [ha]; exact hf) rfl hal
  have hsec : a.second = (Q.publicOf c.eR).toList ++ c.encS (Q.withBlocks rest blocks) ++ c.encP (Q.withBlocks rest blocks) := by
    rw [ha]
    rfl
  have e3 : keyIn a.second = Q.publicOf eR := by
    refine (eq_keyIn ?_ ?_).symm
    · rw [hsec]
      simp only [List.length_append, Arr.len]
      omega
    · rw [hsec, List.append_assoc, List.take_left' (Q.publicOf c.eR).len, he]
  have hkeys : NX.transportKeys (Q.withBlocks rest blocks) ((Q.withBlocks rest blocks).dh eI
      (keyIn a.second)) ((Q.withBlocks rest blocks).dh eI ((Q.withBlocks rest blocks).publicOf c.sR)) =
      NX.transportKeys Q ee es := by
    rw [e3, hee, hes, hs]
    rfl
  rw [hkeys] at hrecv' hsess
  obtain ⟨t, ht⟩ : ∃ t, t = NX.transcript Q (NX.parts prologue w1 a.second) := ⟨_, rfl⟩
  have hi2 : i2 = done true (Q.publicOf sR) t (NX.transportKeys Q ee es) 1 := by
    have e := hrecv.symm.trans hrecv'
    simp only [Prod.mk.injEq, true_and] at e
    rw [e.1, hs, ht]
    rfl
  have hsess' : a.session = done false EMPTY t (NX.transportKeys Q ee es) 1 := by
    rw [hsess, ht]
    rfl
  have hstart : ({ rnet := { net := { i := i2, r := a.session } } } : SNet) =
      afterwards (Q.publicOf sR) t (NX.transportKeys Q ee es) := by
    rw [hi2, hsess']
    rfl
  -- the program
  have hdh : Q.dh = P.dh := by rw [hQ]; rfl
  have hpub : Q.publicOf = P.publicOf := by rw [hQ]; rfl
  have hk1 : (NX.afterEE Q (P.dh c.eR (keyIn c.first))).2 = (NX.afterEE Q ee).2 := by rw [← hdh, e1]
  have hk2 : (NX.afterES Q (P.dh c.eR (keyIn c.first)) (P.dh c.sR (keyIn c.first))).2 = (NX.afterES Q ee es).2 := by
    rw [← hdh, e1, e2]
  obtain ⟨L, hL⟩ : ∃ L, L = (renewJob P far h0 rest c watcher E labels rounds).log (world hM H blocks h0 ee es) := ⟨_, rfl⟩
  have hL' : L = .mix () :: ((replyJob P far h0 c ((world hM H blocks h0 ee es).mix () 0) ((world hM H blocks h0 ee es).mix () 1)).bind
      fun x => (chainJob ((world hM H blocks h0 ee es).mix () 2) E).bind fun f => stackJob far h0 (watcher c.first x.1)
        (P.withBlocks rest (build labels (gathered E f ((world hM H blocks h0 ee es).mix () 3)) fun _ => Arr.replicate 64 0))
        (afterwards (P.publicOf c.sR) x.2 (seat labels 0)) rounds).log (world hM H blocks h0 ee es) := hL
  rw [m0, m1, m2, m3, Prog.log_bind] at hL'
  have l1 : (replyJob P far h0 c (fun x => blocks ((NX.afterEE Q ee).2, x.1, x.2))
      (fun x => blocks ((NX.afterES Q ee es).2, x.1, x.2))).log (world hM H blocks h0 ee es) ⊆ L := by
    rw [hL']
    exact fun x hx => List.mem_cons_of_mem _ (List.mem_append_left _ hx)
  obtain ⟨r1, r2, r3⟩ := replyJob_spec hM P H blocks hQ hh rest c ok hk1 hk2 l1
  rw [← ha, hp, hf, ← ht] at r1
  rw [← ha, hp, hf] at r2 r3
  have hrep := run_replyJob (ee := ee) (es := es) hM P H blocks hQ hh c (fun x => blocks ((NX.afterEE Q ee).2, x.1, x.2))
    (fun x => blocks ((NX.afterES Q ee es).2, x.1, x.2))
  rw [r1] at hrep
  rw [r1, Prog.log_bind, hf, hs, ← hpub] at hL'
  obtain ⟨c1, c2⟩ := chainJob_spec (h0 := h0) (ee := ee) (es := es) hM H blocks rest (NX.transportKeys Q ee es).1 E
  -- the later keys
  unfold Settled at hset
  simp only [hf, hs, ← hrep] at hset
  obtain ⟨s1, s2⟩ := hset ⟨fun e => absurd (d23 e) (by decide), z2, z3, by
    simp only [List.mem_cons, List.not_mem_nil, or_false, not_or]
    exact ⟨fun e => absurd (d02 e.symm) (by decide), fun e => absurd (d12 e.symm) (by decide)⟩, by
    simp only [List.mem_cons, List.not_mem_nil, or_false, not_or]
    exact ⟨fun e => absurd (d03 e.symm) (by decide), fun e => absurd (d13 e.symm) (by decide)⟩⟩
  obtain ⟨-, -, t3, t4⟩ := stackJob_clad (L := L) (keys := trail blocks rest (NX.transportKeys Q ee es) E) hM P H blocks hQ hh rest
    (hb w1 a.second) (hE w1 a.second) (trail_like blocks rest Q P s1 z3 hl hl0 c1 rfl fun _ => Arr.replicate 64 0)
    (trail_rekeyed blocks rest Q _ E) (build_rekeyed P rest hl _ _)
    (start := afterwards (Q.publicOf sR) t (seat labels 0)) ⟨⟨rfl, rfl, Nat.le_refl _⟩, ⟨rfl, rfl, Nat.le_refl _⟩⟩ rounds (by
      rw [hL']
      exact fun x hx => List.mem_cons_of_mem _ (List.mem_append_right _ (List.mem_append_right _ hx)))
  have hclad : clad (trail blocks rest (NX.transportKeys Q ee es) E) (afterwards (Q.publicOf sR) t (seat labels 0)) =
      afterwards (Q.publicOf sR) t (NX.transportKeys Q ee es) := by
    have : clad (trail blocks rest (NX.transportKeys Q ee es) E) (afterwards (Q.publicOf sR) t (seat labels 0)) =
      afterwards (Q.publicOf sR) t (seat (trail blocks rest (NX.transportKeys Q ee es) E) 0) := rfl
    rw [this, seat_trail blocks rest _ (Nat.zero_le _)]
    rfl
  rw [hclad, ← hstart] at t3 t4
  rw [← hstart] at s2
  have hA : ∀ q, .hash ((shape hM h0 ee es).A q) ∉ L := by
    intro q hq
    rw [hL'] at hq
    have e : ((shape hM h0 ee es).A q).1 = innerInput (NX.h0 Q) (Q.dh eI (Q.publicOf eR)) := by rw [hh, ← hee]; rfl
    rcases List.mem_cons.mp hq with hq | hq
    · cases hq
    · refine htold ?_
      rw [← e]
      rcases List.mem_append.mp hq with hq | hq
      · exact List.mem_append_left _ (r3 _ hq)
      · rcases List.mem_append.mp hq with hq | hq
        · exact absurd (c2 (fun _ => False) _ hq) id
        · exact List.mem_append_right _ (t4 _ hq)
  rw [hL] at hA
  rw [Prog.guard_log _ _ _ hA, ← hL] at F q2 q3
  -- the conditions
  have hplay := passing_play rest blocks hans
  have hpk : payloadKey Q eI a.second (Q.publicOf sR) = (NX.afterES Q ee es).2 := by
    unfold payloadKey
    rw [e3, ← hee, ← hes]
  have hused : a.keys Q sR = [(NX.afterEE Q ee).2, (NX.afterES Q ee es).2] := by
    have h1 : a.eR = c.eR := by rw [ha]; rfl
    have h2 : a.first = c.first := by rw [ha]; rfl
    unfold Answer.keys
    simp only [h1, h2, ← hs, e1, e2]
  have hcare : Careful Q prologue eI w1 ⟨a.second, [], [(c.sR, a)]⟩ (Q.publicOf sR) := by
    refine ⟨List.not_mem_nil, ?_, ?_⟩
    · rw [hpk]
      simp only [List.flatMap_cons, List.flatMap_nil, List.append_nil, hs, hused]
      rw [List.count_cons_of_ne (fun e => absurd (d01 e) (by decide)), List.count_cons_self, List.count_nil]
    · rintro s hs' ⟨x, hx, y, hy, hne, hxy⟩
      obtain rfl := List.mem_singleton.mp hs'
      have h1 : a.prologue = prologue := by rw [ha]; exact hp
      have h2 : a.first = w1 := by rw [ha]; exact hf
      simp only [h1, h2] at hy
      have hlen : ∀ x ∈ NX.hashInputs Q (NX.h0 Q) (NX.parts prologue w1 a.second), x.length ≤ M := by
        intro x hx
        have : x.length ≤ 32 + (M - 32) := by
          refine hashInputs_length Q _ (fun d hd => ?_) _ x hx
          simp only [NX.parts, List.mem_cons, List.not_mem_nil, or_false] at hd
          rcases hd with rfl | rfl | rfl | rfl | rfl | rfl <;> (try simp only [List.length_take, List.length_drop]) <;> omega
        omega
      have hname : ∀ z, Logged L z → z ≠ nameBytes → Q.hash z ≠ h0 := by
        intro z hz hn
        obtain ⟨lz, hz⟩ := hz.resolve_left hn
        rw [hash_short P H hQ lz.1]
        exact F.start _ hz
      have hx' := r2 x hx (hlen x hx)
      have hy' := r2 y hy (hlen y hy)
      refine hne ?_
      have name : Q.hash nameBytes = h0 := hh
      by_cases nx : x = nameBytes <;> by_cases ny : y = nameBytes
      · rw [nx, ny]
      · rw [nx, name] at hxy
        exact absurd hxy.symm (hname y hy' ny)
      · rw [ny, name] at hxy
        exact absurd hxy (hname x hx' nx)
      · obtain ⟨lx, hx'⟩ := hx'.resolve_left nx
        obtain ⟨ly, hy'⟩ := hy'.resolve_left ny
        rw [hash_short P H hQ lx.1, hash_short P H hQ ly.1] at hxy
        exact congrArg Subtype.val (F.hash _ _ hx' hy' hxy)
  unfold Broken
  simp only [hplay]
  refine ⟨i2, out, Q.publicOf sR, by rw [hmid]; exact hrecv, by rw [hi2]; rfl, hcare, ?_⟩
  rintro ⟨s, hs', -, hpriv⟩
  obtain rfl := List.mem_singleton.mp hs'
  rw [asker_forger] at hpriv
  refine hgen (hpriv ?_)
  have hkk : (i2.cs1.k, i2.cs2.k) = NX.transportKeys Q ee es := by rw [hi2]; rfl
  have hu : Played.used Q ⟨a.second, [], [(c.sR, a)]⟩ = [(NX.afterEE Q ee).2, (NX.afterES Q ee es).2] := by
    unfold Played.used
    simp only [List.flatMap_cons, List.flatMap_nil, List.append_nil, List.nil_append, hs]
    exact hused
  rw [hu]
  rcases s2 with s2 | s2 | s2
  · exact absurd rfl (q2 _ (t3 _ s2))
  · exact absurd rfl (q3 _ (t3 _ s2))
  · rw [← hkk] at s2
    exact s2

end

/-- The hashes and blocks under which something happens by chance are few. -/
theorem few_by_chance_renewed {M : Nat} (hM : 97 ≤ M) (far : Bytes → Arr 32) (ee es : Arr 32) (c : Serving)
    (watcher : Bytes → Bytes → Watcher) (E : Nat) (labels : Fin (E + 2) → Arr 32) (rounds m : Nat)
    (hm : ∀ a b past, (watcher a b past).Within M m) :
    2 ^ 256 * Nat.card {x : Hashes M × Blocks // ¬ Fine (shape hM (nameOf hM x.1) ee es)
      (((renewJob P far (nameOf hM x.1) rest c watcher E labels rounds).guard (shape hM (nameOf hM x.1) ee es).A).log
        (world hM x.1 x.2 (nameOf hM x.1) ee es)) (cut x.1)} ≤
      2 ^ 9 * (rounds * m + E + 7) ^ 2 * Nat.card (Hashes M × Blocks) := by
  let bad : Arr 32 → (Ask M → Arr 32) × (Arr 32 → KeyRow) → Prop := fun h y =>
    ¬ Fine (shape hM h ee es) (((renewJob P far h rest c watcher E labels rounds).guard (shape hM h ee es).A).log
      (real (shape hM h ee es) y.1 y.2)) y.1
  let e : Hashes M × Blocks ≃ Arr 32 × ((Ask M → Arr 32) × (Arr 32 → KeyRow)) :=
    ((splitName hM).prodCongr (Equiv.curry (Arr 32) (Arr 12 × Fin 1025) (Arr 64))).trans (Equiv.prodAssoc _ _ _)
  have e' : {x : Hashes M × Blocks // ¬ Fine (shape hM (nameOf hM x.1) ee es)
      (((renewJob P far (nameOf hM x.1) rest c watcher E labels rounds).guard (shape hM (nameOf hM x.1) ee es).A).log
        (world hM x.1 x.2 (nameOf hM x.1) ee es)) (cut x.1)} ≃
      {x : Arr 32 × ((Ask M → Arr 32) × (Arr 32 → KeyRow)) // bad x.1 x.2} := e.subtypeEquiv fun x => Iff.rfl
  rw [Nat.card_congr e, Nat.card_congr e']
  refine card_prod_le _ _ bad fun h => ?_
  have : Nonempty (Arr 32) := ⟨NX.zeros⟩
  have : Nonempty KeyRow := ⟨fun _ => Arr.replicate 64 0⟩
  have b := Long.few_by_chance (shape hM h ee es) ((renewJob P far h rest c watcher E labels rounds).guard (shape hM h ee es).A)
    (rounds * m + E + 7)
    (fun w => ((renewJob P far h rest c watcher E labels rounds).guard_prefix _ w).length_le.trans
      (renewJob_calls P far h rest c watcher E labels rounds m hm w))
    fun w p => Prog.guard_never _ w _ p
  rw [Crypto.Poly1305.card_keys] at b
  exact b.trans (Nat.mul_le_mul_right _ (Nat.mul_le_mul_right _ (by decide)))

end SV2.Noise.Distant

namespace SV2.Stack
open Noise SV2.Long

variable (P : Prims) (rest : Arr 32 → Arr 12 → Nat → UInt8)

/-- A client and a server do a handshake, and nobody changes their two messages.  An attacker - which may depend on all
secrets, the server's static secret among them, and sees the two messages - then is the network between the two: for `rounds`
steps it has one of the two send a frame or rekey, or delivers something to it, after at most `m` hashes and blocks of ChaCha20
each time, with at most `q` deliveries, and each side rekeys at most `E` times.  It does not see the keys of the sessions.  For
all but a share of `(q + 1) / 2^91`, `(rounds * m + E + 7)^2 / 2^247` and `E * (rounds * m + E + 4) / 2^256` of the hash and
block functions: what each of the two reads is the beginning of the frames that the other one sent - or the shared secret of
the two ephemeral keys was hashed by somebody, other than for keys. -/
theorem C111_intruder (hD : DhLaws P) (far : Bytes → Arr 32) (M : Nat) (hM : 65567 ≤ M) (prologue : Bytes)
    (hp : prologue.length + 32 ≤ M) (kp : Keypair) (eI : Arr 32) (buf1 : Bytes) (sR eR : Arr 32) (buf2 : Bytes)
    (watcher : Bytes → Bytes → Watcher) (m : Nat) (hm : ∀ a b past, (watcher a b past).Within M m)
    (hb : ∀ a b past, (watcher a b past).Alone) (q E : Nat)
    (hq : ∀ a b hash blocks, ((watcher a b).forger (P.withHash hash) rest blocks).AtMost q)
    (hE : ∀ a b hash blocks, ((watcher a b).forger (P.withHash hash) rest blocks).Rekeys E) (rounds : Nat) :
    2 ^ 256 * Nat.card {x : Hashes M × Blocks //
      Intruded P rest x.2 far prologue kp eI buf1 sR eR buf2 watcher rounds x.1} ≤
      (2 ^ 165 * (q + 1) + 2 ^ 9 * (rounds * m + E + 7) ^ 2 + E * (rounds * m + E + 4)) * Nat.card (Hashes M × Blocks) := by
  by_cases hbuf : 32 ≤ buf1.length ∧ buf1.length ≤ 65535
  swap
  · have : IsEmpty {x : Hashes M × Blocks //
        Intruded P rest x.2 far prologue kp eI buf1 sR eR buf2 watcher rounds x.1} := by
      refine ⟨fun x => hbuf ?_⟩
      obtain ⟨_, i1, first, h1, -⟩ := x
      obtain ⟨-, -, h2, h3, -⟩ := send_first_ok h1
      exact ⟨h2, h3⟩
    rw [Nat.card_of_isEmpty, Nat.mul_zero]
    exact Nat.zero_le _
  by_cases hbig : E + 3 ≤ 2 ^ 256
  swap
  · refine Nat.mul_le_mul ?_ (Nat.card_le_card_of_injective _ Subtype.val_injective)
    have h2 : 1 ≤ E := by
      have : 1 ≤ 2 ^ 256 - 2 := by norm_num
      omega
    have : 1 * (rounds * m + E + 4) ≤ E * (rounds * m + E + 4) := Nat.mul_le_mul_right _ h2
    omega
  obtain ⟨labels, hl, hl0⟩ := Renewal.labels_exist hbig
  have hM' : 97 ≤ M := by omega
  obtain ⟨w1, hw⟩ : ∃ w1, w1 = (P.publicOf eI).toList ++ buf1.drop 32 := ⟨_, rfl⟩
  obtain ⟨c, hc⟩ : ∃ c : Serving, c = ⟨prologue, sR, eR, w1, buf2⟩ := ⟨_, rfl⟩
  have b1 := Distant.few_by_chance_renewed P rest hM' far (P.dh eI (P.publicOf eR)) (P.dh eI (P.publicOf sR)) c watcher E labels
    rounds m hm
  let i1 : Hashes M → NoiseSession := fun H => mid (P.withHash (H.at far)) true prologue kp
    (Keypair.default (P.withHash (H.at far)) eI) EMPTY (P.publicOf eI).toList (buf1.drop 32)
  have hsend : ∀ H : Hashes M, (NoiseSession.initSession (P.withHash (H.at far)) true prologue kp).sendMessage
      (P.withHash (H.at far)) (Keypair.default (P.withHash (H.at far)) eI) buf1 = (.ok (), i1 H, w1) := by
    intro H
    rw [hw]
    exact send_first true prologue kp (Keypair.default (P.withHash (H.at far)) eI) buf1 hbuf.1 hbuf.2
  have b2 := card_prod_le (A := Hashes M) (B := Blocks) (2 ^ 91) (q + 1) (fun H blocks => Broken (P.withHash (H.at far)) rest blocks
    prologue eI (i1 H) w1 (Distant.passing c) (fun p => Veiled.asker (watcher w1 p.result) (P.withHash (H.at far))) E
    rounds) fun H => by
      refine C96_channel (P.withHash (H.at far)) rest ⟨hD.comm, hD.public_ok⟩ prologue kp eI buf1 w1 (i1 H) (hsend H) _
        (fun p => Veiled.asker (watcher w1 p.result) (P.withHash (H.at far))) E q ?_ ?_ rounds
      · intro p blocks
        rw [Veiled.asker_forger]
        exact hq _ _ _ blocks
      · intro p blocks
        rw [Veiled.asker_forger]
        exact hE _ _ _ blocks
  have b3 := card_prod_le (A := Hashes M) (B := Blocks) (2 ^ 256) (E * (rounds * m + E + 4)) (fun H blocks =>
    ¬ Distant.Settled rest (P.withHash (H.at far)) (Veiled.nameOf hM' H) c (P.dh eI (P.publicOf eR)) (P.dh eI (P.publicOf sR)) watcher E
      rounds blocks) fun H => Distant.few_unsettled rest _ _ c _ _ watcher E rounds M m hm hb fun a b blocks => hE a b _ blocks
  have hor : ∀ x : Hashes M × Blocks, Intruded P rest x.2 far prologue kp eI buf1 sR eR buf2 watcher rounds x.1 →
      (¬ Fine (Distant.shape hM' (Veiled.nameOf hM' x.1) (P.dh eI (P.publicOf eR)) (P.dh eI (P.publicOf sR)))
        (((Distant.renewJob P far (Veiled.nameOf hM' x.1) rest c watcher E labels rounds).guard (Distant.shape hM' (Veiled.nameOf hM' x.1)
          (P.dh eI (P.publicOf eR)) (P.dh eI (P.publicOf sR))).A).log
          (Distant.world hM' x.1 x.2 (Veiled.nameOf hM' x.1) (P.dh eI (P.publicOf eR)) (P.dh eI (P.publicOf sR)))) (Veiled.cut x.1)) ∨
      (Broken (P.withHash (x.1.at far)) rest x.2 prologue eI (i1 x.1) w1 (Distant.passing c)
          (fun p => Veiled.asker (watcher w1 p.result) (P.withHash (x.1.at far))) E rounds ∨
        ¬ Distant.Settled rest (P.withHash (x.1.at far)) (Veiled.nameOf hM' x.1) c (P.dh eI (P.publicOf eR)) (P.dh eI (P.publicOf sR))
          watcher E rounds x.2) := by
    rintro ⟨H, blocks⟩ h
    by_cases F : Fine (Distant.shape hM' (Veiled.nameOf hM' H) (P.dh eI (P.publicOf eR)) (P.dh eI (P.publicOf sR)))
        (((Distant.renewJob P far (Veiled.nameOf hM' H) rest c watcher E labels rounds).guard (Distant.shape hM' (Veiled.nameOf hM' H)
          (P.dh eI (P.publicOf eR)) (P.dh eI (P.publicOf sR))).A).log
          (Distant.world hM' H blocks (Veiled.nameOf hM' H) (P.dh eI (P.publicOf eR)) (P.dh eI (P.publicOf sR)))) (Veiled.cut H)
    · refine .inr ?_
      by_cases hs : Distant.Settled rest (P.withHash (H.at far)) (Veiled.nameOf hM' H) c (P.dh eI (P.publicOf eR))
        (P.dh eI (P.publicOf sR)) watcher E rounds blocks
      · exact .inl (Distant.renewed_broken P rest hM' hM hp hb rfl (Veiled.name_hash P hM' far H) (fun a b => hE a b _ blocks) hl hl0
          ⟨hD.comm, hD.public_ok⟩ (hsend H) hc rfl rfl F hs h)
      · exact .inr hs
    · exact .inl F
  have h1 := card_imp_or hor
  have h2 := card_imp_or (p := fun x : Hashes M × Blocks => Broken (P.withHash (x.1.at far)) rest x.2 prologue eI (i1 x.1) w1
      (Distant.passing c) (fun p => Veiled.asker (watcher w1 p.result) (P.withHash (x.1.at far))) E rounds ∨
        ¬ Distant.Settled rest (P.withHash (x.1.at far)) (Veiled.nameOf hM' x.1) c (P.dh eI (P.publicOf eR)) (P.dh eI (P.publicOf sR))
          watcher E rounds x.2) fun x h => h
  clear hor
  generalize Nat.card {x : Hashes M × Blocks // Intruded P rest x.2 far prologue kp eI buf1 sR eR buf2 watcher rounds x.1} = n at *
  have h3 := Nat.mul_le_mul_left (2 ^ 256) (h1.trans (Nat.add_le_add_left h2 _))
  rw [Nat.mul_add, Nat.mul_add] at h3
  have h4 := Nat.mul_le_mul_left (2 ^ 165) b2
  rw [← Nat.mul_assoc, ← Nat.mul_assoc] at h4
  refine h3.trans ((Nat.add_le_add b1 (Nat.add_le_add h4 b3)).trans (le_of_eq ?_))
  ring

/-! ## Cases -/

/-- The attacker of `Verif/Props/Renewal.lean` meets the hypotheses. -/
example (far : Bytes → Arr 32) (guess : Arr 32) : let rest := fun _ _ _ => 7
    2 ^ 256 * Nat.card {x : Hashes 65567 × Blocks // Intruded toyPrims rest x.2 far [1, 2] (Keypair.default toyPrims EMPTY)
      (Arr.replicate 32 3) (List.replicate 60 9) (Arr.replicate 32 5) (Arr.replicate 32 4) (List.replicate 100 8)
      (fun _ _ => renewer guess) 7 x.1} ≤
    (2 ^ 165 * (3 + 1) + 2 ^ 9 * (7 * 2 + 1 + 7) ^ 2 + 1 * (7 * 2 + 1 + 4)) * Nat.card (Hashes 65567 × Blocks) := by
  intro rest
  have h := fun hash => renewer_ok (toyPrims.withHash hash) rest guess 65567
  exact C111_intruder toyPrims rest toy_dh far 65567 (Nat.le_refl _) [1, 2] (by decide) _ _ _ _ _ _ (fun _ _ => renewer guess) 2
    (fun _ _ => (h toyPrims.hash).1) (fun _ _ => (h toyPrims.hash).2.1) 3 1 (fun _ _ hash => (h hash).2.2.1)
    (fun _ _ hash => (h hash).2.2.2) 7

/-- The handshake succeeds, both frames of the client are read, the second one under the new key, and the first one is not
read again; nobody hashed the shared secret of the ephemeral keys other than for keys. -/
example : let rest := fun _ _ _ => 7
    let m := firstOf (Arr.replicate 32 3)
    let Q := toyPrims.withBlocks rest toyBlocks
    let a := (Serving.mk [1, 2] (Arr.replicate 32 5) (Arr.replicate 32 4) m.2.2 (List.replicate 100 8)).answer Q
    let c := m.2.1.recvMessage Q ((a.map (·.second)).getD [])
    let start : SNet := { rnet := { net := { i := c.2.1, r := (a.map (·.session)).getD toyR } } }
    let watcher := renewer (Arr.replicate 32 5)
    let n := (SNet.attacked Q (watcher.forger toyPrims rest toyBlocks) start 7).1
    m.1 = .ok () ∧ a.isSome ∧ c.1 = .ok () ∧
    n.rnet.net.gotR.map (·.2.1) = [.ok (), .ok (), .err .decryptionError] ∧
    Stack.read n.rnet.net.gotR = [.ok sampleFrame, .ok sampleFrame] ∧ n.framesI = [sampleFrame, sampleFrame] ∧
    n.rnet.rekeysI = 1 ∧ n.rnet.rekeysR = 1 ∧ n.rnet.net.i.cs1.k ≠ c.2.1.cs1.k ∧ n.rnet.net.i.cs1.k = n.rnet.net.r.cs1.k ∧
    ∀ x ∈ NX.hashInputs toyPrims (NX.h0 toyPrims) (NX.parts [1, 2] m.2.2 ((a.map (·.second)).getD [])) ++
        watcher.heard toyPrims rest toyBlocks start 7,
      x ≠ innerInput (NX.h0 toyPrims) (toyPrims.dh (Arr.replicate 32 3) (toyPrims.publicOf (Arr.replicate 32 4))) := by
  decide +kernel

end SV2.Stack
