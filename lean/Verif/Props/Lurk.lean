import Verif.Lemmas.Lurk
import Verif.Props.Tap
/-!
# C115: who does not hash a shared secret cannot tell what is sent, also while the sides change keys

When the attacker says yes is in `Verif/Spec/Lurk.lean`.
-/

namespace SV2.Noise.Veiled
open SV2.Veil SV2.Stack SV2.Stack.Renewal

variable (P : Prims) (rest : Arr 32 → Arr 12 → Nat → UInt8)

section
variable {M : Nat} (hM : 97 ≤ M) (hM' : 65567 ≤ M) {far : Bytes → Arr 32} {prologue : Bytes}
variable {kp : Keypair} {eI : Arr 32} {buf1 w1 : Bytes} {i1 : NoiseSession} {servers : List (Arr 32)}
variable {impostor : Bytes → Curious Bytes} {snoop : Snoop} {rounds n m : Nat} (hn : (impostor w1).Within M n)
variable (hb : (impostor w1).Blind) (hm : ∀ past, (snoop.next past).Within M m) (hb' : ∀ past, (snoop.next past).Blind)
variable (hv : ∀ past, (snoop.verdict past).Within M m) (hv' : ∀ past, (snoop.verdict past).Blind)
variable {H : Hashes M} {blocks : Blocks} {Q : Prims} (hQ : Q = P.withHash (H.at far)) {h0 : Arr 32} (hh : NX.h0 Q = h0)
variable (hlaws : DhLaws Q)
variable (h1 : (NoiseSession.initSession Q true prologue kp).sendMessage Q (Keypair.default Q eI) buf1 = (.ok (), i1, w1))
variable {E : Nat} {labels : Fin (E + 2) → Arr 32} (hlab : Function.Injective labels) (hlab0 : ∀ a, labels a ≠ EMPTY) (hE : rounds ≤ E)
variable {dflt second : Bool} {D : List (Arr 32)} (hDs : D = servers.map (P.dh eI))
variable (F : Fine (shape hM h0 D) (((lurkJob P far h0 D rest prologue eI w1 servers (impostor w1) snoop labels rounds dflt second).guard
    (shape hM h0 D).A).log (world hM H blocks h0 D)) (cut H))

include hM' hn hb hm hb' hv hv' hQ hh hlaws h1 hDs hlab hlab0 hE F

/-- If nothing happens by chance and the attacker says yes, so does the program. -/
theorem lurked_run (hdflt : dflt = true) (h : Lurked P rest blocks far prologue kp eI buf1 servers impostor snoop rounds second H) :
    ((lurkJob P far h0 D rest prologue eI w1 servers (impostor w1) snoop labels rounds dflt second).guard (shape hM h0 D).A).run
      (world hM H blocks h0 D) = some true := by
  unfold Lurked at h
  rw [← hQ] at h
  obtain ⟨i, first, h1', i2, out, h2, s, hs, e1, e2, e3, e4, hleak, hyes⟩ := h
  rw [h1] at h1'
  simp only [Prod.mk.injEq, true_and] at h1'
  obtain ⟨rfl, rfl⟩ := h1'
  obtain ⟨hmid, hpub, -, -, -⟩ := send_first_ok h1
  subst hmid
  have hpubs : Q.publicOf = P.publicOf := by rw [hQ]; rfl
  have hdh : Q.dh = P.dh := by rw [hQ]; rfl
  obtain ⟨p, hp⟩ : ∃ p, p = (impostor w1).play Q rest blocks := ⟨_, rfl⟩
  rw [← hp] at h2 hs e3 hleak
  have hl : p.result.length ≤ 2128 := by
    obtain ⟨_, _, _, _, _, _, hl, -⟩ := recv_second_ok h2
    exact hl
  obtain ⟨ck, hck⟩ : ∃ ck, ck = (NX.afterEE Q (Q.dh eI (keyIn p.result))).1 := ⟨_, rfl⟩
  obtain ⟨t, ht⟩ : ∃ t, t = NX.transcript Q (NX.parts prologue w1 p.result) := ⟨_, rfl⟩
  obtain ⟨d, hd⟩ : ∃ d, d = Q.dh eI (Q.publicOf s.1) := ⟨_, rfl⟩
  obtain ⟨⟨out', m1⟩, m2, m3⟩ := met rest hlaws (kp := kp) hpub hp hs e1 e2 e3 hl hck hd ht
  rw [m1] at h2
  simp only [Prod.mk.injEq, true_and] at h2
  obtain ⟨rfl, rfl⟩ := h2
  have hno : ∀ q : Deep h0 D, ∀ heard, ¬ Leaked Q eI servers heard → padded 0x36 q.1.1 ++ q.1.2.toList ∉ heard := by
    intro q heard hl hq
    obtain ⟨rs', hm, he⟩ := List.mem_map.mp (show q.1.2 ∈ servers.map (P.dh eI) from hDs.subst (motive := fun D => q.1.2 ∈ D) q.2.1)
    refine hl ⟨q.1.1, by rw [hh]; exact q.2.2, rs', hm, ?_⟩
    rw [hdh, he]
    exact hq
  have part : ∀ a b : List Bytes, (∀ x ∈ a, x ∈ b) → ¬ Leaked Q eI servers b → ¬ Leaked Q eI servers a := by
    rintro a b hab hb ⟨ck, h1, rs, h2, h3⟩
    exact hb ⟨ck, h1, rs, h2, hab _ h3⟩
  have hdD : d ∈ D := by
    rw [hDs, hd, hdh]
    exact List.mem_map_of_mem e4
  -- the first part
  obtain ⟨L1, hL1⟩ : ∃ L1, L1 = (preJob P far h0 D prologue eI w1 (impostor w1)).log (world hM H blocks h0 D) := ⟨_, rfl⟩
  obtain ⟨p1, p2, -, p4⟩ := preJob_spec (L := L1) rest hM D H blocks hQ hh hM' prologue eI w1 hn hb hp (by rw [hL1]; exact List.Subset.refl _)
  rw [← hck, ← ht, ← m3] at p1
  have hA1 : ∀ q, .hash ((shape hM h0 D).A q) ∉ L1 := by
    intro q hq
    rw [hL1] at hq
    rcases p4 _ hq with hq | hq
    · exact hq _ q.2.2 _ q.2.1 rfl
    · exact hno q _ hleak (List.mem_append_left _ (List.mem_append_left _ hq))
  have F1 : Fine (shape hM h0 D) L1 (cut H) := F.subset (by
    rw [hL1] at hA1 ⊢
    exact Prog.guard_bind _ _ _ _ hA1)
  have hdeep : d ∈ D ∧ ck ≠ h0 := ⟨hdD, hck ▸ ck_ne hM H hQ hh F1 p2⟩
  have hchosen : chosen P h0 D prologue eI w1 servers ((p.result, p.served.map noted), ck, t, Q.publicOf s.1) =
      some ⟨(ck, d), hdeep⟩ := by
    have hmet : Met P prologue w1 servers (p.result, p.served.map noted) :=
      ⟨hl, noted s, List.mem_map_of_mem hs, e1, e2, e3, by rw [← hpubs]; exact e4⟩
    subst hd
    unfold chosen
    simp only [← hdh]
    rw [dif_pos hdeep, if_pos hmet]
  -- the second part
  have hrow : ∀ j, (((world hM H blocks h0 D).mix ⟨(ck, d), hdeep⟩).1 j : KeyRow) = fun x => blocks (keysOf Q ck d j, x) := by
    intro j
    rw [← chain_keys hM D P H hQ ⟨(ck, d), hdeep⟩ j]
    rfl
  unfold lurkJob at F ⊢
  rw [Prog.guard_log_bind _ _ _ _ (by rw [hL1] at hA1; exact hA1), p1] at F
  rw [Prog.guard_run_bind, Prog.guard_run _ _ _ (by rw [hL1] at hA1; exact hA1), p1, Option.bind_some]
  unfold withRows at F ⊢
  simp only [hchosen] at F ⊢
  have hes : EsLogged D ((preJob P far h0 D prologue eI w1 (impostor w1)).log (world hM H blocks h0 D) ++ .mix ⟨(ck, d), hdeep⟩ ::
      ((bugLateJob P far h0 D rest snoop labels rounds dflt second (talking (Q.publicOf s.1) t (seat labels 0))
        (((world hM H blocks h0 D).mix ⟨(ck, d), hdeep⟩).1 1) (((world hM H blocks h0 D).mix ⟨(ck, d), hdeep⟩).1 2)).guard
          (shape hM h0 D).A).log (world hM H blocks h0 D)) Q ck d :=
    ⟨fun _ => List.mem_append_right _ List.mem_cons_self, fun h => absurd hdeep h⟩
  have hk1 := key_zero hM H hQ F hdeep hes 1
  have hk2 := key_zero hM H hQ F hdeep hes 2
  simp only [Prog.guard, Prog.run]
  rw [hrow 1, hrow 2]
  obtain ⟨v1, v3⟩ := bugLateJob_spec (k := (keysOf Q ck d 1, keysOf Q ck d 2)) hM D P H blocks hQ hh rest hM' hm hb' hv hv' hlab hlab0
    hk1 hk2 dflt second hE (Q.publicOf s.1) t rfl rfl (List.Subset.refl _)
  have hstart : talking (Q.publicOf s.1) t (keysOf Q ck d 1, keysOf Q ck d 2) =
      ((talking (Q.publicOf s.1) t (keysOf Q ck d 1, keysOf Q ck d 2)).1, s.2.session) := by
    rw [m2]
  rw [hstart] at v1 v3
  rw [Prog.guard_run]
  · refine congrArg some ?_
    rcases v1 with v1 | ⟨v1, -⟩
    · exact v1.trans hdflt
    · exact v1.trans hyes
  · intro q hq
    rcases v3 _ hq with hq | hq
    · exact hq _ q.2.2 _ q.2.1 rfl
    · refine hno q _ (part _ _ (fun x hx => ?_) hleak) hq
      rw [List.append_assoc]
      exact List.mem_append_right _ hx

/-- And the other way round. -/
theorem run_lurked (hdflt : dflt = false) (hp' : prologue.length + 32 ≤ M)
    (h : ((lurkJob P far h0 D rest prologue eI w1 servers (impostor w1) snoop labels rounds dflt second).guard (shape hM h0 D).A).run
      (world hM H blocks h0 D) = some true) :
    Lurked P rest blocks far prologue kp eI buf1 servers impostor snoop rounds second H := by
  have hA := Prog.guard_some _ _ _ _ h
  rw [Prog.guard_run _ _ _ hA] at h
  rw [Prog.guard_log _ _ _ hA] at F
  have h := Option.some.inj h
  have hpubs : Q.publicOf = P.publicOf := by rw [hQ]; rfl
  have hdh : Q.dh = P.dh := by rw [hQ]; rfl
  obtain ⟨hmid, hpub, hb1, hb2, hdr⟩ := send_first_ok h1
  have hwl : w1.length ≤ 65535 := by
    have e1 := congrArg List.length hpub
    have e2 := congrArg List.length hdr
    simp only [List.length_take, List.length_drop, Arr.len] at e1 e2
    omega
  subst hmid
  obtain ⟨p, hp⟩ : ∃ p, p = (impostor w1).play Q rest blocks := ⟨_, rfl⟩
  obtain ⟨L, hL⟩ : ∃ L, L = (lurkJob P far h0 D rest prologue eI w1 servers (impostor w1) snoop labels rounds dflt second).log
    (world hM H blocks h0 D) := ⟨_, rfl⟩
  rw [← hL] at F hA
  unfold lurkJob at hL h
  rw [Prog.log_bind] at hL
  obtain ⟨p1, -, p3, -⟩ := preJob_spec (L := L) rest hM D H blocks hQ hh hM' prologue eI w1 hn hb hp
    (by rw [hL]; exact List.subset_append_left _ _)
  rw [Prog.run_bind, p1] at h
  rw [p1] at hL
  obtain ⟨ck, hck⟩ : ∃ ck, ck = (NX.afterEE Q (Q.dh eI (keyIn p.result))).1 := ⟨_, rfl⟩
  obtain ⟨t, ht⟩ : ∃ t, t = NX.transcript Q (NX.parts prologue w1 p.result) := ⟨_, rfl⟩
  obtain ⟨rs, hrs⟩ : ∃ rs, rs = staticIn Q (blocks.stream rest) eI p.result := ⟨_, rfl⟩
  rw [← hck, ← ht, ← hrs] at h hL
  by_cases hdeep : P.dh eI rs ∈ D ∧ ck ≠ h0
  swap
  · have : chosen P h0 D prologue eI w1 servers ((p.result, p.served.map noted), ck, t, rs) = none := dif_neg hdeep
    unfold withRows at h
    rw [this] at h
    exact absurd h Bool.false_ne_true
  by_cases hmet : Met P prologue w1 servers (p.result, p.served.map noted)
  swap
  · have : chosen P h0 D prologue eI w1 servers ((p.result, p.served.map noted), ck, t, rs) = none :=
      (dif_pos hdeep).trans (if_neg hmet)
    unfold withRows at h
    rw [this] at h
    exact absurd h Bool.false_ne_true
  have hchosen : chosen P h0 D prologue eI w1 servers ((p.result, p.served.map noted), ck, t, rs) = some ⟨(ck, P.dh eI rs), hdeep⟩ :=
    (dif_pos hdeep).trans (if_pos hmet)
  obtain ⟨hl, e, he, e1, e2, e3, e4⟩ := hmet
  have hl : p.result.length ≤ 2128 := hl
  obtain ⟨s, hs, rfl⟩ := List.mem_map.mp he
  have e4 : Q.publicOf s.1 ∈ servers := by rw [hpubs]; exact e4
  obtain ⟨d, hd⟩ : ∃ d, d = Q.dh eI (Q.publicOf s.1) := ⟨_, rfl⟩
  obtain ⟨⟨out, m1⟩, m2, m3⟩ := met rest hlaws (kp := kp) hpub hp hs e1 e2 e3 hl hck hd ht
  have hrs' : rs = Q.publicOf s.1 := hrs.trans m3.symm
  have hd' : P.dh eI rs = d := by rw [hd, hdh, hrs']
  have hrow : ∀ j, (((world hM H blocks h0 D).mix ⟨(ck, P.dh eI rs), hdeep⟩).1 j : KeyRow) =
      fun x => blocks (keysOf Q ck d j, x) := by
    intro j
    rw [← hd', ← chain_keys hM D P H hQ ⟨(ck, P.dh eI rs), hdeep⟩ j]
    rfl
  unfold withRows at h hL
  simp only [hchosen, Prog.run, Prog.log] at h hL
  rw [hrow 1, hrow 2] at h hL
  have hes : EsLogged D L Q ck (P.dh eI rs) :=
    ⟨fun _ => by rw [hL]; exact List.mem_append_right _ List.mem_cons_self, fun h => absurd hdeep h⟩
  have hk1 := key_zero hM H hQ F hdeep hes 1
  have hk2 := key_zero hM H hQ F hdeep hes 2
  rw [hd'] at hk1 hk2
  obtain ⟨v1, -⟩ := bugLateJob_spec (L := L) (k := (keysOf Q ck d 1, keysOf Q ck d 2)) hM D P H blocks hQ hh rest hM' hm hb' hv hv' hlab hlab0
    hk1 hk2 dflt second hE rs t rfl rfl
    (by rw [hL]; exact List.Subset.trans (List.subset_cons_self _ _) (List.subset_append_right _ _))
  have hstart : talking rs t (keysOf Q ck d 1, keysOf Q ck d 2) =
      ((talking (Q.publicOf s.1) t (keysOf Q ck d 1, keysOf Q ck d 2)).1, s.2.session) := by
    rw [m2, hrs']
  rw [hstart] at v1
  obtain ⟨v1, v2⟩ : _ ∧ _ := v1.resolve_left fun e => Bool.false_ne_true (hdflt.symm.trans (e.symm.trans h))
  unfold Lurked
  rw [← hQ]
  refine ⟨_, w1, h1, _, out, by rw [← hp]; exact m1, s, by rw [← hp]; exact hs, e1, e2, by rw [← hp]; exact e3, e4, ?_, ?_⟩
  · rintro ⟨ck', hck', rs', hmem, hx⟩
    have hlen : (innerInput ck' (Q.dh eI rs')).length ≤ M := by
      have : (innerInput ck' (Q.dh eI rs')).length = 96 := length_96 0x36 ck' (Q.dh eI rs')
      omega
    have hlog : Logged L (innerInput ck' (Q.dh eI rs')) := by
      rw [List.append_assoc, ← hp] at hx
      rcases List.mem_append.mp hx with hx | hx
      · exact p3 hp' hwl (by omega) _ hx hlen
      · exact v2 _ hx hlen
    rcases hlog with hlog | ⟨hx', hlog⟩
    · exact ne_name (by rw [show (innerInput ck' (Q.dh eI rs')).length = 96 from length_96 0x36 ck' (Q.dh eI rs')]; decide) hlog
    · refine hA ⟨(ck', Q.dh eI rs'), ?_, by rw [← hh]; exact hck'⟩ hlog
      rw [hDs, hdh]
      exact List.mem_map_of_mem hmem
  · rw [← v1]
    exact h

end

theorem lurk_bound (q r : Nat) : 336 * (20 * (q + 1) + r) ^ 2 + 2 * (r * (20 * (q + 1) + r + 2)) ≤ 2 ^ 18 * (q + r + 1) ^ 2 := by
  have h1 : 20 * (q + 1) + r ≤ 20 * (q + r + 1) := by omega
  have h2 : 20 * (q + 1) + r + 2 ≤ 22 * (q + r + 1) := by omega
  have h3 : r ≤ q + r + 1 := by omega
  have e1 : (20 * (q + r + 1)) ^ 2 = 400 * ((q + r + 1) ^ 2) := by ring
  have e2 : (q + r + 1) * (22 * (q + r + 1)) = 22 * ((q + r + 1) ^ 2) := by ring
  have g1 := Nat.mul_le_mul_left 336 (Nat.pow_le_pow_left h1 2)
  have g2 := Nat.mul_le_mul_left 2 (Nat.mul_le_mul h3 h2)
  rw [e1] at g1
  rw [e2] at g2
  omega

theorem few_lurked_labels (hD : DhLaws P) (far : Bytes → Arr 32) (M : Nat) (hM : 65567 ≤ M) (prologue : Bytes)
    (hp : prologue.length + 32 ≤ M) (kp : Keypair) (eI : Arr 32) (buf1 : Bytes) (servers : List (Arr 32))
    (impostor : Bytes → Curious Bytes) (n : Nat) (hn : ∀ first, (impostor first).Within M n)
    (hb : ∀ first, (impostor first).Blind) (snoop : Snoop) (m : Nat) (hm : ∀ past, (snoop.next past).Within M m)
    (hb' : ∀ past, (snoop.next past).Blind) (hv : ∀ past, (snoop.verdict past).Within M m)
    (hv' : ∀ past, (snoop.verdict past).Blind) (rounds : Nat) {labels : Fin (rounds + 2) → Arr 32}
    (hlab : Function.Injective labels) (hlab0 : ∀ a, labels a ≠ EMPTY) (second : Bool) :
    2 ^ 256 * Nat.card {x : Hashes M × Blocks //
      Lurked P rest x.2 far prologue kp eI buf1 servers impostor snoop rounds second x.1} ≤
    2 ^ 256 * Nat.card {x : Hashes M × Blocks //
      Lurked P rest x.2 far prologue kp eI buf1 servers impostor snoop rounds (!second) x.1} +
      2 ^ 18 * (n + (rounds + 1) * m + rounds + 1) ^ 2 * Nat.card (Hashes M × Blocks) := by
  by_cases hbuf : 32 ≤ buf1.length ∧ buf1.length ≤ 65535
  swap
  · have : IsEmpty {x : Hashes M × Blocks //
        Lurked P rest x.2 far prologue kp eI buf1 servers impostor snoop rounds second x.1} := by
      refine ⟨fun x => hbuf ?_⟩
      obtain ⟨_, i1, first, h1, -⟩ := x
      obtain ⟨-, -, h2, h3, -⟩ := send_first_ok h1
      exact ⟨h2, h3⟩
    rw [Nat.card_of_isEmpty, Nat.mul_zero]
    exact Nat.zero_le _
  have hM' : 97 ≤ M := by omega
  obtain ⟨w1, hw⟩ : ∃ w1, w1 = (P.publicOf eI).toList ++ buf1.drop 32 := ⟨_, rfl⟩
  let i1 : Hashes M → NoiseSession := fun H => mid (P.withHash (H.at far)) true prologue kp
    (Keypair.default (P.withHash (H.at far)) eI) EMPTY (P.publicOf eI).toList (buf1.drop 32)
  have hsend : ∀ H : Hashes M, (NoiseSession.initSession (P.withHash (H.at far)) true prologue kp).sendMessage
      (P.withHash (H.at far)) (Keypair.default (P.withHash (H.at far)) eI) buf1 = (.ok (), i1 H, w1) := by
    intro H
    rw [hw]
    exact send_first true prologue kp (Keypair.default (P.withHash (H.at far)) eI) buf1 hbuf.1 hbuf.2
  let e : Hashes M × Blocks ≃ Arr 32 × ((Ask M → Arr 32) × (Arr 32 → KeyRow)) :=
    ((splitName hM').prodCongr (Equiv.curry (Arr 32) (Arr 12 × Fin 1025) (Arr 64))).trans (Equiv.prodAssoc _ _ _)
  let yes : Bool → Arr 32 → (Ask M → Arr 32) × (Arr 32 → KeyRow) → Prop := fun second h y =>
    Lurked P rest (e.symm (h, y)).2 far prologue kp eI buf1 servers impostor snoop rounds second (e.symm (h, y)).1
  have e' : ∀ second, Nat.card {x : Hashes M × Blocks //
      Lurked P rest x.2 far prologue kp eI buf1 servers impostor snoop rounds second x.1} =
      Nat.card {x : Arr 32 × ((Ask M → Arr 32) × (Arr 32 → KeyRow)) // yes second x.1 x.2} := fun second =>
    Nat.card_congr (e.subtypeEquiv fun x => by
      show _ ↔ Lurked P rest (e.symm (e x)).2 far prologue kp eI buf1 servers impostor snoop rounds second (e.symm (e x)).1
      rw [Equiv.symm_apply_apply])
  rw [e', e', Nat.card_congr e]
  refine card_prod_diff _ _ _ _ fun h => ?_
  have : Nonempty (Arr 32) := ⟨NX.zeros⟩
  have : Nonempty KeyRow := ⟨fun _ => Arr.replicate 64 0⟩
  let job : Bool → Bool → Job M h (servers.map (P.dh eI)) (Option Bool) := fun dflt second =>
    (lurkJob P far h (servers.map (P.dh eI)) rest prologue eI w1 servers (impostor w1) snoop labels rounds dflt second).guard
      (shape hM' h (servers.map (P.dh eI))).A
  have hcalls : ∀ dflt second w, ((job dflt second).log w).length ≤ 20 * (n + (rounds + 1) * m + 1) + rounds := fun dflt second w =>
    (Prog.guard_prefix _ w _).length_le.trans (lurkJob_calls P far h (servers.map (P.dh eI)) rest prologue eI w1 servers (impostor w1)
      snoop labels rounds n m (hn w1) hm hv dflt second w)
  have b := card_real_near (shape hM' h (servers.map (P.dh eI))) (job true second) (job false (!second)) _
    (2 * (rounds * (20 * (n + (rounds + 1) * m + 1) + rounds + 2))) (hcalls true second) (hcalls false (!second))
    (fun w p => Prog.guard_never _ w _ p) (fun w p => Prog.guard_never _ w _ p) (fun a => a = some true)
    (by
      rw [Crypto.Poly1305.card_keys]
      exact lurkJob_alike P rest hlab hlab0 _ prologue eI w1 servers (impostor w1) snoop (Nat.le_refl _) n m (hn w1) hm hv true false second)
  rw [Crypto.Poly1305.card_keys] at b
  have hname : ∀ y : (Ask M → Arr 32) × (Arr 32 → KeyRow), NX.h0 (P.withHash ((e.symm (h, y)).1.at far)) = h := by
    intro y
    rw [name_hash P hM']
    exact congrArg Prod.fst (e.apply_symm_apply (h, y))
  have hworld : ∀ y : (Ask M → Arr 32) × (Arr 32 → KeyRow), world hM' (e.symm (h, y)).1 (e.symm (h, y)).2 h (servers.map (P.dh eI)) =
      real (shape hM' h (servers.map (P.dh eI))) y.1 y.2 ∧ cut (e.symm (h, y)).1 = y.1 := by
    intro y
    have h1 : cut (e.symm (h, y)).1 = y.1 := congrArg (fun z => z.2.1) (e.apply_symm_apply (h, y))
    refine ⟨?_, h1⟩
    unfold world
    rw [h1]
    rfl
  refine (Nat.mul_le_mul_left _ ?_).trans (b.trans (Nat.add_le_add (Nat.mul_le_mul_left _ ?_) (Nat.mul_le_mul_right _ ?_)))
  · refine Nat.card_le_card_of_injective (fun y => ⟨y.1, fun F => ?_⟩) fun a b h => Subtype.ext (congrArg (fun z => z.1) h)
    obtain ⟨y, hy⟩ := y
    obtain ⟨hw1, hw2⟩ := hworld y
    rw [← hw1]
    simp only [← hw2] at F
    exact lurked_run P rest hM' hM (hn w1) (hb w1) hm hb' hv hv' rfl (hname y) ⟨hD.comm, hD.public_ok⟩ (hsend _) hlab hlab0
      (Nat.le_refl _) rfl F rfl hy
  · refine Nat.card_le_card_of_injective (fun y => ⟨y.1, ?_⟩) fun a b h => Subtype.ext (congrArg (fun z => z.1) h)
    obtain ⟨y, F, hy⟩ := y
    obtain ⟨hw1, hw2⟩ := hworld y
    simp only [← hw2] at F
    rw [← hw1] at hy
    exact run_lurked P rest hM' hM (hn w1) (hb w1) hm hb' hv hv' rfl (hname y) ⟨hD.comm, hD.public_ok⟩ (hsend _) hlab hlab0
      (Nat.le_refl _) rfl F rfl hp hy
  · exact lurk_bound _ _

theorem few_lurked (hD : DhLaws P) (far : Bytes → Arr 32) (M : Nat) (hM : 65567 ≤ M) (prologue : Bytes)
    (hp : prologue.length + 32 ≤ M) (kp : Keypair) (eI : Arr 32) (buf1 : Bytes) (servers : List (Arr 32))
    (impostor : Bytes → Curious Bytes) (n : Nat) (hn : ∀ first, (impostor first).Within M n)
    (hb : ∀ first, (impostor first).Blind) (snoop : Snoop) (m : Nat) (hm : ∀ past, (snoop.next past).Within M m)
    (hb' : ∀ past, (snoop.next past).Blind) (hv : ∀ past, (snoop.verdict past).Within M m)
    (hv' : ∀ past, (snoop.verdict past).Blind) (rounds : Nat) (second : Bool) :
    2 ^ 256 * Nat.card {x : Hashes M × Blocks //
      Lurked P rest x.2 far prologue kp eI buf1 servers impostor snoop rounds second x.1} ≤
    2 ^ 256 * Nat.card {x : Hashes M × Blocks //
      Lurked P rest x.2 far prologue kp eI buf1 servers impostor snoop rounds (!second) x.1} +
      2 ^ 18 * (n + (rounds + 1) * m + rounds + 1) ^ 2 * Nat.card (Hashes M × Blocks) := by
  by_cases h : rounds + 3 ≤ 2 ^ 256
  · obtain ⟨labels, hlab, hlab0⟩ := labels_exist (E := rounds) h
    exact few_lurked_labels P rest hD far M hM prologue hp kp eI buf1 servers impostor n hn hb snoop m hm hb' hv hv' rounds hlab hlab0 second
  · have hc : Nat.card {x : Hashes M × Blocks //
        Lurked P rest x.2 far prologue kp eI buf1 servers impostor snoop rounds second x.1} ≤ Nat.card (Hashes M × Blocks) :=
      Nat.card_le_card_of_injective _ Subtype.val_injective
    have h2 : 2 ^ 256 ≤ 2 ^ 18 * (n + (rounds + 1) * m + rounds + 1) ^ 2 := by
      have h3 : n + (rounds + 1) * m + rounds + 1 ≤ (n + (rounds + 1) * m + rounds + 1) ^ 2 := Nat.le_self_pow (by decide) _
      generalize (n + (rounds + 1) * m + rounds + 1) ^ 2 = z at *
      omega
    exact (Nat.mul_le_mul h2 hc).trans (Nat.le_add_left _ _)

end SV2.Noise.Veiled

namespace SV2.Noise

variable (P : Prims) (rest : Arr 32 → Arr 12 → Nat → UInt8)

/-- A client sends its first message, and an attacker with at most `n` questions - hashes, blocks of ChaCha20, and answers of
responders with any secrets, the real servers among them - gives it a reply.  If the client accepts and one of the servers
made this reply for this message, the two talk: in each of `rounds` steps the attacker, after at most `m` questions, names
two texts of the same length of which one of the two sends the first (or, in the other world, the second), delivers something
to one of the two, or has one of the two change its keys, for sending or for receiving; it sees all messages, but not the keys.
After `m` more questions it says yes or no.  The numbers of the hash and block functions for which it says yes in the two
worlds, and nobody hashed a shared secret of the client with one of the servers other than for keys, differ by at most a share
of `(n + (rounds + 1) * m + rounds + 1)^2 / 2^238`. -/
theorem C115_secret (hD : DhLaws P) (far : Bytes → Arr 32) (M : Nat) (hM : 65567 ≤ M) (prologue : Bytes)
    (hp : prologue.length + 32 ≤ M) (kp : Keypair) (eI : Arr 32) (buf1 : Bytes) (servers : List (Arr 32))
    (impostor : Bytes → Curious Bytes) (n : Nat) (hn : ∀ first, (impostor first).Within M n)
    (hb : ∀ first, (impostor first).Blind) (snoop : Snoop) (m : Nat) (hm : ∀ past, (snoop.next past).Within M m)
    (hb' : ∀ past, (snoop.next past).Blind) (hv : ∀ past, (snoop.verdict past).Within M m)
    (hv' : ∀ past, (snoop.verdict past).Blind) (rounds : Nat) (second : Bool) :
    2 ^ 256 * Nat.card {x : Hashes M × Blocks //
      Lurked P rest x.2 far prologue kp eI buf1 servers impostor snoop rounds second x.1} ≤
    2 ^ 256 * Nat.card {x : Hashes M × Blocks //
      Lurked P rest x.2 far prologue kp eI buf1 servers impostor snoop rounds (!second) x.1} +
      2 ^ 18 * (n + (rounds + 1) * m + rounds + 1) ^ 2 * Nat.card (Hashes M × Blocks) :=
  Veiled.few_lurked P rest hD far M hM prologue hp kp eI buf1 servers impostor n hn hb snoop m hm hb' hv hv' rounds second

/-! ## Cases -/

/-- The attacker of `Verif/Props/Tap.lean`, which asks a responder in the end. -/
def busySnoop : Snoop where
  next := quietSnoop.next
  verdict seen := .serve (Noise.serving (List.replicate 50 9)) fun _ => quietSnoop.verdict seen

/-- It meets the hypotheses. -/
example (past : List Seen) : (busySnoop.next past).Within 65567 2 ∧ (busySnoop.next past).Blind ∧
    (busySnoop.verdict past).Within 65567 2 ∧ (busySnoop.verdict past).Blind := by
  refine ⟨?_, ?_, ⟨show 2 + 32 ≤ 65567 by decide, fun _ _ => trivial⟩, ⟨fun _ _ => trivial, fun _ _ _ => rfl⟩⟩ <;>
    unfold busySnoop quietSnoop <;> simp only [] <;> split <;> first | trivial | exact fun _ => trivial

/-- The client accepts the server's reply, which was made for its message; all messages arrive, the keys change, nobody hashed
the shared secret other than for keys, and for these functions the attacker says one thing when the first texts are sent, and
another when the second are. -/
example : let rest := fun _ _ _ => 7
    let m := firstOf (Arr.replicate 32 3)
    let eI := Arr.replicate 32 3
    let rs := toyPrims.publicOf (Arr.replicate 32 5)
    let p := (relay m.2.2).play toyPrims rest toyBlocks
    let Q := toyPrims.withBlocks rest toyBlocks
    let c := m.2.1.recvMessage Q p.result
    let start : Duo := (c.2.1, (p.served.map (·.2.session)).getD 0 toyR)
    let h := fun second => busySnoop.listen toyPrims rest toyBlocks second 6 start [] []
    let v := fun second => (busySnoop.verdict (h second).1).play toyPrims rest toyBlocks
    m.1 = .ok () ∧ c.1 = .ok () ∧ (p.served.map fun s => (s.2.prologue, s.2.first, s.2.second, toyPrims.publicOf s.1)) =
      [([1, 2], m.2.2, p.result, rs)] ∧ (h true).1.map Seen.outcome = [.ok (), .ok (), .ok (), .ok (), .ok (), .ok ()] ∧
    (c.2.1.rekeyLocal Q).cs1.k ≠ c.2.1.cs1.k ∧ (v true).result ≠ (v false).result ∧
    ∀ second : Bool, ∀ x ∈ p.heard toyPrims [1, 2] m.2.2 ++ (h second).2 ++ (v second).asked toyPrims,
      x.drop 64 ≠ (toyPrims.dh eI rs).toList := by
  decide +kernel

end SV2.Noise
