import Verif.Lemmas.Tap
import Verif.Props.Forward
import Verif.Props.Renewed
/-!
# C114: who has the server's static secret cannot tell what was sent, also when the sides change keys

As `C106_forward`, but the attacker has the two sides rekey when it likes.  The attacker, and when it says yes, are in
`Verif/Spec/Tap.lean`.
-/

namespace SV2.Noise.Distant
open SV2.Long SV2.Stack SV2.Stack.Renewal
open SV2.Noise.Veiled (Ask ne_name length_96 cut talking splitName name_hash)

variable (P : Prims) (rest : Arr 32 → Arr 12 → Nat → UInt8)

/-- If the two keys are different and the first is not empty, then none of the later ones is empty. -/
def Lasting (Q : Prims) (ee es : Arr 32) (E : Nat) (B : Blocks) : Prop :=
  (NX.transportKeys Q ee es).1 ≠ (NX.transportKeys Q ee es).2 → (NX.transportKeys Q ee es).1 ≠ EMPTY →
    ∀ e ≤ E, streamKey (B.stream rest) (NX.transportKeys Q ee es).1 e ≠ EMPTY

theorem few_not_lasting (Q : Prims) (ee es : Arr 32) (E : Nat) :
    2 ^ 256 * Nat.card {B : Blocks // ¬ Lasting rest Q ee es E B} ≤ E * (E + 2) * Nat.card Blocks := by
  obtain ⟨k, hk⟩ : ∃ k, k = NX.transportKeys Q ee es := ⟨_, rfl⟩
  by_cases hc : k.1 ≠ k.2 ∧ k.1 ≠ EMPTY
  · have := few_blocks (E := E) hc.1 (fun _ => []) (n := 0) (fun _ => Nat.le_refl _) (Lasting rest Q ee es E) (fun w hw _ _ e he => by
      rw [← hk]
      have hstream := streamKey_build rest hw.inj w.2.2 w.2.1
      rw [seat_joined] at hstream
      rw [hstream e he]
      by_cases h0 : e = 0
      · subst h0
        exact hc.2
      · have := hw.full ⟨e - 1, by omega⟩
        rw [← joined_later k w.1] at this
        simp only [Nat.sub_add_cancel (Nat.pos_of_ne_zero h0)] at this
        exact this)
    rw [Nat.zero_add] at this
    exact this
  · have : IsEmpty {B : Blocks // ¬ Lasting rest Q ee es E B} :=
      ⟨fun x => x.2 fun h1 h2 => absurd (by rw [hk]; exact ⟨h1, h2⟩) hc⟩
    rw [Nat.card_of_isEmpty, Nat.mul_zero]
    exact Nat.zero_le _

section
variable {M : Nat} (hM : 97 ≤ M) {far : Bytes → Arr 32} {prologue : Bytes} {kp : Keypair} {eI sR eR : Arr 32} {buf1 buf2 : Bytes}
variable {snoop : Bytes → Bytes → Snoop} {rounds : Nat}
variable (hb : ∀ a b past, ((snoop a b).next past).Alone) (hb' : ∀ a b past, ((snoop a b).verdict past).Alone)
variable {E : Nat} (hE : rounds ≤ E) {labels : Fin (E + 2) → Arr 32} (hl : Function.Injective labels) (hl0 : ∀ a, labels a ≠ EMPTY)
variable {H : Hashes M} {blocks : Blocks} {Q : Prims} (hQ : Q = P.withHash (H.at far)) {h0 : Arr 32} (hh : NX.h0 Q = h0)
variable (hlaws : DhLaws Q) (fits : Fits buf1 buf2) {second : Bool} {w1 : Bytes} {c : Serving} {ee es : Arr 32}
variable (hw : w1 = (Q.publicOf eI).toList ++ buf1.drop 32) (hc : c = ⟨prologue, sR, eR, w1, buf2⟩)
variable (hee : ee = Q.dh eI (Q.publicOf eR)) (hes : es = Q.dh eI (Q.publicOf sR))
variable (F : Fine (shape hM h0 ee es) (((wireJob P far h0 rest c snoop labels rounds second).guard (shape hM h0 ee es).A).log
    (world hM H blocks h0 ee es)) (cut H))
variable (hset : Lasting rest Q ee es E blocks)

include hb hb' hE hl hl0 hQ hh hlaws fits hw hc hee hes F hset

/-- If nothing happens by chance, the program says yes just when the attacker does. -/
theorem tapped_run : Tapped P rest blocks far prologue kp eI buf1 sR eR buf2 snoop rounds second H ↔
    ((wireJob P far h0 rest c snoop labels rounds second).guard (shape hM h0 ee es).A).run (world hM H blocks h0 ee es) = some true := by
  obtain ⟨hf1, hf2⟩ := fits.first
  obtain ⟨hs1, hs2⟩ := fits.second
  have hsend := send_first (P := Q) true prologue kp (Keypair.default Q eI) buf1 (by omega) hf2
  have hpubs : (Keypair.default Q eI).public_key = Q.publicOf eI := rfl
  rw [hpubs, ← hw] at hsend
  have hwt : w1.take 32 = (Q.publicOf eI).toList := by
    rw [hw]
    exact List.take_left' (Q.publicOf eI).len
  have hwd : w1.drop 32 = buf1.drop 32 := by
    rw [hw]
    exact List.drop_left' (Q.publicOf eI).len
  have hwl : w1.length = buf1.length := by
    rw [hw, List.length_append, Arr.len, List.length_drop]
    omega
  have hkey : keyIn w1 = Q.publicOf eI := (eq_keyIn (by omega) hwt.symm).symm
  -- the keys
  have hmix : .mix () ∈ ((wireJob P far h0 rest c snoop labels rounds second).guard (shape hM h0 ee es).A).log (world hM H blocks h0 ee es) :=
    List.mem_cons_self
  obtain ⟨k0, k1, k2, k3⟩ := chain_keys (ee := ee) (es := es) hM P H hQ hh
  have z0 := F.bad () hmix 0
  have z1 := F.bad () hmix 1
  have z2 := F.bad () hmix 2
  have z3 := F.bad () hmix 3
  have d23 : (NX.transportKeys Q ee es).1 ≠ (NX.transportKeys Q ee es).2 := by
    have := fun e => (F.key () () hmix hmix 2 3 e).2
    simp only [keyAt, k2, k3] at this
    intro e
    exact absurd (this e) (by decide)
  have hmixed : ∀ j, ((world hM H blocks h0 ee es).mix () j : KeyRow) =
      fun x => blocks ((shape hM h0 ee es).chain (cut H) () (keyAt j), x.1, x.2) := fun j => rfl
  have m0 := hmixed 0
  have m1 := hmixed 1
  have m2 := hmixed 2
  have m3 := hmixed 3
  simp only [keyAt, k0, k1, k2, k3] at z0 z1 z2 z3 m0 m1 m2 m3
  -- the server
  have hs : c.sR = sR := by rw [hc]
  have he : c.eR = eR := by rw [hc]
  have hp : c.prologue = prologue := by rw [hc]
  have hf : c.first = w1 := by rw [hc]
  have hbuf : c.buf = buf2 := by rw [hc]
  have e1 : Q.dh c.eR (keyIn c.first) = ee := by rw [he, hf, hkey, hee, hlaws.comm]
  have e2 : Q.dh c.sR (keyIn c.first) = es := by rw [hs, hf, hkey, hes, hlaws.comm]
  have ok : c.Ok (Q.withBlocks rest blocks) := by
    refine ⟨by rw [hf]; omega, ?_, by rw [hbuf]; omega, ?_, ?_⟩
    · rw [hf, hwt]
      exact hlaws.public_ok _
    · show (NX.afterEE Q (Q.dh c.eR (keyIn c.first))).2 ≠ NX.zeros
      rw [e1]
      exact z0
    · show (NX.afterES Q (Q.dh c.eR (keyIn c.first)) (Q.dh c.sR (keyIn c.first))).2 ≠ NX.zeros
      rw [e1, e2]
      exact z1
  have hans := (c.answer_iff (P := Q.withBlocks rest blocks) _).mpr ⟨ok, rfl⟩
  have hal : (c.made (Q.withBlocks rest blocks)).second.length ≤ 2128 := by
    show ((Q.publicOf c.eR).toList ++ c.encS (Q.withBlocks rest blocks) ++ c.encP (Q.withBlocks rest blocks)).length ≤ 2128
    simp only [List.length_append, c.encS_length, c.encP_length, Arr.len, body, List.length_take, List.length_drop, hbuf]
    omega
  -- the client
  obtain ⟨⟨out, hrecv⟩, hsess⟩ := Serving.completes (P := Q.withBlocks rest blocks) (s := kp) (eI := eI) (prologue := prologue)
    (first := w1) (second := (c.made (Q.withBlocks rest blocks)).second) ⟨hlaws.comm, hlaws.public_ok⟩ (withMac_correct Q _ _) hans
    hwt hp hf rfl hal
  have e3 : keyIn (c.made (Q.withBlocks rest blocks)).second = Q.publicOf eR := by
    refine (eq_keyIn ?_ ?_).symm
    · show 32 ≤ ((Q.publicOf c.eR).toList ++ c.encS (Q.withBlocks rest blocks) ++ c.encP (Q.withBlocks rest blocks)).length
      simp only [List.length_append, Arr.len]
      omega
    · rw [(c.made_parts (P := Q.withBlocks rest blocks)).1, he]
      rfl
  have hkeys : NX.transportKeys (Q.withBlocks rest blocks) ((Q.withBlocks rest blocks).dh eI
      (keyIn (c.made (Q.withBlocks rest blocks)).second)) ((Q.withBlocks rest blocks).dh eI ((Q.withBlocks rest blocks).publicOf c.sR)) =
      NX.transportKeys Q ee es := by
    rw [e3, hee, hes, hs]
    rfl
  rw [hkeys] at hrecv hsess
  -- the program
  have hdh : Q.dh = P.dh := by rw [hQ]; rfl
  have hpub : Q.publicOf = P.publicOf := by rw [hQ]; rfl
  have hk1 : (NX.afterEE Q (P.dh c.eR (keyIn c.first))).2 = (NX.afterEE Q ee).2 := by rw [← hdh, e1]
  have hk2 : (NX.afterES Q (P.dh c.eR (keyIn c.first)) (P.dh c.sR (keyIn c.first))).2 = (NX.afterES Q ee es).2 := by
    rw [← hdh, e1, e2]
  obtain ⟨a, ha⟩ : ∃ a, a = c.made (Q.withBlocks rest blocks) := ⟨_, rfl⟩
  obtain ⟨t, ht⟩ : ∃ t, t = NX.transcript Q (NX.parts prologue w1 a.second) := ⟨_, rfl⟩
  obtain ⟨h, hh'⟩ : ∃ h, h = (snoop w1 a.second).listen Q rest blocks second rounds
    (talking (Q.publicOf sR) t (NX.transportKeys Q ee es)) [] [] := ⟨_, rfl⟩
  obtain ⟨v, hv⟩ : ∃ v, v = ((snoop w1 a.second).verdict h.1).play Q rest blocks := ⟨_, rfl⟩
  have yes : Tapped P rest blocks far prologue kp eI buf1 sR eR buf2 snoop rounds second H ↔
      innerInput h0 ee ∉ NX.hashInputs Q (NX.h0 Q) (NX.parts prologue w1 a.second) ++ h.2 ++ v.asked Q ∧ v.result = true := by
    unfold Tapped
    rw [← hQ]
    have hstart : (mid Q true prologue kp (Keypair.default Q eI) EMPTY (Q.publicOf eI).toList (buf1.drop 32)).recvMessage
        (Q.withBlocks rest blocks) a.second =
        (.ok (), (talking (Q.publicOf sR) t (NX.transportKeys Q ee es)).1, out) := by
      rw [hwt, hwd, ← ha] at hrecv
      rw [ht, ← hs]
      exact hrecv
    have hstart' : a.session = (talking (Q.publicOf sR) t (NX.transportKeys Q ee es)).2 := by
      rw [← ha] at hsess
      rw [ht]
      exact hsess
    rw [← ha, hc] at hans
    constructor
    · rintro ⟨i1, first, g1, a', g2, i2, out', g3, g4⟩
      rw [hsend] at g1
      simp only [Prod.mk.injEq, true_and] at g1
      obtain ⟨rfl, rfl⟩ := g1
      rw [hans] at g2
      obtain rfl := Option.some.inj g2
      rw [hstart] at g3
      simp only [Prod.mk.injEq, true_and] at g3
      obtain ⟨rfl, rfl⟩ := g3
      rw [hstart', ← hee, hh] at g4
      have g4' := g4
      simp only at g4'
      rw [show ((talking (Q.publicOf sR) t (NX.transportKeys Q ee es)).1, (talking (Q.publicOf sR) t (NX.transportKeys Q ee es)).2) =
        talking (Q.publicOf sR) t (NX.transportKeys Q ee es) from rfl, ← hh', ← hv, ← hh] at g4'
      rw [← hh]
      exact g4'
    · intro g
      refine ⟨_, _, hsend, a, hans, _, _, hstart, ?_⟩
      rw [hstart', ← hee]
      simp only
      rw [show ((talking (Q.publicOf sR) t (NX.transportKeys Q ee es)).1, (talking (Q.publicOf sR) t (NX.transportKeys Q ee es)).2) =
        talking (Q.publicOf sR) t (NX.transportKeys Q ee es) from rfl, ← hh', ← hv]
      rw [← hh] at g
      exact g
  rw [yes]
  have hlog : ∀ L : Log M, (wiredJob P far h0 rest c snoop labels rounds second ((world hM H blocks h0 ee es).mix ())).log
        (world hM H blocks h0 ee es) ⊆ L →
      (wiredJob P far h0 rest c snoop labels rounds second ((world hM H blocks h0 ee es).mix ())).run (world hM H blocks h0 ee es) = v.result ∧
      (∀ x ∈ NX.hashInputs Q (NX.h0 Q) (NX.parts prologue w1 a.second) ++ h.2 ++ v.asked Q, x.length ≤ M → Logged L x) ∧
      Asks ((wiredJob P far h0 rest c snoop labels rounds second ((world hM H blocks h0 ee es).mix ())).log (world hM H blocks h0 ee es))
        (· ∈ NX.hashInputs Q (NX.h0 Q) (NX.parts prologue w1 a.second) ++ h.2 ++ v.asked Q) := by
    intro L hL
    unfold wiredJob at hL ⊢
    rw [m0, m1, m2, m3] at hL ⊢
    rw [Prog.log_bind] at hL
    obtain ⟨l1, l2⟩ := List.append_subset.mp hL
    obtain ⟨r1, r2, r3⟩ := replyJob_spec hM P H blocks hQ hh rest c ok hk1 hk2 l1
    rw [← ha, hp, hf, ← ht] at r1
    rw [← ha, hp, hf] at r2 r3
    rw [r1, hf, hs, ← hpub] at l2
    obtain ⟨v1, v2, v3⟩ := lateJob_spec (k := NX.transportKeys Q ee es) hM P H blocks hQ hh rest (hb w1 a.second) (hb' w1 a.second)
      hl hl0 (hset d23 z2) z3 second hE (Q.publicOf sR) t hh' hv l2
    rw [Prog.run_bind, Prog.log_bind, r1, hf, hs, ← hpub, List.append_assoc]
    refine ⟨v1, fun x hx hl => ?_, (r3.mono fun x hx => List.mem_append_left _ hx).append
      (v3.mono fun x hx => List.mem_append_right _ hx)⟩
    rcases List.mem_append.mp hx with hx | hx
    · exact r2 x hx hl
    · exact v2 x hx hl
  obtain ⟨j1, j2, j3⟩ := hlog _ (List.Subset.refl _)
  have hA : (shape hM h0 ee es).A () = ⟨innerInput h0 ee, by
      rw [show (innerInput h0 ee).length = 96 from length_96 0x36 h0 ee]; omega,
      ne_name (by rw [show (innerInput h0 ee).length = 96 from length_96 0x36 h0 ee]; decide)⟩ := rfl
  show _ ↔ ((wiredJob P far h0 rest c snoop labels rounds second ((world hM H blocks h0 ee es).mix ())).guard (shape hM h0 ee es).A).run
    (world hM H blocks h0 ee es) = some true
  constructor
  · rintro ⟨g1, g2⟩
    rw [Prog.guard_run, j1, g2]
    intro q hq
    exact g1 (j3 _ hq)
  · intro g
    have hno := Prog.guard_some _ _ _ _ g
    rw [Prog.guard_run _ _ _ hno, j1] at g
    refine ⟨fun hx => ?_, Option.some.inj g⟩
    have hlen : (innerInput h0 ee).length = 96 := length_96 0x36 h0 ee
    rcases j2 _ hx (by omega) with hx | ⟨_, hx⟩
    · exact ne_name (by omega) hx
    · exact hno () hx

end

/-- The next theorem, for worlds where no later key is empty. -/
theorem few_tapped_lasting (hD : DhLaws P) (far : Bytes → Arr 32) (M : Nat) (hM : 97 ≤ M) (prologue : Bytes) (kp : Keypair)
    (eI : Arr 32) (buf1 : Bytes) (sR eR : Arr 32) (buf2 buf2' : Bytes) (hl : buf2.length = buf2'.length)
    (snoop : Bytes → Bytes → Snoop) (m : Nat)
    (hm : ∀ a b past, ((snoop a b).next past).Within M m ∧ ((snoop a b).verdict past).Within M m)
    (hb : ∀ a b past, ((snoop a b).next past).Alone ∧ ((snoop a b).verdict past).Alone) (rounds : Nat) (hbig : rounds + 3 ≤ 2 ^ 256)
    (second second' : Bool) (ee es : Arr 32) (hee : ee = P.dh eI (P.publicOf eR)) (hes : es = P.dh eI (P.publicOf sR)) :
    2 ^ 256 * Nat.card {x : Hashes M × Blocks // Tapped P rest x.2 far prologue kp eI buf1 sR eR buf2 snoop rounds second x.1 ∧
      Lasting rest (P.withHash (x.1.at far)) ee es rounds x.2} ≤
    2 ^ 256 * Nat.card {x : Hashes M × Blocks // Lasting rest (P.withHash (x.1.at far)) ee es rounds x.2 →
      Tapped P rest x.2 far prologue kp eI buf1 sR eR buf2' snoop rounds second' x.1} +
      (720 * ((rounds + 1) * m + rounds + 7) ^ 2 + 2 * (rounds * ((rounds + 1) * m + rounds + 2))) *
        Nat.card (Hashes M × Blocks) := by
  by_cases hfits : Fits buf1 buf2
  swap
  · have : IsEmpty {x : Hashes M × Blocks // Tapped P rest x.2 far prologue kp eI buf1 sR eR buf2 snoop rounds second x.1 ∧
        Lasting rest (P.withHash (x.1.at far)) ee es rounds x.2} := by
      refine ⟨fun x => hfits ?_⟩
      obtain ⟨x, ⟨i1, first, h1, a, h2, i2, out, h3, -⟩, -⟩ := x
      obtain ⟨hmid, hpub, g1, g2, g3⟩ := send_first_ok h1
      subst hmid
      obtain ⟨ok, rfl⟩ := ((Serving.mk prologue sR eR first buf2).answer_iff _).mp h2
      obtain ⟨_, _, _, _, _, _, hl, -⟩ := recv_second_ok h3
      have k1 := ok.first
      have k2 := ok.buf
      simp only at k1 k2
      have l1 := congrArg List.length g3
      rw [List.length_drop, List.length_drop] at l1
      have l2 : ((Serving.mk prologue sR eR first buf2).made ((P.withHash (x.1.at far)).withBlocks rest x.2)).second.length =
          32 + 48 + ((body (buf2.drop 80)).length + 16) := by
        show (_ ++ _ ++ _ : Bytes).length = _
        rw [List.length_append, List.length_append, Arr.len, Serving.encS_length, Serving.encP_length]
      rw [l2] at hl
      simp only [body, List.length_take, List.length_drop] at hl
      exact ⟨by omega, by omega⟩
    rw [Nat.card_of_isEmpty, Nat.mul_zero]
    exact Nat.zero_le _
  have hfits' : Fits buf1 buf2' := ⟨hfits.first, hl ▸ hfits.second⟩
  obtain ⟨labels, hlab, hlab0⟩ := labels_exist hbig
  obtain ⟨w1, hw⟩ : ∃ w1, w1 = (P.publicOf eI).toList ++ buf1.drop 32 := ⟨_, rfl⟩
  let e : Hashes M × Blocks ≃ Arr 32 × ((Ask M → Arr 32) × (Arr 32 → KeyRow)) :=
    ((splitName hM).prodCongr (Equiv.curry (Arr 32) (Arr 12 × Fin 1025) (Arr 64))).trans (Equiv.prodAssoc _ _ _)
  let yes : Bytes → Bool → Hashes M × Blocks → Prop := fun buf second x =>
    Tapped P rest x.2 far prologue kp eI buf1 sR eR buf snoop rounds second x.1
  let set : Hashes M × Blocks → Prop := fun x => Lasting rest (P.withHash (x.1.at far)) ee es rounds x.2
  have e' : ∀ p : Hashes M × Blocks → Prop, Nat.card {x : Hashes M × Blocks // p x} =
      Nat.card {x : Arr 32 × ((Ask M → Arr 32) × (Arr 32 → KeyRow)) // p (e.symm (x.1, x.2))} := fun p =>
    Nat.card_congr (e.subtypeEquiv fun x => by
      show _ ↔ p (e.symm (e x))
      rw [Equiv.symm_apply_apply])
  show 2 ^ 256 * Nat.card {x : Hashes M × Blocks // yes buf2 second x ∧ set x} ≤
    2 ^ 256 * Nat.card {x : Hashes M × Blocks // set x → yes buf2' second' x} + _
  rw [e', e' fun x => set x → yes buf2' second' x, Nat.card_congr e]
  refine card_prod_diff _ _ (fun h y => yes buf2 second (e.symm (h, y)) ∧ set (e.symm (h, y)))
    (fun h y => set (e.symm (h, y)) → yes buf2' second' (e.symm (h, y))) fun h => ?_
  have : Nonempty (Arr 32) := ⟨NX.zeros⟩
  have : Nonempty KeyRow := ⟨fun _ => Arr.replicate 64 0⟩
  let job : Bytes → Bool → Job M (Option Bool) := fun buf second =>
    (wireJob P far h rest ⟨prologue, sR, eR, w1, buf⟩ snoop labels rounds second).guard (shape hM h ee es).A
  have hcalls : ∀ buf second w, ((job buf second).log w).length ≤ (rounds + 1) * m + rounds + 7 := fun buf second w =>
    (Prog.guard_prefix _ w _).length_le.trans (wireJob_calls P far h rest _ snoop labels rounds m (fun a b past => (hm a b past).1)
      (fun a b past => (hm a b past).2) second w)
  have b := card_real_near (shape hM h ee es) (shape hM h ee es) (job buf2 second) (job buf2' second') _
    (2 * (rounds * ((rounds + 1) * m + rounds + 2))) (hcalls buf2 second) (hcalls buf2' second')
    (fun w p => Prog.guard_never _ w _ p) (fun w p => Prog.guard_never _ w _ p) (fun a => a = some true)
    (by
      rw [Crypto.Poly1305.card_keys]
      exact wireJob_alike P rest hlab hlab0 _ ⟨prologue, sR, eR, w1, buf2⟩ ⟨prologue, sR, eR, w1, buf2'⟩ rfl hl
        (hfits'.second.2.trans (by decide)) snoop (Nat.le_refl _) m (fun a b past => (hm a b past).1) (fun a b past => (hm a b past).2)
        second second')
  rw [Crypto.Poly1305.card_keys] at b
  have hname : ∀ y : (Ask M → Arr 32) × (Arr 32 → KeyRow), NX.h0 (P.withHash ((e.symm (h, y)).1.at far)) = h := by
    intro y
    rw [name_hash P hM]
    exact congrArg Prod.fst (e.apply_symm_apply (h, y))
  have hworld : ∀ y : (Ask M → Arr 32) × (Arr 32 → KeyRow), world hM (e.symm (h, y)).1 (e.symm (h, y)).2 h ee es =
      real (shape hM h ee es) y.1 y.2 ∧ cut (e.symm (h, y)).1 = y.1 := by
    intro y
    have h1 : cut (e.symm (h, y)).1 = y.1 := congrArg (fun z => z.2.1) (e.apply_symm_apply (h, y))
    refine ⟨?_, h1⟩
    unfold world
    rw [h1]
    rfl
  refine (Nat.mul_le_mul_left _ ?_).trans (b.trans (Nat.add_le_add (Nat.mul_le_mul_left _ ?_) (Nat.le_refl _)))
  · refine Nat.card_le_card_of_injective (fun y => ⟨y.1, fun F => ?_⟩) fun a b h => Subtype.ext (congrArg (fun z => z.1) h)
    obtain ⟨y, hy, hset⟩ := y
    obtain ⟨hw1, hw2⟩ := hworld y
    rw [← hw1] at F ⊢
    simp only [← hw2] at F
    exact (tapped_run P rest hM (fun a b past => (hb a b past).1) (fun a b past => (hb a b past).2) (Nat.le_refl _) hlab hlab0 rfl (hname y)
      ⟨hD.comm, hD.public_ok⟩ hfits hw rfl hee hes F hset).mp hy
  · refine Nat.card_le_card_of_injective (fun y => ⟨y.1, fun hset => ?_⟩) fun a b h => Subtype.ext (congrArg (fun z => z.1) h)
    obtain ⟨y, F, hy⟩ := y
    obtain ⟨hw1, hw2⟩ := hworld y
    rw [← hw1] at F hy
    simp only [← hw2] at F
    exact (tapped_run P rest hM (fun a b past => (hb a b past).1) (fun a b past => (hb a b past).2) (Nat.le_refl _) hlab hlab0 rfl (hname y)
      ⟨hD.comm, hD.public_ok⟩ hfits' hw rfl hee hes F hset).mpr hy

theorem few_tapped (hD : DhLaws P) (far : Bytes → Arr 32) (M : Nat) (hM : 97 ≤ M) (prologue : Bytes) (kp : Keypair)
    (eI : Arr 32) (buf1 : Bytes) (sR eR : Arr 32) (buf2 buf2' : Bytes) (hl : buf2.length = buf2'.length)
    (snoop : Bytes → Bytes → Snoop) (m : Nat)
    (hm : ∀ a b past, ((snoop a b).next past).Within M m ∧ ((snoop a b).verdict past).Within M m)
    (hb : ∀ a b past, ((snoop a b).next past).Alone ∧ ((snoop a b).verdict past).Alone) (rounds : Nat) (second second' : Bool) :
    2 ^ 256 * Nat.card {x : Hashes M × Blocks //
      Tapped P rest x.2 far prologue kp eI buf1 sR eR buf2 snoop rounds second x.1} ≤
    2 ^ 256 * Nat.card {x : Hashes M × Blocks //
      Tapped P rest x.2 far prologue kp eI buf1 sR eR buf2' snoop rounds second' x.1} +
      2 ^ 10 * ((rounds + 1) * m + rounds + 7) ^ 2 * Nat.card (Hashes M × Blocks) := by
  obtain ⟨n, hn⟩ : ∃ n, n = (rounds + 1) * m + rounds + 7 := ⟨_, rfl⟩
  by_cases hbig : rounds + 3 ≤ 2 ^ 256
  swap
  · refine Nat.le_trans (Nat.mul_le_mul ?_ (Nat.card_le_card_of_injective _ Subtype.val_injective)) (Nat.le_add_left _ _)
    have h1 : 2 ^ 256 ≤ n := by omega
    calc 2 ^ 256 ≤ n := h1
      _ ≤ n * n := Nat.le_mul_self n
      _ = n ^ 2 := (Nat.pow_two n).symm
      _ ≤ 2 ^ 10 * ((rounds + 1) * m + rounds + 7) ^ 2 := by rw [← hn]; omega
  obtain ⟨ee, hee⟩ : ∃ ee, ee = P.dh eI (P.publicOf eR) := ⟨_, rfl⟩
  obtain ⟨es, hes⟩ : ∃ es, es = P.dh eI (P.publicOf sR) := ⟨_, rfl⟩
  have key := few_tapped_lasting P rest hD far M hM prologue kp eI buf1 sR eR buf2 buf2' hl snoop m hm hb rounds hbig second second' ee es
    hee hes
  have bad : 2 ^ 256 * Nat.card {x : Hashes M × Blocks // ¬ Lasting rest (P.withHash (x.1.at far)) ee es rounds x.2} ≤
      rounds * (rounds + 2) * Nat.card (Hashes M × Blocks) := by
    have := card_prod_diff (2 ^ 256) (rounds * (rounds + 2)) (fun (H : Hashes M) (B : Blocks) =>
      ¬ Lasting rest (P.withHash (H.at far)) ee es rounds B) (fun _ _ => False) fun H =>
        (few_not_lasting rest (P.withHash (H.at far)) ee es rounds).trans (Nat.le_add_left _ _)
    have z : Nat.card {x : Hashes M × Blocks // False} = 0 := Nat.card_of_isEmpty
    rw [z, Nat.mul_zero, Nat.zero_add] at this
    exact this
  have g1 : Nat.card {x : Hashes M × Blocks // Tapped P rest x.2 far prologue kp eI buf1 sR eR buf2 snoop rounds second x.1} ≤
      Nat.card {x : Hashes M × Blocks // Tapped P rest x.2 far prologue kp eI buf1 sR eR buf2 snoop rounds second x.1 ∧
        Lasting rest (P.withHash (x.1.at far)) ee es rounds x.2} +
      Nat.card {x : Hashes M × Blocks // ¬ Lasting rest (P.withHash (x.1.at far)) ee es rounds x.2} :=
    card_imp_or fun x hx => by tauto
  have g2 : Nat.card {x : Hashes M × Blocks // Lasting rest (P.withHash (x.1.at far)) ee es rounds x.2 →
        Tapped P rest x.2 far prologue kp eI buf1 sR eR buf2' snoop rounds second' x.1} ≤
      Nat.card {x : Hashes M × Blocks // Tapped P rest x.2 far prologue kp eI buf1 sR eR buf2' snoop rounds second' x.1} +
      Nat.card {x : Hashes M × Blocks // ¬ Lasting rest (P.withHash (x.1.at far)) ee es rounds x.2} :=
    card_imp_or fun x hx => by tauto
  have hc : 720 * n ^ 2 + 2 * (rounds * ((rounds + 1) * m + rounds + 2)) + 2 * (rounds * (rounds + 2)) ≤ 2 ^ 10 * n ^ 2 := by
    have h1 : rounds * ((rounds + 1) * m + rounds + 2) ≤ n * n := Nat.mul_le_mul (by omega) (by omega)
    have h2 : rounds * (rounds + 2) ≤ n * n := Nat.mul_le_mul (by omega) (by omega)
    rw [Nat.pow_two]
    omega
  rw [← hn] at key ⊢
  have hc' := Nat.mul_le_mul_right (Nat.card (Hashes M × Blocks)) hc
  simp only [Nat.add_mul] at hc' key
  have a1 := Nat.mul_le_mul_left (2 ^ 256) g1
  have a2 := Nat.mul_le_mul_left (2 ^ 256) g2
  rw [Nat.mul_add] at a1 a2
  have a3 : 2 * (rounds * (rounds + 2)) * Nat.card (Hashes M × Blocks) = 2 * (rounds * (rounds + 2) * Nat.card (Hashes M × Blocks)) :=
    Nat.mul_assoc _ _ _
  rw [a3] at hc'
  omega

end SV2.Noise.Distant

namespace SV2.Noise

variable (P : Prims) (rest : Arr 32 → Arr 12 → Nat → UInt8)

/-- A client and a server do a handshake, and nobody changes their two messages.  An attacker - which may depend on all
secrets, and sees the two messages - then sits between the two: in each of `rounds` steps, after at most `m` hashes and
blocks of ChaCha20, it names two texts of the same length of which one of the two sends the first (or the second), or
delivers something to one of the two, or has one of the two change keys; it sees all messages, but not the keys.  After `m` more
hashes and blocks it says yes or no.  Take any two worlds: in them the server's handshake message carries any two payloads of
the same length, and either of the texts is sent.  The numbers of the hash and block functions for which the attacker says yes
in the two worlds, and nobody hashed the shared secret of the two ephemeral keys other than for keys, differ by at most a share
of `((rounds + 1) * m + rounds + 7)^2 / 2^246`. -/
theorem C114_forward (hD : DhLaws P) (far : Bytes → Arr 32) (M : Nat) (hM : 97 ≤ M) (prologue : Bytes) (kp : Keypair)
    (eI : Arr 32) (buf1 : Bytes) (sR eR : Arr 32) (buf2 buf2' : Bytes) (hl : buf2.length = buf2'.length)
    (snoop : Bytes → Bytes → Snoop) (m : Nat)
    (hm : ∀ a b past, ((snoop a b).next past).Within M m ∧ ((snoop a b).verdict past).Within M m)
    (hb : ∀ a b past, ((snoop a b).next past).Alone ∧ ((snoop a b).verdict past).Alone) (rounds : Nat)
    (second second' : Bool) :
    2 ^ 256 * Nat.card {x : Hashes M × Blocks //
      Tapped P rest x.2 far prologue kp eI buf1 sR eR buf2 snoop rounds second x.1} ≤
    2 ^ 256 * Nat.card {x : Hashes M × Blocks //
      Tapped P rest x.2 far prologue kp eI buf1 sR eR buf2' snoop rounds second' x.1} +
      2 ^ 10 * ((rounds + 1) * m + rounds + 7) ^ 2 * Nat.card (Hashes M × Blocks) :=
  Distant.few_tapped P rest hD far M hM prologue kp eI buf1 sR eR buf2 buf2' hl snoop m hm hb rounds second second'

/-! ## Cases -/

/-- An attacker that has the client send one of two texts and passes the message on, has client and server change keys after
hashing something and computing a block, has the client send again and passes that on too, and in the end looks at the first
byte of the last message. -/
def quietSnoop : Snoop where
  next seen :=
    let wire := fun j => (seen.map Seen.wire).getD j []
    match seen.length with
    | 0 => .reply (.send .initiator (List.replicate 40 1) (List.replicate 40 2))
    | 1 => .reply (.deliver .responder (wire 0))
    | 2 => .hash (List.replicate 96 1) fun _ => .reply (.rekeyLocal .initiator)
    | 3 => .block (Arr.replicate 32 2, NX.nonce 0, 0) fun _ => .reply (.rekeyRemote .responder)
    | 4 => .reply (.send .initiator (List.replicate 30 3) (List.replicate 30 4))
    | _ => .reply (.deliver .responder (wire 4))
  verdict seen := .hash [1] fun _ => .reply ((seen.map Seen.wire).getD 4 [] |>.getD 0 0 |>.toNat |>.testBit 0)

/-- It meets the hypotheses. -/
theorem quietSnoop_ok (past : List Seen) : ((quietSnoop.next past).Within 97 1 ∧ (quietSnoop.verdict past).Within 97 1) ∧
    (quietSnoop.next past).Alone ∧ (quietSnoop.verdict past).Alone := by
  refine ⟨⟨?_, fun _ => trivial⟩, ?_, fun _ => trivial⟩ <;> unfold quietSnoop <;> simp only [] <;> split <;>
    first | trivial | exact fun _ => trivial

/-- The handshake succeeds, all messages arrive, the keys change, and nobody hashed the shared secret of the ephemeral keys
other than for keys; for these functions the attacker says one thing when the first texts are sent, and another when the second
are.  (With another payload of the server it says the same.) -/
example : let rest := fun _ _ _ => 7
    let m := firstOf (Arr.replicate 32 3)
    let Q := toyPrims.withBlocks rest toyBlocks
    ∀ fill ∈ ([8, 9] : List UInt8),
    let a := (Serving.mk [1, 2] (Arr.replicate 32 5) (Arr.replicate 32 4) m.2.2 (List.replicate 100 fill)).answer Q
    let c := m.2.1.recvMessage Q ((a.map (·.second)).getD [])
    let h := fun second => quietSnoop.listen toyPrims rest toyBlocks second 6 (c.2.1, (a.map (·.session)).getD toyR) [] []
    let v := fun second => (quietSnoop.verdict (h second).1).play toyPrims rest toyBlocks
    m.1 = .ok () ∧ a.isSome ∧ c.1 = .ok () ∧ (h true).1.map Seen.outcome = [.ok (), .ok (), .ok (), .ok (), .ok (), .ok ()] ∧
    (c.2.1.rekeyLocal Q).cs1.k ≠ c.2.1.cs1.k ∧ (v true).result ≠ (v false).result ∧
    ∀ second : Bool, ∀ x ∈ NX.hashInputs toyPrims (NX.h0 toyPrims) (NX.parts [1, 2] m.2.2 ((a.map (·.second)).getD [])) ++
        (h second).2 ++ (v second).asked toyPrims,
      x ≠ innerInput (NX.h0 toyPrims) (toyPrims.dh (Arr.replicate 32 3) (toyPrims.publicOf (Arr.replicate 32 4))) := by
  decide +kernel

end SV2.Noise
