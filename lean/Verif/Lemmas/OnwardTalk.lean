import Verif.Lemmas.Onward
import Verif.Lemmas.VeilEnd
/-!
# The two sides talk and change keys

The program of `Verif/Lemmas/VeilTalk.lean`, for an attacker that has the two sides rekey.
-/

namespace SV2.Noise.Veiled
open SV2.Veil SV2.Stack SV2.Stack.Renewal
open SV2.Noise.Distant (gathered trail seat_trail trail_rekeyed trail_like)

section
variable (P : Prims) {M : Nat} (far : Bytes → Arr 32) (h0 : Arr 32) (D : List (Arr 32)) (rest : Arr 32 → Arr 12 → Nat → UInt8)

/-- The rows of the later keys of a chain. -/
def laterJob (r : KeyRow) : Nat → Job M h0 D (Nat → KeyRow)
  | 0 => .ret fun _ => r
  | e + 1 => (laterJob r e).bind fun f => .row (link (f e)) fun r' => .ret (Function.update f (e + 1) r')

theorem laterJob_calls (r : KeyRow) (e : Nat) : Calls (M := M) h0 D e (laterJob h0 D r e) := by
  induction e with
  | zero => exact Calls.ret _
  | succ e ih => exact ih.bind fun f w => Nat.le_refl _

/-- The attacker between the two sides, with the blocks of all their keys. -/
noncomputable def onJob (watcher : Watcher) (E : Nat) (labels : Fin (E + 2) → Arr 32) (rounds : Nat)
    (c : Arr 32 × Arr 32 × (Fin 3 → KeyRow)) : Job M h0 D (SNet × List SNet) :=
  (laterJob h0 D (c.2.2 1) E).bind fun f =>
    talkJob P far h0 D watcher (P.withBlocks rest (build labels (gathered E f (c.2.2 2)) fun _ => Arr.replicate 64 0))
      (afterwards c.1 c.2.1 (seat labels 0)) rounds

/-- All of it: the attacker, the client, and the attacker between the two sides. -/
noncomputable def onwardJob (prologue : Bytes) (eI : Arr 32) (first : Bytes) (impostor : Curious Bytes) (watcher : Watcher) (E : Nat)
    (labels : Fin (E + 2) → Arr 32) (rounds : Nat) : Job M h0 D (SNet × List SNet) :=
  (firstJob P far h0 D prologue eI first impostor).bind (onJob P far h0 D rest watcher E labels rounds)

theorem onwardJob_calls (prologue : Bytes) (eI : Arr 32) (first : Bytes) (impostor : Curious Bytes) (watcher : Watcher) (E : Nat)
    (labels : Fin (E + 2) → Arr 32) (rounds n m : Nat) (hn : impostor.Within M n) (hm : ∀ past, (watcher past).Within M m) :
    Calls (M := M) h0 D (20 * (n + rounds * m + E + 1)) (onwardJob P far h0 D rest prologue eI first impostor watcher E labels rounds) :=
  ((((attackJob_calls P far h0 D impostor n hn).bind fun p => clientJob_calls P far h0 D prologue eI first p)).bind fun c =>
    (laterJob_calls h0 D _ E).bind fun f => talkJob_calls P far h0 D watcher _ _ m hm rounds).mono (by omega)

end

section
variable {M : Nat} (hM : 97 ≤ M) {far : Bytes → Arr 32} {h0 : Arr 32} (D : List (Arr 32)) {P : Prims} (H : Hashes M)
variable (blocks : Blocks) {Q : Prims} (hQ : Q = P.withHash (H.at far)) (hh : NX.h0 Q = h0)
variable (rest : Arr 32 → Arr 12 → Nat → UInt8) (hM' : 65567 ≤ M)

/-- It gives the rows, and hashes nothing. -/
theorem laterJob_spec (k : Arr 32) (E : Nat) :
    (∀ e ≤ E, (laterJob h0 D (fun x => blocks (k, x)) E).run (world hM H blocks h0 D) e =
      fun x => blocks (streamKey (blocks.stream rest) k e, x)) ∧
    ∀ φ, Asks ((laterJob h0 D (fun x => blocks (k, x)) E).log (world hM H blocks h0 D)) φ := by
  induction E with
  | zero =>
    refine ⟨fun e he => ?_, fun φ => Asks.nil⟩
    obtain rfl := Nat.le_zero.mp he
    rfl
  | succ E ih =>
    obtain ⟨i1, i2⟩ := ih
    unfold laterJob
    rw [Prog.run_bind, Prog.log_bind]
    refine ⟨fun e he => ?_, fun φ => (i2 φ).append (Asks.row _)⟩
    by_cases h : e = E + 1
    · subst h
      show Function.update _ (E + 1) _ (E + 1) = _
      rw [Function.update_self, streamKey_succ, i1 E (Nat.le_refl _)]
      rfl
    · show Function.update _ (E + 1) _ e = _
      rw [Function.update_of_ne h]
      exact i1 e (by omega)

include hQ hh hM'

theorem talkJob_clad {watcher : Watcher} {m : Nat} (hm : ∀ past, (watcher past).Within M m) (hb : ∀ past, (watcher past).Blind) {E : Nat}
    (hE : (watcher.forger Q rest blocks).Rekeys E) {keys labels : Fin (E + 2) → Arr 32} {Q' : Prims}
    (hLike : ∀ a, Like (Q.withBlocks rest blocks) Q' (keys a) (labels a))
    (hK : ∀ (s : NoiseSession) (e : Nat) remote, e < E →
      (s.dressed (seat keys e)).rekeyed (Q.withBlocks rest blocks) remote = s.dressed (seat keys (e + 1)))
    (hK' : ∀ (s : NoiseSession) (e : Nat) remote, e < E → s.Wears (seat labels e) →
      s.rekeyed Q' remote = s.dressed (seat labels (e + 1)))
    {start : SNet} (hs : Labelled labels start) (j : Nat) {L : Log M h0 D}
    (hL : (talkJob P far h0 D watcher Q' start j).log (world hM H blocks h0 D) ⊆ L) :
    (SNet.attacked (Q.withBlocks rest blocks) (watcher.forger Q rest blocks) (clad keys start) j =
      (clad keys ((talkJob P far h0 D watcher Q' start j).run (world hM H blocks h0 D)).1,
        ((talkJob P far h0 D watcher Q' start j).run (world hM H blocks h0 D)).2.map (clad keys))) ∧
    Labelled labels ((talkJob P far h0 D watcher Q' start j).run (world hM H blocks h0 D)).1 ∧
    (∀ k ∈ (asker watcher Q).used Q rest blocks (clad keys start) j, Known D L Q k) ∧
    Asks ((talkJob P far h0 D watcher Q' start j).log (world hM H blocks h0 D)) fun x => Unlike h0 D x ∨
      x ∈ watcher.heard Q rest blocks (clad keys start) j := by
  induction j with
  | zero => exact ⟨rfl, hs, fun k hk => (List.not_mem_nil hk).elim, Asks.nil⟩
  | succ j ih =>
    unfold talkJob at hL ⊢
    rw [Prog.log_bind, Prog.log_bind] at hL
    obtain ⟨l1, hL⟩ := List.append_subset.mp hL
    obtain ⟨l2, -⟩ := List.append_subset.mp hL
    obtain ⟨e1, e2, e3, e4⟩ := ih l1
    rw [Prog.run_bind, Prog.run_bind, Prog.log_bind, Prog.log_bind]
    generalize (talkJob P far h0 D watcher Q' start j).run (world hM H blocks h0 D) = h at *
    have hseen : (clad keys h.1 :: h.2.map (clad keys)).map SNet.seen = (h.1 :: h.2).map SNet.seen := map_seen_clad keys (h.1 :: h.2)
    obtain ⟨a1, a2, a3, a4⟩ := attackJob_spec hM D P H blocks hQ hh rest hM' (watcher ((h.1 :: h.2).map SNet.seen)) m (hm _) (hb _) l2
    have hact : watcher.forger Q rest blocks (clad keys h.1 :: h.2.map (clad keys)) =
        ((watcher ((h.1 :: h.2).map SNet.seen)).play Q rest blocks).result := by
      unfold Watcher.forger
      rw [hseen]
    have hrk := fun remote => hE (clad keys h.1) (h.2.map (clad keys)) remote
    rw [hact] at hrk
    obtain ⟨s1, s2⟩ := step_clad_of hLike hK hK' e2 (act := ((watcher ((h.1 :: h.2).map SNet.seen)).play Q rest blocks).result)
      (fun remote hr => Nat.lt_of_not_le fun hle => (hrk remote).1 hle hr)
      (fun remote hr => Nat.lt_of_not_le fun hle => (hrk remote).2 hle hr)
    have hstep : SNet.attacked (Q.withBlocks rest blocks) (watcher.forger Q rest blocks) (clad keys start) (j + 1) =
        (clad keys (h.1.step Q' ((watcher ((h.1 :: h.2).map SNet.seen)).play Q rest blocks).result),
          clad keys h.1 :: h.2.map (clad keys)) := by
      unfold SNet.attacked
      rw [e1]
      simp only [hact, s1]
    have hatt : SNet.attacked (Q.withBlocks rest blocks) ((asker watcher Q).forger Q rest blocks) (clad keys start) j =
        (clad keys h.1, h.2.map (clad keys)) := by rw [asker_forger]; exact e1
    rw [a1]
    refine ⟨hstep, s2, ?_, ?_⟩
    · intro k hk
      unfold Asker.used at hk
      simp only [hatt, asker_play, hseen] at hk
      rcases List.mem_append.mp hk with hk | hk
      · exact e3 k hk
      · rcases List.mem_append.mp hk with hk | hk
        · exact .inl (a2 k hk)
        · obtain ⟨s, hs, hk⟩ := List.mem_flatMap.mp hk
          exact .inr ⟨s.1, s.2, a3 s hs, hk⟩
    · have hheard : watcher.heard Q rest blocks (clad keys start) (j + 1) = watcher.heard Q rest blocks (clad keys start) j ++
          ((watcher ((h.1 :: h.2).map SNet.seen)).play Q rest blocks).asked Q := by
        show watcher.heard Q rest blocks (clad keys start) j ++ _ = _
        simp only [e1, hseen]
      rw [hheard]
      refine (e4.mono fun x hx => ?_).append ((a4.mono fun x hx => ?_).append Asks.nil)
      · exact hx.imp_right (List.mem_append_left _)
      · exact hx.imp_right (List.mem_append_right _)

end

section
variable {M : Nat} (hM : 97 ≤ M) {far : Bytes → Arr 32} {h0 : Arr 32} {D : List (Arr 32)} {P : Prims} (H : Hashes M)
variable {Q : Prims} (hQ : Q = P.withHash (H.at far))
variable {L : Log M h0 D} (F : Fine (shape hM h0 D) L (cut H))
include hQ F

/-- Nobody used a session key. -/
theorem unknown {ck d : Arr 32} (hd : d ∈ D ∧ ck ≠ h0) (hl : EsLogged D L Q ck d) (j : Fin 3) (hj : j ≠ 0) :
    ¬ Known D L Q (keysOf Q ck d j) := by
  rintro (h | ⟨sR, a, ha, hk⟩)
  · exact key_row hM H hQ F hd hl h j rfl
  · rcases List.mem_cons.mp hk with hk | hk
    · exact key_row hM H hQ F hd hl ha.ee.row j hk
    · obtain hk := List.mem_singleton.mp hk
      exact hj (same_key hM H hQ F hd hl ha.es hk.symm).2.2

end

theorem Known.mono {M : Nat} {h0 : Arr 32} {D : List (Arr 32)} {L L' : Log M h0 D} {Q : Prims} {k : Arr 32} (h : Known D L Q k)
    (sub : L ⊆ L') : Known D L' Q k := by
  rcases h with h | ⟨sR, a, ⟨g1, g2, g3⟩, hk⟩
  · exact .inl (sub h)
  · exact .inr ⟨sR, a, ⟨⟨g1.inner.mono sub, g1.temp.mono sub, g1.out.mono sub, sub g1.row⟩,
      ⟨fun h => sub (g2.hidden h), fun h => sub (g2.row h)⟩, fun x hx => (g3 x hx).mono sub⟩, hk⟩

/-! ## The later keys -/

section
variable (Q : Prims) (rest : Arr 32 → Arr 12 → Nat → UInt8) (prologue : Bytes) (eI : Arr 32) (first : Bytes) (impostor : Curious Bytes)

/-- The reply and the server's key in it. -/
def gotten (B : Blocks) : Bytes × Arr 32 :=
  ((impostor.play Q rest B).result, staticIn Q (B.stream rest) eI (impostor.play Q rest B).result)

/-- The keys used by the attacker, the responders, and the client. -/
def before (B : Blocks) : List (Arr 32) :=
  (impostor.play Q rest B).toPlayed.used Q ++ [(NX.afterEE Q (Q.dh eI (keyIn (impostor.play Q rest B).result))).2]

/-- The keys of the sessions. -/
def firstKeys (x : Bytes × Arr 32) : Arr 32 × Arr 32 := NX.transportKeys Q (Q.dh eI (keyIn x.1)) (Q.dh eI x.2)

/-- If the keys of the sessions are different, not empty and not used before, then none of the later ones is empty, and who does
not use the first keys of the sessions uses none of these. -/
def Onset (watcher : Watcher) (E rounds : Nat) (B : Blocks) : Prop :=
  let x := gotten Q rest eI impostor B
  let k := firstKeys Q eI x
  let used := (asker watcher Q).used Q rest B (afterwards x.2 (NX.transcript Q (NX.parts prologue first x.1)) k) rounds
  Free (gotten Q rest eI impostor) (before Q rest eI impostor) (firstKeys Q eI) B →
    (∀ e ≤ E, streamKey (B.stream rest) k.1 e ≠ EMPTY) ∧
      (k.1 ∈ used ∨ k.2 ∈ used ∨ Private (B.stream rest) k E (before Q rest eI impostor B ++ used))

theorem before_local (B B' : Blocks) (h : ∀ s ∈ before Q rest eI impostor B, ∀ y, B' (s, y) = B (s, y)) :
    gotten Q rest eI impostor B' = gotten Q rest eI impostor B ∧ before Q rest eI impostor B' = before Q rest eI impostor B := by
  have hp : impostor.play Q rest B' = impostor.play Q rest B := by
    refine play_same Q rest (K := fun k => k ∉ (impostor.play Q rest B).toPlayed.used Q) (fun x hx => ?_) fun k hk => .inl hk
    exact h x.1 (List.mem_append_left _ (Classical.not_not.mp hx)) x.2
  have hs : staticIn Q (B'.stream rest) eI (impostor.play Q rest B).result =
      staticIn Q (B.stream rest) eI (impostor.play Q rest B).result := by
    unfold staticIn
    refine congrArg keyIn (mask_congr fun i hi => stream_row _ _ B' B _ _ _ (fun c => ?_) ?_)
    · exact h _ (List.mem_append_right _ (List.mem_singleton.mpr rfl)) _
    · have : (body (HandshakeState.partS (impostor.play Q rest B).result)).length ≤ 48 := by
        simp only [body, HandshakeState.partS, List.length_take, List.length_drop]; omega
      omega
  unfold gotten before
  rw [hp, hs]
  exact ⟨rfl, rfl⟩

theorem few_not_onset {M n m E : Nat} (hn : impostor.Within M n) {watcher : Watcher} (hm : ∀ past, (watcher past).Within M m)
    (hE : ∀ blocks, (watcher.forger Q rest blocks).Rekeys E) (rounds : Nat) :
    2 ^ 256 * Nat.card {B : Blocks // ¬ Onset Q rest prologue eI first impostor watcher E rounds B} ≤
      E * (2 * (rounds * m) + (2 * n + 1) + E + 2) * Nat.card Blocks := by
  have := few_learn (gotten Q rest eI impostor) (before Q rest eI impostor) (firstKeys Q eI) (before_local Q rest eI impostor) Q rest
    (s := 2 * n + 1) (fun B => by
      unfold before
      rw [List.length_append]
      exact Nat.add_le_add_right (used_length Q rest hn B) 1)
    (fun _ => watcher) (fun x => done true x.2 (NX.transcript Q (NX.parts prologue first x.1)) mocks 1)
    (fun x => done false EMPTY (NX.transcript Q (NX.parts prologue first x.1)) mocks 1) (fun _ => Nat.le_refl _)
    (fun _ => Nat.le_refl _) M m (fun _ => hm) (fun _ => hE) rounds
  refine (Nat.mul_le_mul_left _ ?_).trans this
  refine Nat.card_le_card_of_injective (fun x => ⟨x.1, ?_⟩) fun a b h => Subtype.ext (congrArg (fun z => z.1) h)
  have hx := x.2
  unfold Onset at hx
  exact Classical.not_imp.mp hx

end

end SV2.Noise.Veiled
