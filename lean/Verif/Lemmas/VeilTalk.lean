import Verif.Lemmas.VeilRun
/-!
# The two sides talk

The last part of the program of `Verif/Lemmas/VeilRun.lean`: the two sessions, with other keys, and the attacker between them.
-/

namespace SV2.Noise

theorem twin_blocks (P P' : Prims) {rest rest' : Arr 32 → Arr 12 → Nat → UInt8} {b b' : Blocks} {k k' : Arr 32}
    (h : ∀ n c, b (k, n, c) = b' (k', n, c)) (hk : k ≠ EMPTY) (hk' : k' ≠ EMPTY) :
    Twin (P.withBlocks rest b) (P'.withBlocks rest' b') k k' := by
  have hm : ∀ n p, p.length ≤ 65535 → mask (b.stream rest k n) p = mask (b'.stream rest' k' n) p := fun n p hp =>
    mask_congr fun i hi => stream_row _ _ b b' _ _ _ (h n) (by omega)
  have ho : ∀ n, b.oneTime (k, n) = b'.oneTime (k', n) := by
    intro n
    unfold Blocks.oneTime
    simp only [h]
  refine ⟨fun n p hp => ?_, fun n c m hc => ?_, hk, hk'⟩
  · simp only [Prims.withBlocks, Prims.withMac, hm n p hp, ho]
  · simp only [Prims.withBlocks, Prims.withMac, hm n c hc, ho]

end SV2.Noise

namespace SV2.Noise.Veiled
open SV2.Veil SV2.Stack

/-- Keys to work with. -/
def mocks : Arr 32 × Arr 32 := (Arr.replicate 32 1, Arr.replicate 32 2)

/-- A cipher for them, with these blocks. -/
def mockPrims (P : Prims) (r : Fin 3 → KeyRow) : Prims :=
  P.withBlocks (fun _ _ _ => 0) fun x => if x.1 = mocks.1 then r 1 x.2 else r 2 x.2

/-- The two sessions after the handshake. -/
def afterwards (rs t : Arr 32) (keys : Arr 32 × Arr 32) : SNet :=
  { rnet := { net := { i := done true rs t keys 1, r := done false EMPTY t keys 1 } } }

theorem afterwards_dressed (rs t : Arr 32) (k k' : Arr 32 × Arr 32) : (afterwards rs t k').dressed k = afterwards rs t k := rfl

theorem afterwards_wears (rs t : Arr 32) (k : Arr 32 × Arr 32) : (afterwards rs t k).Wears k :=
  ⟨⟨rfl, rfl, Nat.le_refl _⟩, ⟨rfl, rfl, Nat.le_refl _⟩⟩

variable (P : Prims) {M : Nat} (far : Bytes → Arr 32) (h0 : Arr 32) (D : List (Arr 32))

def talkJob (watcher : Watcher) (Q' : Prims) (start : SNet) : Nat → Job M h0 D (SNet × List SNet)
  | 0 => .ret (start, [])
  | j + 1 => (talkJob watcher Q' start j).bind fun h =>
    (attackJob P far h0 D (watcher ((h.1 :: h.2).map SNet.seen))).bind fun act => .ret (h.1.step Q' act, h.1 :: h.2)

theorem talkJob_calls (watcher : Watcher) (Q' : Prims) (start : SNet) (m : Nat) (hm : ∀ past, (watcher past).Within M m) (j : Nat) :
    Calls (M := M) h0 D (20 * (j * m)) (talkJob P far h0 D watcher Q' start j) := by
  induction j with
  | zero => exact (Calls.ret _).mono (by omega)
  | succ j ih =>
    refine (ih.bind fun h => (attackJob_calls P far h0 D _ m (hm _)).bind fun act => Calls.ret _).mono ?_
    have := Nat.add_one_mul j m
    omega

/-- All of it: the attacker, the client, and the attacker between the two sides. -/
def firstJob (prologue : Bytes) (eI : Arr 32) (first : Bytes) (impostor : Curious Bytes) :
    Job M h0 D (Arr 32 × Arr 32 × (Fin 3 → KeyRow)) :=
  (attackJob P far h0 D impostor).bind fun second => clientJob P far h0 D prologue eI first second

def thenJob (watcher : Watcher) (rounds : Nat) (c : Arr 32 × Arr 32 × (Fin 3 → KeyRow)) : Job M h0 D (SNet × List SNet) :=
  talkJob P far h0 D watcher (mockPrims P c.2.2) (afterwards c.1 c.2.1 mocks) rounds

def wholeJob (prologue : Bytes) (eI : Arr 32) (first : Bytes) (impostor : Curious Bytes) (watcher : Watcher) (rounds : Nat) :
    Job M h0 D (SNet × List SNet) :=
  (firstJob P far h0 D prologue eI first impostor).bind (thenJob P far h0 D watcher rounds)

theorem wholeJob_calls (prologue : Bytes) (eI : Arr 32) (first : Bytes) (impostor : Curious Bytes) (watcher : Watcher)
    (rounds n m : Nat) (hn : impostor.Within M n) (hm : ∀ past, (watcher past).Within M m) :
    Calls (M := M) h0 D (20 * (n + rounds * m + 1)) (wholeJob P far h0 D prologue eI first impostor watcher rounds) :=
  ((((attackJob_calls P far h0 D impostor n hn).bind fun p => clientJob_calls P far h0 D prologue eI first p)).bind fun c =>
    talkJob_calls P far h0 D watcher _ _ m hm rounds).mono (by omega)

/-! ## What comes of it -/

section
variable {far} {h0} {P}
variable (hM : 97 ≤ M) (H : Hashes M)
variable (blocks : Blocks) {Q : Prims} (hQ : Q = P.withHash (H.at far)) (hh : NX.h0 Q = h0)
variable (rest : Arr 32 → Arr 12 → Nat → UInt8) (hM' : 65567 ≤ M)

/-- Somebody used this key. -/
def Known (L : Log M h0 D) (Q : Prims) (k : Arr 32) : Prop :=
  .row k ∈ L ∨ ∃ sR a, AnswerLogged D L Q sR a ∧ k ∈ a.keys Q sR

/-- The attacker, with the hash function in place. -/
def asker (watcher : Watcher) (Q : Prims) : Asker := fun past => (watcher (past.map SNet.seen)).asking Q.hash

theorem asker_play (watcher : Watcher) (Q : Prims) (past : List SNet) : (asker watcher Q past).play Q rest blocks =
    ((watcher (past.map SNet.seen)).play Q rest blocks).toPlayed := (watcher (past.map SNet.seen)).play_asking Q rest blocks

theorem asker_forger (watcher : Watcher) (Q : Prims) :
    (asker watcher Q).forger Q rest blocks = watcher.forger Q rest blocks := by
  funext past
  unfold Asker.forger Watcher.forger
  rw [asker_play]

include hQ hh hM'

theorem talkJob_spec {watcher : Watcher} {m : Nat} (hm : ∀ past, (watcher past).Within M m) (hb : ∀ past, (watcher past).Blind)
    (hE : (watcher.forger Q rest blocks).Rekeys 0) {r : Fin 3 → KeyRow} {keys : Arr 32 × Arr 32}
    (r1 : ∀ n c, blocks (keys.1, n, c) = r 1 (n, c)) (r2 : ∀ n c, blocks (keys.2, n, c) = r 2 (n, c))
    (hk1 : keys.1 ≠ EMPTY) (hk2 : keys.2 ≠ EMPTY) {start : SNet} (hs : start.Wears mocks) (j : Nat) {L : Log M h0 D}
    (hL : (talkJob P far h0 D watcher (mockPrims P r) start j).log (world hM H blocks h0 D) ⊆ L) :
    (SNet.attacked (Q.withBlocks rest blocks) (watcher.forger Q rest blocks) (start.dressed keys) j =
      (((talkJob P far h0 D watcher (mockPrims P r) start j).run (world hM H blocks h0 D)).1.dressed keys,
        ((talkJob P far h0 D watcher (mockPrims P r) start j).run (world hM H blocks h0 D)).2.map (SNet.dressed keys))) ∧
    ((talkJob P far h0 D watcher (mockPrims P r) start j).run (world hM H blocks h0 D)).1.Wears mocks ∧
    (∀ k ∈ (asker watcher Q).used Q rest blocks (start.dressed keys) j, Known D L Q k) ∧
    Asks ((talkJob P far h0 D watcher (mockPrims P r) start j).log (world hM H blocks h0 D)) fun x => Unlike h0 D x ∨
      x ∈ watcher.heard Q rest blocks (start.dressed keys) j := by
  have t1 : Twin (Q.withBlocks rest blocks) (mockPrims P r) keys.1 mocks.1 := by
    refine twin_blocks Q P (fun n c => ?_) hk1 (by decide)
    rw [if_pos rfl]
    exact r1 n c
  have t2 : Twin (Q.withBlocks rest blocks) (mockPrims P r) keys.2 mocks.2 := by
    refine twin_blocks Q P (fun n c => ?_) hk2 (by decide)
    rw [if_neg (show mocks.2 ≠ mocks.1 by decide)]
    exact r2 n c
  induction j with
  | zero => exact ⟨rfl, hs, fun k hk => (List.not_mem_nil hk).elim, Asks.nil⟩
  | succ j ih =>
    unfold talkJob at hL ⊢
    rw [Prog.log_bind, Prog.log_bind] at hL
    obtain ⟨l1, hL⟩ := List.append_subset.mp hL
    obtain ⟨l2, -⟩ := List.append_subset.mp hL
    obtain ⟨e1, e2, e3, e4⟩ := ih l1
    rw [Prog.run_bind, Prog.run_bind, Prog.log_bind, Prog.log_bind]
    generalize (talkJob P far h0 D watcher (mockPrims P r) start j).run (world hM H blocks h0 D) = h at *
    have hseen : (h.1.dressed keys :: h.2.map (SNet.dressed keys)).map SNet.seen = (h.1 :: h.2).map SNet.seen := by
      simp only [List.map_cons, List.map_map, SNet.seen_dressed]
      rfl
    obtain ⟨a1, a2, a3, a4⟩ := attackJob_spec hM D P H blocks hQ hh rest hM' (watcher ((h.1 :: h.2).map SNet.seen)) m (hm _) (hb _) l2
    have hact : watcher.forger Q rest blocks (h.1.dressed keys :: h.2.map (SNet.dressed keys)) =
        ((watcher ((h.1 :: h.2).map SNet.seen)).play Q rest blocks).result := by
      unfold Watcher.forger
      rw [hseen]
    obtain ⟨act, hst⟩ : ∃ act, ((watcher ((h.1 :: h.2).map SNet.seen)).play Q rest blocks).result = .stack act := by
      rw [← hact]
      have := fun b => hE (h.1.dressed keys) (h.2.map (SNet.dressed keys)) b
      generalize watcher.forger Q rest blocks (h.1.dressed keys :: h.2.map (SNet.dressed keys)) = x at this
      cases x with
      | stack act => exact ⟨act, rfl⟩
      | rekeyI b => exact absurd rfl ((this b).1 (Nat.zero_le _))
      | rekeyR b => exact absurd rfl ((this b).2 (Nat.zero_le _))
    obtain ⟨s1, s2⟩ := SNet.step_twin t1 t2 e2 act
    have hstep : SNet.attacked (Q.withBlocks rest blocks) (watcher.forger Q rest blocks) (start.dressed keys) (j + 1) =
        ((h.1.step (mockPrims P r) (.stack act)).dressed keys, h.1.dressed keys :: h.2.map (SNet.dressed keys)) := by
      unfold SNet.attacked
      rw [e1]
      simp only [hact, hst, s1]
    have hatt : SNet.attacked (Q.withBlocks rest blocks) ((asker watcher Q).forger Q rest blocks) (start.dressed keys) j =
        (h.1.dressed keys, h.2.map (SNet.dressed keys)) := by rw [asker_forger]; exact e1
    rw [a1, hst]
    refine ⟨hstep, s2, ?_, ?_⟩
    · intro k hk
      unfold Asker.used at hk
      simp only [hatt, asker_play, hseen] at hk
      rcases List.mem_append.mp hk with hk | hk
      · exact e3 k hk
      · rcases List.mem_append.mp hk with hk | hk
        · exact .inl (a2 k hk)
        · obtain ⟨s, hs, hk⟩ := List.mem_flatMap.mp hk
          exact .inr ⟨s.1, s.2, a3 s hs, hk⟩
    · have hheard : watcher.heard Q rest blocks (start.dressed keys) (j + 1) = watcher.heard Q rest blocks (start.dressed keys) j ++
          ((watcher ((h.1 :: h.2).map SNet.seen)).play Q rest blocks).asked Q := by
        show watcher.heard Q rest blocks (start.dressed keys) j ++ _ = _
        simp only [e1, hseen]
      rw [hheard]
      refine (e4.mono fun x hx => ?_).append ((a4.mono fun x hx => ?_).append Asks.nil)
      · exact hx.imp_right (List.mem_append_left _)
      · exact hx.imp_right (List.mem_append_right _)

end

end SV2.Noise.Veiled
