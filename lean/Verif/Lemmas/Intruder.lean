import Verif.Lemmas.DistantRun
import Verif.Spec.Intruder
/-!
# The attacker of `Verif/Spec/Intruder.lean`, as a program

In the sense of `Verif/Lemmas/Distant.lean`: after the handshake it chooses what happens on the network.
-/

namespace SV2.Long

variable {X V P R α : Type}

/-- In all but few real worlds nothing happens by chance. -/
theorem few_by_chance [Finite X] [Finite V] [Finite P] [Finite R] [Nonempty V] [Nonempty R] (S : Shape X V P)
    (m : Prog X V P R α) (n : Nat) (hn : ∀ w, (m.log w).length ≤ n) (hA : ∀ w p, .hash (S.A p) ∉ m.log w) :
    Nat.card V * Nat.card {x : (X → V) × (V → R) // ¬ Fine S (m.log (real S x.1 x.2)) x.1} ≤
      360 * n ^ 2 * Nat.card ((X → V) × (V → R)) := by
  classical
  have compl : ∀ {Y : Type} [Finite Y] (p : Y → Prop), Nat.card {x // p x} + Nat.card {x // ¬ p x} = Nat.card Y := by
    intro Y _ p
    rw [← Nat.card_sum]
    exact Nat.card_congr (Equiv.sumCompl p)
  have hE : 0 < Nat.card (Extra V P R) := Nat.card_pos
  have g := card_good S m hA (fun _ => True)
  have b := few_not_good_all S m n hn
  have hw := card_worlds (X := X) (V := V) (P := P) (R := R)
  have c1 := compl fun x : (X → V) × (V → R) => Fine S (m.log (real S x.1 x.2)) x.1
  have c2 := compl fun z : (Place X P → V) × (V ⊕ P × Fin 4 → R) => Good S m z.1 z.2
  simp only [and_true] at g
  generalize Nat.card (Extra V P R) = e at *
  generalize Nat.card ((X → V) × (V → R)) = t at *
  generalize Nat.card {x : (X → V) × (V → R) // ¬ Fine S (m.log (real S x.1 x.2)) x.1} = r at *
  generalize Nat.card {x : (X → V) × (V → R) // Fine S (m.log (real S x.1 x.2)) x.1} = r' at *
  rw [hw] at c2 b
  have h1 : r * e ≤ Nat.card {z : (Place X P → V) × (V ⊕ P × Fin 4 → R) // ¬ Good S m z.1 z.2} := by
    have := congrArg (· * e) c1
    simp only [Nat.add_mul] at this
    omega
  refine Nat.le_of_mul_le_mul_right ?_ hE
  have e1 : Nat.card V * r * e = Nat.card V * (r * e) := by ring
  have e2 : 360 * n ^ 2 * t * e = 360 * n ^ 2 * (t * e) := by ring
  rw [e1, e2]
  exact (Nat.mul_le_mul_left _ h1).trans b

end SV2.Long

namespace SV2.Noise.Distant
open SV2.Long SV2.Stack
open SV2.Noise.Veiled (Ask cut pairPrims mocks afterwards afterwards_wears asker asker_play asker_forger)

section
variable (P : Prims) {M : Nat} (far : Bytes → Arr 32) (h0 : Arr 32)

def stackJob (watcher : Watcher) (Q' : Prims) (start : SNet) : Nat → Job M (SNet × List SNet)
  | 0 => .ret (start, [])
  | j + 1 => (stackJob watcher Q' start j).bind fun h =>
    (attackJob far h0 (.stack (.toI [])) (watcher ((h.1 :: h.2).map SNet.seen))).bind fun act => .ret (h.1.step Q' act, h.1 :: h.2)

theorem stackJob_calls (watcher : Watcher) (Q' : Prims) (start : SNet) (m : Nat) (hm : ∀ past, (watcher past).Within M m) (j : Nat) :
    Calls (M := M) (j * m) (stackJob far h0 watcher Q' start j) := by
  induction j with
  | zero => exact (Calls.ret _).mono (by omega)
  | succ j ih =>
    refine (ih.bind fun h => (attackJob_calls far h0 _ _ m (hm _)).bind fun act => Calls.ret _).mono ?_
    have := Nat.add_one_mul j m
    omega

/-- The server's answer, and then the attacker. -/
def intrudeJob (c : Serving) (watcher : Bytes → Bytes → Watcher) (rounds : Nat) : Job M (SNet × List SNet) :=
  .mix () fun r => (replyJob P far h0 c (r 0) (r 1)).bind fun x =>
    stackJob far h0 (watcher c.first x.1) (pairPrims P (r 2) (r 3)) (afterwards (P.publicOf c.sR) x.2 mocks) rounds

theorem intrudeJob_calls (c : Serving) (watcher : Bytes → Bytes → Watcher) (rounds m : Nat)
    (hm : ∀ a b past, (watcher a b past).Within M m) : Calls (M := M) (rounds * m + 7) (intrudeJob P far h0 c watcher rounds) := by
  intro w
  refine Nat.succ_le_succ ?_
  refine (((replyJob_calls P far h0 c _ _).bind fun x => stackJob_calls far h0 (watcher c.first x.1) _ _ m (hm _ _) rounds).mono ?_) w
  omega

end

section
variable {M : Nat} (hM : 97 ≤ M) {far : Bytes → Arr 32} {h0 ee es : Arr 32} (P : Prims) (H : Hashes M)
variable (blocks : Blocks) {Q : Prims} (hQ : Q = P.withHash (H.at far)) (hh : NX.h0 Q = h0)
variable (rest : Arr 32 → Arr 12 → Nat → UInt8)

include hQ hh

/-- Who asks no responders has none answer, and the keys it uses are in the log. -/
theorem attackJob_rows {α : Type} (fallback : α) (c : Curious α) (hb : c.Alone) {L : Log M}
    (hL : (attackJob far h0 fallback c).log (world hM H blocks h0 ee es) ⊆ L) :
    (∀ k ∈ (c.play Q rest blocks).keys, .row k ∈ L) ∧ (c.play Q rest blocks).served = [] := by
  induction c with
  | reply a => exact ⟨fun k hk => (List.not_mem_nil hk).elim, rfl⟩
  | hash x next ih =>
    simp only [attackJob, Prog.log_bind, run_hashJob hM P H blocks hQ hh] at hL
    obtain ⟨-, l2⟩ := List.append_subset.mp hL
    exact ih _ (hb _) l2
  | block x next ih =>
    simp only [attackJob, Prog.log] at hL
    obtain ⟨l1, l2⟩ := List.cons_subset.mp hL
    obtain ⟨e1, e2⟩ := ih ((world hM H blocks h0 ee es).row x.1 x.2) (hb _) l2
    refine ⟨fun k hk => ?_, e2⟩
    rcases List.mem_cons.mp hk with rfl | hk
    · exact l1
    · exact e1 k hk
  | serve c next ih => exact hb.elim

theorem stackJob_spec {watcher : Watcher} (hb : ∀ past, (watcher past).Alone)
    (hE : (watcher.forger Q rest blocks).Rekeys 0) {a b : KeyRow} {keys : Arr 32 × Arr 32}
    (r1 : ∀ n c, blocks (keys.1, n, c) = a (n, c)) (r2 : ∀ n c, blocks (keys.2, n, c) = b (n, c))
    (hk1 : keys.1 ≠ EMPTY) (hk2 : keys.2 ≠ EMPTY) {start : SNet} (hs : start.Wears mocks) (j : Nat) {L : Log M}
    (hL : (stackJob far h0 watcher (pairPrims P a b) start j).log (world hM H blocks h0 ee es) ⊆ L) :
    (SNet.attacked (Q.withBlocks rest blocks) (watcher.forger Q rest blocks) (start.dressed keys) j =
      (((stackJob far h0 watcher (pairPrims P a b) start j).run (world hM H blocks h0 ee es)).1.dressed keys,
        ((stackJob far h0 watcher (pairPrims P a b) start j).run (world hM H blocks h0 ee es)).2.map (SNet.dressed keys))) ∧
    ((stackJob far h0 watcher (pairPrims P a b) start j).run (world hM H blocks h0 ee es)).1.Wears mocks ∧
    (∀ k ∈ (asker watcher Q).used Q rest blocks (start.dressed keys) j, .row k ∈ L) ∧
    Asks ((stackJob far h0 watcher (pairPrims P a b) start j).log (world hM H blocks h0 ee es))
      (· ∈ watcher.heard Q rest blocks (start.dressed keys) j) := by
  have t1 : Twin (Q.withBlocks rest blocks) (pairPrims P a b) keys.1 mocks.1 := by
    refine twin_blocks Q P (fun n c => ?_) hk1 (by decide)
    rw [if_pos rfl]
    exact r1 n c
  have t2 : Twin (Q.withBlocks rest blocks) (pairPrims P a b) keys.2 mocks.2 := by
    refine twin_blocks Q P (fun n c => ?_) hk2 (by decide)
    rw [if_neg (show mocks.2 ≠ mocks.1 by decide)]
    exact r2 n c
  induction j with
  | zero => exact ⟨rfl, hs, fun k hk => (List.not_mem_nil hk).elim, Asks.nil⟩
  | succ j ih =>
    unfold stackJob at hL ⊢
    rw [Prog.log_bind, Prog.log_bind] at hL
    obtain ⟨l1, hL⟩ := List.append_subset.mp hL
    obtain ⟨l2, -⟩ := List.append_subset.mp hL
    obtain ⟨e1, e2, e3, e4⟩ := ih l1
    rw [Prog.run_bind, Prog.run_bind, Prog.log_bind, Prog.log_bind]
    generalize (stackJob far h0 watcher (pairPrims P a b) start j).run (world hM H blocks h0 ee es) = h at *
    have hseen : (h.1.dressed keys :: h.2.map (SNet.dressed keys)).map SNet.seen = (h.1 :: h.2).map SNet.seen := by
      simp only [List.map_cons, List.map_map, SNet.seen_dressed]
      rfl
    obtain ⟨a1, -, a4⟩ := attackJob_spec hM P H blocks hQ hh rest (.stack (.toI [])) (watcher ((h.1 :: h.2).map SNet.seen)) (hb _) l2
    obtain ⟨a2, a3⟩ := attackJob_rows hM P H blocks hQ hh rest (.stack (.toI [])) (watcher ((h.1 :: h.2).map SNet.seen)) (hb _) l2
    have hact : watcher.forger Q rest blocks (h.1.dressed keys :: h.2.map (SNet.dressed keys)) =
        ((watcher ((h.1 :: h.2).map SNet.seen)).play Q rest blocks).result := by
      unfold Watcher.forger
      rw [hseen]
    obtain ⟨act, hst⟩ : ∃ act, ((watcher ((h.1 :: h.2).map SNet.seen)).play Q rest blocks).result = .stack act := by
      rw [← hact]
      have := fun b => hE (h.1.dressed keys) (h.2.map (SNet.dressed keys)) b
      generalize watcher.forger Q rest blocks (h.1.dressed keys :: h.2.map (SNet.dressed keys)) = x at this
      cases x with
      | stack act => exact ⟨act, rfl⟩
      | rekeyI b => exact absurd rfl ((this b).1 (Nat.zero_le _))
      | rekeyR b => exact absurd rfl ((this b).2 (Nat.zero_le _))
    obtain ⟨s1, s2⟩ := SNet.step_twin t1 t2 e2 act
    have hstep : SNet.attacked (Q.withBlocks rest blocks) (watcher.forger Q rest blocks) (start.dressed keys) (j + 1) =
        ((h.1.step (pairPrims P a b) (.stack act)).dressed keys, h.1.dressed keys :: h.2.map (SNet.dressed keys)) := by
      unfold SNet.attacked
      rw [e1]
      simp only [hact, hst, s1]
    have hatt : SNet.attacked (Q.withBlocks rest blocks) ((asker watcher Q).forger Q rest blocks) (start.dressed keys) j =
        (h.1.dressed keys, h.2.map (SNet.dressed keys)) := by rw [asker_forger]; exact e1
    rw [a1, hst]
    refine ⟨hstep, s2, ?_, ?_⟩
    · intro k hk
      unfold Asker.used at hk
      simp only [hatt, asker_play, hseen] at hk
      rcases List.mem_append.mp hk with hk | hk
      · exact e3 k hk
      · unfold Played.used at hk
        rw [a3, List.flatMap_nil, List.append_nil] at hk
        exact a2 k hk
    · have hheard : watcher.heard Q rest blocks (start.dressed keys) (j + 1) = watcher.heard Q rest blocks (start.dressed keys) j ++
          ((watcher ((h.1 :: h.2).map SNet.seen)).play Q rest blocks).asked Q := by
        show watcher.heard Q rest blocks (start.dressed keys) j ++ _ = _
        simp only [e1, hseen]
      rw [hheard]
      exact (e4.mono fun x hx => List.mem_append_left _ hx).append
        ((a4.mono fun x hx => List.mem_append_right _ hx).append Asks.nil)

end

theorem hashInputs_length (Q : Prims) {N : Nat} (ds : List Bytes) (hd : ∀ d ∈ ds, d.length ≤ N) (h : Arr 32) :
    ∀ x ∈ NX.hashInputs Q h ds, x.length ≤ 32 + N := by
  induction ds generalizing h with
  | nil => exact fun x hx => (List.not_mem_nil hx).elim
  | cons d ds ih =>
    intro x hx
    rcases List.mem_cons.mp hx with rfl | hx
    · rw [List.length_append, Arr.len]
      have := hd d List.mem_cons_self
      omega
    · exact ih (fun d hd' => hd d (List.mem_cons_of_mem _ hd')) _ x hx

end SV2.Noise.Distant
