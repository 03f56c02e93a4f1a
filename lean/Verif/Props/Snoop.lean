import Verif.Lemmas.Snoop
import Verif.Props.Secrecy
import Verif.Props.Renewal
/-!
# C113: Texts stay secret when the sides change keys, with an attacker that does not know the first keys

`C94_worlds` is about an attacker that cannot compute blocks.  With keys chosen at random it may compute some, with any keys
it likes.
-/

namespace SV2.Stack
open Noise Renewal Function

variable (P : Prims) (rest : Arr 32 → Arr 12 → Nat → UInt8)

/-- When the sessions have blocks of their own it makes no difference which texts are sent. -/
theorem card_ideal {E : Nat} {labels : Fin (E + 2) → Arr 32} {snoop : Snoop} {start : Duo} {rounds : Nat} (hl : Injective labels)
    (hl0 : ∀ a, labels a ≠ EMPTY) (h1 : start.1.Wears (seat labels 0)) (h2 : start.2.Wears (seat labels 0)) (hi : start.1.i = true)
    (hr : start.2.i = false) (hE : rounds ≤ E) (Z : Blocks) (second : Bool) :
    Nat.card {w : Whole E // SaysSo P rest snoop start rounds second w.2.1 (build labels w.2.2 Z)} ≤
      Nat.card {w : Whole E // SaysSo P rest snoop start rounds (!second) w.2.1 (build labels w.2.2 Z)} := by
  classical
  have hid : ∀ C rows Z' second, SaysSo P rest snoop start rounds second C (build labels rows Z') ↔
      ((snoop.verdict ((start.play (P.withBlocks rest (build labels rows Z')) second
        (fun past => ((snoop.next (past.map Seen.blind)).play P rest C).result) rounds []).map Seen.blind)).play P rest C).result =
        true := by
    intro C rows Z' second
    have := run_play P rest hl (build_like_any P rest hl hl hl0 hl0 rows Z' Z') (build_dressed P rest hl rows Z') snoop C second
      rounds h1 h2 (by omega) (by omega) [] []
    rw [List.map_nil] at this
    unfold SaysSo
    rw [this]
  have hone : ∀ C, Nat.card {rows : Fin (E + 2) → KeyRow // SaysSo P rest snoop start rounds second C (build labels rows Z)} ≤
      Nat.card {rows : Fin (E + 2) → KeyRow // SaysSo P rest snoop start rounds (!second) C (build labels rows Z)} := by
    intro C
    obtain ⟨e, he, hk⟩ := Duo.blocks_swap P rest start.1 start.2 hi hr h1.mc h2.mc
      (fun past => ((snoop.next (past.map Seen.blind)).play P rest C).result) rounds
    have hany := fun second rows Z Z' => (ideal_any P rest (snoop := snoop) hl hl0 h1 h2 hE second rows C Z Z').mp
    cases second with
    | false =>
      refine card_rows hl e hk (fun rows Z1 rows' Z2 h hp => ?_) (hany _) (hany _) Z
      rw [hid] at hp
      rw [Bool.not_false, hid, ← h]
      have := he (build labels rows Z1)
      rw [Prod.mk.eta] at this
      rw [← this]
      exact hp
    | true =>
      have hk' : ∀ B k c, e.symm B (k, CipherState.rekeyNonce, c) = B (k, CipherState.rekeyNonce, c) := by
        intro B k c
        have := hk (e.symm B) k c
        rw [e.apply_symm_apply] at this
        exact this.symm
      refine card_rows hl e.symm hk' (fun rows Z1 rows' Z2 h hp => ?_) (hany _) (hany _) Z
      rw [hid] at hp
      rw [Bool.not_true, hid, ← h]
      have := he (e.symm (build labels rows Z1))
      rw [Prod.mk.eta, e.apply_symm_apply] at this
      rw [this]
      exact hp
  have hsum : ∀ second, Nat.card {w : Whole E // SaysSo P rest snoop start rounds second w.2.1 (build labels w.2.2 Z)} =
      Nat.card (Σ kC : (Fin (E + 2) → Arr 32) × Blocks,
        {rows : Fin (E + 2) → KeyRow // SaysSo P rest snoop start rounds second kC.2 (build labels rows Z)}) := fun second =>
    Nat.card_congr ⟨fun w => ⟨(w.1.1, w.1.2.1), w.1.2.2, w.2⟩, fun z => ⟨(z.1.1, z.1.2, z.2.1), z.2.2⟩, fun _ => rfl, fun _ => rfl⟩
  have := Fintype.ofFinite ((Fin (E + 2) → Arr 32) × Blocks)
  rw [hsum, hsum, Nat.card_sigma, Nat.card_sigma]
  exact Finset.sum_le_sum fun kC _ => hone kC.2

/-- Two sessions after any handshake get two random keys.  An attacker sees all messages, but neither the keys nor what is read.
It chooses two texts of the same length for each message, delivers what it likes, has the sides rekey when it likes, and
before each step hashes and computes at most `m` blocks of its choice.  It says yes about as often when the first texts are sent
as when the second ones are. -/
theorem C113_secret (i r : NoiseSession) (hi : i.i = true) (hr : r.i = false) (hi' : 2 ≤ i.getMessageCount)
    (hr' : 2 ≤ r.getMessageCount) (snoop : Snoop) (M m : Nat) (hm : ∀ seen, (snoop.next seen).Within M m)
    (ha : ∀ seen, (snoop.next seen).Alone) (hvm : ∀ seen, (snoop.verdict seen).Within M m)
    (hva : ∀ seen, (snoop.verdict seen).Alone) (rounds : Nat) (second : Bool) :
    2 ^ 256 * Nat.card {x : (Arr 32 × Arr 32) × Blocks // snoop.Yes P rest x.2 second rounds (rekeyedTo x.1 i, rekeyedTo x.1 r)} ≤
    2 ^ 256 * Nat.card {x : (Arr 32 × Arr 32) × Blocks //
      snoop.Yes P rest x.2 (!second) rounds (rekeyedTo x.1 i, rekeyedTo x.1 r)} +
    2 * (rounds + 2) * (rounds * m + m + rounds + 2) * Nat.card ((Arr 32 × Arr 32) × Blocks) := by
  classical
  let yes : Bool → (Arr 32 × Arr 32) × Blocks → Prop := fun second x =>
    snoop.Yes P rest x.2 second rounds (rekeyedTo x.1 i, rekeyedTo x.1 r)
  show 2 ^ 256 * Nat.card {x // yes second x} ≤ 2 ^ 256 * Nat.card {x // yes (!second) x} + _
  by_cases hbig : rounds + 3 ≤ 2 ^ 256
  · obtain ⟨labels, hl, hl0⟩ := labels_exist hbig
    let start : Duo := (rekeyedTo (seat labels 0) i, rekeyedTo (seat labels 0) r)
    let Z : Blocks := fun _ => Arr.replicate 64 0
    have h1 : start.1.Wears (seat labels 0) := ⟨rfl, rfl, hi'⟩
    have h2 : start.2.Wears (seat labels 0) := ⟨rfl, rfl, hr'⟩
    let ideal : Bool → Blocks × (Fin (rounds + 2) → KeyRow) → Prop := fun second z =>
      SaysSo P rest snoop start rounds second z.1 (build labels z.2 Z)
    let log : Bool → Blocks × (Fin (rounds + 2) → KeyRow) → List (Arr 32) := fun second z =>
      soLog P rest snoop start rounds second z.1 (build labels z.2 Z)
    have hn : ∀ second z, (log second z).length ≤ rounds * m + m := by
      intro second z
      have a := Snoop.run_length P rest hm ha (P.withBlocks rest (build labels z.2 Z)) z.1 second rounds start [] []
      have b := Stealing.keys_length P rest (hvm (snoop.run P rest (P.withBlocks rest (build labels z.2 Z)) z.1 second rounds start [] []).1)
        (hva _) z.1
      simp only [log, soLog, List.length_append]
      simp only [List.length_nil] at a
      omega
    have hgood : ∀ second, ∀ w : Whole rounds, Good (log second) w →
        (yes second (seat w.1 0, build w.1 w.2.2 w.2.1) ↔ ideal second w.2) := by
      rintro second ⟨keys, C, rows⟩ hw
      exact yes_ideal P rest hw.inj hw.full hl hl0 ha hva h1 h2 (Nat.le_refl _) second rows C Z hw.off
    have A := card_real (log (!second)) (hn _) (yes (!second)) (ideal (!second)) fun w hw h => (hgood _ w hw).mpr h
    have B := card_real (log second) (hn _) (fun x => ¬ yes second x) (fun z => ¬ ideal second z) fun w hw h hy => h ((hgood _ w hw).mp hy)
    have I : Nat.card {w : Whole rounds // ideal second w.2} ≤ Nat.card {w : Whole rounds // ideal (!second) w.2} :=
      card_ideal P rest hl hl0 h1 h2 hi hr (Nat.le_refl _) Z second
    have hsplit : ∀ {A : Type} [Finite A] (q : A → Prop), Nat.card A = Nat.card {x // q x} + Nat.card {x // ¬ q x} := by
      intro A _ q
      rw [← Nat.card_sum]
      exact Nat.card_congr (Equiv.sumCompl q).symm
    have s1 := hsplit (A := Whole rounds) fun w => ideal second w.2
    have s2 := hsplit (A := (Arr 32 × Arr 32) × Blocks) (yes second)
    have hW := card_whole (E := rounds)
    have hN : Nonempty (Rest rounds) := ⟨fun _ _ => Arr.replicate 64 0, fun _ => EMPTY⟩
    have hR : 0 < Nat.card (Rest rounds) := Nat.card_pos
    have hD : 2 * (rounds + 2) * (rounds * m + m + rounds + 2) = 2 * ((rounds + 2) * (rounds * m + m + rounds + 2)) := Nat.mul_assoc _ _ _
    rw [hD]
    generalize (rounds + 2) * (rounds * m + m + rounds + 2) = D at *
    generalize Nat.card (Rest rounds) = R at *
    generalize Nat.card (Whole rounds) = W at *
    generalize Nat.card ((Arr 32 × Arr 32) × Blocks) = N at *
    generalize Nat.card {x // yes second x} = y at *
    generalize Nat.card {x // ¬ yes second x} = y' at *
    generalize Nat.card {x // yes (!second) x} = z at *
    generalize Nat.card {w : Whole rounds // ideal second w.2} = u at *
    generalize Nat.card {w : Whole rounds // ¬ ideal second w.2} = u' at *
    generalize Nat.card {w : Whole rounds // ideal (!second) w.2} = v at *
    refine Nat.le_of_mul_le_mul_right ?_ hR
    have e1 : 2 ^ 256 * (u + u') = 2 ^ 256 * ((y + y') * R) := by rw [← s1, hW, s2]
    have e2 : 2 ^ 256 * ((y + y') * R) = 2 ^ 256 * y * R + 2 ^ 256 * y' * R := by ring
    have e3 : (2 ^ 256 * y' + D * N) * R = 2 ^ 256 * y' * R + D * N * R := by ring
    have e4 : (2 ^ 256 * z + D * N) * R = 2 ^ 256 * z * R + D * N * R := by ring
    have e5 : (2 ^ 256 * z + 2 * D * N) * R = 2 ^ 256 * z * R + 2 * (D * N * R) := by ring
    have e6 : 2 ^ 256 * u ≤ 2 ^ 256 * v := Nat.mul_le_mul_left _ I
    rw [Nat.mul_add] at e1
    omega
  · refine Nat.le_trans (Nat.mul_le_mul ?_ (Nat.card_le_card_of_injective _ Subtype.val_injective)) (Nat.le_add_left _ _)
    calc 2 ^ 256 ≤ rounds + 2 := by omega
      _ ≤ 2 * (rounds + 2) * 1 := by omega
      _ ≤ 2 * (rounds + 2) * (rounds * m + m + rounds + 2) := Nat.mul_le_mul_left _ (by omega)

/-! ## Cases -/

/-- It has the initiator send, rekey, and send again, has the responder read, rekey and read, and compares the last message
with what the second text gives with a key it guesses. -/
def prober (guess : Arr 32) : Snoop where
  next seen :=
    match seen.length with
    | 0 => .reply (.send .initiator ([1, 2, 3] ++ List.replicate 16 0) ([7, 7, 7] ++ List.replicate 16 0))
    | 1 => .reply (.deliver .responder ((seen[0]?.map Seen.wire).getD []))
    | 2 => .hash [1] fun _ => .reply (.rekeyLocal .initiator)
    | 3 => .reply (.send .initiator ([6] ++ List.replicate 16 0) ([0] ++ List.replicate 16 0))
    | 4 => .block (guess, NX.nonce 0, 0) fun _ => .reply (.rekeyRemote .responder)
    | _ => .reply (.deliver .responder ((seen[3]?.map Seen.wire).getD []))
  verdict seen := .block (guess, NX.nonce 1, 1) fun x => .reply (decide (((seen[3]?.map Seen.wire).getD []).head? = x.toList.head?))

/-- It meets the hypotheses. -/
theorem prober_ok (guess : Arr 32) (M : Nat) : (∀ seen, ((prober guess).next seen).Within M 1) ∧
    (∀ seen, ((prober guess).next seen).Alone) ∧ (∀ seen, ((prober guess).verdict seen).Within M 1) ∧
    ∀ seen, ((prober guess).verdict seen).Alone := by
  refine ⟨fun seen => ?_, fun seen => ?_, fun _ _ => trivial, fun _ _ => trivial⟩
  · simp only [prober]
    split <;> first | trivial | exact fun _ => trivial
  · simp only [prober]
    split <;> first | trivial | exact fun _ => trivial

/-- For these keys and blocks there is a guess - the key after the change - with which it can tell the two texts apart, and
others with which it cannot.  The message under the new key is read. -/
example : let rest := fun _ _ _ => 7
    let k : Arr 32 × Arr 32 := (Arr.replicate 32 3, Arr.replicate 32 4)
    let duo : Duo := (rekeyedTo k toyI, rekeyedTo k toyR)
    let right := (rekeyedTo k toyI).rekeyLocal (toyPrims.withBlocks rest toyBlocks)
    (prober right.cs1.k).Yes toyPrims rest toyBlocks true 6 duo ∧ ¬ (prober right.cs1.k).Yes toyPrims rest toyBlocks false 6 duo ∧
    (¬ (prober (Arr.replicate 32 6)).Yes toyPrims rest toyBlocks true 6 duo ∧
      ¬ (prober (Arr.replicate 32 6)).Yes toyPrims rest toyBlocks false 6 duo) ∧
    ((prober (Arr.replicate 32 6)).watch toyPrims rest toyBlocks true 6 duo []).map Seen.outcome =
      [.ok (), .ok (), .ok (), .ok (), .ok (), .ok ()] := by
  unfold Snoop.Yes
  decide +kernel

end SV2.Stack
