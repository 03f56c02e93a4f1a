import Verif.Lemmas.Renewal
import Verif.Props.Channel
import Verif.Props.Oracle
/-!
# C110: Frames stay genuine when the sides change keys, with an attacker that does not know the first keys

`C96_network` has a condition: no key of the sessions is used for anything else.  With keys chosen at random, and an attacker
that does not see them, this is so but for few keys and block functions, and then all is genuine without conditions.
-/

namespace SV2.Stack
open Noise Renewal

variable (P : Prims) (rest : Arr 32 → Arr 12 → Nat → UInt8)

theorem streamKey_build {E : Nat} {keys : Fin (E + 2) → Arr 32} (hk : Function.Injective keys) (rows : Fin (E + 2) → Noise.KeyRow)
    (C : Blocks) (e : Nat) (he : e ≤ E) :
    streamKey ((build keys rows C).stream rest) (seat keys 0).1 e = keys ⟨e, by omega⟩ := by
  induction e with
  | zero => exact congrArg keys (Fin.ext (Nat.min_eq_left (Nat.zero_le _)))
  | succ e ih =>
    rw [streamKey_succ, ih (by omega)]
    exact link_build hk rows C (by omega)

/-- Two sessions after any handshake get two random keys.  An attacker on the network that sees all but the keys, that in each
step hashes and computes at most `m` blocks of its choice, and that has each side rekey at most `E` times when it likes, has
almost never computed a block with a key of the sessions; and no key for the one direction is the one for the other. -/
theorem C110_keys (i r : NoiseSession) (keys0 : Arr 32 × Arr 32) (n1 n2 : UInt64) (h : InSync i r keys0 n1 n2) (watcher : Watcher)
    (M m E : Nat) (hm : ∀ past, (watcher past).Within M m) (ha : ∀ past, (watcher past).Alone)
    (hE : ∀ blocks, (watcher.forger P rest blocks).Rekeys E) (rounds : Nat) :
    2 ^ 256 * Nat.card {x : (Arr 32 × Arr 32) × Blocks //
      ¬ Private (x.2.stream rest) x.1 E ((Veiled.asker watcher P).used P rest x.2 (talk i r x.1) rounds)} ≤
    (E + 2) * (rounds * m + E + 2) * Nat.card ((Arr 32 × Arr 32) × Blocks) := by
  by_cases hbig : E + 3 ≤ 2 ^ 256
  · obtain ⟨labels, hl, hl0⟩ := labels_exist hbig
    let start := talk i r (seat labels 0)
    have hmc : 2 ≤ i.mc ∧ 2 ≤ r.mc := by
      obtain ⟨h1, h2⟩ := h.count
      omega
    have hs : Labelled labels start := ⟨⟨rfl, rfl, hmc.1⟩, ⟨rfl, rfl, hmc.2⟩⟩
    refine few_real (fun z => asks P rest watcher (P.withBlocks rest (build labels z.2 z.1)) z.1 start rounds)
      (fun z => asks_length P rest hm ha _ _ _ _) _ fun w hw => ?_
    obtain ⟨keys, C, rows⟩ := w
    have hk := hw.inj
    have hoff := hw.off
    obtain ⟨-, -, u⟩ := attacked_clad P rest hk hl hw.full hl0 rows C ha (hE C) hs rounds fun a => .inl (hoff a)
    have hstart : clad keys start = talk i r (seat keys 0) := rfl
    rw [hstart] at u
    refine ⟨fun e he => ?_, fun k hku hsk => ?_⟩
    · rw [streamKey_build rest hk rows C e he]
      intro hc
      have := congrArg Fin.val (hk hc)
      simp only at this
      omega
    · rw [u] at hku
      rcases hsk with e | ⟨e, he, e'⟩
      · exact hoff _ (e ▸ hku)
      · rw [streamKey_build rest hk rows C e he] at e'
        exact hoff _ (e' ▸ hku)
  · refine Nat.mul_le_mul ?_ (Nat.card_le_card_of_injective _ Subtype.val_injective)
    calc 2 ^ 256 ≤ E + 2 := by omega
      _ = (E + 2) * 1 := (Nat.mul_one _).symm
      _ ≤ (E + 2) * (rounds * m + E + 2) := Nat.mul_le_mul_left _ (by omega)

/-- Two sessions after any handshake get two random keys.  An attacker on the network that sees all but the keys, that in each
step hashes and computes at most `m` blocks of its choice, that makes at most `q` deliveries, and that has each side rekey at
most `E` times when it likes, almost never brings it about that a side reads something else than the beginning of the frames
the other side sent. -/
theorem C110_channel (i r : NoiseSession) (keys0 : Arr 32 × Arr 32) (n1 n2 : UInt64) (h : InSync i r keys0 n1 n2) (watcher : Watcher)
    (M m E q : Nat) (hm : ∀ past, (watcher past).Within M m) (ha : ∀ past, (watcher past).Alone)
    (hq : ∀ blocks, (watcher.forger P rest blocks).AtMost q) (hE : ∀ blocks, (watcher.forger P rest blocks).Rekeys E)
    (rounds : Nat) :
    2 ^ 256 * Nat.card {x : (Arr 32 × Arr 32) × Blocks //
      ¬ (SNet.attacked (P.withBlocks rest x.2) (watcher.forger P rest x.2) (talk i r x.1) rounds).1.Genuine} ≤
    (2 ^ 165 * q + (E + 2) * (rounds * m + E + 2)) * Nat.card ((Arr 32 × Arr 32) × Blocks) := by
  let priv : (Arr 32 × Arr 32) × Blocks → Prop := fun x =>
    Private (x.2.stream rest) x.1 E ((Veiled.asker watcher P).used P rest x.2 (talk i r x.1) rounds)
  let gen : (Arr 32 × Arr 32) × Blocks → Prop := fun x =>
    (SNet.attacked (P.withBlocks rest x.2) (watcher.forger P rest x.2) (talk i r x.1) rounds).1.Genuine
  have h1 : 2 ^ 91 * Nat.card {x : (Arr 32 × Arr 32) × Blocks // priv x ∧ ¬ gen x} ≤ q * Nat.card ((Arr 32 × Arr 32) × Blocks) := by
    refine card_prod_le (2 ^ 91) q (fun k b => priv (k, b) ∧ ¬ gen (k, b)) fun k => ?_
    have hsync : InSync (rekeyedTo k i) (rekeyedTo k r) k n1 n2 := by
      obtain ⟨a, b, ⟨c1, c2⟩, d1, d2⟩ := h
      refine ⟨a, b, ⟨?_, ?_⟩, ?_, ?_⟩
      · simp only [rekeyedTo, c1]
      · simp only [rekeyedTo, c2]
      · simp only [rekeyedTo, d1]
      · simp only [rekeyedTo, d2]
    have := C96_network P rest _ _ k n1 n2 hsync (Veiled.asker watcher P) E q
      (fun b => by rw [Veiled.asker_forger]; exact hq b) (fun b => by rw [Veiled.asker_forger]; exact hE b) rounds
    simp only [Veiled.asker_forger] at this
    exact this
  have h2 : 2 ^ 256 * Nat.card {x : (Arr 32 × Arr 32) × Blocks // ¬ priv x} ≤
      (E + 2) * (rounds * m + E + 2) * Nat.card ((Arr 32 × Arr 32) × Blocks) := C110_keys P rest i r keys0 n1 n2 h watcher M m E hm ha hE rounds
  have h3 : Nat.card {x : (Arr 32 × Arr 32) × Blocks // ¬ gen x} ≤
      Nat.card {x : (Arr 32 × Arr 32) × Blocks // priv x ∧ ¬ gen x} + Nat.card {x : (Arr 32 × Arr 32) × Blocks // ¬ priv x} :=
    card_imp_or fun x hx => by
      by_cases hp : priv x
      · exact .inl ⟨hp, hx⟩
      · exact .inr hp
  show 2 ^ 256 * Nat.card {x : (Arr 32 × Arr 32) × Blocks // ¬ gen x} ≤ _
  generalize Nat.card {x : (Arr 32 × Arr 32) × Blocks // ¬ gen x} = c at *
  generalize Nat.card {x : (Arr 32 × Arr 32) × Blocks // priv x ∧ ¬ gen x} = a at *
  generalize Nat.card {x : (Arr 32 × Arr 32) × Blocks // ¬ priv x} = b at *
  generalize Nat.card ((Arr 32 × Arr 32) × Blocks) = N at *
  calc 2 ^ 256 * c ≤ 2 ^ 256 * (a + b) := Nat.mul_le_mul_left _ h3
    _ = 2 ^ 165 * (2 ^ 91 * a) + 2 ^ 256 * b := by ring
    _ ≤ 2 ^ 165 * (q * N) + (E + 2) * (rounds * m + E + 2) * N := Nat.add_le_add (Nat.mul_le_mul_left _ h1) h2
    _ = (2 ^ 165 * q + (E + 2) * (rounds * m + E + 2)) * N := by ring

/-! ## Cases -/

/-- It passes on a frame, has both sides rekey, passes on another one, and then delivers the first one again; in between it
computes blocks with a key it guesses. -/
def renewer (guess : Arr 32) : Watcher := fun past =>
  match past with
  | [] => .reply (.stack (.iSend EMPTY sampleFrame (Arr.replicate 16 0)))
  | n :: past =>
    let wireI := fun j => (n.rnet.net.sentI.map (·.2)).getD j []
    if 3 ≤ n.rnet.net.gotR.length + n.rnet.net.gotI.length then
      .reply (.stack (.iSend EMPTY sampleFrame (Arr.replicate 16 0)))
    else
      match past.length with
      | 0 => .reply (.stack (.iSend EMPTY sampleFrame (Arr.replicate 16 0)))
      | 1 => .block (guess, NX.nonce 0, 0) fun _ => .block (guess, CipherState.rekeyNonce, 1) fun _ => .reply (.stack (.toR (wireI 0)))
      | 2 => if n.rnet.rekeysI = 0 then .reply (.rekeyI false) else .reply (.stack (.toR []))
      | 3 => if n.rnet.rekeysR = 0 then .reply (.rekeyR true) else .reply (.stack (.toR []))
      | 4 => .reply (.stack (.iSend EMPTY sampleFrame (Arr.replicate 16 0)))
      | 5 => .reply (.stack (.toR (wireI 1)))
      | _ => .hash [1] fun _ => .reply (.stack (.toR (wireI 0)))

/-- It meets the hypotheses. -/
theorem renewer_ok (P : Prims) (rest : Arr 32 → Arr 12 → Nat → UInt8) (guess : Arr 32) (M : Nat) :
    (∀ past, (renewer guess past).Within M 2) ∧ (∀ past, (renewer guess past).Alone) ∧
    (∀ blocks, ((renewer guess).forger P rest blocks).AtMost 3) ∧ ∀ blocks, ((renewer guess).forger P rest blocks).Rekeys 1 := by
  refine ⟨fun past => ?_, fun past => ?_, fun blocks n past w h => ?_, fun blocks n past remote => ?_⟩
  · unfold renewer
    split
    · trivial
    · simp only []
      split
      · trivial
      · split <;> first | trivial | (split <;> trivial) | exact fun _ => trivial | exact fun _ _ => trivial
  · unfold renewer
    split
    · trivial
    · simp only []
      split
      · trivial
      · split <;> first | trivial | (split <;> trivial) | exact fun _ => trivial | exact fun _ _ => trivial
  · have : (renewer guess).forger P rest blocks (n :: past) = .stack (.iSend EMPTY sampleFrame (Arr.replicate 16 0)) := by
      unfold Watcher.forger renewer
      simp only [List.map_cons]
      rw [if_pos (show 3 ≤ n.seen.rnet.net.gotR.length + n.seen.rnet.net.gotI.length from h)]
      rfl
    rw [this]
    constructor <;> intro h <;> cases h
  · unfold Watcher.forger renewer
    simp only [List.map_cons]
    constructor <;> intro h e <;> split at e
    · cases e
    · split at e
      · cases e
      · cases e
      · rw [if_neg (show ¬ n.seen.rnet.rekeysI = 0 by show ¬ n.rnet.rekeysI = 0; omega)] at e
        cases e
      · split at e <;> cases e
      · cases e
      · cases e
      · cases e
    · cases e
    · split at e
      · cases e
      · cases e
      · split at e <;> cases e
      · rw [if_neg (show ¬ n.seen.rnet.rekeysR = 0 by show ¬ n.rnet.rekeysR = 0; omega)] at e
        cases e
      · cases e
      · cases e
      · cases e

/-- Both frames are read, the second one under the new key, and the first one is not read again. -/
example : let rest := fun _ _ _ => 7
    let n := (SNet.attacked (toyPrims.withBlocks rest toyBlocks) ((renewer (Arr.replicate 32 5)).forger toyPrims rest toyBlocks)
      (talk toyI toyR (Arr.replicate 32 3, Arr.replicate 32 4)) 7).1
    Stack.read n.rnet.net.gotR = [.ok sampleFrame, .ok sampleFrame] ∧
      n.rnet.net.gotR.map (·.2.1) = [.ok (), .ok (), .err .decryptionError] ∧
      n.framesI = [sampleFrame, sampleFrame] ∧ n.rnet.rekeysI = 1 ∧ n.rnet.rekeysR = 1 ∧
      n.rnet.net.i.cs1.k ≠ Arr.replicate 32 3 ∧ n.rnet.net.i.cs1.k = n.rnet.net.r.cs1.k := by
  decide +kernel

/-- It delivers what it encrypts with a key it guesses. -/
def guesser (guess : Arr 32) : Watcher := fun _ =>
  .block (guess, NX.nonce 0, 0) fun x0 => .block (guess, NX.nonce 0, 1) fun x1 =>
    let blocks : Blocks := fun x => if x.2.2 = 0 then x0 else x1
    .reply (.stack (.toR (NX.enc (toyPrims.withBlocks (fun _ _ _ => 7) blocks) guess 0 [] (Wire.frame sampleFrame))))

/-- With the right guess the responder reads a frame that nobody sent, with another one it does not: there are such keys and
block functions, only they are few. -/
example : let rest := fun _ _ _ => 7
    let end' := fun guess => (SNet.attacked (toyPrims.withBlocks rest toyBlocks) ((guesser guess).forger toyPrims rest toyBlocks)
      (talk toyI toyR (Arr.replicate 32 3, Arr.replicate 32 4)) 1).1
    Stack.read (end' (Arr.replicate 32 3)).rnet.net.gotR = [.ok sampleFrame] ∧ (end' (Arr.replicate 32 3)).framesI = [] ∧
      Stack.read (end' (Arr.replicate 32 5)).rnet.net.gotR = [] := by
  decide +kernel

end SV2.Stack
