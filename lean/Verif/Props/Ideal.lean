import Verif.Lemmas.Ideal
import Verif.Props.Integrity
/-!
# C94: frames over a network with an attacker, if ChaCha20 is random

The random block function and the attacker are in `Verif/Spec/Ideal.lean`.
-/

namespace SV2.Noise
open SV2.Stack

variable (P : Prims) (rest : Arr 32 → Arr 12 → Nat → UInt8)

/-- The block function of RFC 8439, 2.3. -/
def chachaBlocks : Blocks := fun x =>
  ⟨Crypto.ChaCha20.block x.1 (UInt32.ofNat x.2.2.val) x.2.1, Crypto.X25519.length_toLE _ _⟩

/-- ChaCha20-Poly1305 is of this form. -/
theorem C94_rfc : Crypto.rfc = Crypto.rfc.withBlocks chachaByte chachaBlocks := by
  have h1 : chachaBlocks.stream chachaByte = chachaByte := by
    funext k n i
    unfold Blocks.stream
    split
    · show (Crypto.ChaCha20.block k (UInt32.ofNat (1 + i / 64)) n).getD _ 0 = _
      rw [UInt32.ofNat_add]
      rfl
    · rfl
  have h2 : chachaBlocks.oneTime = chachaOneTime := rfl
  unfold Prims.withBlocks
  rw [h1, h2]
  exact C92_rfc

/-- There are finitely many block functions, so one can be chosen at random. -/
theorem C94_finite : Finite Blocks := inferInstance

/-! ## Integrity -/

/-- Two sessions after a handshake with different keys for the two directions.  An attacker, that sees everything but the
block function, has either side send any frames - also ones that do not fit -, has either side rekey at most `E` times,
and delivers at most `q` messages.  For all but a share of `q / 2^91 + E / 2^256` of the block functions, what each side
reads is the beginning of the frames for which `send_message` returned `Ok` on the other side. -/
theorem C94_frames (i r : NoiseSession) (keys : Arr 32 × Arr 32) (n1 n2 : UInt64) (h : InSync i r keys n1 n2)
    (hk : keys.1 ≠ keys.2) (forger : SForger) (q E : Nat) (hq : forger.AtMost q) (hE : forger.Rekeys E) (rounds : Nat) :
    2 ^ 256 * Nat.card {blocks : Blocks //
      ¬ (SNet.attacked (P.withBlocks rest blocks) forger { rnet := { net := { i := i, r := r } } } rounds).1.Genuine} ≤
    (2 ^ 165 * q + E) * Nat.card Blocks := by
  refine le_trans (Nat.mul_le_mul_left _ ?_)
    (Blocks.card_forged rest P (SForger.below_rekeys hE) h hk (SForger.below_atMost hq) rounds)
  refine Nat.card_le_card_of_injective (fun b => ⟨b.1, fun hg => b.2 ?_⟩) fun a b h => Subtype.ext (congrArg (fun x => x.1) h)
  obtain ⟨h1, h2, -⟩ := attacked_below (P := P.withBlocks rest b.1) (forger := forger) (FInv.start h) rounds
  exact h1.genuine (h2 ▸ hg)

/-- The frames counted as sent are those whose bytes were encrypted, in this order, and they fit into a message. -/
theorem C94_sent (Q : Prims) (i r : NoiseSession) (keys : Arr 32 × Arr 32) (n1 n2 : UInt64) (h : InSync i r keys n1 n2)
    (forger : SForger) (rounds : Nat) :
    let n := (SNet.attacked Q forger { rnet := { net := { i := i, r := r } } } rounds).1
    n.rnet.net.sentI.map (·.1) = n.framesI.map Wire.frame ∧ n.rnet.net.sentR.map (·.1) = n.framesR.map Wire.frame ∧
    (∀ f ∈ n.framesI, f.payload.length ≤ 65513) ∧ ∀ f ∈ n.framesR, f.payload.length ≤ 65513 := by
  intro n
  obtain ⟨h1, -⟩ := attacked_below (P := Q) (forger := forger) (FInv.start h) rounds
  exact ⟨h1.sentI, h1.sentR, h1.smallI, h1.smallR⟩

/-! ## Secrecy -/

/-- The attacker of C91 against a random block function: for every block function where first messages are sent there is
exactly one where second messages are sent and it sees the same. -/
theorem C94_worlds (i r : NoiseSession) (hi : i.i = true) (hr : r.i = false) (hi' : 2 ≤ i.getMessageCount)
    (hr' : 2 ≤ r.getMessageCount) (attacker : Attacker) (rounds : Nat) :
    ∃ e : Blocks ≃ Blocks, ∀ blocks,
      Duo.play (P.withBlocks rest blocks) false attacker rounds (i, r) [] =
        Duo.play (P.withBlocks rest (e blocks)) true attacker rounds (i, r) [] := by
  have key : ∀ u : Unused, ∃ e : Pad ≃ Pad, ∀ pad,
      Duo.play (P.withBlocks rest (u.join pad)) false attacker rounds (i, r) [] =
        Duo.play (P.withBlocks rest (u.join (e pad))) true attacker rounds (i, r) [] := by
    intro u
    obtain ⟨e, he⟩ := C91_worlds P u.tag (u.more rest) i r hi hr hi' hr' attacker rounds
    exact ⟨e, fun pad => by rw [Unused.withBlocks, Unused.withBlocks, he]⟩
  choose e he using key
  refine ⟨Blocks.pads.trans (((Equiv.refl Unused).prodShear e).trans Blocks.pads.symm), fun blocks => ?_⟩
  have := he blocks.unused blocks.pad
  have h1 : blocks.unused.join blocks.pad = blocks := Blocks.pads.symm_apply_apply blocks
  rw [h1] at this
  exact this

/-- So no test of what it has seen tells the two apart. -/
theorem C94_secret (i r : NoiseSession) (hi : i.i = true) (hr : r.i = false) (hi' : 2 ≤ i.getMessageCount)
    (hr' : 2 ≤ r.getMessageCount) (attacker : Attacker) (rounds : Nat) (test : List Seen → Prop) :
    Nat.card {blocks : Blocks // test (Duo.play (P.withBlocks rest blocks) false attacker rounds (i, r) [])} =
      Nat.card {blocks : Blocks // test (Duo.play (P.withBlocks rest blocks) true attacker rounds (i, r) [])} := by
  obtain ⟨e, he⟩ := C94_worlds P rest i r hi hr hi' hr' attacker rounds
  exact Nat.card_congr (e.subtypeEquiv fun b => by rw [he])

/-! ## A case -/

/-- An attacker that has a frame sent, has both sides rekey, has another frame sent, and delivers: the second frame, then
the first, then a change of the second. -/
def meddler : SForger := fun past =>
  match past with
  | [] => .stack (.iSend EMPTY sampleFrame (Arr.replicate 16 0))
  | n :: past =>
    if 3 ≤ n.rnet.net.gotR.length + n.rnet.net.gotI.length then .stack (.iSend EMPTY sampleFrame (Arr.replicate 16 0))
    else
      let wire := fun j => (n.rnet.net.sentI.map (·.2)).getD j []
      match past.length with
      | 0 => .stack (.iSend EMPTY sampleFrame (Arr.replicate 16 0))
      | 1 => if 1 ≤ n.rnet.rekeysI then .stack (.toR []) else .rekeyI true
      | 2 => .stack (.iSend EMPTY ⟨.setupConnectionSuccess, [2, 0, 1, 0, 0, 0]⟩ (Arr.replicate 16 0))
      | 3 => .stack (.toR (wire 1))
      | 4 => .stack (.toR (wire 0))
      | 5 => if 1 ≤ n.rnet.rekeysR then .stack (.toR []) else .rekeyR false
      | _ => .stack (.toR ((wire 1).set 0 0))

example : meddler.AtMost 3 ∧ meddler.Rekeys 1 := by
  constructor
  · intro n past w h
    have : meddler (n :: past) = .stack (.iSend EMPTY sampleFrame (Arr.replicate 16 0)) := if_pos h
    rw [this]
    constructor <;> intro h <;> cases h
  · intro n past remote
    unfold meddler
    constructor <;> intro h e <;> simp only [] at e <;> split at e
    · cases e
    · split at e <;> first | cases e | (split at e <;> cases e)
    · cases e
    · split at e <;> first | cases e | (split at e <;> cases e)

/-- A block function that is easy to compute. -/
def toyBlocks : Blocks := fun x => Arr.replicate 64 ((x.1.toList ++ x.2.1.toList).foldl (· + 3 * ·) (UInt8.ofNat x.2.2.val))

example : let n := (SNet.attacked (toyPrims.withBlocks (fun _ _ _ => 7) toyBlocks) meddler
      { rnet := { net := { i := toyI, r := toyR } } } 7).1
    n.rnet.net.gotR.map (·.2.1) = [.err .decryptionError, .ok (), .err .decryptionError] ∧
    Stack.read n.rnet.net.gotR = [.ok sampleFrame] ∧
    n.framesI = [sampleFrame, ⟨.setupConnectionSuccess, [2, 0, 1, 0, 0, 0]⟩] := by
  decide +kernel

end SV2.Noise
