import Verif.Spec.Impersonation
/-!
# A client connects, and the two sides talk

The attacker of `Verif/Spec/Impersonation.lean` answers the client; if the client accepts, it is the network between the
client and the responder that made the answer.  All the time it can compute blocks of ChaCha20 and have responders run
handshakes.
-/

namespace SV2.Noise

/-- The keys that were used: those the attacker computed blocks with, and those the responders encrypted with. -/
def Played.used {α : Type} (P : Prims) (p : Played α) : List (Arr 32) := p.keys ++ p.served.flatMap fun s => s.2.keys P s.1

/-- The keys of the two sessions - `keys` after the handshake, later those after rekeying - are not among `used`, and those
for the one direction are not the one for the other. -/
structure Private (stream : Arr 32 → Arr 12 → Nat → UInt8) (keys : Arr 32 × Arr 32) (E : Nat) (used : List (Arr 32)) : Prop where
  distinct : ∀ e ≤ E, streamKey stream keys.1 e ≠ keys.2
  unused : ∀ k ∈ used, ¬ SessionKey stream keys E k

end SV2.Noise

namespace SV2.Stack
open Noise

/-- An attacker on the network that chooses each step from all that has happened, after computing and asking what it
likes. -/
abbrev Asker := List SNet → Asking SAct

variable (P : Prims) (rest : Arr 32 → Arr 12 → Nat → UInt8) (blocks : Blocks)

/-- Its choices, for this block function. -/
def Asker.forger (asker : Asker) : SForger := fun past => ((asker past).play P rest blocks).result

/-- The keys used for a number of steps. -/
def Asker.used (asker : Asker) (start : SNet) : Nat → List (Arr 32)
  | 0 => []
  | j + 1 =>
    let h := SNet.attacked (P.withBlocks rest blocks) (asker.forger P rest blocks) start j
    Asker.used asker start j ++ ((asker (h.1 :: h.2)).play P rest blocks).used P

/-- The client, with the session `i1` after it sent `first`, accepts the attacker's reply.  But it is not so that a
responder made this answer for this client, and that from then on, while the attacker delivers what it likes, each side
reads from the other side exactly the frames sent, in order and up to some point, as long as the session keys were not
used for anything else. -/
def Broken (prologue : Bytes) (eI : Arr 32) (i1 : NoiseSession) (first : Bytes) (impostor : Impostor)
    (network : Played Bytes → Asker) (E rounds : Nat) : Prop :=
  let p := impostor.play P rest blocks
  ∃ i2 out rs, i1.recvMessage (P.withBlocks rest blocks) p.result = (.ok (), i2, out) ∧
    i2.getRemoteStaticPublicKey = some rs ∧ Careful P prologue eI first p rs ∧
    ¬ ∃ s ∈ p.served, Answered P prologue first p.result i2 out rs s.1 s.2 ∧
      let start : SNet := { rnet := { net := { i := i2, r := s.2.session } } }
      (Private (blocks.stream rest) (i2.cs1.k, i2.cs2.k) E
          (p.used P ++ (network p).used P rest blocks start rounds) →
        (SNet.attacked (P.withBlocks rest blocks) ((network p).forger P rest blocks) start rounds).1.Genuine)

end SV2.Stack
