import Verif.Spec.Outsider
import Verif.Spec.Forward
/-!
# Somebody talks in the place of one of the two sides, after a handshake that nobody disturbed

The attacker of `Verif/Spec/Outsider.lean` between a client and a server.  As in `Verif/Spec/Forward.lean` it is chosen when all
secrets are known, the static one of the server among them, and what it does not do is to hash the shared secret of the two
ephemeral keys.
-/

namespace SV2.Stack
open Noise

variable (P : Prims) (rest : Arr 32 → Arr 12 → Nat → UInt8) (blocks : Blocks)

/-- A client with the ephemeral secret `eI` sends its first message, a server with the static secret `sR` and the ephemeral
secret `eR` answers, and the client gets this answer; no call fails.  Then the two sides talk, with the attacker in between,
who has seen the two messages.  All the time the shared secret of the ephemeral keys was hashed with the first chaining key
only for keys.  But it is not so that each side reads from the other side exactly the frames sent, in order and up to some
point. -/
def Intruded (far : Bytes → Arr 32) {M : Nat} (prologue : Bytes) (kp : Keypair) (eI : Arr 32) (buf1 : Bytes) (sR eR : Arr 32)
    (buf2 : Bytes) (watcher : Bytes → Bytes → Watcher) (rounds : Nat) (H : Hashes M) : Prop :=
  let Q := P.withHash (H.at far)
  ∃ i1 first, (NoiseSession.initSession Q true prologue kp).sendMessage Q (Keypair.default Q eI) buf1 = (.ok (), i1, first) ∧
    ∃ a, (Serving.mk prologue sR eR first buf2).answer (Q.withBlocks rest blocks) = some a ∧
      ∃ i2 out, i1.recvMessage (Q.withBlocks rest blocks) a.second = (.ok (), i2, out) ∧
        let w := watcher first a.second
        let start : SNet := { rnet := { net := { i := i2, r := a.session } } }
        innerInput (NX.h0 Q) (Q.dh eI (Q.publicOf eR)) ∉
            NX.hashInputs Q (NX.h0 Q) (NX.parts prologue first a.second) ++ w.heard Q rest blocks start rounds ∧
          ¬ (SNet.attacked (Q.withBlocks rest blocks) (w.forger Q rest blocks) start rounds).1.Genuine

/-- It has the responder send frames, and delivers to it; there is no initiator. -/
def SForger.Lonely (forger : SForger) : Prop := ∀ past, ∃ act, forger past = .stack act ∧ ∀ secret f room wire,
  act ≠ .iSend secret f room ∧ act ≠ .toI wire

/-- Somebody gives a server the message `first`, in which the public key of `eI` is - say a copy of what a client once sent -
and the server answers.  Then the attacker delivers to the server what it likes, and the server accepts something, though the
shared secret of the ephemeral keys was hashed with the first chaining key only for keys.  (`i0` is in the place of the
client, and does nothing.) -/
def Replayed (far : Bytes → Arr 32) {M : Nat} (i0 : NoiseSession) (prologue first : Bytes) (eI sR eR : Arr 32)
    (buf2 : Bytes) (watcher : Bytes → Watcher) (rounds : Nat) (H : Hashes M) : Prop :=
  let Q := P.withHash (H.at far)
  ∃ a, (Serving.mk prologue sR eR first buf2).answer (Q.withBlocks rest blocks) = some a ∧
    let w := watcher a.second
    let start : SNet := { rnet := { net := { i := i0, r := a.session } } }
    innerInput (NX.h0 Q) (Q.dh eI (Q.publicOf eR)) ∉
        NX.hashInputs Q (NX.h0 Q) (NX.parts prologue first a.second) ++ w.heard Q rest blocks start rounds ∧
      ∃ d ∈ (SNet.attacked (Q.withBlocks rest blocks) (w.forger Q rest blocks) start rounds).1.rnet.net.gotR, d.2.1 = .ok ()

end SV2.Stack
