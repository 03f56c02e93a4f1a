import Verif.Spec.Eavesdrop
/-!
# Somebody has the server's static secret, afterwards or all the time

A client and a server do a handshake, and nobody changes their two messages.  The attacker of `Verif/Spec/Eavesdrop.lean`
then tries to find out what they send.  It is chosen when all secrets are known, the static one of the server among them; what
it does not do is to hash the shared secret of the two ephemeral keys.
-/

namespace SV2.Noise

/-- It asks no responders.  (It can compute their answers by itself.) -/
def Curious.Alone {α : Type} : Curious α → Prop
  | .reply _ => True
  | .hash _ next => ∀ y, (next y).Alone
  | .block _ next => ∀ y, (next y).Alone
  | .serve _ _ => False

variable (P : Prims) (rest : Arr 32 → Arr 12 → Nat → UInt8) (blocks : Blocks)

/-- A client with the ephemeral secret `eI` sends its first message, a server with the static secret `sR` and the ephemeral
secret `eR` answers, and the client gets this answer; no call fails.  Then the two sides talk, with the attacker in between,
who has seen the two messages; in the end it says yes.  All the time the shared secret of the ephemeral keys was hashed with
the first chaining key only for keys. -/
def Overheard (far : Bytes → Arr 32) {M : Nat} (prologue : Bytes) (kp : Keypair) (eI : Arr 32) (buf1 : Bytes) (sR eR : Arr 32)
    (buf2 : Bytes) (listener : Bytes → Bytes → Listener) (rounds : Nat) (second : Bool) (H : Hashes M) : Prop :=
  let Q := P.withHash (H.at far)
  ∃ i1 first, (NoiseSession.initSession Q true prologue kp).sendMessage Q (Keypair.default Q eI) buf1 = (.ok (), i1, first) ∧
    ∃ a, (Serving.mk prologue sR eR first buf2).answer (Q.withBlocks rest blocks) = some a ∧
      ∃ i2 out, i1.recvMessage (Q.withBlocks rest blocks) a.second = (.ok (), i2, out) ∧
        let l := listener first a.second
        let h := l.listen Q rest blocks second rounds (i2, a.session) [] []
        let v := (l.verdict h.1).play Q rest blocks
        innerInput (NX.h0 Q) (Q.dh eI (Q.publicOf eR)) ∉
            NX.hashInputs Q (NX.h0 Q) (NX.parts prologue first a.second) ++ h.2 ++ v.asked Q ∧
          v.result = true

end SV2.Noise
