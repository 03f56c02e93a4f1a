import Verif.Spec.Snoop
import Verif.Spec.Forward
/-!
# Somebody has the server's static secret, and the sides change keys

As `Verif/Spec/Forward.lean`, with the attacker of `Verif/Spec/Snoop.lean`.
-/

namespace SV2.Noise

variable (P : Prims) (rest : Arr 32 → Arr 12 → Nat → UInt8) (blocks : Blocks)

/-- What it sees in a number of moves from these sessions, and what is hashed for it; `second` says which texts are sent.  It sees
neither the keys nor what is read. -/
def Snoop.listen (snoop : Snoop) (second : Bool) : (rounds : Nat) → Duo → List Seen → List Bytes → List Seen × List Bytes
  | 0, _, seen, asked => (seen, asked)
  | rounds + 1, s, seen, asked =>
    let c := (snoop.next seen).play P rest blocks
    let r := s.act (P.withBlocks rest blocks) second c.result
    Snoop.listen snoop second rounds r.2.2 (seen ++ [Seen.blind ⟨r.1, r.2.1, r.2.2.1, r.2.2.2⟩]) (asked ++ c.asked P)

/-- A client with the ephemeral secret `eI` sends its first message, a server with the static secret `sR` and the ephemeral
secret `eR` answers, and the client gets this answer; no call fails.  Then the two sides talk, and rekey when the attacker in
between wants; it has seen the two messages, and in the end says yes.  All the time the shared secret of the ephemeral keys was
hashed with the first chaining key only for keys. -/
def Tapped (far : Bytes → Arr 32) {M : Nat} (prologue : Bytes) (kp : Keypair) (eI : Arr 32) (buf1 : Bytes) (sR eR : Arr 32)
    (buf2 : Bytes) (snoop : Bytes → Bytes → Snoop) (rounds : Nat) (second : Bool) (H : Hashes M) : Prop :=
  let Q := P.withHash (H.at far)
  ∃ i1 first, (NoiseSession.initSession Q true prologue kp).sendMessage Q (Keypair.default Q eI) buf1 = (.ok (), i1, first) ∧
    ∃ a, (Serving.mk prologue sR eR first buf2).answer (Q.withBlocks rest blocks) = some a ∧
      ∃ i2 out, i1.recvMessage (Q.withBlocks rest blocks) a.second = (.ok (), i2, out) ∧
        let l := snoop first a.second
        let h := l.listen Q rest blocks second rounds (i2, a.session) [] []
        let v := (l.verdict h.1).play Q rest blocks
        innerInput (NX.h0 Q) (Q.dh eI (Q.publicOf eR)) ∉
            NX.hashInputs Q (NX.h0 Q) (NX.parts prologue first a.second) ++ h.2 ++ v.asked Q ∧
          v.result = true

end SV2.Noise
