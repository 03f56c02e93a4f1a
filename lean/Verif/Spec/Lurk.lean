import Verif.Spec.Tap
/-!
# A client connects, somebody listens, and the sides change keys

As `Verif/Spec/Eavesdrop.lean`, with the attacker of `Verif/Spec/Snoop.lean`, which also asks responders.
-/

namespace SV2.Noise

variable (P : Prims) (rest : Arr 32 → Arr 12 → Nat → UInt8) (blocks : Blocks)

/-- A client sends its first message, and accepts the attacker's reply, which one of the servers made for this message.  Then
the two sides talk, and rekey when the attacker in between wants, and in the end it says yes.  All the time a shared secret of
the client and a server was hashed only for keys. -/
def Lurked (far : Bytes → Arr 32) {M : Nat} (prologue : Bytes) (kp : Keypair) (eI : Arr 32) (buf1 : Bytes)
    (servers : List (Arr 32)) (impostor : Bytes → Curious Bytes) (snoop : Snoop) (rounds : Nat) (second : Bool)
    (H : Hashes M) : Prop :=
  let Q := P.withHash (H.at far)
  ∃ i1 first, (NoiseSession.initSession Q true prologue kp).sendMessage Q (Keypair.default Q eI) buf1 = (.ok (), i1, first) ∧
    let p := (impostor first).play Q rest blocks
    ∃ i2 out, i1.recvMessage (Q.withBlocks rest blocks) p.result = (.ok (), i2, out) ∧
      ∃ s ∈ p.served, s.2.prologue = prologue ∧ s.2.first = first ∧ s.2.second = p.result ∧ Q.publicOf s.1 ∈ servers ∧
        let h := snoop.listen Q rest blocks second rounds (i2, s.2.session) [] []
        let v := (snoop.verdict h.1).play Q rest blocks
        ¬ Leaked Q eI servers (p.heard Q prologue first ++ h.2 ++ v.asked Q) ∧ v.result = true

end SV2.Noise
