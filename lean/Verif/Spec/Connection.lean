import Verif.Spec.Insistence
import Verif.Spec.Channel
import Verif.Spec.Certificate
/-!
# A connection from the first message on

The attacker of `Verif/Spec/Insistence.lean` gives the client replies until it accepts one.  Then it is the network between
the client and the responder, as in `Verif/Spec/Channel.lean`.
-/

namespace SV2.Noise

/-- The keys that were used before the client accepted: those the attacker computed blocks with, and those the responders
encrypted with. -/
def Siege.used (P : Prims) (s : Siege) : List (Arr 32) := s.keys ++ s.served.flatMap fun a => a.2.keys P a.1

end SV2.Noise

namespace SV2.Stack
open Noise

variable (P : Prims) (rest : Arr 32 → Arr 12 → Nat → UInt8) (blocks : Blocks)

/-- The client with the session `i2` and the responder with the session `r2` talk through the attacker: what each side reads
from the other side is exactly the frames sent, in order and up to some point, as long as the session keys were not used
for anything else. -/
def Talk (asker : Asker) (E rounds : Nat) (used : List (Arr 32)) (i2 r2 : NoiseSession) : Prop :=
  let start : SNet := { rnet := { net := { i := i2, r := r2 } } }
  Private (blocks.stream rest) (i2.cs1.k, i2.cs2.k) E (used ++ asker.used P rest blocks start rounds) →
    (SNet.attacked (P.withBlocks rest blocks) (asker.forger P rest blocks) start rounds).1.Genuine

/-- The client, with the session `i1` after it sent `first`, accepts one of at most `n` replies, for which `Trusts` holds;
but it is not so that a responder for whose static key `Known` holds made this answer for this client, and that the two
then talk. -/
def Overrun (prologue : Bytes) (eI : Arr 32) (i1 : NoiseSession) (first : Bytes) (insistent : Insistent)
    (network : Siege → Asker) (n E rounds : Nat) (Trusts : Siege → Bytes → Arr 32 → Prop) (Known : Siege → Bytes → Arr 32 → Prop) :
    Prop :=
  let s := insistent.play P rest blocks n { client := i1 }
  ∃ w i2 out rs, s.accepted = some (w, i2, out) ∧ i2.getRemoteStaticPublicKey = some rs ∧
    s.Careful P prologue eI first w rs ∧ Trusts s out rs ∧
    ¬ ∃ a ∈ s.served, Answered P prologue first w i2 out rs a.1 a.2 ∧ Known s out (P.publicOf a.1) ∧
      Talk P rest blocks (network s) E rounds (s.used P) i2 a.2.session

/-- A client that has the certificate `m` for the static key `rs` of the other side checks it at the time `now` with the key
`text` of the authority: `Ok`.  And the signature is not a forgery. -/
def Trusted {E : SigScheme} (text : String) (signed : List Bytes) (m : SignatureNoiseMessage E) (now : SystemTime)
    (rs : StaticPublicKey) : Prop :=
  (∃ cf, CertificateFormat.new text rs m = .ok cf ∧ cf.verify now = .ok ()) ∧
  ¬ ∃ pk, E.base58 text = some pk.toList ∧
    Forges E pk signed (Wire.certBytes m.version m.valid_from m.not_valid_after rs) m.signature.bytes

/-- The authority issued this certificate for this key, and while clocks are below 2^32 seconds it has not expired. -/
def Vouched {E : SigScheme} (issued : List SignedCertificate) (m : SignatureNoiseMessage E) (now : SystemTime)
    (rs : StaticPublicKey) : Prop :=
  ⟨m.version, m.valid_from, m.not_valid_after, rs⟩ ∈ issued ∧
  (now.seconds < 2 ^ 32 → 0 ≤ now.seconds ∧ now.seconds < m.not_valid_after.toNat)

end SV2.Stack
