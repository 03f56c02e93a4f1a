import Verif.Spec.Intruder
/-!
# An attacker that is alone with a server, which also changes its keys
-/

namespace SV2.Stack
open Noise

/-- It has the responder send frames or rekey, and delivers to it; there is no initiator. -/
def SForger.Solitary (forger : SForger) : Prop := ∀ past remote secret f room wire, forger past ≠ .rekeyI remote ∧
  forger past ≠ .stack (.iSend secret f room) ∧ forger past ≠ .stack (.toI wire)

end SV2.Stack
