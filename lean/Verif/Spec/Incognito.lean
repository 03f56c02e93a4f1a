import Verif.Spec.Forward
/-!
# Which server is it?

The attacker of `Verif/Spec/Forward.lean`, which here wants to know which of two servers the client is talking to.  It sees the
messages; of the sessions it does not see the static key that the client got from the server.
-/

namespace SV2.Noise

/-- What is seen of a step, without the server's static key. -/
def Seen.unnamed (s : Seen) : Seen :=
  { s with initiator := { s.initiator with hs := { s.initiator.hs with rs := NX.zeros } } }

/-- It does not look at the static key that the client got. -/
def Listener.Outside (l : Listener) : Prop :=
  ∀ past, l.next past = l.next (past.map Seen.unnamed) ∧ l.verdict past = l.verdict (past.map Seen.unnamed)

end SV2.Noise
