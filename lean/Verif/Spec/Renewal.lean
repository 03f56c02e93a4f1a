import Verif.Spec.Outsider
/-!
# Two sessions that talk, and now and then change keys, with an attacker on the network that does not know the keys
-/

namespace SV2.Stack
open Noise

/-- The session with these two keys. -/
def rekeyedTo (k : Arr 32 × Arr 32) (s : NoiseSession) : NoiseSession :=
  { s with cs1 := { s.cs1 with k := k.1 }, cs2 := { s.cs2 with k := k.2 } }

/-- Both sessions with these two keys, and nothing said yet. -/
def talk (i r : NoiseSession) (k : Arr 32 × Arr 32) : SNet := { rnet := { net := { i := rekeyedTo k i, r := rekeyedTo k r } } }

end SV2.Stack
