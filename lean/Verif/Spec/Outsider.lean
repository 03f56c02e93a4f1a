import Verif.Spec.Oracle
import Verif.Spec.Channel
/-!
# A client connects, and the two sides talk: a random hash function

The attacker of `Verif/Spec/Oracle.lean`, which now is also the network between the two sides once the client has accepted.
It sees the messages, but not the keys of a session.
-/

namespace SV2.Noise

/-- Of a responder's answer it sees only the message. -/
def Curious.Blind {α : Type} : Curious α → Prop
  | .reply _ => True
  | .hash _ next => ∀ y, (next y).Blind
  | .block _ next => ∀ y, (next y).Blind
  | .serve _ next => (∀ a, (next a).Blind) ∧ ∀ a a', a.map Answer.second = a'.map Answer.second → next a = next a'

/-- What the attacker and the responders hashed outside the derivation of keys. -/
def Spied.asked {α : Type} (P : Prims) (p : Spied α) : List Bytes :=
  p.hashed ++ p.served.flatMap fun s => NX.hashInputs P (NX.h0 P) (NX.parts s.2.prologue s.2.first s.2.second)

/-- A session without its keys. -/
def NoiseSession.seen (s : NoiseSession) : NoiseSession :=
  { s with cs1 := { s.cs1 with k := NX.zeros }, cs2 := { s.cs2 with k := NX.zeros } }

end SV2.Noise

namespace SV2.Stack
open Noise

/-- The two sessions without their keys, and all messages. -/
def SNet.seen (n : SNet) : SNet :=
  { n with rnet := { n.rnet with net := { n.rnet.net with i := n.rnet.net.i.seen, r := n.rnet.net.r.seen } } }

/-- An attacker on the network that chooses each step from all it has seen, after hashing, computing blocks, and asking
responders.  It need not remember what it learned before: it can ask again. -/
abbrev Watcher := List SNet → Curious SAct

variable (P : Prims) (rest : Arr 32 → Arr 12 → Nat → UInt8) (blocks : Blocks)

/-- Its choices, for this hash and block function. -/
def Watcher.forger (watcher : Watcher) : SForger := fun past => ((watcher (past.map SNet.seen)).play P rest blocks).result

/-- What was hashed for a number of steps. -/
def Watcher.heard (watcher : Watcher) (start : SNet) : Nat → List Bytes
  | 0 => []
  | j + 1 =>
    let h := SNet.attacked (P.withBlocks rest blocks) (watcher.forger P rest blocks) start j
    Watcher.heard watcher start j ++ ((watcher ((h.1 :: h.2).map SNet.seen)).play P rest blocks).asked P

/-- A client sends its first message, and accepts the attacker's reply as the answer of one of the servers; a shared secret
of the client and a server was hashed only for keys, and no two responders had the same two shared secrets with the client.
But it is not so that a responder made this answer for this client, and that from then on, while the attacker delivers
what it likes, each side reads from the other side exactly the frames sent, in order and up to some point, as long as
such a shared secret is hashed only for keys. -/
def Breached (far : Bytes → Arr 32) {M : Nat} (prologue : Bytes) (kp : Keypair) (eI : Arr 32) (buf1 : Bytes)
    (servers : List (Arr 32)) (impostor : Bytes → Curious Bytes) (watcher : Watcher) (rounds : Nat) (H : Hashes M) : Prop :=
  let Q := P.withHash (H.at far)
  ∃ i1 first, (NoiseSession.initSession Q true prologue kp).sendMessage Q (Keypair.default Q eI) buf1 = (.ok (), i1, first) ∧
    let p := (impostor first).play Q rest blocks
    ∃ i2 out rs, i1.recvMessage (Q.withBlocks rest blocks) p.result = (.ok (), i2, out) ∧
      i2.getRemoteStaticPublicKey = some rs ∧ rs ∈ servers ∧
      ¬ Told Q eI servers (p.heard Q prologue first) ∧
      (p.served.map fun s => s.2.secrets Q s.1).count (Q.dh eI (keyIn p.result), Q.dh eI rs) ≤ 1 ∧
      ¬ ∃ s ∈ p.served, Answered Q prologue first p.result i2 out rs s.1 s.2 ∧
        let start : SNet := { rnet := { net := { i := i2, r := s.2.session } } }
        (¬ Told Q eI servers (watcher.heard Q rest blocks start rounds) →
          (SNet.attacked (Q.withBlocks rest blocks) (watcher.forger Q rest blocks) start rounds).1.Genuine)

end SV2.Stack
