import Verif.Spec.Outsider
import Verif.Spec.Secrecy
/-!
# A client connects, and somebody listens: a random hash function

The attacker of `Verif/Spec/Outsider.lean`, which here wants to know which of two texts is sent.  Once the client has accepted,
it chooses for each message two texts of the same length, and sees all messages, but neither the keys of the sessions nor
what they read.
-/

namespace SV2.Noise

/-- A step: a party sends one of two texts, in buffers with 16 bytes more, or bytes are delivered to it. -/
inductive Talk where
  | send (who : Party) (m0 m1 : Bytes)
  | deliver (who : Party) (bytes : Bytes)

def Talk.move : Talk → Move
  | .send who m0 m1 => .send who m0 m1
  | .deliver who bytes => .deliver who bytes

/-- What is seen of a step, without the keys. -/
def Seen.blind (s : Seen) : Seen := { s with initiator := s.initiator.seen, responder := s.responder.seen }

/-- An attacker that chooses each step from all it has seen, and in the end says yes or no; before each it hashes, computes
blocks, and asks responders.  It need not remember what it learned before: it can ask again. -/
structure Listener where
  next : List Seen → Curious Talk
  verdict : List Seen → Curious Bool

variable (P : Prims) (rest : Arr 32 → Arr 12 → Nat → UInt8) (blocks : Blocks)

/-- What it sees in a number of steps from these sessions, and what is hashed for it; `second` says which texts are sent. -/
def Listener.listen (listener : Listener) (second : Bool) : (rounds : Nat) → Duo → List Seen → List Bytes → List Seen × List Bytes
  | 0, _, seen, asked => (seen, asked)
  | rounds + 1, s, seen, asked =>
    let c := (listener.next seen).play P rest blocks
    let r := s.act (P.withBlocks rest blocks) second c.result.move
    Listener.listen listener second rounds r.2.2 (seen ++ [Seen.blind ⟨r.1, r.2.1, r.2.2.1, r.2.2.2⟩]) (asked ++ c.asked P)

/-- Among what was hashed is a shared secret of the client with one of the servers, with a chaining key that is not the
first one. -/
def Leaked (eI : Arr 32) (servers : List (Arr 32)) (heard : List Bytes) : Prop :=
  ∃ ck, ck ≠ NX.h0 P ∧ ∃ rs ∈ servers, innerInput ck (P.dh eI rs) ∈ heard

/-- A client sends its first message, and accepts the attacker's reply, which one of the servers made for this message.  Then
the two sides talk, with the attacker in between, and in the end it says yes.  All the time a shared secret of the client
and a server was hashed only for keys. -/
def SaysYes (far : Bytes → Arr 32) {M : Nat} (prologue : Bytes) (kp : Keypair) (eI : Arr 32) (buf1 : Bytes)
    (servers : List (Arr 32)) (impostor : Bytes → Curious Bytes) (listener : Listener) (rounds : Nat) (second : Bool)
    (H : Hashes M) : Prop :=
  let Q := P.withHash (H.at far)
  ∃ i1 first, (NoiseSession.initSession Q true prologue kp).sendMessage Q (Keypair.default Q eI) buf1 = (.ok (), i1, first) ∧
    let p := (impostor first).play Q rest blocks
    ∃ i2 out, i1.recvMessage (Q.withBlocks rest blocks) p.result = (.ok (), i2, out) ∧
      ∃ s ∈ p.served, s.2.prologue = prologue ∧ s.2.first = first ∧ s.2.second = p.result ∧ Q.publicOf s.1 ∈ servers ∧
        let h := listener.listen Q rest blocks second rounds (i2, s.2.session) [] []
        let v := (listener.verdict h.1).play Q rest blocks
        ¬ Leaked Q eI servers (p.heard Q prologue first ++ h.2 ++ v.asked Q) ∧ v.result = true

end SV2.Noise
