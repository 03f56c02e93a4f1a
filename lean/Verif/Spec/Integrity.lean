import Verif.Spec.Rekey
import Verif.Spec.Secrecy
import Verif.Model.Crypto.ChaCha20Poly1305
/-!
# Integrity of transport messages

The tag of a message of ChaCha20-Poly1305 is Poly1305 of its ciphertext under a one-time key, made from key and nonce.
Here is how often an attacker can have a message accepted that was not sent, if the one-time keys are chosen at random,
one for each pair of key and nonce.
-/

namespace SV2.Noise

/-- A one-time key of Poly1305 for every key and nonce. -/
abbrev OneTime := Arr 32 × Arr 12 → Arr 32

/-- RFC 8439, 2.8: the tag of a ciphertext under a one-time key. -/
def polyTag (key : Arr 32) (ad c : Bytes) : Arr 16 :=
  Crypto.Poly1305.mac (ad ++ Crypto.Aead.pad16 ad ++ c ++ Crypto.Aead.pad16 c ++ toLE 8 ad.length ++ toLE 8 c.length)
    key.toList

/-- `P` with an AEAD made of this key stream and these one-time keys. -/
def Prims.withMac (P : Prims) (stream : Arr 32 → Arr 12 → Nat → UInt8) (keys : OneTime) : Prims :=
  { P with
    aeadSeal := fun k n ad m => (mask (stream k n) m, polyTag (keys (k, n)) ad (mask (stream k n) m))
    seal_length := fun _ _ _ _ => length_mask _ _
    aeadOpen := fun k n ad c mac => if polyTag (keys (k, n)) ad c = mac then some (mask (stream k n) c) else none
    open_length := fun k n ad c mac p h => by
      split at h
      · cases h; exact length_mask _ _
      · cases h }

/-- An attacker chooses what happens next - a send with any content, or the delivery of any bytes - from all that has
happened: every state so far with both sessions, all that was sent, all that was delivered and what came of it, the
latest first. -/
abbrev Forger := List Net → Act

/-- It delivers at most `q` messages; how many it has sent is not limited. -/
def Forger.AtMost (forger : Forger) (q : Nat) : Prop :=
  ∀ (n : Net) (past : List Net) (w : Bytes), q ≤ n.gotR.length + n.gotI.length →
    forger (n :: past) ≠ .toR w ∧ forger (n :: past) ≠ .toI w

/-- The state after a number of steps of the attacker's choice, and all states before it. -/
def Net.attacked (P : Prims) (forger : Forger) (start : Net) : Nat → Net × List Net
  | 0 => (start, [])
  | j + 1 =>
    let h := Net.attacked P forger start j
    (h.1.step P (forger (h.1 :: h.2)), h.1 :: h.2)

/-- The same with rekeying: the attacker also decides when which side calls one of the rekey functions. -/
abbrev RForger := List RNet → RAct

def RForger.AtMost (forger : RForger) (q : Nat) : Prop :=
  ∀ (n : RNet) (past : List RNet) (w : Bytes), q ≤ n.net.gotR.length + n.net.gotI.length →
    forger (n :: past) ≠ .net (.toR w) ∧ forger (n :: past) ≠ .net (.toI w)

/-- Each side rekeys at most `E` times. -/
def RForger.Rekeys (forger : RForger) (E : Nat) : Prop :=
  ∀ (n : RNet) (past : List RNet) (remote : Bool), (E ≤ n.rekeysI → forger (n :: past) ≠ .rekeyI remote) ∧
    (E ≤ n.rekeysR → forger (n :: past) ≠ .rekeyR remote)

def RNet.attacked (P : Prims) (forger : RForger) (start : RNet) : Nat → RNet × List RNet
  | 0 => (start, [])
  | j + 1 =>
    let h := RNet.attacked P forger start j
    (h.1.step P (forger (h.1 :: h.2)), h.1 :: h.2)

/-- The key after rekeying `e` times: a piece of the key stream. -/
def streamKey (stream : Arr 32 → Arr 12 → Nat → UInt8) (key : Arr 32) : Nat → Arr 32
  | 0 => key
  | e + 1 => ⟨mask (stream (streamKey stream key e) (Arr.replicate 12 0xFF)) NX.zeros.toList, length_mask _ _⟩

/-- A key that one of the two sessions has at some time, with at most `E` times rekeying; the direction to the initiator
keeps its key. -/
def SessionKey (stream : Arr 32 → Arr 12 → Nat → UInt8) (keys : Arr 32 × Arr 32) (E : Nat) (k : Arr 32) : Prop :=
  k = keys.2 ∨ ∃ e ≤ E, streamKey stream keys.1 e = k

/-- What each side accepted is, in order, the beginning of what the other side sent. -/
structure Net.Genuine (n : Net) : Prop where
  toR : accepted n.gotR <+: n.sentI.map (·.1)
  wiresR : acceptedWires n.gotR <+: n.sentI.map (·.2)
  toI : accepted n.gotI <+: n.sentR.map (·.1)
  wiresI : acceptedWires n.gotI <+: n.sentR.map (·.2)

end SV2.Noise
