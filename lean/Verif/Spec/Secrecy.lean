import Verif.Model.Noise.Session
/-!
# Confidentiality of transport messages

ChaCha20-Poly1305 is a stream cipher with a MAC over the ciphertext: a pad is made from key and nonce, the plaintext is
combined with it by exclusive or, and the MAC depends on key, nonce, associated data and ciphertext.  Here is what an
attacker can find out if the pads are chosen at random, one for each pair of key and nonce.
-/

namespace SV2.Noise

/-- A pad for every key and nonce.  A transport message has at most 65535 - 16 bytes of plaintext. -/
abbrev Pad := Arr 32 → Arr 12 → Fin 65519 → UInt8

/-- Byte `i` of the key stream: from the pad, and after its end (where no session gets) from `rest`. -/
def Pad.byte (pad : Pad) (rest : Arr 32 → Arr 12 → Nat → UInt8) (k : Arr 32) (n : Arr 12) (i : Nat) : UInt8 :=
  if h : i < 65519 then pad k n ⟨i, h⟩ else rest k n i

/-- Exclusive or with a key stream. -/
def mask (stream : Nat → UInt8) (m : Bytes) : Bytes := m.mapIdx fun i x => x ^^^ stream i

theorem length_mask (stream : Nat → UInt8) (m : Bytes) : (mask stream m).length = m.length := List.length_mapIdx

/-- `P` with an AEAD made of these pads and this MAC. -/
def Prims.withPad (P : Prims) (tag : Arr 32 → Arr 12 → Bytes → Bytes → Arr 16) (rest : Arr 32 → Arr 12 → Nat → UInt8)
    (pad : Pad) : Prims :=
  { P with
    aeadSeal := fun k n ad m => (mask (pad.byte rest k n) m, tag k n ad (mask (pad.byte rest k n) m))
    seal_length := fun _ _ _ _ => length_mask _ _
    aeadOpen := fun k n ad c mac => if tag k n ad c = mac then some (mask (pad.byte rest k n) c) else none
    open_length := fun k n ad c mac p h => by
      split at h
      · cases h; exact length_mask _ _
      · cases h }

/-- The two parties. -/
inductive Party where
  | initiator
  | responder
deriving DecidableEq

/-- What the attacker does: it has a party send one of two messages of its choice, in buffers with 16 bytes more;
delivers any bytes to a party; or has it change keys. -/
inductive Move where
  | send (who : Party) (m0 m1 : Bytes)
  | deliver (who : Party) (bytes : Bytes)
  | rekeyLocal (who : Party)
  | rekeyRemote (who : Party)

/-- What it sees afterwards: the outcome of the call, the bytes on the wire if a message was sent, and both sessions -
everything but the text of the messages. -/
structure Seen where
  outcome : NResult Unit
  wire : Bytes
  initiator : NoiseSession
  responder : NoiseSession

/-- The two sessions. -/
abbrev Duo := NoiseSession × NoiseSession

def Duo.get (s : Duo) : Party → NoiseSession
  | .initiator => s.1
  | .responder => s.2

def Duo.set (s : Duo) (who : Party) (x : NoiseSession) : Duo :=
  match who with
  | .initiator => (x, s.2)
  | .responder => (s.1, x)

/-- A move; `second` says which of the two messages is sent.  Messages of different length are not sent. -/
def Duo.act (P : Prims) (second : Bool) (s : Duo) : Move → NResult Unit × Bytes × Duo
  | .send who m0 m1 =>
    if m0.length = m1.length then
      match (s.get who).sendMessage P Keypair.empty (if second then m1 else m0) with
      | (.ok (), x, wire) => (.ok (), wire, s.set who x)
      | (outcome, x, _) => (outcome, [], s.set who x)
    else (.err .invalidInputError, [], s)
  | .deliver who bytes =>
    let r := (s.get who).recvMessage P bytes
    (r.1, [], s.set who r.2.1)
  | .rekeyLocal who => (.ok (), [], s.set who ((s.get who).rekeyLocal P))
  | .rekeyRemote who => (.ok (), [], s.set who ((s.get who).rekeyRemote P))

/-- An attacker: the next move, from all it has seen. -/
abbrev Attacker := List Seen → Move

/-- All that the attacker sees in `rounds` moves.  The game is over when both parties send with the same key. -/
def Duo.play (P : Prims) (second : Bool) (attacker : Attacker) : (rounds : Nat) → Duo → List Seen → List Seen
  | 0, _, seen => seen
  | rounds + 1, s, seen =>
    if s.1.cs1.k = s.2.cs2.k then seen
    else
      let r := s.act P second (attacker seen)
      Duo.play P second attacker rounds r.2.2 (seen ++ [⟨r.1, r.2.1, r.2.2.1, r.2.2.2⟩])

end SV2.Noise
