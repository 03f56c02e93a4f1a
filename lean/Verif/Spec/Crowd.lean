import Verif.Spec.Impersonation
/-!
# Any number of sessions, and who can read the messages

A server has many connections, and a client may come back.  Here an attacker has any number of sessions, in any state of
the handshake or after it, make any calls in any order.  Whenever a message is sent it names two texts for it.  It can also
compute blocks of ChaCha20 itself.  It sees everything but which of the two texts are sent.
-/

namespace SV2.Noise

/-- The blocks of ChaCha20 with one key and one nonce. -/
abbrev Row := Arr 32 × Arr 12

/-- The key after `e, ee` in the second handshake message, with the static key of the responder under it, and the key
after `s, es`, with the payload under it. -/
def NoiseSession.handshakeKeys (P : Prims) (s : NoiseSession) (ee es : Arr 32) : Arr 32 × Arr 32 :=
  let c := NX.hkdf P s.hs.ss.ck ee.toList
  (c.2, (NX.hkdf P c.1 es.toList).2)

/-- The two results of X25519 when a session writes the second handshake message; `secret` is what it draws if it needs an
ephemeral key. -/
def NoiseSession.exchanges (P : Prims) (s : NoiseSession) (secret : Arr 32) : Arr 32 × Arr 32 :=
  let e := if s.hs.e.private_key = NX.zeros then secret else s.hs.e.private_key
  (P.dh e s.hs.re, P.dh s.hs.s.private_key s.hs.re)

/-- The rows with which a call encrypts or decrypts something that is no secret: the static key of the responder in the
second handshake message, and the zeros in rekeying. -/
def Op.opened (P : Prims) (s : NoiseSession) : Op → List Row
  | .send secret _ =>
    let x := s.exchanges P secret
    if s.mc = 1 then [((s.handshakeKeys P x.1 x.2).1, NX.nonce 0)] else []
  | .recv b => if s.mc = 1 then [((s.handshakeKeys P (P.dh s.hs.e.private_key (keyIn b)) NX.zeros).1, NX.nonce 0)] else []
  | .rekeyLocal => [(s.cs1.k, CipherState.rekeyNonce)]
  | .rekeyRemote => [(s.cs1.k, CipherState.rekeyNonce)]
  | _ => []

/-- The row with which `send_message` encrypts a text.  The payload of the first handshake message is not encrypted. -/
def Op.secret (P : Prims) (s : NoiseSession) : Op → List Row
  | .send secret _ =>
    let x := s.exchanges P secret
    if s.mc = 0 then []
    else if s.mc = 1 then [((s.handshakeKeys P x.1 x.2).2, NX.nonce 0)]
    else if s.i then [(s.cs1.k, NX.nonce s.cs1.n.toNat)]
    else [(s.cs2.k, NX.nonce s.cs2.n.toNat)]
  | _ => []

/-- What the attacker does: it has a session made, in any state; it has a session make a call; it has it send one of two
texts; or it computes a block. -/
inductive Query where
  | start (who : Nat) (s : NoiseSession)
  | call (who : Nat) (op : Op)
  | send (who : Nat) (secret : Arr 32) (b0 b1 : Bytes)
  | block (x : Arr 32 × Arr 12 × Fin 1025)

/-- What it sees: the outcome of the call, the bytes for the wire if it sent a message, and the session after it with all
keys; or the block. -/
inductive Sight where
  | made
  | call (outcome : NResult Unit) (wire : Bytes) (after : NoiseSession)
  | block (b : Arr 64)

/-- The sessions, the rows used up to now - for texts together with the session that sent it -, and what the attacker has
seen. -/
structure Crowd where
  sessions : Nat → NoiseSession
  opened : List Row := []
  sent : List (Nat × Row) := []
  seen : List Sight := []

/-- A call of one of the sessions. -/
def Crowd.call (P Q : Prims) (c : Crowd) (who : Nat) (op : Op) : Crowd :=
  let s := c.sessions who
  let r := op.exec Q s
  { sessions := fun j => if j = who then r.2.1 else c.sessions j
    opened := c.opened ++ op.opened P s
    sent := c.sent ++ if r.1.isOk then (op.secret P s).map fun x => (who, x) else []
    seen := c.seen ++ [.call r.1 (if op.isSend && r.1.isOk then r.2.2 else []) r.2.1] }

variable (P : Prims) (rest : Arr 32 → Arr 12 → Nat → UInt8) (blocks : Blocks)

/-- What the attacker wants is done; `second` says which of two texts is sent.  It is the first one in any case if they
differ in length, and in the first handshake message, which is not encrypted. -/
def Crowd.step (second : Bool) (c : Crowd) : Query → Crowd
  | .start who s => { c with sessions := fun j => if j = who then s else c.sessions j, seen := c.seen ++ [.made] }
  | .call who op => c.call P (P.withBlocks rest blocks) who op
  | .send who secret b0 b1 =>
    let b := if second ∧ b0.length = b1.length ∧ (c.sessions who).getMessageCount ≠ 0 then b1 else b0
    c.call P (P.withBlocks rest blocks) who (.send secret b)
  | .block x =>
    { c with
      opened := c.opened ++ if x.2.2 = 0 then [] else [(x.1, x.2.1)]
      seen := c.seen ++ [.block (blocks x)] }

/-- An attacker chooses what to do next from all it has seen. -/
abbrev Onlooker := List Sight → Query

def Crowd.play (second : Bool) (onlooker : Onlooker) : (rounds : Nat) → Crowd → Crowd
  | 0, c => c
  | rounds + 1, c => Crowd.play second onlooker rounds (c.step P rest blocks second (onlooker c.seen))

/-- No two texts were encrypted with the same row, and none with a row that was also used for something else. -/
def Crowd.Clean (c : Crowd) : Prop := (c.sent.map (·.2)).Nodup ∧ ∀ x ∈ c.sent, x.2 ∉ c.opened

end SV2.Noise
