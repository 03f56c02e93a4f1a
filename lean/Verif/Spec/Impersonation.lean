import Verif.Spec.Ideal
import Verif.Spec.Authentication
/-!
# Somebody answers a client

An attacker that can compute ChaCha20 - it asks for single blocks - and that can have responders with any secrets run the
handshake through the API.  In the end it gives the client an answer to its first message.
-/

namespace SV2.Noise

/-- A connection for a responder: its prologue, its static and its ephemeral secret, the first message it gets, and the
buffer with its payload. -/
structure Serving where
  prologue : Bytes
  sR : Arr 32
  eR : Arr 32
  first : Bytes
  buf : Bytes

/-- What the responder makes of it, if `recv_message` and `send_message` both return `Ok`. -/
def Serving.answer (P : Prims) (c : Serving) : Option Answer :=
  match (NoiseSession.initSession P false c.prologue (Keypair.default P c.sR)).recvMessage P c.first with
  | (.ok (), r1, _) =>
    match r1.sendMessage P (Keypair.default P c.eR) c.buf with
    | (.ok (), r2, second) => some ⟨c.prologue, c.eR, c.first, c.buf, second, r2⟩
    | _ => none
  | _ => none

/-- The attacker.  It goes on with what it gets: the block, or the answer together with the session of the responder, with
all keys.  The secrets of everybody are known when it is chosen; only the block function is not. -/
inductive Asking (α : Type) where
  | reply (a : α)
  | block (x : Arr 32 × Arr 12 × Fin 1025) (next : Arr 64 → Asking α)
  | serve (c : Serving) (next : Option Answer → Asking α)

/-- It replies to the client. -/
abbrev Impostor := Asking Bytes

/-- What came of it: the reply, the keys under which the attacker computed blocks, and the answers of the responders with
their static secrets. -/
structure Played (α : Type) where
  result : α
  keys : List (Arr 32) := []
  served : List (Arr 32 × Answer) := []

def Asking.play {α : Type} (P : Prims) (rest : Arr 32 → Arr 12 → Nat → UInt8) (blocks : Blocks) : Asking α → Played α
  | .reply a => { result := a }
  | .block x next =>
    let p := (next (blocks x)).play P rest blocks
    { p with keys := x.1 :: p.keys }
  | .serve c next =>
    let a := c.answer (P.withBlocks rest blocks)
    let p := (next a).play P rest blocks
    { p with served := (a.map fun a => (c.sR, a)).toList ++ p.served }

/-- The first 32 bytes of a message, a public key. -/
def keyIn (m : Bytes) : Arr 32 :=
  ⟨(m ++ NX.zeros.toList).take 32, by rw [List.length_take, List.length_append, NX.zeros.len]; omega⟩

/-- The two keys that the responder encrypted its answer with, the static key and the payload. -/
def Answer.keys (P : Prims) (sR : Arr 32) (a : Answer) : List (Arr 32) :=
  let ei := keyIn a.first
  [(NX.afterEE P (P.dh a.eR ei)).2, (NX.afterES P (P.dh a.eR ei) (P.dh sR ei)).2]

/-- The key that the payload of `second` is encrypted with, for a client with the ephemeral secret `eI` that finds the
static key `rs` in it: it takes the shared secret of the two. -/
def payloadKey (P : Prims) (eI : Arr 32) (second : Bytes) (rs : Arr 32) : Arr 32 :=
  (NX.afterES P (P.dh eI (keyIn second)) (P.dh eI rs)).2

/-- This answer was made for the client's message `first`, and the client, now with the session `i` and the buffer `out`,
has the payload the responder put in, its static key, the same handshake hash and the same transport keys. -/
structure Answered (P : Prims) (prologue first second : Bytes) (i : NoiseSession) (out : Bytes) (rs sR : Arr 32)
    (a : Answer) : Prop where
  prologue : a.prologue = prologue
  first : a.first = first
  second : a.second = second
  static : rs = P.publicOf sR
  payload : plain (out.drop 80) = a.payload
  hash : i.getHandshakeHash = a.session.getHandshakeHash
  keys : ∃ keys, Agreed i a.session keys

/-- The attacker did not compute a block with the payload key, the responders used this key at most once, and there is no
collision of the hash function among the inputs of the client and a responder. -/
structure Careful (P : Prims) (prologue : Bytes) (eI : Arr 32) (first : Bytes) (p : Played Bytes) (rs : Arr 32) : Prop where
  keys : payloadKey P eI p.result rs ∉ p.keys
  once : (p.served.flatMap fun s => s.2.keys P s.1).count (payloadKey P eI p.result rs) ≤ 1
  hash : ∀ s ∈ p.served, ¬ NX.Collision P (NX.hashInputs P (NX.h0 P) (NX.parts prologue first p.result))
    (NX.hashInputs P (NX.h0 P) (NX.parts s.2.prologue s.2.first s.2.second))

/-- The client, with the session `i1` after it sent `first`, accepts the attacker's reply, and no responder made this answer
for this client. -/
def Fooled (P : Prims) (rest : Arr 32 → Arr 12 → Nat → UInt8) (prologue : Bytes) (eI : Arr 32) (i1 : NoiseSession)
    (first : Bytes) (impostor : Impostor) (blocks : Blocks) : Prop :=
  let p := impostor.play P rest blocks
  ∃ i2 out rs, i1.recvMessage (P.withBlocks rest blocks) p.result = (.ok (), i2, out) ∧
    i2.getRemoteStaticPublicKey = some rs ∧ Careful P prologue eI first p rs ∧
    ¬ ∃ s ∈ p.served, Answered P prologue first p.result i2 out rs s.1 s.2

end SV2.Noise
