import Verif.Spec.Impersonation
import Verif.Spec.Reread
/-!
# Somebody answers a client again and again

A client that calls `recv_message` again when it returned an error.  The attacker computes blocks of ChaCha20 and has
responders answer, as in `Verif/Spec/Impersonation.lean`, and in between gives the client one reply after the other.
-/

namespace SV2.Noise

/-- The attacker.  It goes on with what it gets: the block, the answer of the responder with its session, or what came of its
reply - the result, the session of the client and the buffer. -/
inductive Insistent where
  | stop
  | block (x : Arr 32 × Arr 12 × Fin 1025) (next : Arr 64 → Insistent)
  | serve (c : Serving) (next : Option Answer → Insistent)
  | deliver (w : Bytes) (next : NResult Unit × NoiseSession × Bytes → Insistent)

/-- How far it got: the client, the keys under which the attacker computed blocks, the answers of the responders with their
static secrets, the replies that the client refused, in order, and the one that it accepted, with its session and the
buffer then. -/
structure Siege where
  client : NoiseSession
  keys : List (Arr 32) := []
  served : List (Arr 32 × Answer) := []
  refused : List Bytes := []
  accepted : Option (Bytes × NoiseSession × Bytes) := none

/-- At most `q` replies.  The client goes on after an error only. -/
def Insistent.play (P : Prims) (rest : Arr 32 → Arr 12 → Nat → UInt8) (blocks : Blocks) : Insistent → Nat → Siege → Siege
  | .stop, _, s => s
  | .block x next, q, s => (next (blocks x)).play P rest blocks q { s with keys := x.1 :: s.keys }
  | .serve c next, q, s =>
    let a := c.answer (P.withBlocks rest blocks)
    (next a).play P rest blocks q { s with served := s.served ++ (a.map fun a => (c.sR, a)).toList }
  | .deliver _ _, 0, s => s
  | .deliver w next, q + 1, s =>
    match s.client.recvMessage (P.withBlocks rest blocks) w with
    | (.ok (), i, out) => { s with accepted := some (w, i, out) }
    | (.err e, i, out) =>
      (next (.err e, i, out)).play P rest blocks q { s with client := i, refused := s.refused ++ [w] }
    | (.panic, _, _) => s

/-- Where the client is in the handshake: its handshake hash and chaining key. -/
def Siege.progress (s : Siege) : NX.Progress := ⟨s.client.hs.ss.h, s.client.hs.ss.ck⟩

/-- The key with which the client decrypts the payload of `w`, in which it finds the static key `rs`. -/
def Siege.payloadKey (P : Prims) (eI : Arr 32) (s : Siege) (w : Bytes) (rs : Arr 32) : Arr 32 :=
  (s.progress.one P eI (keyIn w)).key P eI rs

/-- What the client hashed before the replies. -/
def sentParts (prologue first : Bytes) : List Bytes := [prologue, first.take 32, first.drop 32]

/-- Up to the reply `w` the attacker did not compute a block with its payload key and the responders used this key at most
once; none of the inputs of the hash function at the client has the hash that every handshake starts with, and there is no
collision between them and those of a responder.  (`kept` is what stays of the refused replies.) -/
structure Siege.Careful (P : Prims) (prologue : Bytes) (eI : Arr 32) (first : Bytes) (s : Siege) (w : Bytes) (rs : Arr 32) :
    Prop where
  keys : s.payloadKey P eI w rs ∉ s.keys
  once : (s.served.flatMap fun a => a.2.keys P a.1).count (s.payloadKey P eI w rs) ≤ 1
  hash : ∀ kept, NX.StayAll s.refused kept →
    s.progress.h = NX.transcript P (sentParts prologue first ++ kept) →
    let inputs := NX.hashInputs P (NX.h0 P)
      (sentParts prologue first ++ kept ++ [w.take 32, NX.staticPart w, w.drop 80])
    (∀ x ∈ inputs, P.hash x ≠ NX.h0 P) ∧
    ∀ a ∈ s.served, ¬ NX.Collision P inputs
      (NX.hashInputs P (NX.h0 P) (NX.parts a.2.prologue a.2.first a.2.second))

/-- The client, with the session `i1` after it sent `first`, accepts one of at most `q` replies, and it is not so that a
responder made this answer for this client and no reply with an ephemeral key that is taken was refused before. -/
def Worn (P : Prims) (rest : Arr 32 → Arr 12 → Nat → UInt8) (prologue : Bytes) (eI : Arr 32) (i1 : NoiseSession)
    (first : Bytes) (insistent : Insistent) (q : Nat) (blocks : Blocks) : Prop :=
  let s := insistent.play P rest blocks q { client := i1 }
  ∃ w i2 out rs, s.accepted = some (w, i2, out) ∧ i2.getRemoteStaticPublicKey = some rs ∧
    s.Careful P prologue eI first w rs ∧
    ¬ ((∀ x ∈ s.refused, ¬ NX.Taken x) ∧ ∃ a ∈ s.served, Answered P prologue first w i2 out rs a.1 a.2)

end SV2.Noise
