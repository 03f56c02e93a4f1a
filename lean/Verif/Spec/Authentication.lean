import Verif.Spec.Noise
/-!
# A server that takes many connections

What a server with one static key has done through the API, and what it means that somebody else answered in its name.
-/

namespace SV2.Noise

/-- One connection that a server took: with its prologue it received `first`, drew the secret `eR`, and sent `second`
from the buffer `buf`. -/
structure Answer where
  prologue : Bytes
  eR : Arr 32
  first : Bytes
  buf : Bytes
  second : Bytes
  session : NoiseSession

/-- The server with the static secret `sR` did this: both calls returned `Ok`. -/
def Answer.Genuine (P : Prims) (sR : Arr 32) (a : Answer) : Prop :=
  ∃ r1 out,
    (NoiseSession.initSession P false a.prologue (Keypair.default P sR)).recvMessage P a.first = (.ok (), r1, out) ∧
    r1.sendMessage P (Keypair.default P a.eR) a.buf = (.ok (), a.session, a.second)

/-- The payload that the server put into its buffer. -/
def Answer.payload (a : Answer) : Bytes := plain (a.buf.drop 80)

/-- What `<- e, ee, s, es` has mixed into the hash before its payload. -/
def NX.payloadHash (P : Prims) (prologue first second : Bytes) : Arr 32 :=
  NX.transcript P [prologue, first.take 32, first.drop 32, second.take 32, (second.drop 32).take 48]

/-- The server encrypted the payload of this answer with `key` (and nonce 0) for the hash `ad`, and got `wire`. -/
def Answer.Sealed (P : Prims) (sR : Arr 32) (a : Answer) (key ad : Arr 32) (wire : Bytes) : Prop :=
  (∃ ei : Arr 32, ei.toList = a.first.take 32 ∧ key = (NX.afterES P (P.dh a.eR ei) (P.dh sR ei)).2) ∧
  ad = NX.payloadHash P a.prologue a.first a.second ∧ wire = a.second.drop 80

/-- `second` answers `first`, which was made with the ephemeral secret `eI`, in the name of the server with the static
secret `sR`, and is a forgery: its payload decrypts under the key that takes the shared secret of `eI` and `sR`, for the
hash of exactly these messages, but the server never encrypted it with this key and hash. -/
def ForgedAnswer (P : Prims) (sR : Arr 32) (answers : List Answer) (prologue : Bytes) (eI : Arr 32)
    (first second : Bytes) : Prop :=
  ∃ (er : Arr 32) (key : Arr 32) (c : Bytes) (mac : Arr 16) (p : Bytes),
    er.toList = second.take 32 ∧ key = (NX.afterES P (P.dh eI er) (P.dh eI (P.publicOf sR))).2 ∧
    second.drop 80 = c ++ mac.toList ∧
    P.aeadOpen key (NX.nonce 0) (NX.payloadHash P prologue first second).toList c mac = some p ∧
    ∀ a ∈ answers, ¬ a.Sealed P sR key (NX.payloadHash P prologue first second) (second.drop 80)

/-- A client's session `i` is connected to one of the servers, each given by its static secret and its connections: that
server received exactly the client's first message and sent exactly the answer that the client accepted, and `out` holds
the payload it put in.  From then on, whatever the two sides send and the network delivers, each side accepts a prefix of
what the other one sends, or one of the messages it accepts is a forgery under the transport key. -/
def Connected (P : Prims) (servers : List (Arr 32 × List Answer)) (prologue : Bytes) (i : NoiseSession)
    (first second out : Bytes) (rs : Arr 32) : Prop :=
  ∃ server ∈ servers, rs = P.publicOf server.1 ∧ ∃ a ∈ server.2,
    a.prologue = prologue ∧ a.first = first ∧ a.second = second ∧ plain (out.drop 80) = a.payload ∧
    ∀ acts, let n := Net.run P { i := i, r := a.session } acts
      (accepted n.gotI <+: n.sentR.map (·.1) ∨ ∃ j, ForgedAt P i.cs2.k 0 n.sentR (acceptedWires n.gotI) j) ∧
      (accepted n.gotR <+: n.sentI.map (·.1) ∨ ∃ j, ForgedAt P i.cs1.k 0 n.sentI (acceptedWires n.gotR) j)

/-- Somebody answered in the name of one of the servers with a forgery, or there are two inputs of the hash function with
the same hash. -/
def Impersonated (P : Prims) (servers : List (Arr 32 × List Answer)) (prologue : Bytes) (eI : Arr 32)
    (first second : Bytes) : Prop :=
  ∃ server ∈ servers, ForgedAnswer P server.1 server.2 prologue eI first second ∨
    ∃ a ∈ server.2, NX.Collision P (NX.hashInputs P (NX.h0 P) (NX.parts prologue first second))
      (NX.hashInputs P (NX.h0 P) (NX.parts a.prologue a.first a.second))

end SV2.Noise
