import Verif.Spec.Impersonation
/-!
# A random hash function

The attacker of `Verif/Spec/Impersonation.lean`, here with a hash function that is chosen at random too: it has to ask for
hashes as it asks for blocks of ChaCha20.
-/

namespace SV2.Noise

/-- A hash for every input of up to `M` bytes. -/
abbrev Hashes (M : Nat) := {x : Bytes // x.length ≤ M} → Arr 32

/-- The hash function; beyond `M` bytes it is `far`. -/
def Hashes.at {M : Nat} (far : Bytes → Arr 32) (H : Hashes M) (x : Bytes) : Arr 32 :=
  if h : x.length ≤ M then H ⟨x, h⟩ else far x

/-- `P` with this hash function. -/
def Prims.withHash (P : Prims) (hash : Bytes → Arr 32) : Prims := { P with hash := hash }

/-- The attacker.  The secrets of everybody are known when it is chosen; the hash and the block function are not. -/
inductive Curious (α : Type) where
  | reply (a : α)
  | hash (x : Bytes) (next : Arr 32 → Curious α)
  | block (x : Arr 32 × Arr 12 × Fin 1025) (next : Arr 64 → Curious α)
  | serve (c : Serving) (next : Option Answer → Curious α)

/-- It asks at most `n` times, and no prologue has more than `M - 32` bytes. -/
def Curious.Within {α : Type} (M : Nat) : Nat → Curious α → Prop
  | _, .reply _ => True
  | 0, _ => False
  | n + 1, .hash _ next => ∀ y, (next y).Within M n
  | n + 1, .block _ next => ∀ y, (next y).Within M n
  | n + 1, .serve c next => c.prologue.length + 32 ≤ M ∧ ∀ a, (next a).Within M n

/-- What came of it, with the inputs that the attacker hashed. -/
structure Spied (α : Type) extends Played α where
  hashed : List Bytes := []

def Curious.play {α : Type} (P : Prims) (rest : Arr 32 → Arr 12 → Nat → UInt8) (blocks : Blocks) : Curious α → Spied α
  | .reply a => { result := a }
  | .hash x next =>
    let p := (next (P.hash x)).play P rest blocks
    { p with hashed := x :: p.hashed }
  | .block x next =>
    let p := (next (blocks x)).play P rest blocks
    { p with keys := x.1 :: p.keys }
  | .serve c next =>
    let a := c.answer (P.withBlocks rest blocks)
    let p := (next a).play P rest blocks
    { p with served := (a.map fun a => (c.sR, a)).toList ++ p.served }

/-- What is hashed first when the shared secret `d` is mixed into the chaining key `ck` (RFC 2104, the inner hash). -/
def innerInput (ck d : Arr 32) : Bytes := (ck.toList ++ List.replicate 32 0).map (· ^^^ 0x36) ++ d.toList

/-- All that was hashed outside the derivation of keys: by the attacker, and by the responders and the client as they mix
the messages into their handshake hash. -/
def Spied.heard (P : Prims) (prologue first : Bytes) (p : Spied Bytes) : List Bytes :=
  p.hashed ++ (p.served.flatMap fun s => NX.hashInputs P (NX.h0 P) (NX.parts s.2.prologue s.2.first s.2.second)) ++
    NX.hashInputs P (NX.h0 P) (NX.parts prologue first p.result)

/-- Among it is a shared secret of the client with one of the servers. -/
def Told (P : Prims) (eI : Arr 32) (servers : List (Arr 32)) (heard : List Bytes) : Prop :=
  ∃ ck, ∃ rs ∈ servers, innerInput ck (P.dh eI rs) ∈ heard

/-- The two shared secrets of the responder's keys with the key in the first message. -/
def Answer.secrets (P : Prims) (sR : Arr 32) (a : Answer) : Arr 32 × Arr 32 :=
  (P.dh a.eR (keyIn a.first), P.dh sR (keyIn a.first))

/-- A client with the ephemeral secret `eI` sends its first message and gets the attacker's reply.  It accepts it as the
answer of one of the servers; a shared secret of the client and a server was hashed only for keys, and no two responders
had the same two shared secrets with the client; but no responder made this answer for this client. -/
def Misled (P : Prims) (rest : Arr 32 → Arr 12 → Nat → UInt8) (far : Bytes → Arr 32) {M : Nat} (prologue : Bytes)
    (kp : Keypair) (eI : Arr 32) (buf1 : Bytes) (servers : List (Arr 32)) (impostor : Bytes → Curious Bytes)
    (H : Hashes M) (blocks : Blocks) : Prop :=
  let Q := P.withHash (H.at far)
  ∃ i1 first, (NoiseSession.initSession Q true prologue kp).sendMessage Q (Keypair.default Q eI) buf1 = (.ok (), i1, first) ∧
    let p := (impostor first).play Q rest blocks
    ∃ i2 out rs, i1.recvMessage (Q.withBlocks rest blocks) p.result = (.ok (), i2, out) ∧
      i2.getRemoteStaticPublicKey = some rs ∧ rs ∈ servers ∧
      ¬ Told Q eI servers (p.heard Q prologue first) ∧
      (p.served.map fun s => s.2.secrets Q s.1).count (Q.dh eI (keyIn p.result), Q.dh eI rs) ≤ 1 ∧
      ¬ ∃ s ∈ p.served, Answered Q prologue first p.result i2 out rs s.1 s.2

end SV2.Noise
