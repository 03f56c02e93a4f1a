import Verif.Model.Noise.Session
/-!
# What the Noise session is compared with

The laws of the primitives, the Noise NX handshake as the Noise specification (revision 34) writes it, call
histories of one session, and two sessions joined by a network.
-/

namespace SV2.Noise

/-! ## Laws of the primitives -/

/-- ChaCha20-Poly1305: decryption undoes encryption. -/
def AeadCorrect (P : Prims) : Prop :=
  ∀ k n ad p, P.aeadOpen k n ad (P.aeadSeal k n ad p).1 (P.aeadSeal k n ad p).2 = some p

/-- ChaCha20-Poly1305: for each key, nonce and associated data only the output of encryption decrypts. -/
def AeadTight (P : Prims) : Prop :=
  ∀ k n ad c mac p, P.aeadOpen k n ad c mac = some p → P.aeadSeal k n ad p = (c, mac)

/-- X25519: both sides compute the same shared secret, and public keys are not of low order. -/
structure DhLaws (P : Prims) : Prop where
  comm : ∀ a b, P.dh a (P.publicOf b) = P.dh b (P.publicOf a)
  public_ok : ∀ a, (P.publicOf a).toList ∉ forbiddenCurveValues

/-! ## Curve25519 -/

/-- A little-endian number. -/
def leNat (b : Bytes) : Nat := b.foldr (fun x n => x.toNat + 256 * n) 0

namespace Curve

def p : Nat := 2 ^ 255 - 19

/-- Doubling a point of `v² = u³ + 486662 u² + u`, or of its twist, given by `u = X/Z`. -/
def double (q : Nat × Nat) : Nat × Nat :=
  let (x, z) := q
  (((x * x + (p - z) * z) % p) ^ 2 % p, 4 * x * z * (x * x + 486662 * x * z + z * z) % p)

/-- Eight times the point is the neutral element, `Z = 0`. -/
def LowOrder (u : Nat) : Prop := (double (double (double (u % p, 1)))).2 = 0

instance (u : Nat) : Decidable (LowOrder u) := inferInstanceAs (Decidable (_ = _))

/-- A `u`-coordinate of order eight, and the other one. -/
def u1 : Nat := 325606250916557431795983626356110631294008115727848805560023387167927233504
def u2 : Nat := 39382357235489614581723060781553021112529911719440698176882885853963445705823

/-- The twelve numbers below `2^256` that are a low-order coordinate modulo `p`. -/
def lowOrder : List Nat :=
  [0, 1, u1, u2, p - 1, p, p + 1, p + u1, p + u2, 2 * p - 1, 2 * p, 2 * p + 1]

/-- What X25519 reads from 32 bytes (RFC 7748): the top bit is ignored. -/
def coordinate (k : Bytes) : Nat := leNat k % 2 ^ 255

end Curve

/-! ## Noise_NX_25519_ChaChaPoly_BLAKE2s -/

namespace NX
variable (P : Prims)

/-- Thirty-two zero bytes. -/
def zeros : Arr 32 := ⟨List.replicate 32 0, rfl⟩

/-- The 96-bit nonce of message `n`: 32 bits of zeros, then `n` in little-endian. -/
def nonce (n : Nat) : Arr 12 :=
  ⟨[0, 0, 0, 0] ++ (List.range 8).map (fun i => UInt8.ofNat (n / 256 ^ i % 256)), rfl⟩

/-- `ENCRYPT(k, n, ad, plaintext)`: ciphertext followed by the tag. -/
def enc (k : Arr 32) (n : Nat) (ad plaintext : Bytes) : Bytes :=
  (P.aeadSeal k (nonce n) ad plaintext).1 ++ (P.aeadSeal k (nonce n) ad plaintext).2.toList

/-- HMAC (RFC 2104) with a block length of 64 bytes. -/
def hmac (key : Arr 32) (data : Bytes) : Arr 32 :=
  let block := key.toList ++ List.replicate 32 0
  P.hash (block.map (· ^^^ 0x5c) ++ (P.hash (block.map (· ^^^ 0x36) ++ data)).toList)

/-- `HKDF(chaining_key, input_key_material, 2)`. -/
def hkdf (ck : Arr 32) (ikm : Bytes) : Arr 32 × Arr 32 :=
  let temp := hmac P ck ikm
  let output1 := hmac P temp [0x01]
  (output1, hmac P temp (output1.toList ++ [0x02]))

/-- The protocol name. -/
def name : String := "Noise_NX_25519_ChaChaPoly_BLAKE2s"

/-- The initial hash and chaining key: the name is longer than 32 bytes, so it is hashed. -/
def h0 : Arr 32 := P.hash name.toUTF8.data.toList

/-- `h` after mixing in the given values, in order. -/
def transcript (parts : List Bytes) : Arr 32 := parts.foldl (fun h d => P.hash (h.toList ++ d)) (h0 P)

/-- The inputs of the hash function on the way, starting from `h`. -/
def hashInputs (h : Arr 32) : List Bytes → List Bytes
  | [] => []
  | d :: ds => (h.toList ++ d) :: hashInputs (P.hash (h.toList ++ d)) ds

/-- Two different inputs, one from each list, with the same hash. -/
def Collision (xs ys : List Bytes) : Prop := ∃ x ∈ xs, ∃ y ∈ ys, x ≠ y ∧ P.hash x = P.hash y

/-- The five parts that a first and a second message contribute to the transcript, after the prologue. -/
def parts (prologue wire1 wire2 : Bytes) : List Bytes :=
  [prologue, wire1.take 32, wire1.drop 32, wire2.take 32, (wire2.drop 32).take 48, wire2.drop 80]

/-- Chaining key and cipher key after `ee`. -/
def afterEE (ee : Arr 32) : Arr 32 × Arr 32 := hkdf P (h0 P) ee.toList

/-- Chaining key and cipher key after `ee, es`. -/
def afterES (ee es : Arr 32) : Arr 32 × Arr 32 := hkdf P (afterEE P ee).1 es.toList

/-- `Split()`: the keys for initiator to responder and responder to initiator. -/
def transportKeys (ee es : Arr 32) : Arr 32 × Arr 32 := hkdf P (afterES P ee es).1 []

/-- The encrypted static key of `<- e, ee, s, es`. -/
def encryptedStatic (prologue : Bytes) (ei payload1 er : Bytes) (ee : Arr 32) (rs : Bytes) : Bytes :=
  enc P (afterEE P ee).2 0 (transcript P [prologue, ei, payload1, er]).toList rs

/-- The encrypted payload of `<- e, ee, s, es`. -/
def encryptedPayload (prologue : Bytes) (ei payload1 er encS : Bytes) (ee es : Arr 32) (payload2 : Bytes) :
    Bytes :=
  enc P (afterES P ee es).2 0 (transcript P [prologue, ei, payload1, er, encS]).toList payload2

/-- A whole honest handshake: who uses which secret keys, and the payloads. -/
structure Run where
  prologue : Bytes
  eI : Arr 32
  eR : Arr 32
  sR : Arr 32
  payload1 : Bytes
  payload2 : Bytes

variable (x : Run)

/-- The `ee` and `es` shared secrets as the responder computes them. -/
def Run.ee : Arr 32 := P.dh x.eR (P.publicOf x.eI)
def Run.es : Arr 32 := P.dh x.sR (P.publicOf x.eI)

def Run.ei : Bytes := (P.publicOf x.eI).toList
def Run.er : Bytes := (P.publicOf x.eR).toList
def Run.encS : Bytes :=
  encryptedStatic P x.prologue (x.ei P) x.payload1 (x.er P) (x.ee P) (P.publicOf x.sR).toList
def Run.encP : Bytes :=
  encryptedPayload P x.prologue (x.ei P) x.payload1 (x.er P) (x.encS P) (x.ee P) (x.es P) x.payload2

/-- The two messages on the wire. -/
def Run.wire1 : Bytes := x.ei P ++ x.payload1
def Run.wire2 : Bytes := x.er P ++ x.encS P ++ x.encP P

/-- The handshake hash. -/
def Run.hash : Arr 32 :=
  transcript P [x.prologue, x.ei P, x.payload1, x.er P, x.encS P, x.encP P]

/-- The transport keys. -/
def Run.keys : Arr 32 × Arr 32 := transportKeys P (x.ee P) (x.es P)

/-- The two keys that encrypt the second message; the implementation takes an all-zero key for "no key". -/
def Run.KeysNonzero : Prop := (afterEE P (x.ee P)).2 ≠ zeros ∧ (afterES P (x.ee P) (x.es P)).2 ≠ zeros

end NX

/-! ## Histories of one session -/

/-- The calls a program can make on a session that it keeps.  `secret` is the randomness that a call draws if it
generates a key. -/
inductive Op where
  | send (secret : Arr 32) (buf : Bytes)
  | recv (buf : Bytes)
  | setEphemeral (kp : Keypair)
  | clearLocal
  | clearRemote
  | rekeyLocal
  | rekeyRemote

/-- The outcome of a call, the session after it, and the caller's buffer after it. -/
def Op.exec (P : Prims) (s : NoiseSession) : Op → NResult Unit × NoiseSession × Bytes
  | .send secret buf => s.sendMessage P (Keypair.default P secret) buf
  | .recv buf => s.recvMessage P buf
  | .setEphemeral kp => (.ok (), s.setEphemeralKeypair kp, [])
  | .clearLocal => (.ok (), s.clearLocal, [])
  | .clearRemote => (.ok (), s.clearRemote, [])
  | .rekeyLocal => (.ok (), s.rekeyLocal P, [])
  | .rekeyRemote => (.ok (), s.rekeyRemote P, [])

/-- The session after a history. -/
def after (P : Prims) (s : NoiseSession) : List Op → NoiseSession
  | [] => s
  | op :: ops => after P (op.exec P s).2.1 ops

/-- The calls of a history with their outcomes and buffers. -/
def trace (P : Prims) (s : NoiseSession) : List Op → List (Op × NResult Unit × Bytes)
  | [] => []
  | op :: ops => (op, (op.exec P s).1, (op.exec P s).2.2) :: trace P (op.exec P s).2.1 ops

def Op.isMessage : Op → Bool
  | .send .. => true
  | .recv .. => true
  | _ => false

def Op.isRecv : Op → Bool
  | .recv .. => true
  | _ => false

def Op.isSend : Op → Bool
  | .send .. => true
  | _ => false

def Op.isSetEphemeral : Op → Bool
  | .setEphemeral .. => true
  | _ => false

/-- The operations that replace a transport key. -/
def Op.changesKeys : Op → Bool
  | .clearLocal | .clearRemote | .rekeyLocal | .rekeyRemote => true
  | _ => false

/-- How many messages a history has processed: sends and receives that returned `Ok`. -/
def processed (t : List (Op × NResult Unit × Bytes)) : Nat :=
  (t.filter fun c => c.1.isMessage && c.2.1.isOk).length

/-- The messages successfully sent in a history: what the caller put in, and what came out for the wire. -/
def sentIn (t : List (Op × NResult Unit × Bytes)) : List (Bytes × Bytes) :=
  t.filterMap fun c => match c with
    | (.send _ buf, .ok (), out) => some (buf.take (buf.length - 16), out)
    | _ => none

/-- A send or a receive, its outcome in a given session, and the message as it was on the wire: the output of a
send, the input of a receive. -/
def Op.wire (P : Prims) (s : NoiseSession) : Op → Option Bytes
  | .send secret buf => some (s.sendMessage P (Keypair.default P secret) buf).2.2
  | .recv buf => some buf
  | _ => none

/-- Nothing secret is left in the handshake state, except possibly the ephemeral key pair. -/
structure Erased (hs : HandshakeState) : Prop where
  static : hs.s = ⟨NX.zeros, NX.zeros⟩
  remote_ephemeral : hs.re = NX.zeros
  chaining_key : hs.ss.ck = NX.zeros
  cipher_key : hs.ss.cs.k = NX.zeros
  psk : hs.psk = NX.zeros

/-! ## Two sessions and a network -/

/-- What the caller wants to send: the buffer without the 16 bytes reserved for the tag. -/
def plain (buf : Bytes) : Bytes := buf.take (buf.length - 16)

/-- Two sessions and what happened so far. -/
structure Net where
  i : NoiseSession
  r : NoiseSession
  /-- Successful sends, in order: plaintext and wire bytes. -/
  sentI : List (Bytes × Bytes) := []
  sentR : List (Bytes × Bytes) := []
  /-- Every delivery to the responder (initiator), in order: the delivered bytes, the outcome, the buffer after. -/
  gotR : List (Bytes × NResult Unit × Bytes) := []
  gotI : List (Bytes × NResult Unit × Bytes) := []

/-- What can happen: either side sends, or the network delivers any bytes it likes to either side. -/
inductive Act where
  | iSend (secret : Arr 32) (buf : Bytes)
  | rSend (secret : Arr 32) (buf : Bytes)
  | toR (wire : Bytes)
  | toI (wire : Bytes)

def Net.step (P : Prims) (n : Net) : Act → Net
  | .iSend secret buf =>
    let x := n.i.sendMessage P (Keypair.default P secret) buf
    { n with i := x.2.1, sentI := if x.1.isOk then n.sentI ++ [(plain buf, x.2.2)] else n.sentI }
  | .rSend secret buf =>
    let x := n.r.sendMessage P (Keypair.default P secret) buf
    { n with r := x.2.1, sentR := if x.1.isOk then n.sentR ++ [(plain buf, x.2.2)] else n.sentR }
  | .toR wire =>
    let x := n.r.recvMessage P wire
    { n with r := x.2.1, gotR := n.gotR ++ [(wire, x.1, x.2.2)] }
  | .toI wire =>
    let x := n.i.recvMessage P wire
    { n with i := x.2.1, gotI := n.gotI ++ [(wire, x.1, x.2.2)] }

def Net.run (P : Prims) (n : Net) (acts : List Act) : Net := acts.foldl (Net.step P) n

/-- The plaintexts that a side accepted: the buffers of successful receives, without their last 16 bytes. -/
def accepted (got : List (Bytes × NResult Unit × Bytes)) : List Bytes :=
  (got.filter fun g => g.2.1.isOk).map fun g => plain g.2.2

/-- The wire bytes that a side accepted. -/
def acceptedWires (got : List (Bytes × NResult Unit × Bytes)) : List Bytes :=
  (got.filter fun g => g.2.1.isOk).map fun g => g.1

/-- A network that delivers in order, without loss or change: each delivery hands over the next message. -/
def Net.Faithful (P : Prims) : Net → List Act → Prop
  | _, [] => True
  | n, act :: acts =>
    (match act with
      | .toR wire => (n.sentI.map (·.2))[n.gotR.length]? = some wire
      | .toI wire => (n.sentR.map (·.2))[n.gotI.length]? = some wire
      | _ => True) ∧ Net.Faithful P (n.step P act) acts

/-- Two sessions in transport mode with the same keys, initiator to responder and responder to initiator, where all
messages were delivered: `n1` were sent by the initiator and `n2` by the responder. -/
structure InSync (i r : NoiseSession) (keys : Arr 32 × Arr 32) (n1 n2 : UInt64) : Prop where
  roles : i.i = true ∧ r.i = false
  count : i.mc = 2 + n1.toNat + n2.toNat ∧ r.mc = 2 + n1.toNat + n2.toNat
  initiator : i.cs1 = ⟨keys.1, n1⟩ ∧ i.cs2 = ⟨keys.2, n2⟩
  responder : r.cs1 = ⟨keys.1, n1⟩ ∧ r.cs2 = ⟨keys.2, n2⟩

/-- Two sessions that have just finished a handshake with each other. -/
abbrev Agreed (i r : NoiseSession) (keys : Arr 32 × Arr 32) : Prop := InSync i r keys 0 0

/-- Message number `j` that was accepted is a forgery: it decrypts under `key` with nonce `n0 + j`, but message number
`j` of the sender is a different one, or does not exist. -/
def ForgedAt (P : Prims) (key : Arr 32) (n0 : Nat) (sent : List (Bytes × Bytes)) (acceptedWires : List Bytes)
    (j : Nat) : Prop :=
  ∃ (c : Bytes) (mac : Arr 16) (p : Bytes), acceptedWires[j]? = some (c ++ mac.toList) ∧
    P.aeadOpen key (NX.nonce (n0 + j)) [] c mac = some p ∧ (sent.map (·.2))[j]? ≠ some (c ++ mac.toList)

/-- `REKEY(k)` of the Noise specification: the first 32 bytes of `ENCRYPT(k, 2^64-1, zerolen, zeros)`. -/
def NX.rekey (P : Prims) (k : Arr 32) : Bytes := (NX.enc P k (2 ^ 64 - 1) [] NX.zeros.toList).take 32

end SV2.Noise
