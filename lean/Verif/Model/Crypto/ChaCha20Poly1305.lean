import Verif.Model.Crypto.X25519
/-!
# ChaCha20-Poly1305 (RFC 8439)

The functions behind `chacha20poly1305::key(..).nonce(..).encrypt` and `decrypt` of the `hacl_star` crate, which nx-noise
calls at prims.rs:11, 15 and state.rs:110-112.  Written from the RFC.
-/

namespace SV2.Crypto

/-- `n` little-endian 32-bit words. -/
def words (n : Nat) (b : Bytes) : List UInt32 := (List.range n).map fun i => UInt32.ofNat (fromLE b / 2 ^ (32 * i))

/-- The number made of 32-bit words, least significant first. -/
def ofWords (ws : List UInt32) : Nat := ws.foldr (fun w n => w.toNat + 2 ^ 32 * n) 0

/-- Rotation to the left. -/
def rotl (x n : UInt32) : UInt32 := x <<< n ||| x >>> (32 - n)

namespace ChaCha20

/-- RFC 8439, 2.1: the quarter round. -/
def quarter (a b c d : UInt32) : UInt32 × UInt32 × UInt32 × UInt32 :=
  let a := a + b; let d := rotl (d ^^^ a) 16
  let c := c + d; let b := rotl (b ^^^ c) 12
  let a := a + b; let d := rotl (d ^^^ a) 8
  let c := c + d; let b := rotl (b ^^^ c) 7
  (a, b, c, d)

/-- 2.2: a quarter round on four words of the state. -/
def quarterAt (s : List UInt32) (i j k l : Nat) : List UInt32 :=
  let r := quarter (s.getD i 0) (s.getD j 0) (s.getD k 0) (s.getD l 0)
  (((s.set i r.1).set j r.2.1).set k r.2.2.1).set l r.2.2.2

/-- 2.3: four column rounds and four diagonal rounds. -/
def innerBlock (s : List UInt32) : List UInt32 :=
  let s := quarterAt s 0 4 8 12
  let s := quarterAt s 1 5 9 13
  let s := quarterAt s 2 6 10 14
  let s := quarterAt s 3 7 11 15
  let s := quarterAt s 0 5 10 15
  let s := quarterAt s 1 6 11 12
  let s := quarterAt s 2 7 8 13
  quarterAt s 3 4 9 14

/-- 2.3: ten times `innerBlock`. -/
def rounds : Nat → List UInt32 → List UInt32
  | 0, s => s
  | n + 1, s => rounds n (innerBlock s)

/-- 2.3: the initial state. -/
def init (key : Arr 32) (counter : UInt32) (nonce : Arr 12) : List UInt32 :=
  [0x61707865, 0x3320646e, 0x79622d32, 0x6b206574] ++ words 8 key.toList ++ [counter] ++ words 3 nonce.toList

/-- 2.3: `chacha20_block`. -/
def block (key : Arr 32) (counter : UInt32) (nonce : Arr 12) : Bytes :=
  let s := init key counter nonce
  toLE 64 (ofWords (List.zipWith (· + ·) (rounds 10 s) s))

/-- The key stream of `n` blocks. -/
def stream (key : Arr 32) (nonce : Arr 12) : (n : Nat) → (counter : UInt32) → Bytes
  | 0, _ => []
  | n + 1, counter => block key counter nonce ++ stream key nonce n (counter + 1)

/-- 2.4: `chacha20_encrypt`, also the decryption. -/
def xor (key : Arr 32) (counter : UInt32) (nonce : Arr 12) (data : Bytes) : Bytes :=
  List.zipWith (· ^^^ ·) data (stream key nonce ((data.length + 63) / 64) counter)

end ChaCha20

namespace Poly1305

def p : Nat := 2 ^ 130 - 5

/-- RFC 8439, 2.5: the accumulator over blocks of 16 bytes, the last one may be shorter. -/
def accumulate (r : Nat) : (blocks : Nat) → (acc : Nat) → Bytes → Nat
  | 0, acc, _ => acc
  | n + 1, acc, msg => accumulate r n ((acc + fromLE (msg.take 16 ++ [1])) * r % p) (msg.drop 16)

/-- 2.5: `poly1305_mac`, with a one-time key. -/
def mac (msg : Bytes) (key : Bytes) : Arr 16 :=
  let r := fromLE (key.take 16) &&& 0x0ffffffc0ffffffc0ffffffc0fffffff
  let s := fromLE (key.drop 16)
  ⟨toLE 16 (accumulate r ((msg.length + 15) / 16) 0 msg + s), X25519.length_toLE _ _⟩

end Poly1305

namespace Aead

/-- RFC 8439, 2.8: `pad16`. -/
def pad16 (b : Bytes) : Bytes := List.replicate ((16 - b.length % 16) % 16) 0

/-- 2.8: the tag of a ciphertext. -/
def tag (key : Arr 32) (nonce : Arr 12) (ad ciphertext : Bytes) : Arr 16 :=
  Poly1305.mac (ad ++ pad16 ad ++ ciphertext ++ pad16 ciphertext ++ toLE 8 ad.length ++ toLE 8 ciphertext.length)
    ((ChaCha20.block key 0 nonce).take 32)

/-- 2.8: `chacha20_aead_encrypt`. -/
def aeadSeal (key : Arr 32) (nonce : Arr 12) (ad plaintext : Bytes) : Bytes × Arr 16 :=
  let ciphertext := ChaCha20.xor key 1 nonce plaintext
  (ciphertext, tag key nonce ad ciphertext)

/-- 2.8: decryption, after comparing the tags. -/
def aeadOpen (key : Arr 32) (nonce : Arr 12) (ad ciphertext : Bytes) (mac : Arr 16) : Option Bytes :=
  if tag key nonce ad ciphertext = mac then some (ChaCha20.xor key 1 nonce ciphertext) else none

end Aead

end SV2.Crypto
