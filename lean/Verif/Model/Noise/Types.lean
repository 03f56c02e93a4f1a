import Verif.Model.Error
/-!
# `nx-noise/src/consts.rs`, `types.rs`, `utils.rs`
-/

namespace SV2.Noise

/-- `Result<T, NoiseError>`, plus panics. -/
abbrev NResult (α : Type) := Out NoiseError α

/-- `DHLEN`, consts.rs:8 (`curve25519::SECRET_LENGTH`). -/
def DHLEN : Nat := 32
/-- `MAC_LENGTH`, consts.rs:13 (`chacha20poly1305::MAC_LENGTH`). -/
def MAC_LENGTH : Nat := 16
/-- `MAX_MESSAGE`, consts.rs:14. -/
def MAX_MESSAGE : Nat := 0xFFFF
/-- `MAX_NONCE`, consts.rs:15. -/
def MAX_NONCE : UInt64 := 0xFFFFFFFFFFFFFFFF

/-- `EMPTY_KEY` and `EMPTY_HASH`, consts.rs:11-12. -/
def EMPTY : Arr 32 := Arr.replicate 32 0

/-- `forbidden_curve_values`, consts.rs:18-31. -/
def forbiddenCurveValues : List Bytes := [
  [0, 0, 0, 0, 0, 0, 0, 0, 0, 0, 0, 0, 0, 0, 0, 0, 0, 0, 0, 0, 0, 0, 0, 0, 0, 0, 0, 0, 0, 0, 0, 0],
  [1, 0, 0, 0, 0, 0, 0, 0, 0, 0, 0, 0, 0, 0, 0, 0, 0, 0, 0, 0, 0, 0, 0, 0, 0, 0, 0, 0, 0, 0, 0, 0],
  [224, 235, 122, 124, 59, 65, 184, 174, 22, 86, 227, 250, 241, 159, 196, 106, 218, 9, 141, 235, 156, 50, 177, 253, 134, 98, 5, 22, 95, 73, 184, 0],
  [95, 156, 149, 188, 163, 80, 140, 36, 177, 208, 177, 85, 156, 131, 239, 91, 4, 68, 92, 196, 88, 28, 142, 134, 216, 34, 78, 221, 208, 159, 17, 87],
  [236, 255, 255, 255, 255, 255, 255, 255, 255, 255, 255, 255, 255, 255, 255, 255, 255, 255, 255, 255, 255, 255, 255, 255, 255, 255, 255, 255, 255, 255, 255, 127],
  [237, 255, 255, 255, 255, 255, 255, 255, 255, 255, 255, 255, 255, 255, 255, 255, 255, 255, 255, 255, 255, 255, 255, 255, 255, 255, 255, 255, 255, 255, 255, 127],
  [238, 255, 255, 255, 255, 255, 255, 255, 255, 255, 255, 255, 255, 255, 255, 255, 255, 255, 255, 255, 255, 255, 255, 255, 255, 255, 255, 255, 255, 255, 255, 127],
  [205, 235, 122, 124, 59, 65, 184, 174, 22, 86, 227, 250, 241, 159, 196, 106, 218, 9, 141, 235, 156, 50, 177, 253, 134, 98, 5, 22, 95, 73, 184, 128],
  [76, 156, 149, 188, 163, 80, 140, 36, 177, 208, 177, 85, 156, 131, 239, 91, 4, 68, 92, 196, 88, 28, 142, 134, 216, 34, 78, 221, 208, 159, 17, 215],
  [217, 255, 255, 255, 255, 255, 255, 255, 255, 255, 255, 255, 255, 255, 255, 255, 255, 255, 255, 255, 255, 255, 255, 255, 255, 255, 255, 255, 255, 255, 255, 255],
  [218, 255, 255, 255, 255, 255, 255, 255, 255, 255, 255, 255, 255, 255, 255, 255, 255, 255, 255, 255, 255, 255, 255, 255, 255, 255, 255, 255, 255, 255, 255, 255],
  [219, 255, 255, 255, 255, 255, 255, 255, 255, 255, 255, 255, 255, 255, 255, 255, 255, 255, 255, 255, 255, 255, 255, 255, 255, 255, 255, 255, 255, 255, 255, 255]]

/-- The cryptographic dependencies (`blake2_rfc`, `hacl_star`) as functions.  They are parameters of the
model: every theorem holds for every choice, under the laws it names. -/
structure Prims where
  /-- BLAKE2s with 32 bytes of output, of the concatenation of everything passed to `update`. -/
  hash : Bytes → Arr 32
  /-- ChaCha20-Poly1305 `encrypt`: key, nonce, associated data, plaintext; ciphertext and MAC. -/
  aeadSeal : Arr 32 → Arr 12 → Bytes → Bytes → Bytes × Arr 16
  /-- It works in place. -/
  seal_length : ∀ k n ad p, (aeadSeal k n ad p).1.length = p.length
  /-- ChaCha20-Poly1305 `decrypt`: key, nonce, associated data, ciphertext, MAC; the plaintext, or `none`
  when it returns `false`. -/
  aeadOpen : Arr 32 → Arr 12 → Bytes → Bytes → Arr 16 → Option Bytes
  /-- It works in place. -/
  open_length : ∀ k n ad c mac p, aeadOpen k n ad c mac = some p → p.length = c.length
  /-- `curve25519::scalarmult`: secret, public. -/
  dh : Arr 32 → Arr 32 → Arr 32
  /-- `curve25519::SecretKey::get_public`. -/
  publicOf : Arr 32 → Arr 32

/-- `from_slice_hashlen`, utils.rs:6-11: the first 32 bytes; the slice index panics when there are
fewer. -/
def fromSliceHashlen (b : Bytes) : Out NoiseError (Arr 32) :=
  if h : (b.take 32).length = 32 then .ok ⟨b.take 32, h⟩ else .panic

/-- `prep_nonce`, utils.rs:12-16. -/
def prepNonce (n : UInt64) : Arr 12 :=
  ⟨List.replicate 4 0 ++ toLE 8 n.toNat, by simp [toLE]⟩

/-- `hex::val` of the `hex` crate 0.3.2, the value of one hexadecimal digit. -/
def hexVal (c : UInt8) : Option UInt8 :=
  if 0x41 ≤ c ∧ c ≤ 0x46 then some (c - 0x41 + 10)
  else if 0x61 ≤ c ∧ c ≤ 0x66 then some (c - 0x61 + 10)
  else if 0x30 ≤ c ∧ c ≤ 0x39 then some (c - 0x30)
  else none

/-- The pairs loop of `hex::decode` (`hex` crate 0.3.2): the high digit first; an odd number of bytes is
an error. -/
def hexDecode : Bytes → Option Bytes
  | [] => some []
  | [_] => none
  | a :: b :: rest => do
    let hi ← hexVal a
    let lo ← hexVal b
    let tail ← hexDecode rest
    pure ((hi <<< 4 ||| lo) :: tail)

/-- `decode_str_32`, types.rs:13-25. -/
def decodeStr32 (s : String) : NResult (Arr 32) :=
  match hexDecode (strBytes s) with
  | some x => if h : x.length = DHLEN then .ok ⟨x, h⟩ else .err .invalidInputError
  | none => .err .invalidInputError

/-- `Hash`, types.rs:27-44, `Key`, 46-64, `Psk`, 123-142 and 169-175, `PrivateKey`, 203-224, and `PublicKey`, 286-295
and 308-313: 32 bytes.  `new`, `empty` and `Psk::default` are `EMPTY`; `from_bytes` (but for `PublicKey`), `as_bytes` and
the conversions from `hacl_star` types keep the bytes. -/
abbrev Key := Arr 32

/-- `is_empty`, types.rs:87-89, 165-167, 247-249, 334-336. -/
def isEmptyKey (k : Key) : Bool := k = EMPTY

/-- `Key::from_str` types.rs:117-120, `Psk::from_str` 196-200, `PrivateKey::from_str` 280-283 and
`PublicKey::from_str` 359-362: all four only decode, there is no check of the value. -/
def keyFromStr (s : String) : NResult Key := decodeStr32 s

/-- `PublicKey::from_bytes`, types.rs:296-303. -/
def publicKeyFromBytes (k : Key) : NResult Key :=
  if k.toList ∈ forbiddenCurveValues then .err .invalidPublicKeyError else .ok k

/-- `PrivateKey::generate_public_key`, types.rs:251-258. -/
def generatePublicKey (P : Prims) (k : Key) : NResult Key :=
  if isEmptyKey k then .err .invalidKeyError else .ok (P.publicOf k)

/-- `Key::generate_public_key`, types.rs:91-96: no check of the argument. -/
def keyGeneratePublicKey (P : Prims) (private_key : Key) : Key := P.publicOf private_key

/-- `clear` of `Key`, `Psk`, `PrivateKey` and `PublicKey`, types.rs:51-53, 131-133, 208-210, 305-307. -/
def clearKey (_ : Key) : Key := EMPTY

/-- `Keypair`, types.rs:384-388. -/
structure Keypair where
  private_key : Key
  public_key : Key
  deriving Repr, DecidableEq

namespace Keypair

/-- `Keypair::new_empty`, types.rs:395-400. -/
def empty : Keypair := ⟨EMPTY, EMPTY⟩

/-- `Keypair::default`, types.rs:402-409: the secret key is random, here an argument. -/
def default (P : Prims) (secret : Arr 32) : Keypair := ⟨secret, P.publicOf secret⟩

/-- `Keypair::clear`, types.rs:390-393. -/
def clear (kp : Keypair) : Keypair := ⟨clearKey kp.private_key, clearKey kp.public_key⟩

/-- `Keypair::get_public_key`, types.rs:434-436. -/
def getPublicKey (kp : Keypair) : Arr 32 := kp.public_key

/-- `Keypair::dh`, types.rs:410-414. -/
def dh (P : Prims) (kp : Keypair) (public_key : Arr 32) : Arr 32 := P.dh kp.private_key public_key

/-- `Keypair::is_empty`, types.rs:416-418. -/
def isEmpty (kp : Keypair) : Bool := isEmptyKey kp.private_key

/-- `Keypair::from_key`, types.rs:421-427 and `from_private_key`, 430-432. -/
def fromKey (P : Prims) (k : Arr 32) : NResult Keypair :=
  match generatePublicKey P k with
  | .ok pk => .ok ⟨k, pk⟩
  | .err e => .err e
  | .panic => .panic

end Keypair

/-- `Nonce::get_value`, types.rs:376-381.  A `Nonce` (365-372) is a `u64`, 0 at first. -/
def nonceValue (n : UInt64) : NResult UInt64 :=
  if n = MAX_NONCE then .err .exhaustedNonceError else .ok n

/-- `Nonce::increment`, types.rs:373-375, with overflow checks. -/
def nonceIncrement (n : UInt64) : NResult UInt64 :=
  if n.toNat + 1 < 2 ^ 64 then .ok (n + 1) else .panic

end SV2.Noise
