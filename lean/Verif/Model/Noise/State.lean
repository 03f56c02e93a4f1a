import Verif.Model.Noise.Types
/-!
# `nx-noise/src/prims.rs` and `state.rs`

A Rust method with `&mut self` and `in_out: &mut [u8]` is a function that returns the outcome, the new
`self` and the new contents of the buffer, on every path.
-/

namespace SV2.Noise

/-! ## prims.rs -/

/-- XOR of `key` into the first bytes of a 64-byte block filled with `pad`, prims.rs:35-40. -/
def hmacPad (pad : UInt8) (key : Arr 32) : Bytes :=
  key.toList.map (fun b => pad ^^^ b) ++ List.replicate 32 pad

/-- `hmac`, prims.rs:33-48.  Every caller passes a 32-byte key. -/
def hmac (P : Prims) (key : Arr 32) (data : Bytes) : Arr 32 :=
  P.hash (hmacPad 0x5c key ++ (P.hash (hmacPad 0x36 key ++ data)).toList)

/-- `hkdf` with `outputs = 2`, prims.rs:50-66: `out1` and `out2`. -/
def hkdf2 (P : Prims) (chaining_key : Arr 32) (input_key_material : Bytes) : Arr 32 × Arr 32 :=
  let temp_key := hmac P chaining_key input_key_material
  let out1 := hmac P temp_key [1]
  let out2 := hmac P temp_key (out1.toList ++ [2])
  (out1, out2)

/-- `hash_with_context`, prims.rs:25-31. -/
def hashWithContext (P : Prims) (con data : Bytes) : Arr 32 := P.hash (con ++ data)

/-! ## CipherState -/

/-- `CipherState`, state.rs:15-18. -/
structure CipherState where
  k : Arr 32
  n : UInt64
  deriving Repr, DecidableEq

namespace CipherState

/-- `CipherState::from_key`, state.rs:34-37. -/
def fromKey (key : Arr 32) : CipherState := ⟨key, 0⟩

/-- `CipherState::new`, state.rs:21-23; also the result of `clear`, state.rs:29-32. -/
def new : CipherState := fromKey EMPTY

/-- `CipherState::clear_key`, state.rs:25-27: the nonce stays. -/
def clearKey (cs : CipherState) : CipherState := { cs with k := EMPTY }

/-- `CipherState::has_key`, state.rs:39-41. -/
def hasKey (cs : CipherState) : Bool := !isEmptyKey cs.k

/-- `CipherState::encrypt_with_ad`, state.rs:53-72.  The MAC is returned instead of written through a
reference; on failure the caller's MAC buffer keeps its zeros. -/
def encryptWithAd (P : Prims) (cs : CipherState) (ad in_out : Bytes) :
    NResult (Arr 16) × CipherState × Bytes :=
  match nonceValue cs.n with
  | .err e => (.err e, cs, in_out)
  | .panic => (.panic, cs, in_out)
  | .ok nonce =>
    if cs.hasKey then
      let out := P.aeadSeal cs.k (prepNonce nonce) ad in_out
      match nonceIncrement cs.n with
      | .ok n' => (.ok out.2, { cs with n := n' }, out.1)
      | .err e => (.err e, cs, out.1)
      | .panic => (.panic, cs, out.1)
    else (.err .emptyKeyError, cs, in_out)

/-- `CipherState::decrypt_with_ad`, state.rs:74-95.  A `decrypt` that returns `false` leaves the buffer
as it was (HACL* checks the MAC before it decrypts). -/
def decryptWithAd (P : Prims) (cs : CipherState) (ad in_out : Bytes) (mac : Arr 16) :
    NResult Unit × CipherState × Bytes :=
  match nonceValue cs.n with
  | .err e => (.err e, cs, in_out)
  | .panic => (.panic, cs, in_out)
  | .ok nonce =>
    if cs.hasKey then
      match P.aeadOpen cs.k (prepNonce nonce) ad in_out mac with
      | some plain =>
        match nonceIncrement cs.n with
        | .ok n' => (.ok (), { cs with n := n' }, plain)
        | .err e => (.err e, cs, plain)
        | .panic => (.panic, cs, plain)
      | none => (.err .decryptionError, cs, in_out)
    else (.err .emptyKeyError, cs, in_out)

/-- `[0xFFu8; NONCE_LENGTH]`, state.rs:101. -/
def rekeyNonce : Arr 12 := Arr.replicate 12 0xFF

/-- `CipherState::rekey`, state.rs:98-106: the ciphertext of 32 zero bytes; the nonce stays. -/
def rekey (P : Prims) (cs : CipherState) : CipherState :=
  { cs with k := ⟨(P.aeadSeal cs.k rekeyNonce [] EMPTY.toList).1, by
      rw [P.seal_length]; exact EMPTY.len⟩ }

/-- `CipherState::write_message_regular`, state.rs:108-114.  `in_out.len() - MAC_LENGTH` and `split_at_mut`
panic below 16 bytes. -/
def writeMessageRegular (P : Prims) (cs : CipherState) (in_out : Bytes) :
    NResult Unit × CipherState × Bytes :=
  if in_out.length < MAC_LENGTH then (.panic, cs, in_out)
  else
    let text := in_out.take (in_out.length - MAC_LENGTH)
    let mac := in_out.drop (in_out.length - MAC_LENGTH)
    match cs.encryptWithAd P [] text with
    | (.ok temp_mac, cs', text') => (.ok (), cs', text' ++ temp_mac.toList)
    | (.err e, cs', text') => (.err e, cs', text' ++ mac)
    | (.panic, cs', text') => (.panic, cs', text' ++ mac)

/-- `CipherState::read_message_regular`, state.rs:116-123.  Only the copy of the MAC is zeroed
(line 121), not the buffer. -/
def readMessageRegular (P : Prims) (cs : CipherState) (in_out : Bytes) :
    NResult Unit × CipherState × Bytes :=
  if in_out.length < MAC_LENGTH then (.panic, cs, in_out)
  else
    let text := in_out.take (in_out.length - MAC_LENGTH)
    let mac := in_out.drop (in_out.length - MAC_LENGTH)
    match Arr.ofSlice? 16 mac with
    | none => (.panic, cs, in_out)
    | some temp_mac =>
      match cs.decryptWithAd P [] text temp_mac with
      | (r, cs', text') => (r, cs', text' ++ mac)

end CipherState

/-! ## SymmetricState -/

/-- `SymmetricState`, state.rs:126-130. -/
structure SymmetricState where
  cs : CipherState
  ck : Arr 32
  h : Arr 32
  deriving Repr, DecidableEq

namespace SymmetricState

/-- `SymmetricState::clear`, state.rs:133-136: key and chaining key, not the hash, not the nonce. -/
def clear (ss : SymmetricState) : SymmetricState := { ss with cs := ss.cs.clearKey, ck := EMPTY }

/-- `SymmetricState::initialize_symmetric`, state.rs:138-153. -/
def initializeSymmetric (P : Prims) (protocol_name : Bytes) : SymmetricState :=
  let h : Arr 32 :=
    if hlen : protocol_name.length ≤ 32 then
      ⟨protocol_name ++ List.replicate (32 - protocol_name.length) 0, by simp; omega⟩
    else P.hash protocol_name
  ⟨CipherState.new, h, h⟩

/-- `SymmetricState::mix_key`, state.rs:155-171. -/
def mixKey (P : Prims) (ss : SymmetricState) (input_key_material : Bytes) : SymmetricState :=
  let out := hkdf2 P ss.ck input_key_material
  { ss with ck := out.1, cs := CipherState.fromKey out.2 }

/-- `SymmetricState::mix_hash`, state.rs:173-175. -/
def mixHash (P : Prims) (ss : SymmetricState) (data : Bytes) : SymmetricState :=
  { ss with h := hashWithContext P ss.h.toList data }

/-- `SymmetricState::encrypt_and_hash`, state.rs:206-221. -/
def encryptAndHash (P : Prims) (ss : SymmetricState) (in_out : Bytes) :
    NResult Unit × SymmetricState × Bytes :=
  if in_out.length < MAC_LENGTH then (.err .missingneError, ss, in_out)
  else
    let plaintext := in_out.take (in_out.length - MAC_LENGTH)
    let mac := in_out.drop (in_out.length - MAC_LENGTH)
    match ss.cs.encryptWithAd P ss.h.toList plaintext with
    | (.ok temp_mac, cs', c) =>
      let in_out' := c ++ temp_mac.toList
      (.ok (), mixHash P { ss with cs := cs' } in_out', in_out')
    | (.err e, cs', c) => (.err e, { ss with cs := cs' }, c ++ mac)
    | (.panic, cs', c) => (.panic, { ss with cs := cs' }, c ++ mac)

/-- `SymmetricState::decrypt_and_hash`, state.rs:223-233.  `temp[..in_out.len()]` panics above 2048 bytes,
`in_out.len() - MAC_LENGTH` below 16. -/
def decryptAndHash (P : Prims) (ss : SymmetricState) (in_out : Bytes) :
    NResult Unit × SymmetricState × Bytes :=
  if in_out.length > 2048 then (.panic, ss, in_out)
  else if in_out.length < MAC_LENGTH then (.panic, ss, in_out)
  else
    let ciphertext := in_out.take (in_out.length - MAC_LENGTH)
    let mac := in_out.drop (in_out.length - MAC_LENGTH)
    match Arr.ofSlice? 16 mac with
    | none => (.panic, ss, in_out)
    | some temp_mac =>
      match ss.cs.decryptWithAd P ss.h.toList ciphertext temp_mac with
      | (.ok (), cs', p) => (.ok (), mixHash P { ss with cs := cs' } in_out, p ++ mac)
      | (.err e, cs', p) => (.err e, { ss with cs := cs' }, p ++ mac)
      | (.panic, cs', p) => (.panic, { ss with cs := cs' }, p ++ mac)

/-- `SymmetricState::split`, state.rs:235-254. -/
def split (P : Prims) (ss : SymmetricState) : CipherState × CipherState :=
  let out := hkdf2 P ss.ck []
  (CipherState.fromKey out.1, CipherState.fromKey out.2)

end SymmetricState

/-! ## HandshakeState -/

/-- `HandshakeState`, state.rs:257-264. -/
structure HandshakeState where
  ss : SymmetricState
  s : Keypair
  e : Keypair
  rs : Arr 32
  re : Arr 32
  psk : Arr 32
  deriving Repr, DecidableEq

/-- What `write_message_b` and `read_message_b` return: the handshake hash and the two cipher states. -/
abbrev HandshakeOutput := Arr 32 × CipherState × CipherState

/-- `b"Noise_NX_25519_ChaChaPoly_BLAKE2s"`, state.rs:283 and 298. -/
def protocolName : Bytes :=
  [78, 111, 105, 115, 101, 95, 78, 88, 95, 50, 53, 53, 49, 57, 95, 67, 104, 97, 67, 104, 97, 80, 111, 108,
   121, 95, 66, 76, 65, 75, 69, 50, 115]

namespace HandshakeState

/-- `HandshakeState::clear`, state.rs:267-272: `rs` and `ss` stay. -/
def clear (hs : HandshakeState) : HandshakeState :=
  { hs with s := Keypair.empty, e := Keypair.empty, re := EMPTY, psk := EMPTY }

/-- `initialize_initiator`, state.rs:282-295, and `initialize_responder`, 297-310: the same code. -/
def init (P : Prims) (prologue : Bytes) (s : Keypair) (psk : Arr 32) : HandshakeState :=
  { ss := (SymmetricState.initializeSymmetric P protocolName).mixHash P prologue
    s := s, e := Keypair.empty, rs := EMPTY, re := EMPTY, psk := psk }

/-- `write_message_a`, state.rs:311-326.  `rnd` is the key pair that `Keypair::default()` would make. -/
def writeMessageA (P : Prims) (rnd : Keypair) (hs : HandshakeState) (in_out : Bytes) :
    NResult Unit × HandshakeState × Bytes :=
  if in_out.length < DHLEN then (.err .missingneError, hs, in_out)
  else
    let hs := if hs.e.isEmpty then { hs with e := rnd } else hs
    let ne := hs.e.public_key.toList
    let payload := in_out.drop DHLEN
    let hs := { hs with ss := hs.ss.mixHash P ne }
    let hs := { hs with ss := hs.ss.mixHash P payload }
    (.ok (), hs, ne ++ payload)

/-- `write_message_b`, state.rs:328-359. -/
def writeMessageB (P : Prims) (rnd : Keypair) (hs : HandshakeState) (in_out : Bytes) :
    NResult HandshakeOutput × HandshakeState × Bytes :=
  if in_out.length < DHLEN then (.err .missingneError, hs, in_out)
  else
    let hs := if hs.e.isEmpty then { hs with e := rnd } else hs
    let ne := hs.e.public_key.toList
    let rest := in_out.drop DHLEN
    let hs := { hs with ss := hs.ss.mixHash P ne }
    let hs := { hs with ss := hs.ss.mixKey P (hs.e.dh P hs.re).toList }
    if rest.length < DHLEN + MAC_LENGTH then (.err .missingneError, hs, ne ++ rest)
    else
      let ns := hs.s.public_key.toList ++ (rest.take (DHLEN + MAC_LENGTH)).drop DHLEN
      let payload := rest.drop (DHLEN + MAC_LENGTH)
      match hs.ss.encryptAndHash P ns with
      | (.err e, ss, ns) => (.err e, { hs with ss := ss }, ne ++ ns ++ payload)
      | (.panic, ss, ns) => (.panic, { hs with ss := ss }, ne ++ ns ++ payload)
      | (.ok (), ss, ns) =>
        let hs := { hs with ss := ss.mixKey P (hs.s.dh P hs.re).toList }
        match hs.ss.encryptAndHash P payload with
        | (.err e, ss, payload) => (.err e, { hs with ss := ss }, ne ++ ns ++ payload)
        | (.panic, ss, payload) => (.panic, { hs with ss := ss }, ne ++ ns ++ payload)
        | (.ok (), ss, payload) =>
          (.ok (ss.h, ss.split P), { hs with ss := ss.clear }, ne ++ ns ++ payload)

/-- `read_message_a`, state.rs:361-373. -/
def readMessageA (P : Prims) (hs : HandshakeState) (in_out : Bytes) :
    NResult Unit × HandshakeState × Bytes :=
  if in_out.length < MAC_LENGTH + DHLEN then (.err .missingreError, hs, in_out)
  else
    let payload := in_out.drop DHLEN
    match fromSliceHashlen (in_out.take DHLEN) >>= publicKeyFromBytes with
    | .err e => (.err e, hs, in_out)
    | .panic => (.panic, hs, in_out)
    | .ok re =>
      let hs := { hs with re := re }
      let hs := { hs with ss := hs.ss.mixHash P (hs.re.toList.take DHLEN) }
      let hs := { hs with ss := hs.ss.mixHash P payload }
      (.ok (), hs, in_out)

/-- `read_message_b`, state.rs:375-399. -/
def readMessageB (P : Prims) (hs : HandshakeState) (in_out : Bytes) :
    NResult HandshakeOutput × HandshakeState × Bytes :=
  if in_out.length < MAC_LENGTH + DHLEN then (.err .missingreError, hs, in_out)
  else
    let reBytes := in_out.take DHLEN
    let rest := in_out.drop DHLEN
    match fromSliceHashlen reBytes >>= publicKeyFromBytes with
    | .err e => (.err e, hs, in_out)
    | .panic => (.panic, hs, in_out)
    | .ok re =>
      let hs := { hs with re := re }
      let hs := { hs with ss := hs.ss.mixHash P (hs.re.toList.take DHLEN) }
      let hs := { hs with ss := hs.ss.mixKey P (hs.e.dh P hs.re).toList }
      if rest.length < MAC_LENGTH + DHLEN then (.err .missingrsError, hs, in_out)
      else
        let payload := rest.drop (MAC_LENGTH + DHLEN)
        match hs.ss.decryptAndHash P (rest.take (MAC_LENGTH + DHLEN)) with
        | (.err e, ss, rsBytes) => (.err e, { hs with ss := ss }, reBytes ++ rsBytes ++ payload)
        | (.panic, ss, rsBytes) => (.panic, { hs with ss := ss }, reBytes ++ rsBytes ++ payload)
        | (.ok (), ss, rsBytes) =>
          let hs := { hs with ss := ss }
          match fromSliceHashlen rsBytes >>= publicKeyFromBytes with
          | .err e => (.err e, hs, reBytes ++ rsBytes ++ payload)
          | .panic => (.panic, hs, reBytes ++ rsBytes ++ payload)
          | .ok rs =>
            let hs := { hs with rs := rs }
            let hs := { hs with ss := hs.ss.mixKey P (hs.e.dh P hs.rs).toList }
            match hs.ss.decryptAndHash P payload with
            | (.err e, ss, payload) => (.err e, { hs with ss := ss }, reBytes ++ rsBytes ++ payload)
            | (.panic, ss, payload) => (.panic, { hs with ss := ss }, reBytes ++ rsBytes ++ payload)
            | (.ok (), ss, payload) =>
              (.ok (ss.h, ss.split P), { hs with ss := ss.clear }, reBytes ++ rsBytes ++ payload)

end HandshakeState

end SV2.Noise
