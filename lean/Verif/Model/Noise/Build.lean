import Verif.Model.Noise.Session
/-!
# A Noise session in other builds

`Model/Noise/State.lean` and `Session.lean` have the build with overflow checks, with a `usize` of 64 bits.  Here are the
same functions for a build with or without overflow checks where `usize` has `w` bits.  Only those that do arithmetic
differ, and those that call them.
-/

namespace SV2.Noise

/-- How the program was built. -/
structure Build where
  /-- The bits of `usize`. -/
  w : Nat
  /-- Whether arithmetic checks for overflow: in a debug build, not in a release build. -/
  checks : Bool

namespace Build
variable (b : Build) (P : Prims)

/-- `self.n += 1` on a `u64`, types.rs:373-375: without checks it wraps. -/
def increment (n : UInt64) : NResult UInt64 :=
  if b.checks && n.toNat + 1 ≥ 2 ^ 64 then .panic else .ok (UInt64.ofNat ((n.toNat + 1) % 2 ^ 64))

/-- `self.mc += 1` on a `u128`, noisesession.rs:164 and 200: without checks it wraps. -/
def count (s : NoiseSession) (buf : Bytes) : NResult Unit × NoiseSession × Bytes :=
  if b.checks && s.mc + 1 ≥ 2 ^ 128 then (.panic, s, buf) else (.ok (), { s with mc := (s.mc + 1) % 2 ^ 128 }, buf)

/-- `in_out.split_at_mut(in_out.len() - MAC_LENGTH)`, state.rs:109, 117, 215 and 226: without checks the difference wraps;
`split_at_mut` panics behind the end. -/
def split (in_out : Bytes) : NResult (Bytes × Bytes) :=
  if b.checks && in_out.length < MAC_LENGTH then .panic
  else
    let mid := (in_out.length + 2 ^ b.w - MAC_LENGTH) % 2 ^ b.w
    if mid ≤ in_out.length then .ok (in_out.take mid, in_out.drop mid) else .panic

/-- `CipherState::encrypt_with_ad`, state.rs:53-72. -/
def encryptWithAd (cs : CipherState) (ad in_out : Bytes) : NResult (Arr 16) × CipherState × Bytes :=
  match nonceValue cs.n with
  | .err e => (.err e, cs, in_out)
  | .panic => (.panic, cs, in_out)
  | .ok nonce =>
    if cs.hasKey then
      let out := P.aeadSeal cs.k (prepNonce nonce) ad in_out
      match b.increment cs.n with
      | .ok n' => (.ok out.2, { cs with n := n' }, out.1)
      | .err e => (.err e, cs, out.1)
      | .panic => (.panic, cs, out.1)
    else (.err .emptyKeyError, cs, in_out)

/-- `CipherState::decrypt_with_ad`, state.rs:74-95. -/
def decryptWithAd (cs : CipherState) (ad in_out : Bytes) (mac : Arr 16) : NResult Unit × CipherState × Bytes :=
  match nonceValue cs.n with
  | .err e => (.err e, cs, in_out)
  | .panic => (.panic, cs, in_out)
  | .ok nonce =>
    if cs.hasKey then
      match P.aeadOpen cs.k (prepNonce nonce) ad in_out mac with
      | some plain =>
        match b.increment cs.n with
        | .ok n' => (.ok (), { cs with n := n' }, plain)
        | .err e => (.err e, cs, plain)
        | .panic => (.panic, cs, plain)
      | none => (.err .decryptionError, cs, in_out)
    else (.err .emptyKeyError, cs, in_out)

/-- `CipherState::write_message_regular`, state.rs:108-114. -/
def writeMessageRegular (cs : CipherState) (in_out : Bytes) : NResult Unit × CipherState × Bytes :=
  match b.split in_out with
  | .err e => (.err e, cs, in_out)
  | .panic => (.panic, cs, in_out)
  | .ok (text, mac) =>
    match b.encryptWithAd P cs [] text with
    | (.ok temp_mac, cs', text') => (.ok (), cs', text' ++ temp_mac.toList)
    | (.err e, cs', text') => (.err e, cs', text' ++ mac)
    | (.panic, cs', text') => (.panic, cs', text' ++ mac)

/-- `CipherState::read_message_regular`, state.rs:116-123. -/
def readMessageRegular (cs : CipherState) (in_out : Bytes) : NResult Unit × CipherState × Bytes :=
  match b.split in_out with
  | .err e => (.err e, cs, in_out)
  | .panic => (.panic, cs, in_out)
  | .ok (text, mac) =>
    match Arr.ofSlice? 16 mac with
    | none => (.panic, cs, in_out)
    | some temp_mac =>
      match b.decryptWithAd P cs [] text temp_mac with
      | (r, cs', text') => (r, cs', text' ++ mac)

/-- `SymmetricState::encrypt_and_hash`, state.rs:206-221. -/
def encryptAndHash (ss : SymmetricState) (in_out : Bytes) : NResult Unit × SymmetricState × Bytes :=
  if in_out.length < MAC_LENGTH then (.err .missingneError, ss, in_out)
  else
    match b.split in_out with
    | .err e => (.err e, ss, in_out)
    | .panic => (.panic, ss, in_out)
    | .ok (plaintext, mac) =>
      match b.encryptWithAd P ss.cs ss.h.toList plaintext with
      | (.ok temp_mac, cs', c) =>
        let in_out' := c ++ temp_mac.toList
        (.ok (), SymmetricState.mixHash P { ss with cs := cs' } in_out', in_out')
      | (.err e, cs', c) => (.err e, { ss with cs := cs' }, c ++ mac)
      | (.panic, cs', c) => (.panic, { ss with cs := cs' }, c ++ mac)

/-- `SymmetricState::decrypt_and_hash`, state.rs:223-233. -/
def decryptAndHash (ss : SymmetricState) (in_out : Bytes) : NResult Unit × SymmetricState × Bytes :=
  if in_out.length > 2048 then (.panic, ss, in_out)
  else
    match b.split in_out with
    | .err e => (.err e, ss, in_out)
    | .panic => (.panic, ss, in_out)
    | .ok (ciphertext, mac) =>
      match Arr.ofSlice? 16 mac with
      | none => (.panic, ss, in_out)
      | some temp_mac =>
        match b.decryptWithAd P ss.cs ss.h.toList ciphertext temp_mac with
        | (.ok (), cs', p) => (.ok (), SymmetricState.mixHash P { ss with cs := cs' } in_out, p ++ mac)
        | (.err e, cs', p) => (.err e, { ss with cs := cs' }, p ++ mac)
        | (.panic, cs', p) => (.panic, { ss with cs := cs' }, p ++ mac)

/-- `write_message_b`, state.rs:328-359. -/
def writeMessageB (rnd : Keypair) (hs : HandshakeState) (in_out : Bytes) :
    NResult HandshakeOutput × HandshakeState × Bytes :=
  if in_out.length < DHLEN then (.err .missingneError, hs, in_out)
  else
    let hs := if hs.e.isEmpty then { hs with e := rnd } else hs
    let ne := hs.e.public_key.toList
    let rest := in_out.drop DHLEN
    let hs := { hs with ss := hs.ss.mixHash P ne }
    let hs := { hs with ss := hs.ss.mixKey P (hs.e.dh P hs.re).toList }
    if rest.length < DHLEN + MAC_LENGTH then (.err .missingneError, hs, ne ++ rest)
    else
      let ns := hs.s.public_key.toList ++ (rest.take (DHLEN + MAC_LENGTH)).drop DHLEN
      let payload := rest.drop (DHLEN + MAC_LENGTH)
      match b.encryptAndHash P hs.ss ns with
      | (.err e, ss, ns) => (.err e, { hs with ss := ss }, ne ++ ns ++ payload)
      | (.panic, ss, ns) => (.panic, { hs with ss := ss }, ne ++ ns ++ payload)
      | (.ok (), ss, ns) =>
        let hs := { hs with ss := ss.mixKey P (hs.s.dh P hs.re).toList }
        match b.encryptAndHash P hs.ss payload with
        | (.err e, ss, payload) => (.err e, { hs with ss := ss }, ne ++ ns ++ payload)
        | (.panic, ss, payload) => (.panic, { hs with ss := ss }, ne ++ ns ++ payload)
        | (.ok (), ss, payload) =>
          (.ok (ss.h, ss.split P), { hs with ss := ss.clear }, ne ++ ns ++ payload)

/-- `read_message_b`, state.rs:375-399. -/
def readMessageB (hs : HandshakeState) (in_out : Bytes) : NResult HandshakeOutput × HandshakeState × Bytes :=
  if in_out.length < MAC_LENGTH + DHLEN then (.err .missingreError, hs, in_out)
  else
    let reBytes := in_out.take DHLEN
    let rest := in_out.drop DHLEN
    match fromSliceHashlen reBytes >>= publicKeyFromBytes with
    | .err e => (.err e, hs, in_out)
    | .panic => (.panic, hs, in_out)
    | .ok re =>
      let hs := { hs with re := re }
      let hs := { hs with ss := hs.ss.mixHash P (hs.re.toList.take DHLEN) }
      let hs := { hs with ss := hs.ss.mixKey P (hs.e.dh P hs.re).toList }
      if rest.length < MAC_LENGTH + DHLEN then (.err .missingrsError, hs, in_out)
      else
        let payload := rest.drop (MAC_LENGTH + DHLEN)
        match b.decryptAndHash P hs.ss (rest.take (MAC_LENGTH + DHLEN)) with
        | (.err e, ss, rsBytes) => (.err e, { hs with ss := ss }, reBytes ++ rsBytes ++ payload)
        | (.panic, ss, rsBytes) => (.panic, { hs with ss := ss }, reBytes ++ rsBytes ++ payload)
        | (.ok (), ss, rsBytes) =>
          let hs := { hs with ss := ss }
          match fromSliceHashlen rsBytes >>= publicKeyFromBytes with
          | .err e => (.err e, hs, reBytes ++ rsBytes ++ payload)
          | .panic => (.panic, hs, reBytes ++ rsBytes ++ payload)
          | .ok rs =>
            let hs := { hs with rs := rs }
            let hs := { hs with ss := hs.ss.mixKey P (hs.e.dh P hs.rs).toList }
            match b.decryptAndHash P hs.ss payload with
            | (.err e, ss, payload) => (.err e, { hs with ss := ss }, reBytes ++ rsBytes ++ payload)
            | (.panic, ss, payload) => (.panic, { hs with ss := ss }, reBytes ++ rsBytes ++ payload)
            | (.ok (), ss, payload) =>
              (.ok (ss.h, ss.split P), { hs with ss := ss.clear }, reBytes ++ rsBytes ++ payload)

/-- `send_message`, noisesession.rs:146-166. -/
def sendMessage (rnd : Keypair) (s : NoiseSession) (in_out : Bytes) : NResult Unit × NoiseSession × Bytes :=
  if in_out.length < MAC_LENGTH ∨ in_out.length > MAX_MESSAGE then
    (.err .unsupportedMessageLengthError, s, in_out)
  else if s.mc = 0 then
    match s.hs.writeMessageA P rnd in_out with
    | (.ok (), hs, buf) => b.count { s with hs := hs } buf
    | (.err e, hs, buf) => (.err e, { s with hs := hs }, buf)
    | (.panic, hs, buf) => (.panic, { s with hs := hs }, buf)
  else if s.mc = 1 then
    match b.writeMessageB P rnd s.hs in_out with
    | (.ok temp, hs, buf) => b.count ({ s with hs := hs }.enterTransport temp) buf
    | (.err e, hs, buf) => (.err e, { s with hs := hs }, buf)
    | (.panic, hs, buf) => (.panic, { s with hs := hs }, buf)
  else if s.i then
    match b.writeMessageRegular P s.cs1 in_out with
    | (.ok (), cs, buf) => b.count { s with cs1 := cs } buf
    | (.err e, cs, buf) => (.err e, { s with cs1 := cs }, buf)
    | (.panic, cs, buf) => (.panic, { s with cs1 := cs }, buf)
  else
    match b.writeMessageRegular P s.cs2 in_out with
    | (.ok (), cs, buf) => b.count { s with cs2 := cs } buf
    | (.err e, cs, buf) => (.err e, { s with cs2 := cs }, buf)
    | (.panic, cs, buf) => (.panic, { s with cs2 := cs }, buf)

/-- `recv_message`, noisesession.rs:180-202. -/
def recvMessage (s : NoiseSession) (in_out : Bytes) : NResult Unit × NoiseSession × Bytes :=
  if in_out.length < MAC_LENGTH ∨ in_out.length > MAX_MESSAGE then
    (.err .unsupportedMessageLengthError, s, in_out)
  else if s.mc = 0 then
    match s.hs.readMessageA P in_out with
    | (.ok (), hs, buf) => b.count { s with hs := hs } buf
    | (.err e, hs, buf) => (.err e, { s with hs := hs }, buf)
    | (.panic, hs, buf) => (.panic, { s with hs := hs }, buf)
  else if s.mc = 1 then
    match b.readMessageB P s.hs in_out with
    | (.ok temp, hs, buf) => b.count ({ s with hs := hs }.enterTransport temp) buf
    | (.err e, hs, buf) => (.err e, { s with hs := hs }, buf)
    | (.panic, hs, buf) => (.panic, { s with hs := hs }, buf)
  else if s.i then
    match b.readMessageRegular P s.cs2 in_out with
    | (.ok (), cs, buf) => b.count { s with cs2 := cs } buf
    | (.err e, cs, buf) => (.err e, { s with cs2 := cs }, buf)
    | (.panic, cs, buf) => (.panic, { s with cs2 := cs }, buf)
  else
    match b.readMessageRegular P s.cs1 in_out with
    | (.ok (), cs, buf) => b.count { s with cs1 := cs } buf
    | (.err e, cs, buf) => (.err e, { s with cs1 := cs }, buf)
    | (.panic, cs, buf) => (.panic, { s with cs1 := cs }, buf)

end Build

end SV2.Noise
