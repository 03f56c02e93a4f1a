import Verif.Model.Noise.State
/-!
# `nx-noise/src/noisesession.rs` and `stratumv2/src/noise/noise_session.rs`
-/

namespace SV2.Noise

/-- `NoiseSession`, noisesession.rs:36-44.  `mc` is a `u128`. -/
structure NoiseSession where
  hs : HandshakeState
  h : Arr 32
  cs1 : CipherState
  cs2 : CipherState
  mc : Nat
  i : Bool
  is_transport : Bool
  deriving Repr, DecidableEq

namespace NoiseSession

/-- `init_session`, noisesession.rs:114-136. -/
def initSession (P : Prims) (initiator : Bool) (prologue : Bytes) (s : Keypair) : NoiseSession :=
  { hs := HandshakeState.init P prologue s EMPTY
    mc := 0, i := initiator, cs1 := CipherState.new, cs2 := CipherState.new
    h := EMPTY, is_transport := false }

/-- `self.mc += 1; Ok(())`, noisesession.rs:164-165 and 200-201, with overflow checks on the `u128`. -/
def count (s : NoiseSession) (buf : Bytes) : NResult Unit × NoiseSession × Bytes :=
  if s.mc + 1 < 2 ^ 128 then (.ok (), { s with mc := s.mc + 1 }, buf) else (.panic, s, buf)

/-- The end of a handshake: noisesession.rs:154-158 and 189-193. -/
def enterTransport (s : NoiseSession) (out : HandshakeOutput) : NoiseSession :=
  { s with h := out.1, is_transport := true, cs1 := out.2.1, cs2 := out.2.2, hs := s.hs.clear }

/-- `send_message`, noisesession.rs:146-166.  `rnd` is the key pair that `Keypair::default()` would make if
it is called. -/
def sendMessage (P : Prims) (rnd : Keypair) (s : NoiseSession) (in_out : Bytes) :
    NResult Unit × NoiseSession × Bytes :=
  if in_out.length < MAC_LENGTH ∨ in_out.length > MAX_MESSAGE then
    (.err .unsupportedMessageLengthError, s, in_out)
  else if s.mc = 0 then
    match s.hs.writeMessageA P rnd in_out with
    | (.ok (), hs, buf) => { s with hs := hs }.count buf
    | (.err e, hs, buf) => (.err e, { s with hs := hs }, buf)
    | (.panic, hs, buf) => (.panic, { s with hs := hs }, buf)
  else if s.mc = 1 then
    match s.hs.writeMessageB P rnd in_out with
    | (.ok temp, hs, buf) => ({ s with hs := hs }.enterTransport temp).count buf
    | (.err e, hs, buf) => (.err e, { s with hs := hs }, buf)
    | (.panic, hs, buf) => (.panic, { s with hs := hs }, buf)
  else if s.i then
    match s.cs1.writeMessageRegular P in_out with
    | (.ok (), cs, buf) => { s with cs1 := cs }.count buf
    | (.err e, cs, buf) => (.err e, { s with cs1 := cs }, buf)
    | (.panic, cs, buf) => (.panic, { s with cs1 := cs }, buf)
  else
    match s.cs2.writeMessageRegular P in_out with
    | (.ok (), cs, buf) => { s with cs2 := cs }.count buf
    | (.err e, cs, buf) => (.err e, { s with cs2 := cs }, buf)
    | (.panic, cs, buf) => (.panic, { s with cs2 := cs }, buf)

/-- `recv_message`, noisesession.rs:180-202. -/
def recvMessage (P : Prims) (s : NoiseSession) (in_out : Bytes) :
    NResult Unit × NoiseSession × Bytes :=
  if in_out.length < MAC_LENGTH ∨ in_out.length > MAX_MESSAGE then
    (.err .unsupportedMessageLengthError, s, in_out)
  else if s.mc = 0 then
    match s.hs.readMessageA P in_out with
    | (.ok (), hs, buf) => { s with hs := hs }.count buf
    | (.err e, hs, buf) => (.err e, { s with hs := hs }, buf)
    | (.panic, hs, buf) => (.panic, { s with hs := hs }, buf)
  else if s.mc = 1 then
    match s.hs.readMessageB P in_out with
    | (.ok temp, hs, buf) => ({ s with hs := hs }.enterTransport temp).count buf
    | (.err e, hs, buf) => (.err e, { s with hs := hs }, buf)
    | (.panic, hs, buf) => (.panic, { s with hs := hs }, buf)
  else if s.i then
    match s.cs2.readMessageRegular P in_out with
    | (.ok (), cs, buf) => { s with cs2 := cs }.count buf
    | (.err e, cs, buf) => (.err e, { s with cs2 := cs }, buf)
    | (.panic, cs, buf) => (.panic, { s with cs2 := cs }, buf)
  else
    match s.cs1.readMessageRegular P in_out with
    | (.ok (), cs, buf) => { s with cs1 := cs }.count buf
    | (.err e, cs, buf) => (.err e, { s with cs1 := cs }, buf)
    | (.panic, cs, buf) => (.panic, { s with cs1 := cs }, buf)

/-- `is_transport`, noisesession.rs:47-49. -/
def isTransport (s : NoiseSession) : Bool := s.is_transport

/-- `clear_local_cipherstate`, noisesession.rs:52-54. -/
def clearLocal (s : NoiseSession) : NoiseSession := { s with cs1 := CipherState.new }

/-- `clear_remote_cipherstate`, noisesession.rs:57-59. -/
def clearRemote (s : NoiseSession) : NoiseSession := { s with cs2 := CipherState.new }

/-- `rekey_local_cipherstate`, noisesession.rs:62-64. -/
def rekeyLocal (P : Prims) (s : NoiseSession) : NoiseSession := { s with cs1 := s.cs1.rekey P }

/-- `rekey_remote_cipherstate`, noisesession.rs:67-69: it rekeys `cs1`, as written. -/
def rekeyRemote (P : Prims) (s : NoiseSession) : NoiseSession := { s with cs1 := s.cs1.rekey P }

/-- `get_handshake_hash`, noisesession.rs:82-87. -/
def getHandshakeHash (s : NoiseSession) : Option (Arr 32) := if s.is_transport then some s.h else none

/-- `get_message_count`, noisesession.rs:90-92. -/
def getMessageCount (s : NoiseSession) : Nat := s.mc

/-- `set_ephemeral_keypair`, noisesession.rs:95-97 and state.rs:278-280. -/
def setEphemeralKeypair (s : NoiseSession) (e : Keypair) : NoiseSession :=
  { s with hs := { s.hs with e := e } }

/-- `get_remote_static_public_key`, noisesession.rs:102-107 and state.rs:274-276. -/
def getRemoteStaticPublicKey (s : NoiseSession) : Option (Arr 32) :=
  if s.is_transport then some s.hs.rs else none

/-- `end_session`, noisesession.rs:72-79: what is left in memory when the session is dropped. -/
def endSession (s : NoiseSession) : NoiseSession :=
  { s with hs := s.hs.clear, cs1 := CipherState.new, cs2 := CipherState.new, mc := 0, h := EMPTY }

end NoiseSession

/-- `new_noise_responder`, stratumv2/src/noise/noise_session.rs:10-17.  `rnd` is what `Keypair::default()`
would make. -/
def newNoiseResponder (P : Prims) (rnd : Keypair) (static_keypair : Option Keypair) : NoiseSession :=
  let key := match static_keypair with
    | some k => k
    | none => rnd
  NoiseSession.initSession P false [] key

/-- `new_noise_initiator`, stratumv2/src/noise/noise_session.rs:20-22. -/
def newNoiseInitiator (P : Prims) (rnd : Keypair) : NoiseSession :=
  NoiseSession.initSession P true [] rnd

end SV2.Noise
