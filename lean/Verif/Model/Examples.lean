import Verif.Model.Certificate
import Verif.Model.Messages
/-!
# `examples/setup_connection.rs` and `examples/noise_handshake.rs`

The two programs that show how the crate is meant to be used.  The sockets are not modelled: a handler gets the contents
of its 1024-byte buffer as an argument, and what it passes to `try_write` is part of its result.  A printed line is
represented by the value printed.
-/

namespace SV2.Examples

/-- `.unwrap()`. -/
def unwrap {ε α : Type} : Out ε α → Out Empty α
  | .ok a => .ok a
  | .err _ => .panic
  | .panic => .panic

/-- `socket.try_read(&mut buffer)`: what has arrived is copied to the start of the buffer, as far as there is room, and
the rest of the buffer is as it was. -/
def tryRead (buffer arrived : Bytes) : Bytes :=
  arrived.take buffer.length ++ buffer.drop (arrived.take buffer.length).length

/-- `[0u8; 1024]`. -/
def freshBuffer : Bytes := List.replicate 1024 0

/-! ## setup_connection.rs -/

namespace Setup

/-- `SetupConnectionSuccessFlags::REQUIRES_FIXED_VERSION`, setup_connection.rs:58. -/
def requiresFixedVersion : Flags miningSuccessFlags := ⟨(1 : UInt32) <<< 0, by decide⟩

/-- `Pool::handle_recv_bytes`, setup_connection.rs:84-114: the bytes written to the miner, if any. -/
def poolHandle (buffer : Bytes) : Out Empty (Option Bytes) := do
  let network_message ← unwrap (deserialize Message buffer)
  match network_message.message_type with
  | .setupConnection => do
    let setup_conn ← unwrap (unframe SetupConnection network_message)
    match setup_conn with
    | .mining v => do
      let conn_success ← unwrap (SetupConnectionSuccess.new v.min_version requiresFixedVersion)
      let network_message ← unwrap (frame conn_success)
      let buffer ← unwrap (serialize network_message)
      pure (some buffer)
    | _ => pure none
  | _ => pure none

/-- `Miner::send_message`, setup_connection.rs:150-155: the bytes written. -/
def minerSend {α : Type} [Frameable α] (msg : α) : Out Empty Bytes := do
  let network_message ← unwrap (frame msg)
  unwrap (serialize network_message)

/-- `Miner::handle_recv_bytes`, setup_connection.rs:157-169: the flags printed, if any. -/
def minerHandle (buffer : Bytes) : Out Empty (Option (Flags miningSuccessFlags)) := do
  let network_message ← unwrap (deserialize Message buffer)
  match network_message.message_type with
  | .setupConnectionSuccess => do
    let setup_conn_success ← unwrap (unframe (SetupConnectionSuccess miningSuccessFlags) network_message)
    pure (some setup_conn_success.flags)
  | _ => pure none

end Setup

/-! ## noise_handshake.rs -/

namespace Handshake
open Noise
variable (P : Prims) {E : SigScheme}

/-- `send_message`, noise_handshake.rs:113-116 and 185-188: the session afterwards and the bytes written. -/
def send (rnd : Keypair) (s : NoiseSession) (msg : Bytes) : Out Empty (NoiseSession × Bytes) :=
  match s.sendMessage P rnd msg with
  | (.ok (), s, b) => .ok (s, b)
  | _ => .panic

/-- `self.noise_session.recv_message(buffer).unwrap()`: the session and the buffer afterwards. -/
def recv (s : NoiseSession) (buffer : Bytes) : Out Empty (NoiseSession × Bytes) :=
  match s.recvMessage P buffer with
  | (.ok (), s, b) => .ok (s, b)
  | _ => .panic

/-- `Pool`, noise_handshake.rs:43-50. -/
structure Pool (E : SigScheme) where
  authority_keypair : E.KeyPair
  static_keypair : Keypair
  noise_session : NoiseSession

/-- `Pool::new`, noise_handshake.rs:53-62.  `static_secret` is what `StaticKeyPair::default()` draws. -/
def Pool.new (authority_keypair : E.KeyPair) (static_secret : Arr 32) : Pool E :=
  let static_keypair := Keypair.default P static_secret
  { authority_keypair, static_keypair
    noise_session := newNoiseResponder P static_keypair (some static_keypair) }

/-- `SystemTime::now() + Duration::from_secs(5)`. -/
def plusFive (t : SystemTime) : SystemTime := ⟨t.nanos + 5 * 1000000000⟩

/-- `buf[..msg.len()].copy_from_slice(&msg)` into `[0u8; 1024]`, noise_handshake.rs:105-106; the slice panics if there
is no room. -/
def intoBuffer (msg : Bytes) : Out Empty Bytes :=
  if msg.length ≤ 1024 then .ok (msg ++ List.replicate (1024 - msg.length) 0) else .panic

/-- `Pool::handle_recv_bytes`, noise_handshake.rs:86-110: the pool afterwards and the two messages written.  `rnd` is the
key pair that the session would generate, `now1` and `now2` what the clock says at the two calls. -/
def Pool.handle (rnd : Keypair) (now1 now2 : SystemTime) (p : Pool E) (buffer : Bytes) :
    Out Empty (Pool E × Bytes × Bytes) := do
  let (s, buffer) ← recv P p.noise_session buffer
  let (s, out1) ← send P rnd s buffer
  let valid_from ← unwrap (unixU32Now now1)
  let not_valid_after ← unwrap (systemUnixTimeToU32 (plusFive now2))
  let cert ← unwrap (SignedCertificate.new 0 valid_from not_valid_after p.static_keypair.public_key)
  let signature_noise_msg ← unwrap (SignatureNoiseMessage.fromAuthKey p.authority_keypair cert)
  let serialized_msg ← unwrap (serialize signature_noise_msg)
  let buf ← intoBuffer serialized_msg
  let (s, out2) ← send P rnd s buf
  pure ({ p with noise_session := s }, out1, out2)

/-- `Miner`, noise_handshake.rs:120-126. -/
structure Miner where
  authority_public_key : String
  noise_session : NoiseSession

/-- `Miner::new`, noise_handshake.rs:129-135.  `rnd` is what `Keypair::default()` makes. -/
def Miner.new (rnd : Keypair) (authority_public_key : String) : Miner :=
  { authority_public_key, noise_session := newNoiseInitiator P rnd }

/-- What `unwrap` on an `Option` gives. -/
def unwrapOption {α : Type} : Option α → Out Empty α
  | some a => .ok a
  | none => .panic

/-- `Miner::handle_recv_bytes`, noise_handshake.rs:160-182: the miner afterwards, its buffer, and the verdict printed, if
any.  `now` is what the clock says. -/
def Miner.handle (E : SigScheme) (now : SystemTime) (m : Miner) (buffer : Bytes) :
    Out Empty (Miner × Bytes × Option Bool) := do
  if m.noise_session.isTransport then
    let (s, buffer) ← recv P m.noise_session buffer
    let msg ← unwrap (deserialize (SignatureNoiseMessage E) buffer)
    let remote_static_key ← unwrapOption s.getRemoteStaticPublicKey
    let cf ← unwrap (CertificateFormat.new m.authority_public_key remote_static_key msg)
    pure ({ m with noise_session := s }, buffer, some (cf.verify now).isOk)
  else
    let (s, buffer) ← recv P m.noise_session buffer
    pure ({ m with noise_session := s }, buffer, none)

/-- `Miner::listen`, noise_handshake.rs:137-158, one connection after the other: `arrivals` are the clock and the bytes of
each; the buffer is never cleared.  The printed verdicts, in order; a panic ends the program. -/
def Miner.listen (E : SigScheme) (m : Miner) (buffer : Bytes) :
    List (SystemTime × Bytes) → List Bool × Out Empty Miner
  | [] => ([], .ok m)
  | (now, arrived) :: rest =>
    match m.handle P E now (tryRead buffer arrived) with
    | .ok (m, buffer, printed) =>
      let (verdicts, result) := Miner.listen E m buffer rest
      (printed.toList ++ verdicts, result)
    | _ => ([], .panic)

end Handshake

end SV2.Examples
