import Verif.Model.Noise.Session
/-!
# `stratumv2/src/network`

`new_channel_id` of `channel.rs`, `peer.rs` and `encryptor.rs`.  `config.rs` and the containers of `channel.rs` are in
`Model/Config.lean`; `message_handler.rs` only has traits.
-/

namespace SV2

/-! ## channel.rs -/

/-- `new_channel_id`, network/channel.rs:12-14.  `gen_range(0, ChanID::MAX)` of `rand` 0.7 returns a value of the
half-open range; which one is the argument. -/
def newChannelId (draw : Fin (UInt32.size - 1)) : UInt32 := UInt32.ofNat draw.val

/-! ## peer.rs

`Peer::pending_msg_buffer` is a public `Mutex<Vec<Message>>`, network/peer.rs:25.  Any number of threads share the
peer.  Between lock and unlock each access to the vector is a step of its own, so that the model shows what happens when
the lock is missing. -/

namespace Peer

/-- What a thread does with the buffer.  `M` is the type of messages. -/
inductive Call (M : Type) where
  /-- `peer.pending_msg_buffer.lock().unwrap().push(m)`, what a message handler does to answer. -/
  | push (m : M)
  /-- `peer.get_pending_msgs()`, network/peer.rs:42-46. -/
  | drain
  /-- A handler that panics while it holds the guard; this poisons the mutex. -/
  | crash
  deriving Repr, DecidableEq

/-- Where a thread is. -/
inductive Pc (M : Type) where
  /-- Between two calls. -/
  | ready
  /-- `lock()` has returned the guard. -/
  | locked (c : Call M)
  /-- The vector has been read. -/
  | loaded (c : Call M) (v : List M)
  /-- The vector has been replaced; the guard is still alive. -/
  | stored (c : Call M) (v : List M)
  /-- The thread has panicked. -/
  | dead
  deriving Repr, DecidableEq

structure Thread (M : Type) where
  /-- The calls still to be made. -/
  todo : List (Call M)
  pc : Pc M
  deriving Repr, DecidableEq

/-- A finished call: who, what, and what it returned (`none` if it panicked). -/
structure Event (M : Type) where
  thread : Nat
  call : Call M
  returned : Option (List M)
  deriving Repr, DecidableEq

structure Sys (M : Type) where
  threads : Nat → Thread M
  /-- The vector behind the mutex. -/
  buf : List M
  /-- The thread that holds the mutex. -/
  holder : Option Nat
  poisoned : Bool
  /-- The finished calls, in the order in which they released the mutex. -/
  events : List (Event M)

/-- `Peer::new`, network/peer.rs:32-38: the buffer is empty. -/
def Sys.start {M : Type} (programs : Nat → List (Call M)) : Sys M :=
  { threads := fun t => ⟨programs t, .ready⟩, buf := [], holder := none, poisoned := false, events := [] }

def Sys.set {M : Type} (s : Sys M) (t : Nat) (th : Thread M) : Sys M :=
  { s with threads := fun u => if u = t then th else s.threads u }

/-- What a call leaves in the vector, given what it has read: `push`, or `mem::swap` with an empty vector,
network/peer.rs:44. -/
def Call.leaves {M : Type} (v : List M) : Call M → List M
  | .push m => v ++ [m]
  | .drain => []
  | .crash => v

/-- What a call returns, given what it has read: `result` after the swap, network/peer.rs:45. -/
def Call.result {M : Type} (v : List M) : Call M → List M
  | .drain => v
  | _ => []

/-- One step of thread `t`; nothing happens if it waits for the mutex or has nothing to do.  `lock().unwrap()` panics
when the mutex is poisoned. -/
def Sys.step {M : Type} (s : Sys M) (t : Nat) : Sys M :=
  match (s.threads t).pc with
  | .ready =>
    match (s.threads t).todo with
    | [] => s
    | c :: rest =>
      if s.holder = none then
        if s.poisoned then
          { s.set t ⟨rest, .dead⟩ with events := s.events ++ [⟨t, c, none⟩] }
        else { s.set t ⟨rest, .locked c⟩ with holder := some t }
      else s
  | .locked .crash =>
    { s.set t ⟨(s.threads t).todo, .dead⟩ with
      holder := none, poisoned := true, events := s.events ++ [⟨t, .crash, none⟩] }
  | .locked c => s.set t ⟨(s.threads t).todo, .loaded c s.buf⟩
  | .loaded c v => { s.set t ⟨(s.threads t).todo, .stored c v⟩ with buf := c.leaves v }
  | .stored c v =>
    { s.set t ⟨(s.threads t).todo, .ready⟩ with
      holder := none, events := s.events ++ [⟨t, c, some (c.result v)⟩] }
  | .dead => s

/-- A schedule: which thread makes the next step. -/
def Sys.run {M : Type} (s : Sys M) (schedule : List Nat) : Sys M := schedule.foldl Sys.step s

end Peer

/-! ## encryptor.rs -/

open Noise in
/-- `ConnectionEncryptor`, network/encryptor.rs:20-22. -/
structure ConnectionEncryptor where
  noise_session : NoiseSession
  deriving Repr, DecidableEq

namespace ConnectionEncryptor
open Noise

/-- `new_inbound`, network/encryptor.rs:27-31. -/
def newInbound (P : Prims) (rnd : Keypair) (static_key : Option Keypair) : ConnectionEncryptor :=
  ⟨newNoiseResponder P rnd static_key⟩

/-- `new_outbound`, network/encryptor.rs:35-39. -/
def newOutbound (P : Prims) (rnd : Keypair) : ConnectionEncryptor := ⟨newNoiseInitiator P rnd⟩

/-- `get_remote_pubkey`, network/encryptor.rs:43-45. -/
def getRemotePubkey (c : ConnectionEncryptor) : Option (Arr 32) := c.noise_session.getRemoteStaticPublicKey

/-- `is_handshake_complete`, network/encryptor.rs:51-53. -/
def isHandshakeComplete (c : ConnectionEncryptor) : Bool := c.noise_session.isTransport

/-- `recv_handshake`, network/encryptor.rs:58-63.  The `?` wraps the error (error.rs:60-61). -/
def recvHandshake (P : Prims) (rnd : Keypair) (c : ConnectionEncryptor) (bytes : Bytes) :
    Result Bytes × ConnectionEncryptor × Bytes :=
  match c.noise_session.recvMessage P bytes with
  | (.err e, s, b) => (.err (.noiseError e), ⟨s⟩, b)
  | (.panic, s, b) => (.panic, ⟨s⟩, b)
  | (.ok (), s, b) =>
    match s.sendMessage P rnd b with
    | (.err e, s, b) => (.err (.noiseError e), ⟨s⟩, b)
    | (.panic, s, b) => (.panic, ⟨s⟩, b)
    | (.ok (), s, b) => (.ok b, ⟨s⟩, b)

/-- `init_handshake`, network/encryptor.rs:67-72. -/
def initHandshake (P : Prims) (rnd : Keypair) (c : ConnectionEncryptor) : Result Bytes × ConnectionEncryptor :=
  match c.noise_session.sendMessage P rnd (List.replicate 1024 0) with
  | (.err e, s, _) => (.err (.noiseError e), ⟨s⟩)
  | (.panic, s, _) => (.panic, ⟨s⟩)
  | (.ok (), s, b) => (.ok b, ⟨s⟩)

/-- `encrypt_message`, network/encryptor.rs:76-78. -/
def encryptMessage (_bytes : Bytes) : Bytes := []

/-- `decrypt_message`, network/encryptor.rs:82-84. -/
def decryptMessage (_bytes : Bytes) : Bytes := []

end ConnectionEncryptor

end SV2
