import Verif.Model.Examples
/-!
# The example programs as a whole: two tasks, their sockets, and every interleaving

`examples/setup_connection.rs` and `examples/noise_handshake.rs` both run a pool and a miner as two tasks of one process.
The tasks share nothing but sockets on the loopback interface: each binds a listener once and connects to the other's
listener for every message it sends.

The sockets: `connect` succeeds exactly if the other side has bound its listener, and puts a connection into that
listener's queue; `accept` takes the connections out in the order in which they were made, and waits while there is none;
`try_write` takes all bytes it is given, and the stream is closed when the statement ends; `try_read` gives a non-empty
part of the start of what has been written, of a length that is an input of the model, nothing if the stream was closed
unwritten, and `WouldBlock` otherwise, in which case the loop tries again.  `bind` and `accept` do not fail.  Nobody
else connects.  A listener stays bound when its task ends: nobody connects to it after that.

A turn of a task is one of these calls and what the task computes until the next one.  Calls that wait are turns that
change nothing.
-/

namespace SV2.Examples

/-- The next call of a task with local states `σ`. -/
inductive Req (σ : Type) where
  /-- `TcpListener::bind(own address).await.unwrap()` -/
  | bind (next : σ)
  /-- `TcpStream::connect(other address).await.unwrap()` -/
  | connect (next : σ)
  /-- `stream.try_write(bytes).unwrap()` on the stream last connected, which is dropped then -/
  | write (bytes : Bytes) (next : σ)
  /-- `match listener.accept().await`; `again` says what the task does after an `Err`, which it prints: it calls `accept`
  again (noise_handshake.rs:141-157, a loop), or it returns (setup_connection.rs:67-81 and 132-147,
  noise_handshake.rs:69-83) -/
  | accept (next : σ) (again : Bool)
  /-- the loop around `socket.try_read(&mut buffer)` on the stream last accepted -/
  | read (next : Bytes → σ)
  /-- the task has returned -/
  | stop
  /-- the task panics -/
  | panic

/-- A connection as its receiving end sees it: the bytes written so far, and whether the writer has dropped it. -/
structure Conn where
  sent : Bytes
  closed : Bool
deriving DecidableEq

/-- A task with its listener: the local state, whether it has panicked, whether the listener is bound, the connections
made to it, and how many of them it has accepted. -/
structure Side (σ : Type) where
  task : σ
  dead : Bool := false
  bound : Bool := false
  inbox : List Conn := []
  accepted : Nat := 0

/-- The last connection after a write and a drop. -/
def finishLast : List Conn → Bytes → List Conn
  | [], _ => []
  | [c], bytes => [⟨c.sent ++ bytes, true⟩]
  | c :: cs, bytes => c :: finishLast cs bytes

/-- One turn of the task `a`, whose peer is `b`; a read gets at most `n + 1` bytes. -/
def turn {σ τ : Type} (next : σ → Req σ) (n : Nat) (a : Side σ) (b : Side τ) : Side σ × Side τ :=
  if a.dead then (a, b)
  else
    match next a.task with
    | .bind k => ({ a with task := k, bound := true }, b)
    | .connect k =>
      if b.bound then ({ a with task := k }, { b with inbox := b.inbox ++ [⟨[], false⟩] })
      else ({ a with dead := true }, b)
    | .write bytes k => ({ a with task := k }, { b with inbox := finishLast b.inbox bytes })
    | .accept k _ =>
      if a.accepted < a.inbox.length then ({ a with task := k, accepted := a.accepted + 1 }, b) else (a, b)
    | .read k =>
      match a.inbox[a.accepted - 1]? with
      | none => (a, b)
      | some c =>
        if c.sent.isEmpty then
          if c.closed then ({ a with task := k [] }, b) else (a, b)
        else ({ a with task := k (c.sent.take (n + 1)) }, b)
    | .stop => (a, b)
    | .panic => ({ a with dead := true }, { b with inbox := finishLast b.inbox [] })

/-- The two tasks: the pool is spawned (setup_connection.rs:16-19, noise_handshake.rs:26-28), the miner is `main`. -/
inductive Role where
  | pool
  | miner
deriving DecidableEq

/-- The process. -/
structure World (σ τ : Type) where
  pool : Side σ
  miner : Side τ

/-- Whether the process is over: `main` has returned or panicked, and the runtime drops the other task. -/
def World.ended {σ τ : Type} (nextM : τ → Req τ) (s : World σ τ) : Bool :=
  s.miner.dead || (match nextM s.miner.task with | .stop => true | _ => false)

/-- One turn of the named task. -/
def World.step {σ τ : Type} (nextP : σ → Req σ) (nextM : τ → Req τ) (s : World σ τ) (who : Role × Nat) : World σ τ :=
  if s.ended nextM then s
  else
    match who.1 with
    | .pool => let r := turn nextP who.2 s.pool s.miner; ⟨r.1, r.2⟩
    | .miner => let r := turn nextM who.2 s.miner s.pool; ⟨r.2, r.1⟩

/-- The turns of a schedule, one after the other. -/
def World.run {σ τ : Type} (nextP : σ → Req σ) (nextM : τ → Req τ) (s : World σ τ) (schedule : List (Role × Nat)) :
    World σ τ :=
  schedule.foldl (World.step nextP nextM) s

/-! ## setup_connection.rs -/

namespace Setup

/-- Where the pool is: `Pool::listen` and `Pool::handle_recv_bytes`, setup_connection.rs:63-114. -/
inductive PoolAt where
  | start
  | bound
  | reading
  | replying (reply : Bytes)
  | writing (reply : Bytes)
  | finished
  | panicking
deriving DecidableEq

/-- The calls of the pool, setup_connection.rs:63-114. -/
def poolNext : PoolAt → Req PoolAt
  | .start => .bind .bound
  | .bound => .accept .reading false
  | .reading => .read fun arrived =>
    match poolHandle (tryRead freshBuffer arrived) with
    | .ok (some reply) => .replying reply
    | .ok none => .finished
    | _ => .panicking
  | .replying reply => .connect (.writing reply)
  | .writing reply => .write reply .finished
  | .finished => .stop
  | .panicking => .panic

/-- Where the miner is: `main`, `Miner::send_message`, `Miner::listen` and `Miner::handle_recv_bytes`,
setup_connection.rs:35-41 and 128-170.  At the end, the flags it has printed, if any. -/
inductive MinerAt where
  | start
  | sending
  | sent
  | bound
  | reading
  | finished (printed : Option (Flags miningSuccessFlags))
  | panicking

/-- The calls of the miner with the message `setup_conn`, setup_connection.rs:35-41 and 128-170. -/
def minerNext (setup_conn : SetupConnection) : MinerAt → Req MinerAt
  | .start => .connect .sending
  | .sending =>
    match minerSend setup_conn with
    | .ok bytes => .write bytes .sent
    | _ => .panic
  | .sent => .bind .bound
  | .bound => .accept .reading false
  | .reading => .read fun arrived =>
    match minerHandle (tryRead freshBuffer arrived) with
    | .ok printed => .finished printed
    | _ => .panicking
  | .finished _ => .stop
  | .panicking => .panic

/-- The program before the first turn, with `setup_conn` built (setup_connection.rs:22-33). -/
def program : World PoolAt MinerAt := ⟨{ task := .start }, { task := .start }⟩

/-- The program after a schedule. -/
def after (setup_conn : SetupConnection) (schedule : List (Role × Nat)) : World PoolAt MinerAt :=
  World.run poolNext (minerNext setup_conn) program schedule

end Setup

/-! ## noise_handshake.rs -/

namespace Handshake
open Noise
variable (P : Prims) {E : SigScheme}

/-- Where the pool is: `Pool::listen`, `Pool::handle_recv_bytes` and `Pool::send_message`, noise_handshake.rs:65-116. -/
inductive PoolAt where
  | start
  | bound
  | reading
  | received (session : NoiseSession) (buffer : Bytes)
  | connected1 (session : NoiseSession) (buffer : Bytes)
  | sent1 (session : NoiseSession)
  | connected2 (session : NoiseSession) (buf : Bytes)
  | finished (session : NoiseSession)
  | panicking

/-- The buffer with the `SignatureNoiseMessage`, noise_handshake.rs:92-106. -/
def Pool.certify (now1 now2 : SystemTime) (p : Pool E) : Out Empty Bytes := do
  let valid_from ← unwrap (unixU32Now now1)
  let not_valid_after ← unwrap (systemUnixTimeToU32 (plusFive now2))
  let cert ← unwrap (SignedCertificate.new 0 valid_from not_valid_after p.static_keypair.public_key)
  let signature_noise_msg ← unwrap (SignatureNoiseMessage.fromAuthKey p.authority_keypair cert)
  let serialized_msg ← unwrap (serialize signature_noise_msg)
  intoBuffer serialized_msg

/-- The calls of the pool, noise_handshake.rs:65-116.  `rnd`, `now1`, `now2` as for `Pool.handle`. -/
def poolNext (rnd : Keypair) (now1 now2 : SystemTime) (p : Pool E) : PoolAt → Req PoolAt
  | .start => .bind .bound
  | .bound => .accept .reading false
  | .reading => .read fun arrived =>
    match recv P p.noise_session (tryRead freshBuffer arrived) with
    | .ok (session, buffer) => .received session buffer
    | _ => .panicking
  | .received session buffer => .connect (.connected1 session buffer)
  | .connected1 session buffer =>
    match send P rnd session buffer with
    | .ok (session, out) => .write out (.sent1 session)
    | _ => .panic
  | .sent1 session =>
    match p.certify now1 now2 with
    | .ok buf => .connect (.connected2 session buf)
    | _ => .panic
  | .connected2 session buf =>
    match send P rnd session buf with
    | .ok (session, out) => .write out (.finished session)
    | _ => .panic
  | .finished _ => .stop
  | .panicking => .panic

/-- Where the miner is: `main`, `Miner::send_message`, `Miner::listen` and `Miner::handle_recv_bytes`,
noise_handshake.rs:32-41 and 137-188.  In the loop of `listen`: the miner, its buffer, and the verdicts printed. -/
inductive MinerAt where
  | start
  | sending
  | sent (m : Miner)
  | listening (m : Miner) (buffer : Bytes) (printed : List Bool)
  | reading (m : Miner) (buffer : Bytes) (printed : List Bool)
  | panicking (printed : List Bool)

/-- `Miner::send_message` after its first line, noise_handshake.rs:185-188. -/
def Miner.written (m : Miner) : Out Empty (NoiseSession × Bytes) → Req MinerAt
  | .ok (session, out) => .write out (.sent { m with noise_session := session })
  | _ => .panic

/-- The calls of the miner, noise_handshake.rs:32-41 and 137-188.  `rnd` is the key pair that the session generates;
`clock n` is what the clock says when the miner has printed `n` verdicts.  The two seconds of sleep (line 30) are not
modelled: they order nothing. -/
def minerNext (E : SigScheme) (rnd : Keypair) (clock : Nat → SystemTime) (m : Miner) : MinerAt → Req MinerAt
  | .start => .connect .sending
  | .sending => m.written (send P rnd m.noise_session freshBuffer)
  | .sent m => .bind (.listening m freshBuffer [])
  | .listening m buffer printed => .accept (.reading m buffer printed) true
  | .reading m buffer printed => .read fun arrived =>
    match m.handle P E (clock printed.length) (tryRead buffer arrived) with
    | .ok (m, buffer, verdict) => .listening m buffer (printed ++ verdict.toList)
    | _ => .panicking printed
  | .panicking _ => .panic

/-- What the miner has printed. -/
def MinerAt.printed : MinerAt → List Bool
  | .listening _ _ printed => printed
  | .reading _ _ printed => printed
  | .panicking printed => printed
  | _ => []

/-- The program before the first turn. -/
def program : World PoolAt MinerAt := ⟨{ task := .start }, { task := .start }⟩

/-- The program after a schedule. -/
def after (rndP rndM : Keypair) (now1 now2 : SystemTime) (clock : Nat → SystemTime) (p : Pool E)
    (m : Miner) (schedule : List (Role × Nat)) : World PoolAt MinerAt :=
  World.run (poolNext P rndP now1 now2 p) (minerNext P E rndM clock m) program schedule

end Handshake

end SV2.Examples
