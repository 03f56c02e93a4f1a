import Verif.Model.Programs
/-!
# The example programs on a machine that they do not have to themselves

`Model/Programs.lean` has the two tasks of an example alone with their sockets.  Here the loopback interface is open to
others: at any time a stranger may connect to a listener, write to the connections that it has made, in pieces, and close
them.  The connections of the two tasks stay their own: nobody reads, changes or closes them.  Besides, any socket call
of a task may fail.  A `bind`, `connect` or `try_write` is unwrapped then; so a port that is taken, or a connection that
was reset because the listener is gone, is covered.  After a failed `accept` the task prints the error and returns, or
calls `accept` again; after a failed `try_read` it tries again.  A `try_write` that succeeds may write a part only: the
tasks do not look at the count.  A `connect` to a listener that is not bound yet, or whose task has ended, always fails.

The tasks are those of `Model/Programs.lean`, with the same calls (`Setup.poolNext` and so on).
-/

namespace SV2.Examples.Open

/-- A connection as its receiving end sees it: the bytes written so far, whether the writer has dropped it, and whether
the writer is the other task of the program. -/
structure Conn where
  sent : Bytes
  closed : Bool
  ours : Bool
deriving DecidableEq

/-- A task with its listener: as `Examples.Side`, and which connection to the other side it holds (its place among all
that were made to the other side), and whether it has returned because `accept` failed. -/
structure Side (σ : Type) where
  task : σ
  dead : Bool := false
  bound : Bool := false
  inbox : List Conn := []
  accepted : Nat := 0
  mine : Option Nat := none
  left : Bool := false

/-- Connection number `i` after its writer has written `bytes` and dropped it. -/
def finish (cs : List Conn) (i : Option Nat) (bytes : Bytes) : List Conn :=
  match i with
  | none => cs
  | some i => cs.modify i fun c => { c with sent := c.sent ++ bytes, closed := true }

/-- Whether a task has returned. -/
def returned {σ : Type} (next : σ → Req σ) (t : σ) : Bool :=
  match next t with
  | .stop => true
  | _ => false

/-- Whether a connection to `b` succeeds: its listener is bound and not dropped, as it is when the task ends. -/
def Side.listens {σ : Type} (next : σ → Req σ) (b : Side σ) : Bool := b.bound && !b.dead && !b.left && !returned next b.task

/-- How a socket call goes: as it should, or it fails, or a `try_write` accepts `k + 1` bytes at most. -/
inductive Fault where
  | none
  | fail
  | short (k : Nat)
deriving DecidableEq

/-- What a `try_write` accepts of `bytes` if it does not fail. -/
def Fault.part (bytes : Bytes) : Fault → Bytes
  | .short k => bytes.take (k + 1)
  | _ => bytes

/-- One turn of the task `a`, whose peer is `b`; a read gets at most `n + 1` bytes. -/
def turn {σ τ : Type} (nextA : σ → Req σ) (nextB : τ → Req τ) (n : Nat) (fault : Fault) (a : Side σ) (b : Side τ) :
    Side σ × Side τ :=
  if a.dead || a.left then (a, b)
  else
    match nextA a.task with
    | .bind k => if fault = .fail then ({ a with dead := true }, b) else ({ a with task := k, bound := true }, b)
    | .connect k =>
      if b.listens nextB ∧ fault ≠ .fail then
        ({ a with task := k, mine := some b.inbox.length }, { b with inbox := b.inbox ++ [⟨[], false, true⟩] })
      else ({ a with dead := true }, b)
    | .write bytes k =>
      if fault = .fail then ({ a with dead := true, mine := none }, { b with inbox := finish b.inbox a.mine [] })
      else ({ a with task := k, mine := none }, { b with inbox := finish b.inbox a.mine (fault.part bytes) })
    | .accept k again =>
      if fault = .fail then (if again then a else { a with left := true }, b)
      else if a.accepted < a.inbox.length then ({ a with task := k, accepted := a.accepted + 1 }, b) else (a, b)
    | .read k =>
      if fault = .fail then (a, b)
      else
        match a.inbox[a.accepted - 1]? with
        | none => (a, b)
        | some c =>
          if c.sent.isEmpty then
            if c.closed then ({ a with task := k [] }, b) else (a, b)
          else ({ a with task := k (c.sent.take (n + 1)) }, b)
    | .stop => (a, b)
    | .panic => ({ a with dead := true, mine := none }, { b with inbox := finish b.inbox a.mine [] })

/-- The process. -/
structure World (σ τ : Type) where
  pool : Side σ
  miner : Side τ

/-- What can happen next: a turn of a task, or something that a stranger does to the listener of one. -/
inductive Event where
  | turn (who : Role) (n : Nat) (fault : Fault)
  | connect (to : Role)
  | write (to : Role) (i : Nat) (bytes : Bytes)
  | close (to : Role) (i : Nat)

/-- Whether the process is over: `main` has returned or panicked, and the runtime drops the other task. -/
def World.ended {σ τ : Type} (nextM : τ → Req τ) (s : World σ τ) : Bool := s.miner.dead || s.miner.left || returned nextM s.miner.task

/-- What a stranger does to a listener. -/
def Side.stranger {σ : Type} (next : σ → Req σ) (a : Side σ) (f : List Conn → List Conn) : Side σ :=
  if a.listens next then { a with inbox := f a.inbox } else a

/-- A stranger connects. -/
def arrive (cs : List Conn) : List Conn := cs ++ [⟨[], false, false⟩]

/-- A stranger writes to a connection of its own that is open. -/
def inject (i : Nat) (bytes : Bytes) (cs : List Conn) : List Conn :=
  cs.modify i fun c => if c.ours || c.closed then c else { c with sent := c.sent ++ bytes }

/-- A stranger closes a connection of its own. -/
def hangUp (i : Nat) (cs : List Conn) : List Conn := cs.modify i fun c => if c.ours then c else { c with closed := true }

/-- The next event. -/
def World.step {σ τ : Type} (nextP : σ → Req σ) (nextM : τ → Req τ) (s : World σ τ) (e : Event) : World σ τ :=
  if s.ended nextM then s
  else
    match e with
    | .turn .pool n fault => let r := turn nextP nextM n fault s.pool s.miner; ⟨r.1, r.2⟩
    | .turn .miner n fault => let r := turn nextM nextP n fault s.miner s.pool; ⟨r.2, r.1⟩
    | .connect .pool => ⟨s.pool.stranger nextP arrive, s.miner⟩
    | .connect .miner => ⟨s.pool, s.miner.stranger nextM arrive⟩
    | .write .pool i bytes => ⟨s.pool.stranger nextP (inject i bytes), s.miner⟩
    | .write .miner i bytes => ⟨s.pool, s.miner.stranger nextM (inject i bytes)⟩
    | .close .pool i => ⟨s.pool.stranger nextP (hangUp i), s.miner⟩
    | .close .miner i => ⟨s.pool, s.miner.stranger nextM (hangUp i)⟩

/-- The events, one after the other. -/
def World.run {σ τ : Type} (nextP : σ → Req σ) (nextM : τ → Req τ) (s : World σ τ) (events : List Event) : World σ τ :=
  events.foldl (World.step nextP nextM) s

/-- `examples/setup_connection.rs` (16-41, 63-170) after these events. -/
def setup (setup_conn : SetupConnection) (events : List Event) : World Setup.PoolAt Setup.MinerAt :=
  World.run Setup.poolNext (Setup.minerNext setup_conn) ⟨{ task := .start }, { task := .start }⟩ events

/-- `examples/noise_handshake.rs` (19-40, 65-188) after these events; the other arguments as for
`Handshake.after`. -/
def handshake (P : Noise.Prims) {E : SigScheme} (rndP rndM : Noise.Keypair) (now1 now2 : SystemTime)
    (clock : Nat → SystemTime) (p : Handshake.Pool E) (m : Handshake.Miner) (events : List Event) :
    World Handshake.PoolAt Handshake.MinerAt :=
  World.run (Handshake.poolNext P rndP now1 now2 p) (Handshake.minerNext P E rndM clock m)
    ⟨{ task := .start }, { task := .start }⟩ events

end SV2.Examples.Open
