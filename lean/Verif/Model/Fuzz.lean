import Verif.Model.Messages
import Verif.Model.Certificate
import Verif.Model.Network
/-!
# The fuzz harnesses, `fuzz/src/bin`

Each `fuzz!` takes one input and runs its closure on it; the closures ignore what the library returns, so the only
outcome is a panic or none.  `honggfuzz` itself, which runs a harness again and again, is not modelled.
-/

namespace SV2.Fuzz
open Noise

/-- One `fuzz!` with the state it shares with nothing else; `true` if the closure panics. -/
abbrev Target := Bytes → Bool

def panics {α : Type} : Result α → Bool
  | .panic => true
  | _ => false

/-- `fuzz!(|data: &[u8]| { deserialize::<T>(&data); })`. -/
def decode (α : Type) [Deserializable α] : Target := fun data => panics (deserialize α data)

/-- `main` of a harness: how many targets it passes with these inputs, and whether it panics then. -/
def main : List Target → List Bytes → Nat × Bool
  | t :: ts, i :: is => if t i then (0, true) else ((main ts is).1 + 1, (main ts is).2)
  | _, _ => (0, false)

/-- fuzz/src/bin/mining_messages.rs:8-30. -/
def miningMessages : List Target :=
  [decode OpenStandardMiningChannel, decode OpenStandardMiningChannelSuccess, decode (OpenMiningChannelError .standard),
    decode OpenExtendedMiningChannel, decode OpenExtendedMiningChannelSuccess, decode UpdateChannel]

/-- fuzz/src/bin/network_frame.rs:4-8. -/
def networkFrame : List Target := [decode Message]

/-- fuzz/src/bin/setup_connection.rs:7-19. -/
def setupConnection : List Target :=
  [decode (SetupConnectionError miningSetupFlags), decode (SetupConnectionSuccess miningSuccessFlags), decode MiningSetupConnection]

/-- fuzz/src/bin/noise.rs:7-11. -/
def noise (E : SigScheme) : List Target := [decode (SignatureNoiseMessage E)]

/-- fuzz/src/bin/connection_encryptor.rs:4-14.  The key pairs are those the library generates. -/
def connectionEncryptor (P : Prims) (kR eR kI eI : Keypair) : List Target :=
  [fun data => panics ((ConnectionEncryptor.newInbound P kR none).recvHandshake P eR data).1,
    fun data => panics ((ConnectionEncryptor.newOutbound P kI).recvHandshake P eI data).1]

end SV2.Fuzz
