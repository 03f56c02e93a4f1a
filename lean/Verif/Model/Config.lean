import Verif.Model.Certificate
import Verif.Model.Messages
/-!
# `stratumv2/src/network/config.rs` and the containers of `stratumv2/src/network/channel.rs`
-/

namespace SV2
open Noise

/-- `NoiseConfig`, network/config.rs:7-24. -/
structure NoiseConfig (E : SigScheme) where
  sig_noise_msg : SignatureNoiseMessage E
  static_key : Keypair

/-- `NoiseConfig::new`, network/config.rs:26-33: nothing is checked. -/
def NoiseConfig.new {E : SigScheme} (sig_noise_msg : SignatureNoiseMessage E) (static_key : Keypair) : NoiseConfig E :=
  ⟨sig_noise_msg, static_key⟩

/-- `NetworkConfig`, network/config.rs:39-47. -/
structure NetworkConfig where
  listening_addr : String
  local_network_encryption : Bool
  deriving Repr, DecidableEq

/-- `NetworkConfig::new`, network/config.rs:49-56. -/
def NetworkConfig.new (listening_addr : String) (local_network_encryption : Bool) : NetworkConfig :=
  ⟨listening_addr, local_network_encryption⟩

/-- `ServerConfig`, network/config.rs:60-62. -/
structure ServerConfig where
  mining_flags : Flags miningSetupFlags

/-- `ServerConfig::new`, network/config.rs:64-68. -/
def ServerConfig.new (mining_flags : Flags miningSetupFlags) : ServerConfig := ⟨mining_flags⟩

/-- `Channel`, network/channel.rs:18-29. -/
inductive Channel where
  | standardMiningChannel (id : UInt32) (channel : OpenStandardMiningChannel)
  | extendedMiningChannel (id : UInt32) (channel : OpenExtendedMiningChannel)

/-- `HashMap<u32, V>` of the standard library: what `get` gives for each key.  How it is stored is not modelled. -/
abbrev HashMap (V : Type) := UInt32 → Option V

/-- `HashMap::new`. -/
def HashMap.new {V : Type} : HashMap V := fun _ => none

/-- `HashMap::insert`: the map afterwards and the value that was there before. -/
def HashMap.insert {V : Type} (m : HashMap V) (k : UInt32) (v : V) : HashMap V × Option V :=
  (fun x => if x = k then some v else m x, m k)

/-- `ChannelManager`, network/channel.rs:34-38: the map in the mutex. -/
structure ChannelManager where
  channels : HashMap (HashMap Channel)

/-- `ChannelManager::new`, network/channel.rs:40-46. -/
def ChannelManager.new : ChannelManager := ⟨HashMap.new⟩

end SV2
