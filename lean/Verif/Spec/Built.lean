import Verif.Model.Messages
/-!
# Messages a user can obtain from the public constructors
-/

namespace SV2

/-- Some call of the type's constructor(s) returns `Ok(m)`. -/
class Constructors (α : Type) where
  Built : α → Prop

/-- Some call of the type's constructor(s) returns `Ok(m)`. -/
abbrev Built {α : Type} [Constructors α] (m : α) : Prop := Constructors.Built m

instance {all : UInt32} : Constructors (SetupConnectionMsg all) where
  Built m := ∃ minv maxv flags host port vendor hw fw dev,
    SetupConnectionMsg.new minv maxv flags host port vendor hw fw dev = .ok m

instance {all : UInt32} : Constructors (SetupConnectionSuccess all) where
  Built m := ∃ v flags, SetupConnectionSuccess.new v flags = .ok m

instance {all : UInt32} : Constructors (SetupConnectionError all) where
  Built m := ∃ flags code, SetupConnectionError.new flags code = .ok m

instance : Constructors SetupConnection where
  Built m :=
    (∃ minv maxv flags host port vendor hw fw dev,
      SetupConnection.newMining minv maxv flags host port vendor hw fw dev = .ok m) ∨
    (∃ minv maxv flags host port vendor hw fw dev,
      SetupConnection.newJobNegotiation minv maxv flags host port vendor hw fw dev = .ok m)

instance : Constructors ChannelEndpointChanged where
  Built m := ∃ id, ChannelEndpointChanged.new id = .ok m

instance : Constructors OpenStandardMiningChannel where
  Built m := ∃ id user rate target, OpenStandardMiningChannel.new id user rate target = .ok m

instance : Constructors OpenStandardMiningChannelSuccess where
  Built m := ∃ id chan target pre group,
    OpenStandardMiningChannelSuccess.new id chan target pre group = .ok m

instance : Constructors OpenExtendedMiningChannel where
  Built m := ∃ id user rate target size,
    OpenExtendedMiningChannel.new id user rate target size = .ok m

instance : Constructors OpenExtendedMiningChannelSuccess where
  Built m := ∃ id chan target size pre,
    OpenExtendedMiningChannelSuccess.new id chan target size pre = .ok m

instance {kind : ChannelKind} : Constructors (OpenMiningChannelError kind) where
  Built m := ∃ id code, OpenMiningChannelError.new id code = .ok m

instance : Constructors UpdateChannel where
  Built m := ∃ id rate target, UpdateChannel.new id rate target = .ok m

end SV2
