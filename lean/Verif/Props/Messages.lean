import Verif.Lemmas.Built
import Verif.Lemmas.Float
/-!
# C11-C15, C23-C29: the messages
-/

namespace SV2
open Law

/-! ## Concrete messages, to show that the hypotheses below can be met -/

/-- A mining connection with flags, all strings non-empty. -/
def sampleSetup : MiningSetupConnection :=
  { min_version := 2, max_version := 3, flags := ⟨5, by decide⟩,
    endpoint_host := ⟨7, "0.0.0.0"⟩, endpoint_port := 8545, vendor := ⟨7, "Bitmain"⟩,
    hardware_version := ⟨6, "S9i 13"⟩, firmware := ⟨9, "braiins-1"⟩, device_id := ⟨4, "ärg"⟩ }

theorem sampleSetup_built : SetupConnectionMsg.new (all := miningSetupFlags) 2 3 ⟨5, by decide⟩ "0.0.0.0"
    8545 "Bitmain" "S9i 13" "braiins-1" "ärg" = .ok sampleSetup := by decide

example : Built sampleSetup := ⟨_, _, _, _, _, _, _, _, _, sampleSetup_built⟩
example : Built (SetupConnection.mining sampleSetup) := (built_setupConnection _).mpr
  ((built_setupMsg sampleSetup).mp ⟨_, _, _, _, _, _, _, _, _, sampleSetup_built⟩)
example : Built (⟨⟨4, by decide⟩, .unsupportedFeatureFlags⟩ : SetupConnectionError miningSetupFlags) :=
  ⟨⟨4, by decide⟩, .unsupportedFeatureFlags, by decide⟩
example : Built (⟨⟨0, by decide⟩, .unsupportedProtocol⟩ : SetupConnectionError miningSetupFlags) :=
  ⟨⟨0, by decide⟩, .unsupportedProtocol, by decide⟩
example : Built (⟨7, ⟨5, "braii"⟩, ⟨0x41480000⟩, ⟨Arr.replicate 32 9⟩⟩ : OpenStandardMiningChannel) :=
  ⟨7, "braii", ⟨0x41480000⟩, ⟨Arr.replicate 32 9⟩, by decide⟩
example : Built (⟨7, 8, ⟨Arr.replicate 32 9⟩, ⟨3, [1, 2, 3]⟩, 9⟩ : OpenStandardMiningChannelSuccess) :=
  ⟨7, 8, ⟨Arr.replicate 32 9⟩, [1, 2, 3], 9, by decide⟩
example : Built (⟨7, ⟨5, "braii"⟩, ⟨0x41480000⟩, ⟨Arr.replicate 32 9⟩, 4⟩ : OpenExtendedMiningChannel) :=
  ⟨7, "braii", ⟨0x41480000⟩, ⟨Arr.replicate 32 9⟩, 4, by decide⟩
example : Built (⟨7, 8, ⟨Arr.replicate 32 9⟩, 4, ⟨3, [1, 2, 3]⟩⟩ : OpenExtendedMiningChannelSuccess) :=
  ⟨7, 8, ⟨Arr.replicate 32 9⟩, 4, [1, 2, 3], by decide⟩

/-! ## C11 -/

/-- Every message a constructor returns is written in its wire format and read back unchanged, whatever
surrounds it. -/
theorem C11_roundtrip :
    (∀ all (m : SetupConnectionMsg all), Built m → RoundTrips m (Wire.setupConnectionMsg m)) ∧
    (∀ all (m : SetupConnectionSuccess all), Built m → RoundTrips m (Wire.setupConnectionSuccess m)) ∧
    (∀ all (m : SetupConnectionError all), Built m → RoundTrips m (Wire.setupConnectionError m)) ∧
    (∀ m : SetupConnection, Built m → RoundTrips m (Wire.setupConnection m)) ∧
    (∀ m : ChannelEndpointChanged, Built m → RoundTrips m (Wire.channelEndpointChanged m)) ∧
    (∀ m : OpenStandardMiningChannel, Built m → RoundTrips m (Wire.openStandardMiningChannel m)) ∧
    (∀ m : OpenStandardMiningChannelSuccess, Built m →
      RoundTrips m (Wire.openStandardMiningChannelSuccess m)) ∧
    (∀ m : OpenExtendedMiningChannel, Built m → RoundTrips m (Wire.openExtendedMiningChannel m)) ∧
    (∀ m : OpenExtendedMiningChannelSuccess, Built m →
      RoundTrips m (Wire.openExtendedMiningChannelSuccess m)) ∧
    (∀ kind (m : OpenMiningChannelError kind), Built m →
      RoundTrips m (Wire.openMiningChannelError m)) ∧
    (∀ m : UpdateChannel, Built m → RoundTrips m (Wire.updateChannel m)) :=
  ⟨fun _ m h => lawful_setupMsg.roundTrips m ((built_setupMsg m).mp h),
    fun _ m _ => lawful_setupSuccess.roundTrips m trivial,
    fun _ m h => lawful_setupError.roundTrips m ((built_setupError m).mp h),
    fun m h => lawful_setupConnection.roundTrips m ((built_setupConnection m).mp h),
    fun m _ => lawful_channelEndpointChanged.roundTrips m trivial,
    fun m h => lawful_openStandard.roundTrips m ((built_openStandard m).mp h),
    fun m h => lawful_openStandardSuccess.roundTrips m ((built_openStandardSuccess m).mp h),
    fun m h => lawful_openExtended.roundTrips m ((built_openExtended m).mp h),
    fun m h => lawful_openExtendedSuccess.roundTrips m ((built_openExtendedSuccess m).mp h),
    fun _ m _ => lawful_openError.roundTrips m trivial,
    fun m _ => lawful_updateChannel.roundTrips m trivial⟩

/-! ## C12 -/

/-- What a decoder accepts starts with the serialization of the result. -/
theorem C12_canonical :
    (∀ all, Canonical (SetupConnectionMsg all)) ∧ (∀ all, Canonical (SetupConnectionSuccess all)) ∧
    (∀ all, Canonical (SetupConnectionError all)) ∧ Canonical SetupConnection ∧
    Canonical ChannelEndpointChanged ∧ Canonical OpenStandardMiningChannel ∧
    Canonical OpenStandardMiningChannelSuccess ∧ Canonical OpenExtendedMiningChannel ∧
    Canonical OpenExtendedMiningChannelSuccess ∧ (∀ kind, Canonical (OpenMiningChannelError kind)) ∧
    Canonical UpdateChannel :=
  ⟨fun _ => lawful_setupMsg.canonical, fun _ => lawful_setupSuccess.canonical,
    fun _ => lawful_setupError.canonical, lawful_setupConnection.canonical,
    lawful_channelEndpointChanged.canonical, lawful_openStandard.canonical,
    lawful_openStandardSuccess.canonical, lawful_openExtended.canonical,
    lawful_openExtendedSuccess.canonical, fun _ => lawful_openError.canonical,
    lawful_updateChannel.canonical⟩

/-- The same for a frame. -/
theorem C12_canonical_frame : Canonical Message := by
  intro bytes m hs hd
  obtain ⟨e, rest, h1, h2, rfl⟩ := message_inverts.deserialize hs hd
  refine ⟨_, rest, ?_, h1⟩
  unfold serialize
  rw [message_vec m h2]
  simp

/-- Everything a decoder accepts could have come out of the constructor. -/
theorem C12_accepted_is_built :
    (∀ all bytes (m : SetupConnectionMsg all), IsSlice bytes →
      deserialize _ bytes = .ok m → Built m) ∧
    (∀ all bytes (m : SetupConnectionError all), IsSlice bytes →
      deserialize _ bytes = .ok m → Built m) ∧
    (∀ bytes (m : SetupConnection), IsSlice bytes → deserialize _ bytes = .ok m → Built m) ∧
    (∀ bytes (m : OpenStandardMiningChannel), IsSlice bytes → deserialize _ bytes = .ok m → Built m) ∧
    (∀ bytes (m : OpenStandardMiningChannelSuccess), IsSlice bytes →
      deserialize _ bytes = .ok m → Built m) ∧
    (∀ bytes (m : OpenExtendedMiningChannel), IsSlice bytes → deserialize _ bytes = .ok m → Built m) ∧
    (∀ bytes (m : OpenExtendedMiningChannelSuccess), IsSlice bytes →
      deserialize _ bytes = .ok m → Built m) ∧
    (∀ all (m : SetupConnectionSuccess all), Built m) ∧ (∀ m : ChannelEndpointChanged, Built m) ∧
    (∀ kind (m : OpenMiningChannelError kind), Built m) ∧ (∀ m : UpdateChannel, Built m) :=
  ⟨fun _ _ m hs h => (built_setupMsg m).mpr (lawful_setupMsg.accepted hs h).1,
    fun _ _ m hs h => (built_setupError m).mpr (lawful_setupError.accepted hs h).1,
    fun _ m hs h => (built_setupConnection m).mpr (lawful_setupConnection.accepted hs h).1,
    fun _ m hs h => (built_openStandard m).mpr (lawful_openStandard.accepted hs h).1,
    fun _ m hs h => (built_openStandardSuccess m).mpr (lawful_openStandardSuccess.accepted hs h).1,
    fun _ m hs h => (built_openExtended m).mpr (lawful_openExtended.accepted hs h).1,
    fun _ m hs h => (built_openExtendedSuccess m).mpr (lawful_openExtendedSuccess.accepted hs h).1,
    fun _ _ => ⟨_, _, rfl⟩, fun _ => ⟨_, rfl⟩, fun _ _ => ⟨_, _, rfl⟩, fun _ => ⟨_, _, _, rfl⟩⟩

/-- Concrete: bytes that a decoder accepts, with one byte left over. -/
example : deserialize UpdateChannel ([1, 0, 0, 0, 0, 0, 128, 63] ++ List.replicate 33 7) =
    .ok ⟨1, ⟨0x3f800000⟩, ⟨Arr.replicate 32 7⟩⟩ := by decide

/-! ## C13 -/

/-- Every strict prefix of a message is refused with `ParseError`. -/
theorem C13_truncation :
    (∀ all (m : SetupConnectionMsg all), Built m → RejectsTruncated m) ∧
    (∀ all (m : SetupConnectionSuccess all), Built m → RejectsTruncated m) ∧
    (∀ all (m : SetupConnectionError all), Built m → RejectsTruncated m) ∧
    (∀ m : SetupConnection, Built m → RejectsTruncated m) ∧
    (∀ m : ChannelEndpointChanged, Built m → RejectsTruncated m) ∧
    (∀ m : OpenStandardMiningChannel, Built m → RejectsTruncated m) ∧
    (∀ m : OpenStandardMiningChannelSuccess, Built m → RejectsTruncated m) ∧
    (∀ m : OpenExtendedMiningChannel, Built m → RejectsTruncated m) ∧
    (∀ m : OpenExtendedMiningChannelSuccess, Built m → RejectsTruncated m) ∧
    (∀ kind (m : OpenMiningChannelError kind), Built m → RejectsTruncated m) ∧
    (∀ m : UpdateChannel, Built m → RejectsTruncated m) := by
  refine ⟨fun _ m h => ?_, fun _ m _ => ?_, fun _ m h => ?_, fun m h => ?_, fun m _ => ?_, fun m h => ?_,
    fun m h => ?_, fun m h => ?_, fun m h => ?_, fun _ m _ => ?_, fun m _ => ?_⟩
  · rw [built_setupMsg] at h
    exact lawful_setupMsg.rejectsTruncated m h (isSlice_of_le (size_setupMsg m h) (by decide))
  · exact lawful_setupSuccess.rejectsTruncated m trivial
      (isSlice_of_le (Nat.le_of_eq (size_setupSuccess m)) (by decide))
  · rw [built_setupError] at h
    exact lawful_setupError.rejectsTruncated m h (isSlice_of_le (size_setupError m) (by decide))
  · rw [built_setupConnection] at h
    exact lawful_setupConnection.rejectsTruncated m h
      (isSlice_of_le (size_setupConnection m h) (by decide))
  · exact lawful_channelEndpointChanged.rejectsTruncated m trivial
      (isSlice_of_le (Nat.le_of_eq (size_channelEndpointChanged m)) (by decide))
  · rw [built_openStandard] at h
    exact lawful_openStandard.rejectsTruncated m h (isSlice_of_le (size_openStandard m h) (by decide))
  · rw [built_openStandardSuccess] at h
    exact lawful_openStandardSuccess.rejectsTruncated m h
      (isSlice_of_le (size_openStandardSuccess m h) (by decide))
  · rw [built_openExtended] at h
    exact lawful_openExtended.rejectsTruncated m h (isSlice_of_le (size_openExtended m h) (by decide))
  · rw [built_openExtendedSuccess] at h
    exact lawful_openExtendedSuccess.rejectsTruncated m h
      (isSlice_of_le (size_openExtendedSuccess m h) (by decide))
  · exact lawful_openError.rejectsTruncated m trivial (isSlice_of_le (size_openError m) (by decide))
  · exact lawful_updateChannel.rejectsTruncated m trivial
      (isSlice_of_le (Nat.le_of_eq (size_updateChannel m)) (by decide))

/-- The same for a frame. -/
theorem C13_truncation_frame (m : Message) (h : m.payload.length < 2 ^ 24) : RejectsTruncated m := by
  refine ⟨Wire.frame m, ?_, fun cut missing hm hc => ⟨_, (message_rejects m h).deserialize ?_ cut
    missing hm hc⟩⟩
  · unfold serialize
    rw [message_vec m h]
    simp
  · unfold IsSlice
    rw [wire_frame_length]
    omega

/-! ## C14 -/

/-- Writing to a `Vec` appends exactly the number of bytes that is returned. -/
theorem C14_count :
    (∀ all (m : SetupConnectionMsg all), Built m → CountsBytes m) ∧
    (∀ all (m : SetupConnectionSuccess all), Built m → CountsBytes m) ∧
    (∀ all (m : SetupConnectionError all), Built m → CountsBytes m) ∧
    (∀ m : SetupConnection, Built m → CountsBytes m) ∧
    (∀ m : ChannelEndpointChanged, Built m → CountsBytes m) ∧
    (∀ m : OpenStandardMiningChannel, Built m → CountsBytes m) ∧
    (∀ m : OpenStandardMiningChannelSuccess, Built m → CountsBytes m) ∧
    (∀ m : OpenExtendedMiningChannel, Built m → CountsBytes m) ∧
    (∀ m : OpenExtendedMiningChannelSuccess, Built m → CountsBytes m) ∧
    (∀ kind (m : OpenMiningChannelError kind), Built m → CountsBytes m) ∧
    (∀ m : UpdateChannel, Built m → CountsBytes m) ∧
    (∀ m : Message, m.payload.length < 2 ^ 24 → CountsBytes m) := by
  refine ⟨fun _ m h => lawful_setupMsg.countsBytes m ((built_setupMsg m).mp h),
    fun _ m _ => lawful_setupSuccess.countsBytes m trivial,
    fun _ m h => lawful_setupError.countsBytes m ((built_setupError m).mp h),
    fun m h => lawful_setupConnection.countsBytes m ((built_setupConnection m).mp h),
    fun m _ => lawful_channelEndpointChanged.countsBytes m trivial,
    fun m h => lawful_openStandard.countsBytes m ((built_openStandard m).mp h),
    fun m h => lawful_openStandardSuccess.countsBytes m ((built_openStandardSuccess m).mp h),
    fun m h => lawful_openExtended.countsBytes m ((built_openExtended m).mp h),
    fun m h => lawful_openExtendedSuccess.countsBytes m ((built_openExtendedSuccess m).mp h),
    fun _ m _ => lawful_openError.countsBytes m trivial,
    fun m _ => lawful_updateChannel.countsBytes m trivial, fun m h => ⟨Wire.frame m, ?_, message_vec m h⟩⟩
  unfold serialize
  rw [message_vec m h]
  simp

/-! ## C15 -/

/-- Into a slice with too little room every message is cut off, yet the call returns `Ok` with the full
size; with enough room everything arrives. -/
theorem C15_short_writes_ignored :
    (∀ all (m : SetupConnectionMsg all), Built m → IgnoresShortWrites m) ∧
    (∀ all (m : SetupConnectionSuccess all), Built m → IgnoresShortWrites m) ∧
    (∀ all (m : SetupConnectionError all), Built m → IgnoresShortWrites m) ∧
    (∀ m : SetupConnection, Built m → IgnoresShortWrites m) ∧
    (∀ m : ChannelEndpointChanged, Built m → IgnoresShortWrites m) ∧
    (∀ m : OpenStandardMiningChannel, Built m → IgnoresShortWrites m) ∧
    (∀ m : OpenStandardMiningChannelSuccess, Built m → IgnoresShortWrites m) ∧
    (∀ m : OpenExtendedMiningChannel, Built m → IgnoresShortWrites m) ∧
    (∀ m : OpenExtendedMiningChannelSuccess, Built m → IgnoresShortWrites m) ∧
    (∀ kind (m : OpenMiningChannelError kind), Built m → IgnoresShortWrites m) ∧
    (∀ m : UpdateChannel, Built m → IgnoresShortWrites m) :=
  ⟨fun _ m h => lawful_setupMsg.ignoresShortWrites m ((built_setupMsg m).mp h),
    fun _ m _ => lawful_setupSuccess.ignoresShortWrites m trivial,
    fun _ m h => lawful_setupError.ignoresShortWrites m ((built_setupError m).mp h),
    fun m h => lawful_setupConnection.ignoresShortWrites m ((built_setupConnection m).mp h),
    fun m _ => lawful_channelEndpointChanged.ignoresShortWrites m trivial,
    fun m h => lawful_openStandard.ignoresShortWrites m ((built_openStandard m).mp h),
    fun m h => lawful_openStandardSuccess.ignoresShortWrites m ((built_openStandardSuccess m).mp h),
    fun m h => lawful_openExtended.ignoresShortWrites m ((built_openExtended m).mp h),
    fun m h => lawful_openExtendedSuccess.ignoresShortWrites m ((built_openExtendedSuccess m).mp h),
    fun _ m _ => lawful_openError.ignoresShortWrites m trivial,
    fun m _ => lawful_updateChannel.ignoresShortWrites m trivial⟩

/-- The same defect for any writer: if a message's serialize returns `Ok(n)`, `n` is the size of the whole
message, however many bytes the writer took. -/
theorem C15_count_independent_of_writer :
    (∀ all (m : SetupConnectionMsg all), Built m → CountIsFixed m) ∧
    (∀ all (m : SetupConnectionSuccess all), Built m → CountIsFixed m) ∧
    (∀ all (m : SetupConnectionError all), Built m → CountIsFixed m) ∧
    (∀ m : SetupConnection, Built m → CountIsFixed m) ∧
    (∀ m : ChannelEndpointChanged, Built m → CountIsFixed m) ∧
    (∀ m : OpenStandardMiningChannel, Built m → CountIsFixed m) ∧
    (∀ m : OpenStandardMiningChannelSuccess, Built m → CountIsFixed m) ∧
    (∀ m : OpenExtendedMiningChannel, Built m → CountIsFixed m) ∧
    (∀ m : OpenExtendedMiningChannelSuccess, Built m → CountIsFixed m) ∧
    (∀ kind (m : OpenMiningChannelError kind), Built m → CountIsFixed m) ∧
    (∀ m : UpdateChannel, Built m → CountIsFixed m) :=
  ⟨fun _ m h => lawful_setupMsg.countIsFixed m ((built_setupMsg m).mp h),
    fun _ m _ => lawful_setupSuccess.countIsFixed m trivial,
    fun _ m h => lawful_setupError.countIsFixed m ((built_setupError m).mp h),
    fun m h => lawful_setupConnection.countIsFixed m ((built_setupConnection m).mp h),
    fun m _ => lawful_channelEndpointChanged.countIsFixed m trivial,
    fun m h => lawful_openStandard.countIsFixed m ((built_openStandard m).mp h),
    fun m h => lawful_openStandardSuccess.countIsFixed m ((built_openStandardSuccess m).mp h),
    fun m h => lawful_openExtended.countIsFixed m ((built_openExtended m).mp h),
    fun m h => lawful_openExtendedSuccess.countIsFixed m ((built_openExtendedSuccess m).mp h),
    fun _ m _ => lawful_openError.countIsFixed m trivial,
    fun m _ => lawful_updateChannel.countIsFixed m trivial⟩

/-- A frame counts the six header bytes even if they did not fit, and the payload bytes that did. -/
theorem C15_frame_slice (m : Message) (h : m.payload.length < 2 ^ 24) (out : Bytes) (room : Nat) :
    Serializable.ser sliceWriter m (out, room) =
      (.ok (6 + min m.payload.length (room - 6)),
        (out ++ (Wire.frame m).take room, room - (6 + m.payload.length))) := by
  rw [message_slice m h, wire_frame_length]

/-- Concrete: a message of 4 bytes into a slice of 1 byte. -/
example : Serializable.ser sliceWriter (⟨0x01020304⟩ : ChannelEndpointChanged) ([], 1) =
    (.ok 4, ([4], 0)) := rfl

/-! ## C23 -/

/-- The constructor succeeds exactly on valid arguments, and returns them unchanged. -/
theorem C23_new_iff {all : UInt32} (minv maxv : UInt16) (flags : Flags all) (host : String)
    (port : UInt16) (vendor hw fw dev : String) :
    (∃ m, SetupConnectionMsg.new minv maxv flags host port vendor hw fw dev = .ok m) ↔
      (vendor ≠ "" ∧ fw ≠ "" ∧ 2 ≤ minv.toNat ∧ 2 ≤ maxv.toNat ∧
        host.utf8ByteSize ≤ 255 ∧ vendor.utf8ByteSize ≤ 255 ∧ hw.utf8ByteSize ≤ 255 ∧
        fw.utf8ByteSize ≤ 255 ∧ dev.utf8ByteSize ≤ 255) := by
  constructor
  · rintro ⟨m, h⟩
    obtain ⟨rfl, rfl, rfl, rfl, rfl, rfl, rfl, rfl, rfl, ok⟩ := setup_new_iff.mp h
    exact ⟨ok.vendorNe, ok.firmwareNe, ok.min, ok.max, ok.host.1, ok.vendor.1, ok.hw.1, ok.fw.1,
      ok.dev.1⟩
  · rintro ⟨h1, h2, h3, h4, h5, h6, h7, h8, h9⟩
    have sok : ∀ s : String, s.utf8ByteSize ≤ 255 →
        Wire.StrOK (⟨UInt8.ofNat s.utf8ByteSize, s⟩ : STR0_255) := fun s hs =>
      ⟨hs, UInt8.toNat_ofNat_of_lt' (by simp only [UInt8.size]; omega)⟩
    exact ⟨⟨minv, maxv, flags, ⟨_, host⟩, port, ⟨_, vendor⟩, ⟨_, hw⟩, ⟨_, fw⟩, ⟨_, dev⟩⟩,
      setup_new_iff.mpr ⟨rfl, rfl, rfl, rfl, rfl, rfl, rfl, rfl, rfl, h3, h4, h1, h2, sok host h5,
        sok vendor h6, sok hw h7, sok fw h8, sok dev h9⟩⟩

/-- The returned message holds the arguments. -/
theorem C23_new_fields {all : UInt32} {minv maxv : UInt16} {flags : Flags all} {host : String}
    {port : UInt16} {vendor hw fw dev : String} {m : SetupConnectionMsg all}
    (h : SetupConnectionMsg.new minv maxv flags host port vendor hw fw dev = .ok m) :
    m.min_version = minv ∧ m.max_version = maxv ∧ m.flags = flags ∧ m.endpoint_host.data = host ∧
    m.endpoint_port = port ∧ m.vendor.data = vendor ∧ m.hardware_version.data = hw ∧
    m.firmware.data = fw ∧ m.device_id.data = dev := by
  obtain ⟨h1, h2, h3, h4, h5, h6, h7, h8, h9, _⟩ := setup_new_iff.mp h
  exact ⟨h1, h2, h3, h4, h5, h6, h7, h8, h9⟩

/-- The two constructors of the enum accept exactly the same arguments, and return the variant of their protocol holding
the arguments. -/
theorem C23_enum (minv maxv : UInt16) (mf : Flags miningSetupFlags) (jf : Flags jobNegotiationSetupFlags)
    (host : String) (port : UInt16) (vendor hw fw dev : String) :
    let ok := vendor ≠ "" ∧ fw ≠ "" ∧ 2 ≤ minv.toNat ∧ 2 ≤ maxv.toNat ∧
        host.utf8ByteSize ≤ 255 ∧ vendor.utf8ByteSize ≤ 255 ∧ hw.utf8ByteSize ≤ 255 ∧
        fw.utf8ByteSize ≤ 255 ∧ dev.utf8ByteSize ≤ 255
    ((∃ m, SetupConnection.newMining minv maxv mf host port vendor hw fw dev = .ok m) ↔ ok) ∧
    ((∃ m, SetupConnection.newJobNegotiation minv maxv jf host port vendor hw fw dev = .ok m) ↔ ok) ∧
    (∀ r, SetupConnection.newMining minv maxv mf host port vendor hw fw dev = .ok r → ∃ m, r = .mining m ∧
      m.min_version = minv ∧ m.max_version = maxv ∧ m.flags = mf ∧ m.endpoint_host.data = host ∧
      m.endpoint_port = port ∧ m.vendor.data = vendor ∧ m.hardware_version.data = hw ∧
      m.firmware.data = fw ∧ m.device_id.data = dev) ∧
    (∀ r, SetupConnection.newJobNegotiation minv maxv jf host port vendor hw fw dev = .ok r → ∃ m, r = .jobNegotiation m ∧
      m.min_version = minv ∧ m.max_version = maxv ∧ m.flags = jf ∧ m.endpoint_host.data = host ∧
      m.endpoint_port = port ∧ m.vendor.data = vendor ∧ m.hardware_version.data = hw ∧
      m.firmware.data = fw ∧ m.device_id.data = dev) := by
  intro ok
  have km := C23_new_iff minv maxv mf host port vendor hw fw dev
  have kj := C23_new_iff minv maxv jf host port vendor hw fw dev
  have fm := @C23_new_fields _ minv maxv mf host port vendor hw fw dev
  have fj := @C23_new_fields _ minv maxv jf host port vendor hw fw dev
  unfold SetupConnection.newMining SetupConnection.newJobNegotiation
  refine ⟨?_, ?_, ?_, ?_⟩
  · refine Iff.trans ?_ km; cases SetupConnectionMsg.new minv maxv mf host port vendor hw fw dev <;> simp [bind, Out.bind, pure]
  · refine Iff.trans ?_ kj; cases SetupConnectionMsg.new minv maxv jf host port vendor hw fw dev <;> simp [bind, Out.bind, pure]
  · cases h : SetupConnectionMsg.new minv maxv mf host port vendor hw fw dev <;> simp [bind, Out.bind, pure]
    exact fm h
  · cases h : SetupConnectionMsg.new minv maxv jf host port vendor hw fw dev <;> simp [bind, Out.bind, pure]
    exact fj h

/-- The first violated rule, in the order vendor, firmware, min_version, max_version, string sizes,
decides the error: the first two and the last are `RequirementError`, the versions `VersionError`. -/
theorem C23_new_errors {all : UInt32} (minv maxv : UInt16) (flags : Flags all) (host : String)
    (port : UInt16) (vendor hw fw dev : String) :
    let r := SetupConnectionMsg.new minv maxv flags host port vendor hw fw dev
    (vendor = "" → r = .err (.requirementError "vendor field in SetupConnection MUST NOT be empty")) ∧
    (vendor ≠ "" → fw = "" →
      r = .err (.requirementError "firmware field in SetupConnection MUST NOT be empty")) ∧
    (vendor ≠ "" → fw ≠ "" → minv.toNat < 2 → r = .err (.versionError "min_version must be atleast 2")) ∧
    (vendor ≠ "" → fw ≠ "" → 2 ≤ minv.toNat → maxv.toNat < 2 →
      r = .err (.versionError "max_version must be atleast 2")) ∧
    (vendor ≠ "" → fw ≠ "" → 2 ≤ minv.toNat → 2 ≤ maxv.toNat →
      (255 < host.utf8ByteSize ∨ 255 < vendor.utf8ByteSize ∨ 255 < hw.utf8ByteSize ∨
        255 < fw.utf8ByteSize ∨ 255 < dev.utf8ByteSize) →
      ∃ msg, r = .err (.requirementError msg)) := by
  have lt_iff : ∀ v : UInt16, v < 2 ↔ v.toNat < 2 := fun v => UInt16.lt_iff_toNat_lt
  refine ⟨?_, ?_, ?_, ?_, ?_⟩
  · intro h1
    simp only [SetupConnectionMsg.new, empty_iff]
    rw [if_pos h1]
  · intro h1 h2
    simp only [SetupConnectionMsg.new, empty_iff]
    rw [if_neg h1, if_pos h2]
  · intro h1 h2 h3
    simp only [SetupConnectionMsg.new, empty_iff, lt_iff]
    rw [if_neg h1, if_neg h2, if_pos h3]
  · intro h1 h2 h3 h4
    simp only [SetupConnectionMsg.new, empty_iff, lt_iff]
    rw [if_neg h1, if_neg h2, if_neg (by omega), if_pos h4]
  · intro h1 h2 h3 h4 h5
    simp only [SetupConnectionMsg.new, empty_iff, lt_iff]
    rw [if_neg h1, if_neg h2, if_neg (by omega), if_neg (by omega)]
    have step : ∀ (s : String) (f : STR0_255 → Result (SetupConnectionMsg all)),
        (255 < s.utf8ByteSize ∨ (s.utf8ByteSize ≤ 255 ∧ ∀ x, ∃ msg, f x = .err (.requirementError msg))) →
        ∃ msg, (Str0.new s >>= f) = .err (.requirementError msg) := by
      intro s f h
      rcases h with h | ⟨h, hf⟩
      · exact ⟨_, by rw [Str0.new_err h]; rfl⟩
      · rw [Str0.new_ok h]; exact hf _
    have last : ∀ (s : String) (f : STR0_255 → Result (SetupConnectionMsg all)),
        255 < s.utf8ByteSize → ∃ msg, (Str0.new s >>= f) = .err (.requirementError msg) :=
      fun s f h => step s f (Or.inl h)
    by_cases c1 : 255 < host.utf8ByteSize
    · exact last _ _ c1
    refine step _ _ (Or.inr ⟨by omega, fun _ => ?_⟩)
    by_cases c2 : 255 < vendor.utf8ByteSize
    · exact last _ _ c2
    refine step _ _ (Or.inr ⟨by omega, fun _ => ?_⟩)
    by_cases c3 : 255 < hw.utf8ByteSize
    · exact last _ _ c3
    refine step _ _ (Or.inr ⟨by omega, fun _ => ?_⟩)
    by_cases c4 : 255 < fw.utf8ByteSize
    · exact last _ _ c4
    refine step _ _ (Or.inr ⟨by omega, fun _ => ?_⟩)
    exact last _ _ (by omega)

example : SetupConnectionMsg.new (all := miningSetupFlags) 0 0 ⟨0, by decide⟩ "" 0 "Bitmain" "" "fw" "" =
    .err (.versionError "min_version must be atleast 2") := by decide

/-! ## C24 -/

/-- Everything accepted from the wire satisfies the rules of the constructor. -/
theorem C24_accepted_valid {all : UInt32} (bytes : Bytes) (m : SetupConnectionMsg all)
    (hs : IsSlice bytes) (h : deserialize (SetupConnectionMsg all) bytes = .ok m) :
    2 ≤ m.min_version.toNat ∧ 2 ≤ m.max_version.toNat ∧ m.vendor.data ≠ "" ∧ m.firmware.data ≠ "" ∧
    m.endpoint_host.data.utf8ByteSize ≤ 255 ∧ m.vendor.data.utf8ByteSize ≤ 255 ∧
    m.hardware_version.data.utf8ByteSize ≤ 255 ∧ m.firmware.data.utf8ByteSize ≤ 255 ∧
    m.device_id.data.utf8ByteSize ≤ 255 ∧ m.flags.bits &&& ~~~all = 0 := by
  have ok := (lawful_setupMsg.accepted hs h).1
  exact ⟨ok.min, ok.max, ok.vendorNe, ok.firmwareNe, ok.host.1, ok.vendor.1, ok.hw.1, ok.fw.1,
    ok.dev.1, m.flags.known⟩

/-- Not among the guarantees: a version range that is empty is constructed and accepted. -/
theorem C24_empty_version_range_accepted :
    ∃ m : MiningSetupConnection, m.max_version < m.min_version ∧ Built m ∧
      ∃ bytes, deserialize MiningSetupConnection bytes = .ok m := by
  let m : MiningSetupConnection := { sampleSetup with min_version := 9, max_version := 2 }
  have hb : Built m := ⟨9, 2, ⟨5, by decide⟩, "0.0.0.0", 8545, "Bitmain", "S9i 13", "braiins-1", "ärg",
    by decide⟩
  refine ⟨m, by decide, hb, Wire.setupConnectionMsg m, ?_⟩
  have := (C11_roundtrip.1 _ m hb).2.1 []
    (by rw [List.append_nil]; exact isSlice_of_le (size_setupMsg m ((built_setupMsg m).mp hb)) (by decide))
  rwa [List.append_nil] at this

/-- Concrete: the sample's bytes are accepted. -/
example : deserialize MiningSetupConnection (Wire.setupConnectionMsg sampleSetup ++ []) =
    .ok sampleSetup := by
  have hb : Built sampleSetup := ⟨_, _, _, _, _, _, _, _, _, sampleSetup_built⟩
  exact (C11_roundtrip.1 _ sampleSetup hb).2.1 [] (by rw [List.append_nil]; exact isSlice_of_le (size_setupMsg _ ((built_setupMsg _).mp hb)) (by decide))

/-! ## C25 -/

/-- Byte 0 and byte 1 select the two sub-protocols, and the rest is read by that sub-protocol. -/
theorem C25_dispatch (p : UInt8) (rest : Bytes) (hs : IsSlice (p :: rest)) (m : SetupConnection) :
    deserialize SetupConnection (p :: rest) = .ok m ↔
      (p = 0 ∧ ∃ v, m = .mining v ∧ deserialize MiningSetupConnection rest = .ok v) ∨
      (p = 1 ∧ ∃ v, m = .jobNegotiation v ∧ deserialize JobNegotiationSetupConnection rest = .ok v) := by
  have hs' : IsSlice rest := by unfold IsSlice at *; simp at hs; omega
  constructor
  · intro h
    obtain ⟨ok, after, he⟩ := lawful_setupConnection.accepted hs h
    cases m with
    | mining v =>
      simp only [Wire.setupConnection, List.cons_append, List.cons.injEq] at he
      refine Or.inl ⟨he.1, v, rfl, ?_⟩
      rw [he.2] at hs' ⊢
      exact (lawful_setupMsg.reads v ok).deserialize after hs'
    | jobNegotiation v =>
      simp only [Wire.setupConnection, List.cons_append, List.cons.injEq] at he
      refine Or.inr ⟨he.1, v, rfl, ?_⟩
      rw [he.2] at hs' ⊢
      exact (lawful_setupMsg.reads v ok).deserialize after hs'
  · rintro (⟨rfl, v, rfl, h⟩ | ⟨rfl, v, rfl, h⟩)
    · obtain ⟨ok, after, rfl⟩ := lawful_setupMsg.accepted hs' h
      exact (lawful_setupConnection.reads (.mining v) ok).deserialize after hs
    · obtain ⟨ok, after, rfl⟩ := lawful_setupMsg.accepted hs' h
      exact (lawful_setupConnection.reads (.jobNegotiation v) ok).deserialize after hs

/-- Other protocol bytes are refused whatever follows. -/
theorem C25_other_protocols (p : UInt8) (rest : Bytes) (hs : IsSlice (p :: rest)) :
    (p = 2 ∨ p = 3 → deserialize SetupConnection (p :: rest) = .err .unimplemented) ∧
    (3 < p.toNat → ∃ msg, deserialize SetupConnection (p :: rest) = .err (.deserializationError msg)) := by
  constructor
  · rintro (rfl | rfl)
    · have h := protocol_reads .templateDistribution ⟨2 :: rest, 0⟩ (valid_zero hs) rest (by simp [Protocol.toU8])
      unfold deserialize
      show ((Deserializable.deser (α := Protocol) >>= _) _).1 = _
      rw [SM.bind_run, h]
      rfl
    · have h := protocol_reads .jobDistribution ⟨3 :: rest, 0⟩ (valid_zero hs) rest (by simp [Protocol.toU8])
      unfold deserialize
      show ((Deserializable.deser (α := Protocol) >>= _) _).1 = _
      rw [SM.bind_run, h]
      rfl
  · intro hp
    refine ⟨"received unknown protocol byte in setup connection message", ?_⟩
    have h := lawful_u8.reads p trivial ⟨p :: rest, 0⟩ (valid_zero hs) rest (by simp [Wire.u8])
    have ht : Protocol.tryFrom p =
        .err (.deserializationError "received unknown protocol byte in setup connection message") := by
      unfold Protocol.tryFrom
      rw [if_neg, if_neg, if_neg, if_neg] <;> (rintro rfl; revert hp; decide)
    unfold deserialize
    show (((Deserializable.deser (α := UInt8) >>= fun b => SM.lift (Protocol.tryFrom b)) >>= _) _).1 = _
    rw [SM.bind_run, SM.bind_run, h]
    simp only [ht]
    rfl

/-- The two variants never have the same bytes. -/
theorem C25_variants_disjoint (v : MiningSetupConnection) (v' : JobNegotiationSetupConnection)
    (e e' : Bytes) (h : Built (SetupConnection.mining v)) (h' : Built (SetupConnection.jobNegotiation v'))
    (he : serialize (SetupConnection.mining v) = .ok e)
    (he' : serialize (SetupConnection.jobNegotiation v') = .ok e') : e ≠ e' := by
  have h1 := (C11_roundtrip.2.2.2.1 _ h).1
  have h2 := (C11_roundtrip.2.2.2.1 _ h').1
  rw [he] at h1
  rw [he'] at h2
  cases h1; cases h2
  intro hc
  simp only [Wire.setupConnection, List.cons.injEq] at hc
  exact absurd hc.1 (by decide)

example : IsSlice [2, 0, 0] := by unfold IsSlice; decide

/-! ## C26 -/

/-- The constructor refuses the one forbidden combination and accepts every other. -/
theorem C26_new {all : UInt32} (flags : Flags all) (code : SetupConnectionErrorCode) :
    (code = .unsupportedFeatureFlags ∧ flags.bits = 0 →
      ∃ msg, SetupConnectionError.new flags code = .err (.requirementError msg)) ∧
    (¬ (code = .unsupportedFeatureFlags ∧ flags.bits = 0) →
      SetupConnectionError.new flags code = .ok ⟨flags, code⟩) := by
  rw [setupError_new_eq]
  refine ⟨fun h => ⟨_, by rw [if_pos ⟨h.2, h.1⟩]⟩, fun h => by rw [if_neg (fun hc => h ⟨hc.2, hc.1⟩)]⟩

/-- Nor does it come out of the decoder. -/
theorem C26_wire {all : UInt32} (bytes : Bytes) (m : SetupConnectionError all) (hs : IsSlice bytes)
    (h : deserialize (SetupConnectionError all) bytes = .ok m) :
    ¬ (m.error_code = .unsupportedFeatureFlags ∧ m.flags.bits = 0) := by
  have ok := (lawful_setupError.accepted hs h).1
  exact fun hc => ok hc.1 hc.2

/-- The forbidden combination on the wire is refused with `RequirementError`. -/
theorem C26_wire_refused {all : UInt32} (rest : Bytes)
    (hs : IsSlice (Wire.u32 0 ++ (Wire.str "unsupported-feature-flags" ++ rest))) :
    ∃ msg, deserialize (SetupConnectionError all)
      (Wire.u32 0 ++ (Wire.str "unsupported-feature-flags" ++ rest)) = .err (.requirementError msg) := by
  refine ⟨"a full set of unsupported flags MUST be returned to the client", ?_⟩
  have h1 := lawful_flags.reads (Flags.empty all) trivial _ (valid_zero hs) _ (by
    rw [rest_zero]; rfl)
  have h2 := lawful_setupCode.reads .unsupportedFeatureFlags trivial
    ((⟨Wire.u32 0 ++ (Wire.str "unsupported-feature-flags" ++ rest), 0⟩ : ByteParser).adv 4)
    ((valid_zero hs).adv (by simp)) rest (by rw [ByteParser.rest_adv, rest_zero]; rfl)
  unfold deserialize
  show ((Deserializable.deser (α := Flags all) >>= _) _).1 = _
  rw [SM.bind_run, h1]
  show ((Deserializable.deser (α := SetupConnectionErrorCode) >>= _) _).1 = _
  rw [SM.bind_run]
  erw [h2]
  show SetupConnectionError.new (Flags.empty all) .unsupportedFeatureFlags = _
  rw [setupError_new_eq, if_pos ⟨rfl, rfl⟩]

example : deserialize (SetupConnectionError miningSetupFlags)
    (Wire.u32 4 ++ Wire.str "unsupported-feature-flags") =
      .ok ⟨⟨4, by decide⟩, .unsupportedFeatureFlags⟩ := by decide

/-! ## C28 -/

theorem rustEq_self (x : F32) : x.rustEq x = true ↔ ¬ Ieee.IsNaN x.bits.toNat := by
  rw [F32.rustEq_iff]
  exact ⟨fun h => h.1, fun h => ⟨h, h, rfl⟩⟩

/-- `==` on hash rates compares the numbers of IEEE 754, so that 0.0 equals -0.0; NaN equals nothing. -/
theorem C28_equal (x y : F32) : x.rustEq y = true ↔ Ieee.Equal x.bits.toNat y.bits.toNat := F32.rustEq_iff x y

/-- Two messages with a hash rate are equal with `==` exactly if the hash rates are equal in this sense and all other
fields are the same. -/
theorem C28_messages_equal :
    (∀ a b : UpdateChannel, a.rustEq b = true ↔ Ieee.Equal a.nominal_hash_rate.bits.toNat b.nominal_hash_rate.bits.toNat ∧
      b = { a with nominal_hash_rate := b.nominal_hash_rate }) ∧
    (∀ a b : OpenStandardMiningChannel, a.rustEq b = true ↔
      Ieee.Equal a.nominal_hash_rate.bits.toNat b.nominal_hash_rate.bits.toNat ∧
      b = { a with nominal_hash_rate := b.nominal_hash_rate }) ∧
    (∀ a b : OpenExtendedMiningChannel, a.rustEq b = true ↔
      Ieee.Equal a.nominal_hash_rate.bits.toNat b.nominal_hash_rate.bits.toNat ∧
      b = { a with nominal_hash_rate := b.nominal_hash_rate }) := by
  refine ⟨fun a b => ?_, fun a b => ?_, fun a b => ?_⟩ <;> cases a <;> cases b <;>
    simp only [UpdateChannel.rustEq, OpenStandardMiningChannel.rustEq, OpenExtendedMiningChannel.rustEq,
      Bool.and_eq_true, beq_iff_eq, F32.rustEq_iff, UpdateChannel.mk.injEq, OpenStandardMiningChannel.mk.injEq,
      OpenExtendedMiningChannel.mk.injEq] <;>
    constructor <;> intro h <;> simp_all

/-- The three messages with a hash rate: the decoded message has the same bits, and compares equal to the
original with `==` iff the hash rate is not NaN. -/
theorem C28_update (m : UpdateChannel) :
    ∃ e m', serialize m = .ok e ∧ deserialize UpdateChannel e = .ok m' ∧
      m'.nominal_hash_rate.bits = m.nominal_hash_rate.bits ∧
      (m'.rustEq m = true ↔ ¬ Ieee.IsNaN m.nominal_hash_rate.bits.toNat) := by
  have h := C11_roundtrip.2.2.2.2.2.2.2.2.2.2 m (built_updateChannel m)
  have h2 := h.2.1 [] (by rw [List.append_nil]; exact isSlice_of_le (Nat.le_of_eq (size_updateChannel m)) (by decide))
  rw [List.append_nil] at h2
  exact ⟨_, m, h.1, h2, rfl, by simp [UpdateChannel.rustEq, rustEq_self]⟩

theorem C28_open_standard (m : OpenStandardMiningChannel) (hb : Built m) :
    ∃ e m', serialize m = .ok e ∧ deserialize OpenStandardMiningChannel e = .ok m' ∧
      m'.nominal_hash_rate.bits = m.nominal_hash_rate.bits ∧
      (m'.rustEq m = true ↔ ¬ Ieee.IsNaN m.nominal_hash_rate.bits.toNat) := by
  have h := C11_roundtrip.2.2.2.2.2.1 m hb
  have h2 := h.2.1 [] (by rw [List.append_nil]; exact isSlice_of_le (size_openStandard m ((built_openStandard m).mp hb)) (by decide))
  rw [List.append_nil] at h2
  exact ⟨_, m, h.1, h2, rfl, by simp [OpenStandardMiningChannel.rustEq, rustEq_self]⟩

theorem C28_open_extended (m : OpenExtendedMiningChannel) (hb : Built m) :
    ∃ e m', serialize m = .ok e ∧ deserialize OpenExtendedMiningChannel e = .ok m' ∧
      m'.nominal_hash_rate.bits = m.nominal_hash_rate.bits ∧
      (m'.rustEq m = true ↔ ¬ Ieee.IsNaN m.nominal_hash_rate.bits.toNat) := by
  have h := C11_roundtrip.2.2.2.2.2.2.2.1 m hb
  have h2 := h.2.1 [] (by rw [List.append_nil]; exact isSlice_of_le (size_openExtended m ((built_openExtended m).mp hb)) (by decide))
  rw [List.append_nil] at h2
  exact ⟨_, m, h.1, h2, rfl, by simp [OpenExtendedMiningChannel.rustEq, rustEq_self]⟩

/-- NaN, infinity, the two zeros; the value of 1.0 and of the smallest positive number. -/
example : Ieee.IsNaN 0x7fc00000 ∧ ¬ Ieee.IsNaN 0x7f800000 ∧ (⟨0x80000000⟩ : F32).rustEq ⟨0⟩ = true ∧
    (⟨0xffc00000⟩ : F32).rustEq ⟨0xffc00000⟩ = false ∧ (⟨0x7f800000⟩ : F32).rustEq ⟨0xff800000⟩ = false ∧
    Ieee.value 0x3f800000 = 2 ^ 149 ∧ Ieee.value 0xc0200000 = - (5 * 2 ^ 148) ∧ Ieee.value 1 = 1 := by
  unfold Ieee.IsNaN
  decide

/-! ## C29 -/

/-- A frame made from the sub-protocol struct and unframed as the enum has the right message type, but
whatever comes out is not the connection that was framed. -/
theorem C29_struct_framed_enum_unframed {all : UInt32} (m : SetupConnectionMsg all) (hb : Built m) :
    ∃ f, frame m = .ok f ∧ f.message_type = Frameable.messageType SetupConnection ∧
      (∀ v, unframe SetupConnection f = .ok (.mining v) →
        Wire.setupConnectionMsg v ≠ Wire.setupConnectionMsg m) ∧
      (∀ v, unframe SetupConnection f = .ok (.jobNegotiation v) →
        Wire.setupConnectionMsg v ≠ Wire.setupConnectionMsg m) := by
  have ok := (built_setupMsg m).mp hb
  have hser := (C11_roundtrip.1 _ m hb).1
  have hslice : IsSlice (Wire.setupConnectionMsg m) := isSlice_of_le (size_setupMsg m ok) (by decide)
  refine ⟨⟨.setupConnection, Wire.setupConnectionMsg m⟩, ?_, rfl, ?_, ?_⟩
  · unfold frame
    rw [hser]
    rfl
  · intro v h hc
    have h' : deserialize SetupConnection (Wire.setupConnectionMsg m) = .ok (.mining v) := h
    obtain ⟨_, rest, he⟩ := lawful_setupConnection.accepted hslice h'
    have := congrArg List.length he
    simp [Wire.setupConnection, hc] at this
    omega
  · intro v h hc
    have h' : deserialize SetupConnection (Wire.setupConnectionMsg m) = .ok (.jobNegotiation v) := h
    obtain ⟨_, rest, he⟩ := lawful_setupConnection.accepted hslice h'
    have := congrArg List.length he
    simp [Wire.setupConnection, hc] at this
    omega

/-- And it can be accepted: a valid struct whose frame the enum accepts as a different connection. -/
theorem C29_confusion_accepted :
    ∃ (m : MiningSetupConnection) (f : Message) (v : MiningSetupConnection), Built m ∧ frame m = .ok f ∧
      unframe SetupConnection f = .ok (.mining v) ∧ v.min_version ≠ m.min_version ∧
      v.vendor ≠ m.vendor := by
  let m : MiningSetupConnection :=
    { min_version := 256, max_version := 513, flags := ⟨0, by decide⟩, endpoint_host := ⟨0, ""⟩,
      endpoint_port := 0, vendor := ⟨6, "\x01A\x00\x01B\x00"⟩, hardware_version := ⟨0, ""⟩,
      firmware := ⟨1, "f"⟩, device_id := ⟨0, ""⟩ }
  let v : MiningSetupConnection :=
    { min_version := 257, max_version := 2, flags := ⟨0, by decide⟩, endpoint_host := ⟨0, ""⟩,
      endpoint_port := 0x600, vendor := ⟨1, "A"⟩, hardware_version := ⟨0, ""⟩,
      firmware := ⟨1, "B"⟩, device_id := ⟨0, ""⟩ }
  exact ⟨m, ⟨.setupConnection, Wire.setupConnectionMsg m⟩, v,
    ⟨256, 513, ⟨0, by decide⟩, "", 0, "\x01A\x00\x01B\x00", "", "f", "", by decide⟩, by decide, by decide,
    by decide, by decide⟩

end SV2
