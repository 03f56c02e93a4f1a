import Verif.Lemmas.Laws
import Verif.Spec.Built
/-!
# What the constructors return is valid; sizes
-/

namespace SV2
open Law

theorem Out.bind_eq_ok {ε α β : Type} {x : Out ε α} {f : α → Out ε β} {b : β}
    (h : (x >>= f) = .ok b) : ∃ a, x = .ok a ∧ f a = .ok b := by
  cases x with
  | ok a => exact ⟨a, rfl, h⟩
  | err e => cases h
  | panic => cases h

/-- The SetupConnection constructor, in full. -/
theorem setup_new_iff {all : UInt32} {minv maxv : UInt16} {flags : Flags all} {host : String}
    {port : UInt16} {vendor hw fw dev : String} {m : SetupConnectionMsg all} :
    SetupConnectionMsg.new minv maxv flags host port vendor hw fw dev = .ok m ↔
      m.min_version = minv ∧ m.max_version = maxv ∧ m.flags = flags ∧ m.endpoint_host.data = host ∧
      m.endpoint_port = port ∧ m.vendor.data = vendor ∧ m.hardware_version.data = hw ∧
      m.firmware.data = fw ∧ m.device_id.data = dev ∧ Wire.SetupConnectionMsgOK m := by
  constructor
  · intro h
    have h0 := h
    unfold SetupConnectionMsg.new at h
    split at h
    · cases h
    split at h
    · cases h
    split at h
    · cases h
    split at h
    · cases h
    obtain ⟨a1, e1, h⟩ := Out.bind_eq_ok h
    obtain ⟨a2, e2, h⟩ := Out.bind_eq_ok h
    obtain ⟨a3, e3, h⟩ := Out.bind_eq_ok h
    obtain ⟨a4, e4, h⟩ := Out.bind_eq_ok h
    obtain ⟨a5, e5, h⟩ := Out.bind_eq_ok h
    obtain ⟨rfl, o1⟩ := Str0.new_inv (by decide) e1
    obtain ⟨rfl, o2⟩ := Str0.new_inv (by decide) e2
    obtain ⟨rfl, o3⟩ := Str0.new_inv (by decide) e3
    obtain ⟨rfl, o4⟩ := Str0.new_inv (by decide) e4
    obtain ⟨rfl, o5⟩ := Str0.new_inv (by decide) e5
    obtain ⟨rfl, hok⟩ := setup_new_inv o1 o2 o3 o4 o5 h0
    exact ⟨rfl, rfl, rfl, rfl, rfl, rfl, rfl, rfl, rfl, hok⟩
  · rintro ⟨rfl, rfl, rfl, rfl, rfl, rfl, rfl, rfl, rfl, hok⟩
    exact setup_new_ok m hok

theorem built_setupMsg {all : UInt32} (m : SetupConnectionMsg all) :
    Built m ↔ Wire.SetupConnectionMsgOK m := by
  constructor
  · rintro ⟨_, _, _, _, _, _, _, _, _, h⟩
    exact (setup_new_iff.mp h).2.2.2.2.2.2.2.2.2
  · intro h
    exact ⟨_, _, _, _, _, _, _, _, _, setup_new_ok m h⟩

theorem built_setupConnection (m : SetupConnection) : Built m ↔ Wire.SetupConnectionOK m := by
  constructor
  · rintro (⟨_, _, _, _, _, _, _, _, _, h⟩ | ⟨_, _, _, _, _, _, _, _, _, h⟩)
    · obtain ⟨v, h1, h2⟩ := Out.bind_eq_ok h
      cases h2
      exact (built_setupMsg v).mp ⟨_, _, _, _, _, _, _, _, _, h1⟩
    · obtain ⟨v, h1, h2⟩ := Out.bind_eq_ok h
      cases h2
      exact (built_setupMsg v).mp ⟨_, _, _, _, _, _, _, _, _, h1⟩
  · intro h
    cases m with
    | mining v =>
      refine Or.inl ⟨v.min_version, v.max_version, v.flags, v.endpoint_host.data, v.endpoint_port,
        v.vendor.data, v.hardware_version.data, v.firmware.data, v.device_id.data, ?_⟩
      unfold SetupConnection.newMining
      rw [setup_new_ok v h]
      rfl
    | jobNegotiation v =>
      refine Or.inr ⟨v.min_version, v.max_version, v.flags, v.endpoint_host.data, v.endpoint_port,
        v.vendor.data, v.hardware_version.data, v.firmware.data, v.device_id.data, ?_⟩
      unfold SetupConnection.newJobNegotiation
      rw [setup_new_ok v h]
      rfl

theorem built_setupError {all : UInt32} (m : SetupConnectionError all) :
    Built m ↔ Wire.SetupConnectionErrorOK m := by
  constructor
  · rintro ⟨f, c, h⟩
    rw [setupError_new_eq] at h
    split at h
    · cases h
    next hn =>
    cases h
    exact fun h1 h2 => hn ⟨h2, h1⟩
  · intro h
    refine ⟨m.flags, m.error_code, ?_⟩
    rw [setupError_new_eq, if_neg (fun hc => h hc.2 hc.1)]

theorem built_openStandard (m : OpenStandardMiningChannel) : Built m ↔ Wire.StrOK m.user_identity := by
  constructor
  · rintro ⟨_, _, _, _, h⟩
    obtain ⟨s, h1, h2⟩ := Out.bind_eq_ok h
    cases h2
    exact (Str0.new_inv (by decide) h1).2
  · intro h
    refine ⟨m.request_id, m.user_identity.data, m.nominal_hash_rate, m.max_target, ?_⟩
    unfold OpenStandardMiningChannel.new
    rw [StrOK.new_eq h]
    rfl

theorem built_openExtended (m : OpenExtendedMiningChannel) : Built m ↔ Wire.StrOK m.user_identity := by
  constructor
  · rintro ⟨_, _, _, _, _, h⟩
    obtain ⟨s, h1, h2⟩ := Out.bind_eq_ok h
    cases h2
    exact (Str0.new_inv (by decide) h1).2
  · intro h
    refine ⟨m.request_id, m.user_identity.data, m.nominal_hash_rate, m.max_target,
      m.min_extranonce_size, ?_⟩
    unfold OpenExtendedMiningChannel.new
    rw [StrOK.new_eq h]
    rfl

theorem built_openStandardSuccess (m : OpenStandardMiningChannelSuccess) :
    Built m ↔ Wire.B8OK m.extranonce_prefix := by
  constructor
  · rintro ⟨_, _, _, _, _, h⟩
    obtain ⟨s, h1, h2⟩ := Out.bind_eq_ok h
    cases h2
    exact (B0.new_inv lawfulLength_u8 (by decide) h1).2
  · intro h
    refine ⟨m.request_id, m.channel_id, m.target, m.extranonce_prefix.data, m.group_channel_id, ?_⟩
    unfold OpenStandardMiningChannelSuccess.new
    rw [b32_new_eq h]
    rfl

theorem built_openExtendedSuccess (m : OpenExtendedMiningChannelSuccess) :
    Built m ↔ Wire.B8OK m.extranonce_prefix := by
  constructor
  · rintro ⟨_, _, _, _, _, h⟩
    obtain ⟨s, h1, h2⟩ := Out.bind_eq_ok h
    cases h2
    exact (B0.new_inv lawfulLength_u8 (by decide) h1).2
  · intro h
    refine ⟨m.request_id, m.channel_id, m.target, m.extranonce_size, m.extranonce_prefix.data, ?_⟩
    unfold OpenExtendedMiningChannelSuccess.new
    rw [b32_new_eq h]
    rfl

theorem built_setupSuccess {all : UInt32} (m : SetupConnectionSuccess all) : Built m :=
  ⟨m.used_version, m.flags, rfl⟩
theorem built_channelEndpointChanged (m : ChannelEndpointChanged) : Built m := ⟨m.channel_id, rfl⟩
theorem built_openError {kind : ChannelKind} (m : OpenMiningChannelError kind) : Built m :=
  ⟨m.request_id, m.error_code, rfl⟩
theorem built_updateChannel (m : UpdateChannel) : Built m :=
  ⟨m.channel_id, m.nominal_hash_rate, m.max_target, rfl⟩

/-! ## Sizes -/

theorem wire_str_length (s : String) : (Wire.str s).length = 1 + s.utf8ByteSize := by
  rw [← wire_str, List.length_append, strBytes_length]
  simp [Wire.u8]

@[simp] theorem wire_u16_length (x : UInt16) : (Wire.u16 x).length = 2 := rfl
@[simp] theorem wire_u32_length (x : UInt32) : (Wire.u32 x).length = 4 := rfl
@[simp] theorem u256_length (x : U256) : x.val.toList.length = 32 := x.val.len

theorem size_setupMsg {all : UInt32} (m : SetupConnectionMsg all) (h : Wire.SetupConnectionMsgOK m) :
    (Wire.setupConnectionMsg m).length ≤ 1290 := by
  simp only [Wire.setupConnectionMsg, List.length_append, wire_str_length, wire_u16_length,
    wire_u32_length]
  have h1 := h.host.1
  have h2 := h.vendor.1
  have h3 := h.hw.1
  have h4 := h.fw.1
  have h5 := h.dev.1
  omega

theorem size_setupConnection (m : SetupConnection) (h : Wire.SetupConnectionOK m) :
    (Wire.setupConnection m).length ≤ 1291 := by
  cases m with
  | mining v => have := size_setupMsg v h; simp only [Wire.setupConnection, List.length_cons]; omega
  | jobNegotiation v =>
    have := size_setupMsg v h; simp only [Wire.setupConnection, List.length_cons]; omega

theorem size_setupSuccess {all : UInt32} (m : SetupConnectionSuccess all) :
    (Wire.setupConnectionSuccess m).length = 6 := rfl

theorem size_setupError {all : UInt32} (m : SetupConnectionError all) :
    (Wire.setupConnectionError m).length ≤ 30 := by
  simp only [Wire.setupConnectionError, List.length_append, wire_str_length, wire_u32_length]
  have : (Wire.setupErrorString m.error_code).utf8ByteSize ≤ 25 := by
    cases m.error_code <;> decide
  omega

theorem size_channelEndpointChanged (m : ChannelEndpointChanged) :
    (Wire.channelEndpointChanged m).length = 4 := rfl

theorem size_openStandard (m : OpenStandardMiningChannel) (h : Wire.StrOK m.user_identity) :
    (Wire.openStandardMiningChannel m).length ≤ 296 := by
  simp only [Wire.openStandardMiningChannel, List.length_append, wire_str_length, wire_u32_length,
    u256_length]
  have := h.1
  omega

theorem size_openExtended (m : OpenExtendedMiningChannel) (h : Wire.StrOK m.user_identity) :
    (Wire.openExtendedMiningChannel m).length ≤ 298 := by
  simp only [Wire.openExtendedMiningChannel, List.length_append, wire_str_length, wire_u32_length,
    wire_u16_length, u256_length]
  have := h.1
  omega

theorem size_openStandardSuccess (m : OpenStandardMiningChannelSuccess)
    (h : Wire.B8OK m.extranonce_prefix) : (Wire.openStandardMiningChannelSuccess m).length ≤ 77 := by
  simp only [Wire.openStandardMiningChannelSuccess, List.length_append, wire_u32_length, u256_length,
    Wire.bytes8, List.length_cons]
  have := h.1
  omega

theorem size_openExtendedSuccess (m : OpenExtendedMiningChannelSuccess)
    (h : Wire.B8OK m.extranonce_prefix) : (Wire.openExtendedMiningChannelSuccess m).length ≤ 75 := by
  simp only [Wire.openExtendedMiningChannelSuccess, List.length_append, wire_u32_length,
    wire_u16_length, u256_length, Wire.bytes8, List.length_cons]
  have := h.1
  omega

theorem size_openError {kind : ChannelKind} (m : OpenMiningChannelError kind) :
    (Wire.openMiningChannelError m).length ≤ 28 := by
  simp only [Wire.openMiningChannelError, List.length_append, wire_str_length, wire_u32_length]
  have : (Wire.openErrorString m.error_code).utf8ByteSize ≤ 23 := by
    cases m.error_code <;> decide
  omega

theorem size_updateChannel (m : UpdateChannel) : (Wire.updateChannel m).length = 40 := by
  simp only [Wire.updateChannel, List.length_append, wire_u32_length, u256_length]

theorem isSlice_of_le {b : Bytes} {n : Nat} (h : b.length ≤ n) (hn : n < 2 ^ 63) : IsSlice b := by
  unfold IsSlice; omega

end SV2
