import Verif.Lemmas.Types
/-!
# Every message is lawful: its encoder and decoder agree with the wire format
-/

namespace SV2

theorem lawful_str255 : Lawful STR0_255 Wire.StrOK (fun x => Wire.str x.data) := lawful_str (by decide)

theorem lawful_str32 : Lawful STR0_32 Wire.StrOK (fun x => Wire.str x.data) := lawful_str (by decide)

/-- Byte strings with a one-byte length. -/
theorem lawful_b8 {max : Nat} (h : max ≤ 255) :
    Lawful (B0 UInt8 max) Wire.B8OK (fun b => Wire.bytes8 b.data) := lawful_b0 lawfulLength_u8 h

/-- Byte strings with a two-byte length. -/
theorem lawful_b16 {max : Nat} (h : max ≤ 65535) :
    Lawful (B0 UInt16 max) Wire.B16OK (fun b => Wire.bytes16 b.data) := lawful_b0 lawfulLength_u16 h

/-- Byte strings with a three-byte length. -/
theorem lawful_b24 {max : Nat} (h : max ≤ 16777215) :
    Lawful (B0 U24 max) Wire.B24OK (fun b => Wire.bytes24 b.data) := lawful_b0 lawfulLength_u24 h

theorem lawful_b32 : Lawful B0_32 Wire.B8OK (fun b => Wire.bytes8 b.data) := lawful_b8 (by decide)

/-! ## SetupConnection -/

section Setup
variable {all : UInt32}

theorem empty_iff (s : String) : (strBytes s).length = 0 ↔ s = "" := by
  rw [strBytes_length]
  exact String.utf8ByteSize_eq_zero_iff

theorem setup_new_eq (minv maxv : UInt16) (flags : Flags all) (host : STR0_255) (port : UInt16)
    (vendor hw fw dev : STR0_255) (h1 : Wire.StrOK host) (h2 : Wire.StrOK vendor)
    (h3 : Wire.StrOK hw) (h4 : Wire.StrOK fw) (h5 : Wire.StrOK dev) :
    SetupConnectionMsg.new minv maxv flags host.data port vendor.data hw.data fw.data dev.data =
      if vendor.data = "" then
        .err (.requirementError "vendor field in SetupConnection MUST NOT be empty")
      else if fw.data = "" then
        .err (.requirementError "firmware field in SetupConnection MUST NOT be empty")
      else if minv < 2 then .err (.versionError "min_version must be atleast 2")
      else if maxv < 2 then .err (.versionError "max_version must be atleast 2")
      else .ok ⟨minv, maxv, flags, host, port, vendor, hw, fw, dev⟩ := by
  simp only [SetupConnectionMsg.new, empty_iff, StrOK.new_eq h1, StrOK.new_eq h2, StrOK.new_eq h3,
    StrOK.new_eq h4, StrOK.new_eq h5]
  rfl

theorem setup_new_ok (m : SetupConnectionMsg all) (h : Wire.SetupConnectionMsgOK m) :
    SetupConnectionMsg.new m.min_version m.max_version m.flags m.endpoint_host.data m.endpoint_port
      m.vendor.data m.hardware_version.data m.firmware.data m.device_id.data = .ok m := by
  have h1 : ¬ m.min_version < 2 := by
    intro hc; have := h.min; have := UInt16.lt_iff_toNat_lt.mp hc; simp at this; omega
  have h2 : ¬ m.max_version < 2 := by
    intro hc; have := h.max; have := UInt16.lt_iff_toNat_lt.mp hc; simp at this; omega
  rw [setup_new_eq _ _ _ _ _ _ _ _ _ h.host h.vendor h.hw h.fw h.dev, if_neg h.vendorNe,
    if_neg h.firmwareNe, if_neg h1, if_neg h2]

theorem setup_new_inv {minv maxv : UInt16} {flags : Flags all} {host : STR0_255} {port : UInt16}
    {vendor hw fw dev : STR0_255} {m : SetupConnectionMsg all} (h1 : Wire.StrOK host)
    (h2 : Wire.StrOK vendor) (h3 : Wire.StrOK hw) (h4 : Wire.StrOK fw) (h5 : Wire.StrOK dev)
    (h : SetupConnectionMsg.new minv maxv flags host.data port vendor.data hw.data fw.data dev.data
      = .ok m) :
    m = ⟨minv, maxv, flags, host, port, vendor, hw, fw, dev⟩ ∧ Wire.SetupConnectionMsgOK m := by
  rw [setup_new_eq _ _ _ _ _ _ _ _ _ h1 h2 h3 h4 h5] at h
  split at h
  · simp at h
  split at h
  · simp at h
  split at h
  · simp at h
  split at h
  · simp at h
  next hv hf hmin hmax =>
  simp only [Out.ok.injEq] at h
  subst h
  refine ⟨rfl, ?_, ?_, hv, hf, h1, h2, h3, h4, h5⟩
  · rw [UInt16.lt_iff_toNat_lt] at hmin; simpa using hmin
  · rw [UInt16.lt_iff_toNat_lt] at hmax; simpa using hmax

theorem setup_new_ne_panic (minv maxv : UInt16) (flags : Flags all) (host : String) (port : UInt16)
    (vendor hw fw dev : String) :
    SetupConnectionMsg.new minv maxv flags host port vendor hw fw dev ≠ .panic := by
  have key : ∀ (s : String) (f : STR0_255 → Result (SetupConnectionMsg all)), (∀ x, f x ≠ .panic) →
      (Str0.new s >>= f) ≠ .panic := by
    intro s f hf
    have := Str0.new_ne_panic (max := 255) s
    cases h : Str0.new (max := 255) s with
    | ok x => exact hf x
    | err e => intro hc; cases hc
    | panic => exact absurd h this
  unfold SetupConnectionMsg.new
  repeat' split
  all_goals first
    | simp; done
    | exact key _ _ fun _ => key _ _ fun _ => key _ _ fun _ => key _ _ fun _ => key _ _ fun _ => by
        intro hc; cases hc

theorem lawful_setupMsg :
    Lawful (SetupConnectionMsg all) Wire.SetupConnectionMsgOK Wire.setupConnectionMsg := by
  refine ⟨?_, ?_, ?_, ?_, ?_⟩
  · intro m h
    simp only [Wire.setupConnectionMsg, List.append_assoc]
    exact Emits.seq (lawful_u16.emits m.min_version trivial)
      (Emits.seq (lawful_u16.emits m.max_version trivial)
      (Emits.seq (lawful_flags.emits m.flags trivial)
      (Emits.seq (lawful_str255.emits m.endpoint_host h.host)
      (Emits.seq (lawful_u16.emits m.endpoint_port trivial)
      (Emits.seq (lawful_str255.emits m.vendor h.vendor)
      (Emits.seq (lawful_str255.emits m.hardware_version h.hw)
      (Emits.seq (lawful_str255.emits m.firmware h.fw)
      (Emits.seq_last (lawful_str255.emits m.device_id h.dev)
      (Emits.pure (by omega))))))))))
  · intro m h
    simp only [Wire.setupConnectionMsg, List.append_assoc]
    exact Reads.bind (lawful_u16.reads m.min_version trivial)
      (Reads.bind (lawful_u16.reads m.max_version trivial)
      (Reads.bind (lawful_flags.reads m.flags trivial)
      (Reads.bind (lawful_str255.reads m.endpoint_host h.host)
      (Reads.bind (lawful_u16.reads m.endpoint_port trivial)
      (Reads.bind (lawful_str255.reads m.vendor h.vendor)
      (Reads.bind (lawful_str255.reads m.hardware_version h.hw)
      (Reads.bind (lawful_str255.reads m.firmware h.fw)
      (Reads.bind_last (lawful_str255.reads m.device_id h.dev)
      (by rw [setup_new_ok m h, SM.lift_ok])))))))))
  · intro m h
    simp only [Wire.setupConnectionMsg, List.append_assoc]
    exact RejectsPrefix.bind (lawful_u16.reads m.min_version trivial) (lawful_u16.rejects _ trivial)
      (RejectsPrefix.bind (lawful_u16.reads m.max_version trivial) (lawful_u16.rejects _ trivial)
      (RejectsPrefix.bind (lawful_flags.reads m.flags trivial) (lawful_flags.rejects _ trivial)
      (RejectsPrefix.bind (lawful_str255.reads m.endpoint_host h.host) (lawful_str255.rejects _ h.host)
      (RejectsPrefix.bind (lawful_u16.reads m.endpoint_port trivial) (lawful_u16.rejects _ trivial)
      (RejectsPrefix.bind (lawful_str255.reads m.vendor h.vendor) (lawful_str255.rejects _ h.vendor)
      (RejectsPrefix.bind (lawful_str255.reads m.hardware_version h.hw) (lawful_str255.rejects _ h.hw)
      (RejectsPrefix.bind (lawful_str255.reads m.firmware h.fw) (lawful_str255.rejects _ h.fw)
      (RejectsPrefix.bind_last (lawful_str255.reads m.device_id h.dev)
        (lawful_str255.rejects _ h.dev)))))))))
  · refine (Inverts.bind lawful_u16.inverts fun minv => Inverts.bind lawful_u16.inverts fun maxv =>
      Inverts.bind lawful_flags.inverts fun flags => Inverts.bind lawful_str255.inverts fun host =>
      Inverts.bind lawful_u16.inverts fun port => Inverts.bind lawful_str255.inverts fun vendor =>
      Inverts.bind lawful_str255.inverts fun hw => Inverts.bind lawful_str255.inverts fun fw =>
      Inverts.bind lawful_str255.inverts fun dev => Inverts.lift _).mono ?_
    rintro m e ⟨minv, _, _, rfl, ⟨_, rfl⟩, maxv, _, _, rfl, ⟨_, rfl⟩, flags, _, _, rfl, ⟨_, rfl⟩,
      host, _, _, rfl, ⟨h1, rfl⟩, port, _, _, rfl, ⟨_, rfl⟩, vendor, _, _, rfl, ⟨h2, rfl⟩,
      hw, _, _, rfl, ⟨h3, rfl⟩, fw, _, _, rfl, ⟨h4, rfl⟩, dev, _, _, rfl, ⟨h5, rfl⟩, hm, rfl⟩
    obtain ⟨rfl, hok⟩ := setup_new_inv h1 h2 h3 h4 h5 hm
    exact ⟨hok, by simp [Wire.setupConnectionMsg]⟩
  · exact Safe.bind lawful_u16.safe fun _ => Safe.bind lawful_u16.safe fun _ =>
      Safe.bind lawful_flags.safe fun _ => Safe.bind lawful_str255.safe fun _ =>
      Safe.bind lawful_u16.safe fun _ => Safe.bind lawful_str255.safe fun _ =>
      Safe.bind lawful_str255.safe fun _ => Safe.bind lawful_str255.safe fun _ =>
      Safe.bind lawful_str255.safe fun _ => Safe.lift (setup_new_ne_panic _ _ _ _ _ _ _ _ _)

theorem lawful_setupSuccess :
    Lawful (SetupConnectionSuccess all) (fun _ => True) Wire.setupConnectionSuccess := by
  refine ⟨?_, ?_, ?_, ?_, ?_⟩
  · intro m _
    exact Emits.seq (lawful_u16.emits m.used_version trivial)
      (Emits.seq_last (lawful_flags.emits m.flags trivial) (Emits.pure (by omega)))
  · intro m _
    exact Reads.bind (lawful_u16.reads m.used_version trivial)
      (Reads.bind_last (lawful_flags.reads m.flags trivial) rfl)
  · intro m _
    exact RejectsPrefix.bind (lawful_u16.reads m.used_version trivial) (lawful_u16.rejects _ trivial)
      (RejectsPrefix.bind_last (lawful_flags.reads m.flags trivial) (lawful_flags.rejects _ trivial))
  · refine (Inverts.bind lawful_u16.inverts fun _ => Inverts.bind lawful_flags.inverts fun _ =>
      Inverts.lift _).mono ?_
    rintro m e ⟨v, _, _, rfl, ⟨_, rfl⟩, f, _, _, rfl, ⟨_, rfl⟩, hm, rfl⟩
    simp only [SetupConnectionSuccess.new, Out.ok.injEq] at hm
    subst hm
    exact ⟨trivial, by simp [Wire.setupConnectionSuccess]⟩
  · exact Safe.bind lawful_u16.safe fun _ => Safe.bind lawful_flags.safe fun _ =>
      Safe.lift (by simp [SetupConnectionSuccess.new])

theorem setupError_new_eq (flags : Flags all) (c : SetupConnectionErrorCode) :
    SetupConnectionError.new flags c =
      if flags.bits = 0 ∧ c = .unsupportedFeatureFlags then
        .err (.requirementError "a full set of unsupported flags MUST be returned to the client")
      else .ok ⟨flags, c⟩ := by
  simp [SetupConnectionError.new, Flags.isEmpty]

theorem lawful_setupError :
    Lawful (SetupConnectionError all) Wire.SetupConnectionErrorOK Wire.setupConnectionError := by
  refine ⟨?_, ?_, ?_, ?_, ?_⟩
  · intro m _
    exact Emits.seq (lawful_flags.emits m.flags trivial)
      (Emits.seq_last (lawful_setupCode.emits m.error_code trivial) (Emits.pure (by omega)))
  · intro m h
    refine Reads.bind (lawful_flags.reads m.flags trivial)
      (Reads.bind_last (lawful_setupCode.reads m.error_code trivial) ?_)
    rw [setupError_new_eq, if_neg (fun hc => h hc.2 hc.1), SM.lift_ok]
  · intro m _
    exact RejectsPrefix.bind (lawful_flags.reads m.flags trivial) (lawful_flags.rejects _ trivial)
      (RejectsPrefix.bind_last (lawful_setupCode.reads m.error_code trivial)
        (lawful_setupCode.rejects _ trivial))
  · refine (Inverts.bind lawful_flags.inverts fun _ => Inverts.bind lawful_setupCode.inverts fun _ =>
      Inverts.lift _).mono ?_
    rintro m e ⟨f, _, _, rfl, ⟨_, rfl⟩, c, _, _, rfl, ⟨_, rfl⟩, hm, rfl⟩
    rw [setupError_new_eq] at hm
    split at hm
    · simp at hm
    next hn =>
    simp only [Out.ok.injEq] at hm
    subst hm
    exact ⟨fun h1 h2 => hn ⟨h2, h1⟩, by simp [Wire.setupConnectionError]⟩
  · refine Safe.bind lawful_flags.safe fun _ => Safe.bind lawful_setupCode.safe fun _ =>
      Safe.lift ?_
    rw [setupError_new_eq]
    split <;> simp

end Setup

/-! ## The SetupConnection enum -/

theorem protocol_reads (p : Protocol) : Reads (Deserializable.deser (α := Protocol)) [p.toU8] p := by
  refine Reads.bind_last (lawful_u8.reads p.toU8 trivial) ?_
  cases p <;> rfl

theorem protocol_rejects (p : Protocol) :
    RejectsPrefix (Deserializable.deser (α := Protocol)) [p.toU8] :=
  RejectsPrefix.bind_last (lawful_u8.reads p.toU8 trivial) (lawful_u8.rejects p.toU8 trivial)

theorem protocol_tryFrom_inv {b : UInt8} {p : Protocol} (h : Protocol.tryFrom b = .ok p) :
    b = p.toU8 := by
  unfold Protocol.tryFrom at h
  repeat' split at h
  all_goals simp at h
  all_goals subst h; assumption

theorem lawful_protocol : Lawful Protocol (fun _ => True) (fun p => [p.toU8]) := by
  refine ⟨fun p _ => lawful_u8.emits p.toU8 trivial, fun p _ => protocol_reads p,
    fun p _ => protocol_rejects p, ?_, ?_⟩
  · refine (Inverts.bind lawful_u8.inverts fun _ => Inverts.lift _).mono ?_
    rintro p e ⟨b, _, _, rfl, ⟨_, rfl⟩, hp, rfl⟩
    exact ⟨trivial, by rw [protocol_tryFrom_inv hp]; rfl⟩
  · refine Safe.bind lawful_u8.safe fun b => Safe.lift ?_
    unfold Protocol.tryFrom
    repeat' split
    all_goals simp

theorem lawful_setupConnection :
    Lawful SetupConnection Wire.SetupConnectionOK Wire.setupConnection := by
  refine ⟨?_, ?_, ?_, ?_, ?_⟩
  · intro m h
    cases m with
    | mining v =>
      exact Emits.seq (e1 := [0]) (lawful_protocol.emits .mining trivial)
        (Emits.seq_last (lawful_setupMsg.emits v h) (Emits.pure (by simp)))
    | jobNegotiation v =>
      exact Emits.seq (e1 := [1]) (lawful_protocol.emits .jobNegotiation trivial)
        (Emits.seq_last (lawful_setupMsg.emits v h) (Emits.pure (by simp)))
  · intro m h
    cases m with
    | mining v =>
      exact Reads.bind (e1 := [0]) (protocol_reads .mining)
        (Reads.bind_last (lawful_setupMsg.reads v h) rfl)
    | jobNegotiation v =>
      exact Reads.bind (e1 := [1]) (protocol_reads .jobNegotiation)
        (Reads.bind_last (lawful_setupMsg.reads v h) rfl)
  · intro m h
    cases m with
    | mining v =>
      exact RejectsPrefix.bind (e1 := [0]) (protocol_reads .mining) (protocol_rejects .mining)
        (RejectsPrefix.bind_last (lawful_setupMsg.reads v h) (lawful_setupMsg.rejects v h))
    | jobNegotiation v =>
      exact RejectsPrefix.bind (e1 := [1]) (protocol_reads .jobNegotiation)
        (protocol_rejects .jobNegotiation)
        (RejectsPrefix.bind_last (lawful_setupMsg.reads v h) (lawful_setupMsg.rejects v h))
  · refine (Inverts.bind (Q := fun p m e => Wire.SetupConnectionOK m ∧
      p.toU8 :: e = Wire.setupConnection m) lawful_protocol.inverts ?_).mono ?_
    · intro p
      cases p with
      | mining =>
        refine (Inverts.bind lawful_setupMsg.inverts fun _ => Inverts.pure _).mono ?_
        rintro m e ⟨v, _, _, rfl, ⟨h, rfl⟩, rfl, rfl⟩
        exact ⟨h, by simp [Wire.setupConnection, Protocol.toU8]⟩
      | jobNegotiation =>
        refine (Inverts.bind lawful_setupMsg.inverts fun _ => Inverts.pure _).mono ?_
        rintro m e ⟨v, _, _, rfl, ⟨h, rfl⟩, rfl, rfl⟩
        exact ⟨h, by simp [Wire.setupConnection, Protocol.toU8]⟩
      | templateDistribution => exact Inverts.fail _ _
      | jobDistribution => exact Inverts.fail _ _
    · rintro m e ⟨p, _, _, rfl, ⟨_, rfl⟩, h1, h2⟩
      exact ⟨h1, h2⟩
  · refine Safe.bind lawful_protocol.safe fun p => ?_
    cases p with
    | mining => exact Safe.bind lawful_setupMsg.safe fun _ => Safe.pure _
    | jobNegotiation => exact Safe.bind lawful_setupMsg.safe fun _ => Safe.pure _
    | templateDistribution => exact Safe.fail _
    | jobDistribution => exact Safe.fail _

/-! ## The other messages -/

theorem lawful_channelEndpointChanged :
    Lawful ChannelEndpointChanged (fun _ => True) Wire.channelEndpointChanged := by
  refine ⟨?_, ?_, ?_, ?_, ?_⟩
  · intro m _
    exact lawful_u32.emits m.channel_id trivial
  · intro m _
    exact Reads.bind_last (lawful_u32.reads m.channel_id trivial) rfl
  · intro m _
    exact RejectsPrefix.bind_last (lawful_u32.reads m.channel_id trivial) (lawful_u32.rejects _ trivial)
  · refine (Inverts.bind lawful_u32.inverts fun _ => Inverts.lift _).mono ?_
    rintro m e ⟨c, _, _, rfl, ⟨_, rfl⟩, hm, rfl⟩
    simp only [ChannelEndpointChanged.new, Out.ok.injEq] at hm
    subst hm
    exact ⟨trivial, by simp [Wire.channelEndpointChanged]⟩
  · exact Safe.bind lawful_u32.safe fun _ => Safe.lift (by simp [ChannelEndpointChanged.new])

theorem str_bind_ne_panic {α : Type} {max : Nat} (s : String) (f : Str0 max → Result α)
    (hf : ∀ x, f x ≠ .panic) : (Str0.new s >>= f) ≠ .panic := by
  have := Str0.new_ne_panic (max := max) s
  cases h : Str0.new (max := max) s with
  | ok x => exact hf x
  | err e => intro hc; cases hc
  | panic => exact absurd h this

theorem lawful_openStandard :
    Lawful OpenStandardMiningChannel (fun m => Wire.StrOK m.user_identity)
      Wire.openStandardMiningChannel := by
  refine ⟨?_, ?_, ?_, ?_, ?_⟩
  · intro m h
    simp only [Wire.openStandardMiningChannel, List.append_assoc]
    exact Emits.seq (lawful_u32.emits m.request_id trivial)
      (Emits.seq (lawful_str255.emits m.user_identity h)
      (Emits.seq (lawful_f32.emits m.nominal_hash_rate trivial)
      (Emits.seq_last (lawful_u256.emits m.max_target trivial) (Emits.pure (by omega)))))
  · intro m h
    simp only [Wire.openStandardMiningChannel, List.append_assoc]
    refine Reads.bind (lawful_u32.reads m.request_id trivial)
      (Reads.bind (lawful_str255.reads m.user_identity h)
      (Reads.bind (lawful_f32.reads m.nominal_hash_rate trivial)
      (Reads.bind_last (lawful_u256.reads m.max_target trivial) ?_)))
    simp only [OpenStandardMiningChannel.new, StrOK.new_eq h]
    rfl
  · intro m h
    simp only [Wire.openStandardMiningChannel, List.append_assoc]
    exact RejectsPrefix.bind (lawful_u32.reads m.request_id trivial) (lawful_u32.rejects _ trivial)
      (RejectsPrefix.bind (lawful_str255.reads m.user_identity h) (lawful_str255.rejects _ h)
      (RejectsPrefix.bind (lawful_f32.reads m.nominal_hash_rate trivial) (lawful_f32.rejects _ trivial)
      (RejectsPrefix.bind_last (lawful_u256.reads m.max_target trivial)
        (lawful_u256.rejects _ trivial))))
  · refine (Inverts.bind lawful_u32.inverts fun _ => Inverts.bind lawful_str255.inverts fun _ =>
      Inverts.bind lawful_f32.inverts fun _ => Inverts.bind lawful_u256.inverts fun _ =>
      Inverts.lift _).mono ?_
    rintro m e ⟨a, _, _, rfl, ⟨_, rfl⟩, b, _, _, rfl, ⟨hb, rfl⟩, c, _, _, rfl, ⟨_, rfl⟩,
      d, _, _, rfl, ⟨_, rfl⟩, hm, rfl⟩
    have : m = ⟨a, b, c, d⟩ := by
      simp only [OpenStandardMiningChannel.new, StrOK.new_eq hb] at hm
      exact (Out.ok.inj hm).symm
    subst this
    exact ⟨hb, by simp [Wire.openStandardMiningChannel]⟩
  · exact Safe.bind lawful_u32.safe fun _ => Safe.bind lawful_str255.safe fun _ =>
      Safe.bind lawful_f32.safe fun _ => Safe.bind lawful_u256.safe fun _ =>
      Safe.lift (str_bind_ne_panic _ _ fun _ hc => by cases hc)

theorem lawful_openExtended :
    Lawful OpenExtendedMiningChannel (fun m => Wire.StrOK m.user_identity)
      Wire.openExtendedMiningChannel := by
  refine ⟨?_, ?_, ?_, ?_, ?_⟩
  · intro m h
    simp only [Wire.openExtendedMiningChannel, List.append_assoc]
    exact Emits.seq (lawful_u32.emits m.request_id trivial)
      (Emits.seq (lawful_str255.emits m.user_identity h)
      (Emits.seq (lawful_f32.emits m.nominal_hash_rate trivial)
      (Emits.seq (lawful_u256.emits m.max_target trivial)
      (Emits.seq_last (lawful_u16.emits m.min_extranonce_size trivial) (Emits.pure (by omega))))))
  · intro m h
    simp only [Wire.openExtendedMiningChannel, List.append_assoc]
    refine Reads.bind (lawful_u32.reads m.request_id trivial)
      (Reads.bind (lawful_str255.reads m.user_identity h)
      (Reads.bind (lawful_f32.reads m.nominal_hash_rate trivial)
      (Reads.bind (lawful_u256.reads m.max_target trivial)
      (Reads.bind_last (lawful_u16.reads m.min_extranonce_size trivial) ?_))))
    simp only [OpenExtendedMiningChannel.new, StrOK.new_eq h]
    rfl
  · intro m h
    simp only [Wire.openExtendedMiningChannel, List.append_assoc]
    exact RejectsPrefix.bind (lawful_u32.reads m.request_id trivial) (lawful_u32.rejects _ trivial)
      (RejectsPrefix.bind (lawful_str255.reads m.user_identity h) (lawful_str255.rejects _ h)
      (RejectsPrefix.bind (lawful_f32.reads m.nominal_hash_rate trivial) (lawful_f32.rejects _ trivial)
      (RejectsPrefix.bind (lawful_u256.reads m.max_target trivial) (lawful_u256.rejects _ trivial)
      (RejectsPrefix.bind_last (lawful_u16.reads m.min_extranonce_size trivial)
        (lawful_u16.rejects _ trivial)))))
  · refine (Inverts.bind lawful_u32.inverts fun _ => Inverts.bind lawful_str255.inverts fun _ =>
      Inverts.bind lawful_f32.inverts fun _ => Inverts.bind lawful_u256.inverts fun _ =>
      Inverts.bind lawful_u16.inverts fun _ => Inverts.lift _).mono ?_
    rintro m e ⟨a, _, _, rfl, ⟨_, rfl⟩, b, _, _, rfl, ⟨hb, rfl⟩, c, _, _, rfl, ⟨_, rfl⟩,
      d, _, _, rfl, ⟨_, rfl⟩, x, _, _, rfl, ⟨_, rfl⟩, hm, rfl⟩
    have : m = ⟨a, b, c, d, x⟩ := by
      simp only [OpenExtendedMiningChannel.new, StrOK.new_eq hb] at hm
      exact (Out.ok.inj hm).symm
    subst this
    exact ⟨hb, by simp [Wire.openExtendedMiningChannel]⟩
  · exact Safe.bind lawful_u32.safe fun _ => Safe.bind lawful_str255.safe fun _ =>
      Safe.bind lawful_f32.safe fun _ => Safe.bind lawful_u256.safe fun _ =>
      Safe.bind lawful_u16.safe fun _ => Safe.lift (str_bind_ne_panic _ _ fun _ hc => by cases hc)

theorem b32_new_eq {b : B0_32} (h : Wire.B8OK b) : B0.new b.data = .ok b :=
  B0.OK.new_eq lawfulLength_u8 (by decide) h

theorem b32_bind_ne_panic {α : Type} (v : Bytes) (f : B0_32 → Result α)
    (hf : ∀ x, f x ≠ .panic) : (B0.new v >>= f) ≠ .panic := by
  have := B0.new_ne_panic (max := 32) lawfulLength_u8 (by decide) v
  cases h : (B0.new v : Result B0_32) with
  | ok x => exact hf x
  | err e => intro hc; cases hc
  | panic => exact absurd h this

theorem lawful_openStandardSuccess :
    Lawful OpenStandardMiningChannelSuccess (fun m => Wire.B8OK m.extranonce_prefix)
      Wire.openStandardMiningChannelSuccess := by
  refine ⟨?_, ?_, ?_, ?_, ?_⟩
  · intro m h
    simp only [Wire.openStandardMiningChannelSuccess, List.append_assoc]
    exact Emits.seq (lawful_u32.emits m.request_id trivial)
      (Emits.seq (lawful_u32.emits m.channel_id trivial)
      (Emits.seq (lawful_u256.emits m.target trivial)
      (Emits.seq (lawful_b32.emits m.extranonce_prefix h)
      (Emits.seq_last (lawful_u32.emits m.group_channel_id trivial) (Emits.pure (by omega))))))
  · intro m h
    simp only [Wire.openStandardMiningChannelSuccess, List.append_assoc]
    refine Reads.bind (lawful_u32.reads m.request_id trivial)
      (Reads.bind (lawful_u32.reads m.channel_id trivial)
      (Reads.bind (lawful_u256.reads m.target trivial)
      (Reads.bind (lawful_b32.reads m.extranonce_prefix h)
      (Reads.bind_last (lawful_u32.reads m.group_channel_id trivial) ?_))))
    simp only [OpenStandardMiningChannelSuccess.new, b32_new_eq h]
    rfl
  · intro m h
    simp only [Wire.openStandardMiningChannelSuccess, List.append_assoc]
    exact RejectsPrefix.bind (lawful_u32.reads m.request_id trivial) (lawful_u32.rejects _ trivial)
      (RejectsPrefix.bind (lawful_u32.reads m.channel_id trivial) (lawful_u32.rejects _ trivial)
      (RejectsPrefix.bind (lawful_u256.reads m.target trivial) (lawful_u256.rejects _ trivial)
      (RejectsPrefix.bind (lawful_b32.reads m.extranonce_prefix h) (lawful_b32.rejects _ h)
      (RejectsPrefix.bind_last (lawful_u32.reads m.group_channel_id trivial)
        (lawful_u32.rejects _ trivial)))))
  · refine (Inverts.bind lawful_u32.inverts fun _ => Inverts.bind lawful_u32.inverts fun _ =>
      Inverts.bind lawful_u256.inverts fun _ => Inverts.bind lawful_b32.inverts fun _ =>
      Inverts.bind lawful_u32.inverts fun _ => Inverts.lift _).mono ?_
    rintro m e ⟨a, _, _, rfl, ⟨_, rfl⟩, b, _, _, rfl, ⟨_, rfl⟩, c, _, _, rfl, ⟨_, rfl⟩,
      d, _, _, rfl, ⟨hd, rfl⟩, x, _, _, rfl, ⟨_, rfl⟩, hm, rfl⟩
    have : m = ⟨a, b, c, d, x⟩ := by
      simp only [OpenStandardMiningChannelSuccess.new, b32_new_eq hd] at hm
      exact (Out.ok.inj hm).symm
    subst this
    exact ⟨hd, by simp [Wire.openStandardMiningChannelSuccess]⟩
  · exact Safe.bind lawful_u32.safe fun _ => Safe.bind lawful_u32.safe fun _ =>
      Safe.bind lawful_u256.safe fun _ => Safe.bind lawful_b32.safe fun _ =>
      Safe.bind lawful_u32.safe fun _ => Safe.lift (b32_bind_ne_panic _ _ fun _ hc => by cases hc)

theorem lawful_openExtendedSuccess :
    Lawful OpenExtendedMiningChannelSuccess (fun m => Wire.B8OK m.extranonce_prefix)
      Wire.openExtendedMiningChannelSuccess := by
  refine ⟨?_, ?_, ?_, ?_, ?_⟩
  · intro m h
    simp only [Wire.openExtendedMiningChannelSuccess, List.append_assoc]
    exact Emits.seq (lawful_u32.emits m.request_id trivial)
      (Emits.seq (lawful_u32.emits m.channel_id trivial)
      (Emits.seq (lawful_u256.emits m.target trivial)
      (Emits.seq (lawful_u16.emits m.extranonce_size trivial)
      (Emits.seq_last (lawful_b32.emits m.extranonce_prefix h) (Emits.pure (by omega))))))
  · intro m h
    simp only [Wire.openExtendedMiningChannelSuccess, List.append_assoc]
    refine Reads.bind (lawful_u32.reads m.request_id trivial)
      (Reads.bind (lawful_u32.reads m.channel_id trivial)
      (Reads.bind (lawful_u256.reads m.target trivial)
      (Reads.bind (lawful_u16.reads m.extranonce_size trivial)
      (Reads.bind_last (lawful_b32.reads m.extranonce_prefix h) ?_))))
    simp only [OpenExtendedMiningChannelSuccess.new, b32_new_eq h]
    rfl
  · intro m h
    simp only [Wire.openExtendedMiningChannelSuccess, List.append_assoc]
    exact RejectsPrefix.bind (lawful_u32.reads m.request_id trivial) (lawful_u32.rejects _ trivial)
      (RejectsPrefix.bind (lawful_u32.reads m.channel_id trivial) (lawful_u32.rejects _ trivial)
      (RejectsPrefix.bind (lawful_u256.reads m.target trivial) (lawful_u256.rejects _ trivial)
      (RejectsPrefix.bind (lawful_u16.reads m.extranonce_size trivial) (lawful_u16.rejects _ trivial)
      (RejectsPrefix.bind_last (lawful_b32.reads m.extranonce_prefix h)
        (lawful_b32.rejects _ h)))))
  · refine (Inverts.bind lawful_u32.inverts fun _ => Inverts.bind lawful_u32.inverts fun _ =>
      Inverts.bind lawful_u256.inverts fun _ => Inverts.bind lawful_u16.inverts fun _ =>
      Inverts.bind lawful_b32.inverts fun _ => Inverts.lift _).mono ?_
    rintro m e ⟨a, _, _, rfl, ⟨_, rfl⟩, b, _, _, rfl, ⟨_, rfl⟩, c, _, _, rfl, ⟨_, rfl⟩,
      d, _, _, rfl, ⟨_, rfl⟩, x, _, _, rfl, ⟨hx, rfl⟩, hm, rfl⟩
    have : m = ⟨a, b, c, d, x⟩ := by
      simp only [OpenExtendedMiningChannelSuccess.new, b32_new_eq hx] at hm
      exact (Out.ok.inj hm).symm
    subst this
    exact ⟨hx, by simp [Wire.openExtendedMiningChannelSuccess]⟩
  · exact Safe.bind lawful_u32.safe fun _ => Safe.bind lawful_u32.safe fun _ =>
      Safe.bind lawful_u256.safe fun _ => Safe.bind lawful_u16.safe fun _ =>
      Safe.bind lawful_b32.safe fun _ => Safe.lift (b32_bind_ne_panic _ _ fun _ hc => by cases hc)

theorem lawful_openError {kind : ChannelKind} :
    Lawful (OpenMiningChannelError kind) (fun _ => True) Wire.openMiningChannelError := by
  refine ⟨?_, ?_, ?_, ?_, ?_⟩
  · intro m _
    exact Emits.seq (lawful_u32.emits m.request_id trivial)
      (Emits.seq_last (lawful_openCode.emits m.error_code trivial) (Emits.pure (by omega)))
  · intro m _
    exact Reads.bind (lawful_u32.reads m.request_id trivial)
      (Reads.bind_last (lawful_openCode.reads m.error_code trivial) rfl)
  · intro m _
    exact RejectsPrefix.bind (lawful_u32.reads m.request_id trivial) (lawful_u32.rejects _ trivial)
      (RejectsPrefix.bind_last (lawful_openCode.reads m.error_code trivial)
        (lawful_openCode.rejects _ trivial))
  · refine (Inverts.bind lawful_u32.inverts fun _ => Inverts.bind lawful_openCode.inverts fun _ =>
      Inverts.lift _).mono ?_
    rintro m e ⟨r, _, _, rfl, ⟨_, rfl⟩, c, _, _, rfl, ⟨_, rfl⟩, hm, rfl⟩
    simp only [OpenMiningChannelError.new, Out.ok.injEq] at hm
    subst hm
    exact ⟨trivial, by simp [Wire.openMiningChannelError]⟩
  · exact Safe.bind lawful_u32.safe fun _ => Safe.bind lawful_openCode.safe fun _ =>
      Safe.lift (by simp [OpenMiningChannelError.new])

theorem lawful_updateChannel : Lawful UpdateChannel (fun _ => True) Wire.updateChannel := by
  refine ⟨?_, ?_, ?_, ?_, ?_⟩
  · intro m _
    simp only [Wire.updateChannel, List.append_assoc]
    exact Emits.seq (lawful_u32.emits m.channel_id trivial)
      (Emits.seq (lawful_f32.emits m.nominal_hash_rate trivial)
      (Emits.seq_last (lawful_u256.emits m.max_target trivial) (Emits.pure (by omega))))
  · intro m _
    simp only [Wire.updateChannel, List.append_assoc]
    exact Reads.bind (lawful_u32.reads m.channel_id trivial)
      (Reads.bind (lawful_f32.reads m.nominal_hash_rate trivial)
      (Reads.bind_last (lawful_u256.reads m.max_target trivial) rfl))
  · intro m _
    simp only [Wire.updateChannel, List.append_assoc]
    exact RejectsPrefix.bind (lawful_u32.reads m.channel_id trivial) (lawful_u32.rejects _ trivial)
      (RejectsPrefix.bind (lawful_f32.reads m.nominal_hash_rate trivial) (lawful_f32.rejects _ trivial)
      (RejectsPrefix.bind_last (lawful_u256.reads m.max_target trivial)
        (lawful_u256.rejects _ trivial)))
  · refine (Inverts.bind lawful_u32.inverts fun _ => Inverts.bind lawful_f32.inverts fun _ =>
      Inverts.bind lawful_u256.inverts fun _ => Inverts.lift _).mono ?_
    rintro m e ⟨a, _, _, rfl, ⟨_, rfl⟩, b, _, _, rfl, ⟨_, rfl⟩, c, _, _, rfl, ⟨_, rfl⟩, hm, rfl⟩
    simp only [UpdateChannel.new, Out.ok.injEq] at hm
    subst hm
    exact ⟨trivial, by simp [Wire.updateChannel]⟩
  · exact Safe.bind lawful_u32.safe fun _ => Safe.bind lawful_f32.safe fun _ =>
      Safe.bind lawful_u256.safe fun _ => Safe.lift (by simp [UpdateChannel.new])

end SV2
